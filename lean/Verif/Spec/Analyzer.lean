import Verif.Model.Analyzer
/-!
# Vocabulary for the properties of the names analysis (C42–C46)

Independent of the visitor's sets: where names are used and bound in a syntax tree.
-/
namespace Pyth.Analyzer

/-- parameters of a function of the plain kinds: positional-or-keyword, `*args`, `**kwargs` -/
def plainParams (args : List String) (vararg kwarg : Option String) : List String :=
  args ++ vararg.toList ++ kwarg.toList

/-- the name an import binds: the one after `as`, else the imported one -/
def Alias.localName (a : Alias) : String := match a.asname with
  | some y => y
  | none => a.name

/-- the part of a module name before the first dot, after the last dot -/
def beforeDot (m : String) : String := (m.splitOn ".").headD ""
def afterDot (m : String) : String := (m.splitOn ".").getLastD ""

/-- a single variable -/
def varName : Node → Option String
  | .name x _ => some x
  | _ => none

/-- variables of a loop target: a variable, or the variables directly in a tuple or list -/
def loopVars : Node → List String
  | .tuple elts => elts.filterMap varName
  | t => (varName t).toList

mutual
/-- `x` is loaded somewhere in the tree, in nested functions too -/
def Loads (x : String) : Node → Prop
  | .name y c => y = x ∧ c = .load
  | .funcDef _ _ _ _ ch => LoadsAny x ch
  | .tryS _ ch => LoadsAny x ch
  | .comprehension t rest => Loads x t ∨ LoadsAny x rest
  | .tuple elts => LoadsAny x elts
  | .listComp elts gens => LoadsAny x elts ∨ LoadsAny x gens
  | .importS _ => False
  | .importFrom _ _ => False
  | .nonlocalS _ => False
  | .globalS _ => False
  | .yieldE ch => LoadsAny x ch
  | .other _ _ ch => LoadsAny x ch
def LoadsAny (x : String) : List Node → Prop
  | [] => False
  | n :: ns => Loads x n ∨ LoadsAny x ns
end

mutual
/-- `x` is bound in the tree, in its own scope: assigned, imported, defined as a nested function, caught,
declared global or nonlocal -/
def Binds (x : String) : Node → Prop
  | .name y c => y = x ∧ c = .store
  | .funcDef f _ _ _ _ => f = x
  | .tryS hs ch => some x ∈ hs ∨ BindsAny x ch
  | .comprehension t rest => x ∈ loopVars t ∨ Binds x t ∨ BindsAny x rest
  | .tuple elts => BindsAny x elts
  | .listComp elts gens => BindsAny x elts ∨ BindsAny x gens
  | .importS names => ∃ a ∈ names, a.localName = x
  | .importFrom _ names => ∃ a ∈ names, a.localName = x
  | .nonlocalS names => x ∈ names
  | .globalS names => x ∈ names
  | .yieldE ch => BindsAny x ch
  | .other _ _ ch => BindsAny x ch
def BindsAny (x : String) : List Node → Prop
  | [] => False
  | n :: ns => Binds x n ∨ BindsAny x ns
end

mutual
/-- `x` is used from outside: loaded in the tree's own scope, or used from outside by a nested function that
does not bind it (parameters included) -/
def Needs (x : String) : Node → Prop
  | .name y c => y = x ∧ c = .load
  | .funcDef _ args va kw ch => x ∉ plainParams args va kw ∧ ¬ BindsAny x ch ∧ NeedsAny x ch
  | .tryS _ ch => NeedsAny x ch
  | .comprehension t rest => Needs x t ∨ NeedsAny x rest
  | .tuple elts => NeedsAny x elts
  | .listComp elts gens => NeedsAny x elts ∨ NeedsAny x gens
  | .importS _ => False
  | .importFrom _ _ => False
  | .nonlocalS _ => False
  | .globalS _ => False
  | .yieldE ch => NeedsAny x ch
  | .other _ _ ch => NeedsAny x ch
def NeedsAny (x : String) : List Node → Prop
  | [] => False
  | n :: ns => Needs x n ∨ NeedsAny x ns
end

mutual
/-- `x` is bound in the tree or in a nested function, at any depth, parameters included -/
def BoundDeep (x : String) : Node → Prop
  | .name y c => y = x ∧ c = .store
  | .funcDef f args va kw ch => f = x ∨ x ∈ plainParams args va kw ∨ BoundDeepAny x ch
  | .tryS hs ch => some x ∈ hs ∨ BoundDeepAny x ch
  | .comprehension t rest => x ∈ loopVars t ∨ BoundDeep x t ∨ BoundDeepAny x rest
  | .tuple elts => BoundDeepAny x elts
  | .listComp elts gens => BoundDeepAny x elts ∨ BoundDeepAny x gens
  | .importS names => ∃ a ∈ names, a.localName = x
  | .importFrom _ names => ∃ a ∈ names, a.localName = x
  | .nonlocalS names => x ∈ names
  | .globalS names => x ∈ names
  | .yieldE ch => BoundDeepAny x ch
  | .other _ _ ch => BoundDeepAny x ch
def BoundDeepAny (x : String) : List Node → Prop
  | [] => False
  | n :: ns => BoundDeep x n ∨ BoundDeepAny x ns
end

/-- the first mention of a name: a use or a binding -/
inductive Mention
  | use | bind
  deriving DecidableEq, Repr

mutual
/-- The first mention of `x` in the tree, read in order: assignment targets before values, `except` names
before the block, loop variables before the body, comprehension variables before the element.  A nested
function that mentions `x` first as a use (and has no such parameter) is a use. -/
def first (x : String) : Node → Option Mention
  | .name y c => if y = x then (match c with
      | .load => some .use
      | .store => some .bind
      | .del => none) else none
  | .funcDef f args va kw ch =>
    if x ∉ plainParams args va kw ∧ firstAny x ch = some .use then some .use
    else if f = x then some .bind else none
  | .tryS hs ch => if some x ∈ hs then some .bind else firstAny x ch
  | .comprehension t rest => if x ∈ loopVars t then some .bind else (first x t).or (firstAny x rest)
  | .tuple elts => firstAny x elts
  | .listComp elts gens => (firstAny x gens).or (firstAny x elts)
  | .importS names => if ∃ a ∈ names, a.localName = x then some .bind else none
  | .importFrom _ names => if ∃ a ∈ names, a.localName = x then some .bind else none
  | .nonlocalS names => if x ∈ names then some .bind else none
  | .globalS names => if x ∈ names then some .bind else none
  | .yieldE ch => firstAny x ch
  | .other _ _ ch => firstAny x ch
def firstAny (x : String) : List Node → Option Mention
  | [] => none
  | n :: ns => (first x n).or (firstAny x ns)
end

mutual
/-- `x` is declared `global` (`nonlocal`) somewhere in the tree -/
def Declares (g : Bool) (x : String) : Node → Prop
  | .name _ _ => False
  | .funcDef _ _ _ _ ch => DeclaresAny g x ch
  | .tryS _ ch => DeclaresAny g x ch
  | .comprehension t rest => Declares g x t ∨ DeclaresAny g x rest
  | .tuple elts => DeclaresAny g x elts
  | .listComp elts gens => DeclaresAny g x elts ∨ DeclaresAny g x gens
  | .importS _ => False
  | .importFrom _ _ => False
  | .nonlocalS names => g = false ∧ x ∈ names
  | .globalS names => g = true ∧ x ∈ names
  | .yieldE ch => DeclaresAny g x ch
  | .other _ _ ch => DeclaresAny g x ch
def DeclaresAny (g : Bool) (x : String) : List Node → Prop
  | [] => False
  | n :: ns => Declares g x n ∨ DeclaresAny g x ns
end

mutual
/-- an import statement in the tree names package `p` -/
def Imports (p : String) : Node → Prop
  | .name _ _ => False
  | .funcDef _ _ _ _ ch => ImportsAny p ch
  | .tryS _ ch => ImportsAny p ch
  | .comprehension t rest => Imports p t ∨ ImportsAny p rest
  | .tuple elts => ImportsAny p elts
  | .listComp elts gens => ImportsAny p elts ∨ ImportsAny p gens
  | .importS names => ∃ a ∈ names, beforeDot a.name = p
  | .importFrom m _ => ∃ t, m = some t ∧ afterDot t = p
  | .nonlocalS _ => False
  | .globalS _ => False
  | .yieldE ch => ImportsAny p ch
  | .other _ _ ch => ImportsAny p ch
def ImportsAny (p : String) : List Node → Prop
  | [] => False
  | n :: ns => Imports p n ∨ ImportsAny p ns
end

mutual
/-- the tree contains a `yield` outside of nested functions -/
def Yields : Node → Prop
  | .name _ _ => False
  | .funcDef _ _ _ _ _ => False
  | .tryS _ ch => YieldsAny ch
  | .comprehension t rest => Yields t ∨ YieldsAny rest
  | .tuple elts => YieldsAny elts
  | .listComp elts gens => YieldsAny elts ∨ YieldsAny gens
  | .importS _ => False
  | .importFrom _ _ => False
  | .nonlocalS _ => False
  | .globalS _ => False
  | .yieldE _ => True
  | .other _ _ ch => YieldsAny ch
def YieldsAny : List Node → Prop
  | [] => False
  | n :: ns => Yields n ∨ YieldsAny ns
end

mutual
/-- a relative import without a module name (`from . import x`) occurs in the tree -/
def Relative : Node → Prop
  | .name _ _ => False
  | .funcDef _ _ _ _ ch => RelativeAny ch
  | .tryS _ ch => RelativeAny ch
  | .comprehension t rest => Relative t ∨ RelativeAny rest
  | .tuple elts => RelativeAny elts
  | .listComp elts gens => RelativeAny elts ∨ RelativeAny gens
  | .importS _ => False
  | .importFrom m _ => m = none
  | .nonlocalS _ => False
  | .globalS _ => False
  | .yieldE ch => RelativeAny ch
  | .other _ _ ch => RelativeAny ch
def RelativeAny : List Node → Prop
  | [] => False
  | n :: ns => Relative n ∨ RelativeAny ns
end

end Pyth.Analyzer
