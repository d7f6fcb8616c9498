import Verif.Model.Normalizer
/-!
# When two pieces of code are the same apart from annotations and docstrings
-/
namespace Pyth.Src

/-- A body without its docstring (its leading string expression); `pass` if it has nothing
else. -/
def undoc : List T → List T
  | [.strExpr _] => [T.pass]
  | .strExpr _ :: rest => rest
  | b => b

mutual
/-- `Alike t u`: the same code, apart from annotations of arguments, of variables and of results,
and docstrings of functions and classes. -/
inductive Alike : T → T → Prop
  | arg (n : String) (a a' : Option T) : Alike (.arg n a) (.arg n a')
  | fn (async : Bool) (n : String) {pre pre' body body' decos decos' : List T} (r r' : Option T) :
      AlikeL pre pre' → AlikeL (undoc body) (undoc body') → AlikeL decos decos' →
      Alike (.fn async n pre body decos r) (.fn async n pre' body' decos' r')
  | cls (n : String) {pre pre' body body' decos decos' : List T} :
      AlikeL pre pre' → AlikeL (undoc body) (undoc body') → AlikeL decos decos' →
      Alike (.cls n pre body decos) (.cls n pre' body' decos')
  | assign {t t' : T} (a a' : Option T) : Alike t t' →
      Alike (.annAssign t a none) (.annAssign t' a' none)
  | assignValue {t t' v v' : T} (a a' : Option T) : Alike t t' → Alike v v' →
      Alike (.annAssign t a (some v)) (.annAssign t' a' (some v'))
  | strExpr (s : String) : Alike (.strExpr s) (.strExpr s)
  | call {f f' : T} {as as' : List T} : Alike f f' → AlikeL as as' →
      Alike (.call f as) (.call f' as')
  | name (i : String) : Alike (.name i) (.name i)
  | attr {v v' : T} (a : String) : Alike v v' → Alike (.attr v a) (.attr v' a)
  | node (l : String) {cs cs' : List T} : AlikeL cs cs' → Alike (.node l cs) (.node l cs')
/-- the same sequence of pieces of code -/
inductive AlikeL : List T → List T → Prop
  | nil : AlikeL [] []
  | cons {x y : T} {xs ys : List T} : Alike x y → AlikeL xs ys → AlikeL (x :: xs) (y :: ys)
end

/-- the body starts with a string expression -/
def StartsWithStr (b : List T) : Prop := ∃ s rest, b = .strExpr s :: rest

mutual
/-- `Settled t`: no function or class body occurring in the code (annotations apart) starts with
two string expressions. -/
inductive Settled : T → Prop
  | arg (n : String) (a : Option T) : Settled (.arg n a)
  | fn (async : Bool) (n : String) {pre body decos : List T} (r : Option T) :
      SettledL pre → SettledL body → ¬ StartsWithStr (undoc body) → SettledL decos →
      Settled (.fn async n pre body decos r)
  | cls (n : String) {pre body decos : List T} :
      SettledL pre → SettledL body → ¬ StartsWithStr (undoc body) → SettledL decos →
      Settled (.cls n pre body decos)
  | assign {t : T} (a : Option T) : Settled t → Settled (.annAssign t a none)
  | assignValue {t v : T} (a : Option T) : Settled t → Settled v →
      Settled (.annAssign t a (some v))
  | strExpr (s : String) : Settled (.strExpr s)
  | call {f : T} {as : List T} : Settled f → SettledL as → Settled (.call f as)
  | name (i : String) : Settled (.name i)
  | attr {v : T} (a : String) : Settled v → Settled (.attr v a)
  | node (l : String) {cs : List T} : SettledL cs → Settled (.node l cs)
/-- for sequences -/
inductive SettledL : List T → Prop
  | nil : SettledL []
  | cons {x : T} {xs : List T} : Settled x → SettledL xs → SettledL (x :: xs)
end

mutual
/-- `HasAnnAssign t`: the code (annotations and docstrings apart) contains an annotated variable. -/
inductive HasAnnAssign : T → Prop
  | here (t : T) (a v : Option T) : HasAnnAssign (.annAssign t a v)
  | fnPre (async : Bool) (n : String) {pre : List T} (body decos : List T) (r : Option T) :
      HasAnnAssignL pre → HasAnnAssign (.fn async n pre body decos r)
  | fnBody (async : Bool) (n : String) (pre : List T) {body : List T} (decos : List T)
      (r : Option T) : HasAnnAssignL body → HasAnnAssign (.fn async n pre body decos r)
  | fnDecos (async : Bool) (n : String) (pre body : List T) {decos : List T} (r : Option T) :
      HasAnnAssignL decos → HasAnnAssign (.fn async n pre body decos r)
  | clsPre (n : String) {pre : List T} (body decos : List T) :
      HasAnnAssignL pre → HasAnnAssign (.cls n pre body decos)
  | clsBody (n : String) (pre : List T) {body : List T} (decos : List T) :
      HasAnnAssignL body → HasAnnAssign (.cls n pre body decos)
  | clsDecos (n : String) (pre body : List T) {decos : List T} :
      HasAnnAssignL decos → HasAnnAssign (.cls n pre body decos)
  | callFunc {f : T} (as : List T) : HasAnnAssign f → HasAnnAssign (.call f as)
  | callArgs (f : T) {as : List T} : HasAnnAssignL as → HasAnnAssign (.call f as)
  | attr {v : T} (a : String) : HasAnnAssign v → HasAnnAssign (.attr v a)
  | node (l : String) {cs : List T} : HasAnnAssignL cs → HasAnnAssign (.node l cs)
/-- for sequences -/
inductive HasAnnAssignL : List T → Prop
  | head {x : T} (xs : List T) : HasAnnAssign x → HasAnnAssignL (x :: xs)
  | tail (x : T) {xs : List T} : HasAnnAssignL xs → HasAnnAssignL (x :: xs)
end

/-- A module whose first function has lost its decorators -/
def undecorated : List T → List T
  | .fn a n pre body _ r :: rest => .fn a n pre body [] r :: rest
  | m => m

/-- A call of one of the known decorators, by its name (`@pure(…)`) or as an attribute
(`@pth.pure(…)`) -/
inductive KnownDecorator (known : List String) : T → Prop
  | name (i : String) (as : List T) : i ∈ known → KnownDecorator known (.call (.name i) as)
  | attr (v : T) (a : String) (as : List T) : a ∈ known →
      KnownDecorator known (.call (.attr v a) as)

end Pyth.Src
