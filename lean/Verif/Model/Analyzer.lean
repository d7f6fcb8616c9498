/-!
# Names used in a function (`pythagoras/_060_autonomous_functions/names_usage_analyzer.py`)

Syntax trees are Python's `ast` trees, reduced to what the visitor distinguishes: a node of a class
without a `visit_…` method is `other`, with its child nodes in the order of `ast`'s `_fields`, which is
the order in which `generic_visit` visits them.  Parsing is not modelled.
-/
namespace Pyth.Analyzer

/-- `ast.Load`, `ast.Store`, `ast.Del` (names_usage_analyzer.py:57-66) -/
inductive Ctx
  | load | store | del
  deriving DecidableEq, Repr

/-- `ast.alias` (names_usage_analyzer.py:120-134) -/
structure Alias where
  name : String
  asname : Option String := none
  deriving DecidableEq, Repr

/-- `alias.asname if alias.asname else alias.name` (names_usage_analyzer.py:120-134) -/
def Alias.bound (a : Alias) : String := a.asname.getD a.name

/-- syntax trees (the nodes visited by names_usage_analyzer.py:17-146) -/
inductive Node
  | name (id : String) (ctx : Ctx)
  /-- `FunctionDef`: name, `args.args`, `args.vararg`, `args.kwarg`, and all child nodes (the `arguments` node,
  which holds defaults, keyword-only and positional-only arguments; the body; decorators; returns) -/
  | funcDef (name : String) (args : List String) (vararg kwarg : Option String) (children : List Node)
  /-- `Try`: the names in the `except … as name` clauses, and the child nodes -/
  | tryS (handlers : List (Option String)) (children : List Node)
  /-- `comprehension` (target, iter, ifs) or `For` (target, iter, body, orelse) -/
  | comprehension (target : Node) (rest : List Node)
  /-- `Tuple` or `List` -/
  | tuple (elts : List Node)
  /-- `ListComp`, `SetComp`, `GeneratorExp`, `DictComp`: the element(s), and the generators -/
  | listComp (elts gens : List Node)
  | importS (names : List Alias)
  | importFrom (module : Option String) (names : List Alias)
  | nonlocalS (names : List String)
  | globalS (names : List String)
  /-- `Yield`, `YieldFrom` -/
  | yieldE (children : List Node)
  /-- any other node: its class, the identifier it carries if any (`arg`, `ClassDef`, `MatchAs`, …; never looked
  at by the visitor), its children -/
  | other (cls : String) (ident : Option String) (children : List Node)

/-- `NamesUsedInFunction` and the attributes of the visitor (names_usage_analyzer.py:7-28).  Sets are lists,
only membership matters. -/
structure St where
  /-- `explicitly_global_unbound_deep` -/
  glob : List String := []
  /-- `explicitly_nonlocal_unbound_deep` -/
  nonl : List String := []
  /-- `local` -/
  loc : List String := []
  /-- `imported` -/
  imp : List String := []
  /-- `unclassified_deep` -/
  uncl : List String := []
  /-- `accessible` -/
  acc : List String := []
  /-- `imported_packages_deep` -/
  packages : List String := []
  /-- `n_yelds` -/
  yields : Nat := 0
  deriving DecidableEq, Repr

/-- the parameters that `visit_FunctionDef` knows (names_usage_analyzer.py:34-39): neither positional-only nor
keyword-only ones -/
def params (args : List String) (vararg kwarg : Option String) : List String :=
  args ++ vararg.toList ++ kwarg.toList

/-- the start of `visit_FunctionDef` at nesting level 0 (names_usage_analyzer.py:31-42) -/
def enterDef (args : List String) (vararg kwarg : Option String) (s : St) : St :=
  let loc := s.loc ++ params args vararg kwarg
  { s with loc := loc, acc := s.acc ++ loc }

/-- `a - b` (set difference as in names_usage_analyzer.py:30-55) -/
def minus (a b : List String) : List String := a.filter fun x => decide (x ∉ b)

/-- the nested case of `visit_FunctionDef` (names_usage_analyzer.py:43-53); `t` is the nested visitor -/
def merge (f : String) (s t : St) : St :=
  { s with
    packages := s.packages ++ t.packages
    nonl := s.nonl ++ minus t.nonl s.acc
    glob := s.glob ++ t.glob
    uncl := s.uncl ++ minus t.uncl s.acc
    loc := s.loc ++ [f]
    acc := s.acc ++ [f] }

/-- direct names of a loop target (names_usage_analyzer.py:86-93) -/
def targetName : Node → Option String
  | .name x _ => some x
  | _ => none

/-- names bound by the target of a comprehension (names_usage_analyzer.py:85-95) -/
def targetNames : Node → List String
  | .tuple elts => elts.filterMap targetName
  | t => [t].filterMap targetName

/-- the start of `visit_comprehension` (names_usage_analyzer.py:85-94) -/
def bindTargets (t : Node) (s : St) : St :=
  let loc := s.loc ++ minus (targetNames t) s.acc
  { s with loc := loc, acc := s.acc ++ loc }

/-- `visit_Name` (names_usage_analyzer.py:57-66) -/
def visitName (x : String) (c : Ctx) (s : St) : St :=
  match c with
  | .load => if x ∈ s.acc then s else { s with uncl := s.uncl ++ [x], acc := s.acc ++ [x] }
  | .store => if x ∈ s.acc then s else { s with loc := s.loc ++ [x], acc := s.acc ++ [x] }
  | .del => s

/-- `s.split('.')[0]`, `s.split('.')[-1]` (names_usage_analyzer.py:120-134) -/
def firstPart (m : String) : String := (m.splitOn ".").headD ""
/-- `s.split('.')[-1]` (names_usage_analyzer.py:120-134) -/
def lastPart (m : String) : String := (m.splitOn ".").getLastD ""

mutual
/-- `visit(node)` at the given function nesting level; `none`: an exception (`node.module.split` of a
relative import without module name) (names_usage_analyzer.py:17-146) -/
def visit : Node → Nat → St → Option St
  | .name x c, _, s => some (visitName x c s)
  -- names_usage_analyzer.py:31-42
  | .funcDef _ args va kw ch, 0, s => visitAll ch 1 (enterDef args va kw s)
  -- names_usage_analyzer.py:43-53: a new visitor for the nested function
  | .funcDef f args va kw ch, _ + 1, s =>
    match visitAll ch 1 (enterDef args va kw {}) with
    | none => none
    | some t => some (merge f s t)
  -- names_usage_analyzer.py:79-83; `None` for a handler without name is not a name
  | .tryS hs ch, l, s => visitAll ch l
      { s with loc := s.loc ++ hs.filterMap id, acc := s.acc ++ hs.filterMap id }
  -- names_usage_analyzer.py:85-98
  | .comprehension t rest, l, s =>
    match visit t l (bindTargets t s) with
    | none => none
    | some s => visitAll rest l s
  | .tuple elts, l, s => visitAll elts l s
  -- names_usage_analyzer.py:100-118: the generators first, then everything
  | .listComp elts gens, l, s =>
    match visitAll gens l s with
    | none => none
    | some s => match visitAll elts l s with
      | none => none
      | some s => visitAll gens l s
  -- names_usage_analyzer.py:120-126
  | .importS names, _, s => some
      { s with
        imp := s.imp ++ names.map Alias.bound
        packages := s.packages ++ names.map (fun a => firstPart a.name)
        acc := s.acc ++ (s.imp ++ names.map Alias.bound) }
  -- names_usage_analyzer.py:128-134
  | .importFrom none _, _, _ => none
  | .importFrom (some m) names, _, s => some
      { s with
        imp := s.imp ++ names.map Alias.bound
        packages := s.packages ++ [lastPart m]
        acc := s.acc ++ (s.imp ++ names.map Alias.bound) }
  -- names_usage_analyzer.py:136-140
  | .nonlocalS names, _, s => some { s with nonl := s.nonl ++ names, acc := s.acc ++ names }
  -- names_usage_analyzer.py:142-146
  | .globalS names, _, s => some { s with glob := s.glob ++ names, acc := s.acc ++ names }
  -- names_usage_analyzer.py:71-77
  | .yieldE ch, l, s => visitAll ch l { s with yields := s.yields + 1 }
  -- generic_visit
  | .other _ _ ch, l, s => visitAll ch l s
/-- the child nodes, one after the other (`generic_visit`, called throughout names_usage_analyzer.py:17-146) -/
def visitAll : List Node → Nat → St → Option St
  | [], _, s => some s
  | n :: ns, l, s => match visit n l s with
    | none => none
    | some s => visitAll ns l s
end

/-- `analyze_names_in_function` (names_usage_analyzer.py:148-183) for a source that is one function definition -/
def analyze (f : Node) : Option St := visit f 0 {}

end Pyth.Analyzer
