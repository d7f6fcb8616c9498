import Verif.Model.Analyzer
import Verif.Model.CallGraph
import Mathlib.Data.List.Sort
import Mathlib.Data.String.Basic
/-!
# Registration of autonomous and pure functions

`pythagoras/_060_autonomous_functions/autonomous_core_classes.py` (`AutonomousFn`),
`pythagoras/_070_pure_functions/pure_core_classes.py` (`PureFn`),
`pythagoras/_070_pure_functions/process_augmented_func_src.py`, and the parts of
`pythagoras/_040_ordinary_functions/ordinary_core_classes.py` they use.

Function objects live on a heap and are referred to by index ("handle"), so that several objects for one function
are distinguished; a portal's `known_functions` maps island and name to a handle.

Simplifications.
* Source code is a syntax tree that is already normalised and has no decorator (`Verif.Model.Normalizer` models the
  normaliser); a text made of decorated sources (the augmented source) is the list of its decorated functions, i.e.
  printing followed by parsing is the identity.  Compiling a function does not fail.
* `island_name=None` is replaced by the portal's default island before (autonomous_core_classes.py:119-120).
* Function objects are created from sources here; `Verif.Model.Wrap` models their creation from other function objects.
* Running the code of a function is a sequence of further operations of the history: the calls in its body start
  other functions.
-/
namespace Pyth.Analyzer

mutual
/-- equality of syntax trees (as for their texts) (texts are compared at autonomous_core_classes.py:146-189) -/
def Node.same : Node → Node → Bool
  | .name x c, .name y d => x == y && decide (c = d)
  | .funcDef f a v k ch, .funcDef f' a' v' k' ch' => f == f' && a == a' && v == v' && k == k' && Node.sameAll ch ch'
  | .tryS h ch, .tryS h' ch' => h == h' && Node.sameAll ch ch'
  | .comprehension t r, .comprehension t' r' => Node.same t t' && Node.sameAll r r'
  | .tuple e, .tuple e' => Node.sameAll e e'
  | .listComp e g, .listComp e' g' => Node.sameAll e e' && Node.sameAll g g'
  | .importS n, .importS n' => decide (n = n')
  | .importFrom m n, .importFrom m' n' => m == m' && decide (n = n')
  | .nonlocalS n, .nonlocalS n' => n == n'
  | .globalS n, .globalS n' => n == n'
  | .yieldE ch, .yieldE ch' => Node.sameAll ch ch'
  | .other c i ch, .other c' i' ch' => c == c' && i == i' && Node.sameAll ch ch'
  | _, _ => false
/-- equality of lists of syntax trees (autonomous_core_classes.py:146-189) -/
def Node.sameAll : List Node → List Node → Bool
  | [], [] => true
  | n :: ns, m :: ms => Node.same n m && Node.sameAll ns ms
  | _, _ => false
end

mutual
theorem Node.same_iff (n m : Node) : Node.same n m = true ↔ n = m := by
  cases n <;> cases m <;> simp [Node.same, Node.same_iff, Node.sameAll_iff, and_assoc]
theorem Node.sameAll_iff (ns ms : List Node) : Node.sameAll ns ms = true ↔ ns = ms := by
  cases ns with
  | nil => cases ms <;> simp [Node.sameAll]
  | cons n ns =>
    cases ms with
    | nil => simp [Node.sameAll]
    | cons m ms => simp [Node.sameAll, Node.same_iff n m, Node.sameAll_iff ns ms]
end

instance : DecidableEq Node := fun n m =>
  if h : Node.same n m = true then .isTrue ((Node.same_iff n m).1 h)
  else .isFalse fun e => h ((Node.same_iff n m).2 e)

end Pyth.Analyzer

namespace Pyth.Registry
open Pyth.Analyzer

/-- the source code of a function: the fields of its `FunctionDef` (ordinary_core_classes.py:72-85) -/
structure Src where
  name : String
  args : List String := []
  vararg : Option String := none
  kwarg : Option String := none
  body : List Node := []
  deriving DecidableEq

/-- the syntax tree (ordinary_core_classes.py:72-85) -/
def Src.node (s : Src) : Node := .funcDef s.name s.args s.vararg s.kwarg s.body

/-- the class of a function object: `AutonomousFn` or `PureFn` (autonomous_core_classes.py:112, pure_core_classes.py:134) -/
inductive Cls
  | autonomous | pure
  deriving DecidableEq, Repr

/-- a place in `known_functions`: portal, island, function name (autonomous_core_classes.py:40-51) -/
structure Key where
  portal : Nat
  island : String
  name : String
  deriving DecidableEq, Repr

/-- the text of a decorator (autonomous_core_classes.py:203-207, pure_core_classes.py:205-217) -/
inductive Deco
  | autonomous (island : String)
  | strictly (island : String)
  | pure (island : String) (guards : Option (List String))
  deriving DecidableEq, Repr

/-- one decorated function of an augmented source (pure_core_classes.py:256-271) -/
structure Entry where
  deco : Deco
  src : Src
  deriving DecidableEq

/-- a function object (autonomous_core_classes.py:117-136, pure_core_classes.py:139-150) -/
structure Obj where
  cls : Cls
  portal : Nat
  island : String
  src : Src
  /-- `strictly_autonomous` -/
  strict : Bool
  /-- `_fn_fully_registered` -/
  full : Bool := false
  /-- the object has the attributes `_fn_bytecode`, `_kwargs_var_name`, … -/
  compiled : Bool := false
  /-- `_autonomous_fn_dependencies`; `none`: no such attribute -/
  deps : Option (List String) := none
  guards : Option (List String) := none
  /-- `_augmented_source_code` -/
  aug : Option (List Entry) := none
  deriving DecidableEq

/-- `fn_name` (ordinary_core_classes.py:72-85) -/
def Obj.name (o : Obj) : String := o.src.name
/-- the place of the object in `known_functions` (autonomous_core_classes.py:146-189) -/
def Obj.key (o : Obj) : Key := ⟨o.portal, o.island, o.src.name⟩

/-- `decorator` (autonomous_core_classes.py:195-206, pure_core_classes.py:205-217) -/
def Obj.deco (o : Obj) : Deco :=
  match o.cls with
  | .pure => .pure o.island o.guards
  | .autonomous => if o.strict then .strictly o.island else .autonomous o.island

/-- the function objects and the `known_functions` of all portals (autonomous_core_classes.py:40-51) -/
structure Reg where
  objs : List Obj := []
  /-- the keys of each portal's `known_functions` -/
  islands : List (Nat × String) := []
  /-- `known_functions[island][name]`, in the order of insertion -/
  known : List (Key × Nat) := []
  deriving DecidableEq

/-- the surrounding Python: the names in `builtins`, and the order of iteration over sets
(names_usage_analyzer.py:148-182, autonomous_core_classes.py:146-189) -/
structure Env where
  builtins : List String
  iter : List String → List String

/-- change an object (attribute assignments in autonomous_core_classes.py:146-285) -/
def Reg.modify (R : Reg) (i : Nat) (f : Obj → Obj) : Reg := { R with objs := R.objs.modify i f }
/-- the registered object of a name (autonomous_core_classes.py:146-189) -/
def Reg.at (R : Reg) (k : Key) : Option Obj := (R.known.lookup k).bind fun j => R.objs[j]?
/-- the functions in an island (autonomous_core_classes.py:208-285) -/
def Reg.islandObjs (R : Reg) (p : Nat) (isl : String) : List Obj :=
  R.known.filterMap fun e => if e.1.portal = p ∧ e.1.island = isl then R.objs[e.2]? else none
/-- `set(island)`: the names in an island (autonomous_core_classes.py:222-285) -/
def Reg.islandNames (R : Reg) (p : Nat) (isl : String) : List String :=
  R.known.filterMap fun e => if e.1.portal = p ∧ e.1.island = isl then some e.1.name else none

/-- `pth.primary_decorators`, `pth.all_decorators` (pythagoras/__init__.py:52-62) -/
def primaryDecorators : List String := ["autonomous", "strictly_autonomous", "pure"]
/-- `pth.all_decorators` (__init__.py:57-64) -/
def allDecorators : List String := ["ordinary", "autonomous", "strictly_autonomous", "pure"]

/-- `sorted` for lists of strings (pure_core_classes.py:162-187, 256-271) -/
def sort (l : List String) : List String := l.insertionSort (· ≤ ·)

/-! ## Beginning a registration -/

/-- `PureFn.update` / `AutonomousFn.update` / `OrdinaryFn.update` (pure_core_classes.py:156-160,
autonomous_core_classes.py:137-142, ordinary_core_classes.py:90-100): `none` is an `AttributeError`, raised if the
other object is marked as fully registered but was never compiled.  (An `AutonomousFn` has neither guards nor an
augmented source: both are `none`.) -/
def update (o r : Obj) : Option Obj :=
  if r.full && !r.compiled then none
  else some { o with
    src := r.src
    island := r.island
    strict := r.strict
    full := o.full || r.full
    compiled := o.compiled || (r.full && r.compiled)
    deps := if r.full then r.deps else o.deps
    guards := r.guards
    aug := r.aug }

/-- `if island_name not in portal.known_functions: …` (autonomous_core_classes.py:149-150) -/
def addIsland (R : Reg) (p : Nat) (isl : String) : Reg :=
  if (p, isl) ∈ R.islands then R else { R with islands := R.islands ++ [(p, isl)] }

/-- the checks of a function that is new in its island (autonomous_core_classes.py:170-184) -/
def acceptable (s : Src) : Bool :=
  match analyze s.node with
  | none => false
  | some a => decide (minus a.nonl allDecorators = []) && decide (a.yields = 0)

/-- the new object becomes reachable (autonomous_core_classes.py:117-136) -/
def Reg.alloc (R : Reg) (o : Obj) : Reg × Option Nat := ({ R with objs := R.objs ++ [o] }, some R.objs.length)

/-- `_begin_fn_registration` (autonomous_core_classes.py:146-188, pure_core_classes.py:364-372) for a new object `o`.
`none`: an exception; the object is lost then. -/
def begin (R : Reg) (o : Obj) : Reg × Option Nat :=
  let o := { o with full := false }
  let R := addIsland R o.portal o.island
  match R.at o.key with
  | some r =>
    if o.src = r.src ∧ o.deco = r.deco ∧ o.cls = r.cls then
      match update o r with
      | none => (R, none)
      | some o => R.alloc o
    else (R, none)
  | none =>
    if acceptable o.src then
      Reg.alloc { R with known := R.known ++ [(o.key, R.objs.length)] } o
    else (R, none)

/-! ## Decorators -/

/-- a guard as given by the user: a function object or a name (pure_core_classes.py:162-187) -/
inductive GuardArg
  | obj (i : Nat)
  | name (s : String)
  deriving DecidableEq, Repr

/-- one guard (pure_core_classes.py:175-184) -/
def guardName (R : Reg) (p : Nat) (isl : String) : GuardArg → Option String
  | .obj i => match R.objs[i]? with
    | none => none
    | some g => if g.strict ∧ g.island = isl ∧ g.portal = p then some g.name else none
  | .name s => if s ∈ R.islandNames p isl then some s else none

/-- `_preprocess_guards` (pure_core_classes.py:163-186); the outer `none` is an exception -/
def preprocessGuards (R : Reg) (p : Nat) (isl : String) : Option (List GuardArg) → Option (Option (List String))
  | none => some none
  | some gs =>
    if (p, isl) ∈ R.islands then
      match gs.mapM (guardName R p isl) with
      | none => none
      | some names => some (some (sort names))
    else none

/-- a decorated function definition: `@autonomous(island)`, `@strictly_autonomous(island)`, `@pure(island, guards)`
(autonomous_decorators.py:57-99, pure_decorator.py:15-37) -/
structure Decl where
  cls : Cls
  portal : Nat
  island : String
  src : Src
  strict : Bool := false
  guards : Option (List GuardArg) := none
  deriving DecidableEq

/-- `AutonomousFn.__init__`, `PureFn.__init__` (autonomous_core_classes.py:117-136, pure_core_classes.py:139-150,
autonomous_decorators.py:57-99, pure_decorator.py:29-36): the handle of the new object, or an exception -/
def decorate (R : Reg) (d : Decl) : Reg × Option Nat :=
  match d.cls with
  | .autonomous => begin R { cls := .autonomous, portal := d.portal, island := d.island, src := d.src, strict := d.strict }
  | .pure => match preprocessGuards R d.portal d.island d.guards with
    | none => (R, none)
    | some gs => begin R { cls := .pure, portal := d.portal, island := d.island, src := d.src, strict := false, guards := gs }

/-! ## Completing a registration -/

/-- names that need no import (autonomous_core_classes.py:255-262) -/
def available (E : Env) (name : String) : List String :=
  primaryDecorators ++ E.builtins ++ ["pth", name, "self"]

/-- `import_required` (autonomous_core_classes.py:253-262) -/
def required (E : Env) (s : Src) (a : St) : List String := minus (a.glob ++ a.uncl) (available E s.name)

/-- `get_referenced_names` on a source (call_graph_explorer.py:6-33) -/
def fnOf (s : Src) : Option (CallGraph.Fn String) :=
  match analyze s.node with
  | none => none
  | some a => some ⟨s.name, a.glob ++ a.nonl ++ a.uncl⟩

/-- the dependencies of a function (autonomous_core_classes.py:276-281): sorted full dependencies among the
functions that the island has at this moment -/
def exploreDeps (E : Env) (R : Reg) (p : Nat) (isl name : String) : Option (List String) :=
  match (R.islandObjs p isl).mapM fun o => fnOf o.src with
  | none => none
  | some fns => match CallGraph.deep E.iter fns.length fns with
    | some (some d) => (CallGraph.dget d name).map sort
    | _ => none

/-- `import_required` without the functions of the island (autonomous_core_classes.py:263-267) -/
def stillRequired (E : Env) (R : Reg) (o : Obj) (a : St) : List String :=
  if o.strict then required E o.src a else minus (required E o.src a) (R.islandNames o.portal o.island)

/-- lines 262-267: a function that uses no function of the island becomes strictly autonomous -/
def flipStrict (E : Env) (R : Reg) (i : Nat) (o : Obj) (a : St) : Reg :=
  if o.strict = false ∧ (stillRequired E R o a).length = (required E o.src a).length then
    R.modify i fun o => { o with strict := true }
  else R

/-- the marks set at the end of `AutonomousFn._complete_fn_registration` (lines 283-285) -/
def recordDeps (R : Reg) (i j : Nat) (d : List String) : Reg :=
  (R.modify j fun o => { o with deps := some d }).modify i fun o => { o with deps := some d }
/-- `_fn_fully_registered = True` for the object and the one in the island (autonomous_core_classes.py:283-285) -/
def markFull (R : Reg) (i j : Nat) : Reg :=
  (R.modify i fun o => { o with full := true }).modify j fun o => { o with full := true }

/-- the end of `_complete_fn_registration` for a function that no handle has completed yet
(autonomous_core_classes.py:246-285); `i`: this object, `j`: the registered one -/
def finish (E : Env) (R : Reg) (i j : Nat) (o : Obj) : Reg × Bool :=
  let R := R.modify i fun o => { o with compiled := true }
  match analyze o.src.node with
  | none => (R, false)
  | some a =>
    let R' := flipStrict E R i o a
    if stillRequired E R o a = [] then
      match exploreDeps E R' o.portal o.island o.name with
      | none => (R', false)
      | some d =>
        if d = [] then (R', false)
        else if o.cls = .autonomous then (markFull (recordDeps R' i j d) i j, true)
        else (recordDeps R' i j d, true)
    else (R', false)

/-- `AutonomousFn._complete_fn_registration` (autonomous_core_classes.py:222-285) -/
def completeAutonomous (E : Env) (R : Reg) (i : Nat) : Reg × Bool :=
  match R.objs[i]? with
  | none => (R, false)
  | some o =>
    if o.full then (R, true)
    else if (o.portal, o.island) ∈ R.islands then
      match R.known.lookup o.key with
      | none => (R, false)
      | some j => match R.objs[j]? with
        | none => (R, false)
        | some r =>
          if o.src = r.src then
            if r.full then
              if o.cls = .autonomous then
                match update o r with
                | none => (R, false)
                | some o' => (R.modify i fun _ => o', true)
              else (R, true)
            else finish E R i j o
          else (R, false)
    else (R, false)

/-- `dependencies` (autonomous_core_classes.py:209-219); `none`: an exception -/
def dependencies (R : Reg) (o : Obj) : Option (List String) :=
  match R.at o.key with
  | none => none
  | some r => match r.deps with
    | none => none
    | some d => if d = [] then none else if o.strict = true ∧ d.length ≠ 1 then none else some (sort d)

/-- `island[name]` as it appears in an augmented source; `none`: KeyError (pure_core_classes.py:256-271) -/
def entryOf (R : Reg) (p : Nat) (isl name : String) : Option Entry :=
  (R.at ⟨p, isl, name⟩).map fun f => ⟨f.deco, f.src⟩

/-- the augmented source (pure_core_classes.py:227-238) -/
def augment (R : Reg) (o : Obj) : Option (List Entry) :=
  match dependencies R o with
  | none => none
  | some d => (sort (o.guards.getD [] ++ d)).mapM (entryOf R o.portal o.island)

/-- lines 241-252 of `PureFn._complete_fn_registration` -/
def storeAug (R : Reg) (i j : Nat) (r : Obj) (es : List Entry) : Reg × Bool :=
  if r.aug = none ∨ r.aug = some es then
    (markFull ((R.modify j fun o => { o with aug := some es }).modify i fun o => { o with aug := some es }) i j, true)
  else (R, false)

/-- `PureFn._complete_fn_registration` (pure_core_classes.py:219-252) for an object that is not fully registered -/
def completePure (E : Env) (R : Reg) (i : Nat) : Reg × Bool :=
  match completeAutonomous E R i with
  | (R, false) => (R, false)
  | (R, true) => match R.objs[i]? with
    | none => (R, false)
    | some o => match augment R o with
      | none => (R, false)
      | some es => match R.known.lookup o.key with
        | none => (R, false)
        | some j => match R.objs[j]? with
          | none => (R, false)
          | some r => storeAug R i j r es

/-- `_complete_fn_registration` of the object's class (autonomous_core_classes.py:222-285, pure_core_classes.py:219-254) -/
def complete (E : Env) (R : Reg) (i : Nat) : Reg × Bool :=
  match R.objs[i]? with
  | none => (R, false)
  | some o => if o.full then (R, true) else
    match o.cls with
    | .autonomous => completeAutonomous E R i
    | .pure => completePure E R i

/-! ## Execution, pickling -/

/-- `_available_names` and the attributes used by `execute` (ordinary_core_classes.py:175-184,
autonomous_core_classes.py:288-293): what happens after completion and before the body runs -/
def runnable (R : Reg) (o : Obj) : Bool :=
  o.compiled && match dependencies R o with
    | none => false
    | some d => d.all fun x => (R.at ⟨o.portal, o.island, x⟩).isSome

/-- executing a function up to the start of its body: `true` if the body is run (ordinary_core_classes.py:128-133, 175-197) -/
def start (E : Env) (R : Reg) (i : Nat) : Reg × Bool :=
  match complete E R i with
  | (R, false) => (R, false)
  | (R, true) => match R.objs[i]? with
    | none => (R, false)
    | some o => (R, runnable R o)

/-- a pickled function object (autonomous_core_classes.py:318-327, pure_core_classes.py:273-286) -/
inductive Pickled
  | autonomous (island : String) (src : Src) (strict : Bool)
  | pure (island : String) (src : Src) (strict : Bool) (guards : Option (List String)) (aug : List Entry)
  deriving DecidableEq

/-- `__getstate__`; `none`: an exception (autonomous_core_classes.py:318-327, pure_core_classes.py:273-286) -/
def pickle (E : Env) (R : Reg) (i : Nat) : Reg × Option Pickled :=
  match R.objs[i]? with
  | none => (R, none)
  | some o => match o.cls with
    | .autonomous => (R, some (.autonomous o.island o.src o.strict))
    | .pure => match complete E R i with
      | (R, false) => (R, none)
      | (R, true) => match R.objs[i]? with
        | none => (R, none)
        | some o => match R.at o.key with
          | none => (R, none)
          | some r => match o.full, r.aug with
            | true, some es => (R, some (.pure o.island o.src o.strict o.guards es))
            | _, _ => (R, none)

/-- the decorated function of an augmented source, in portal `p` (process_augmented_func_src.py:38-61) -/
def Entry.decl (p : Nat) (e : Entry) : Decl :=
  match e.deco with
  | .autonomous isl => { cls := .autonomous, portal := p, island := isl, src := e.src }
  | .strictly isl => { cls := .autonomous, portal := p, island := isl, src := e.src, strict := true }
  | .pure isl gs => { cls := .pure, portal := p, island := isl, src := e.src, guards := gs.map (·.map .name) }

/-- `process_augmented_func_src` (process_augmented_func_src.py:13-61) -/
def process (p : Nat) : List Entry → Reg → Reg × Bool
  | [], R => (R, true)
  | e :: es, R => match decorate R (e.decl p) with
    | (R, none) => (R, false)
    | (R, some _) => process p es R

/-- lines 303-314 of `PureFn.__setstate__` -/
def adopt (p : Nat) (R : Reg) (o : Obj) (es : List Entry) : Reg × Bool :=
  match R.known.lookup o.key with
  | none => (R, false)
  | some j => match R.objs[j]? with
    | none => (R, false)
    | some r =>
      if r.full then (R, decide (r.aug = some es))
      else process p es (R.modify j fun o => { o with aug := some es })

/-- `__setstate__` in a block of portal `p` (autonomous_core_classes.py:329-339, pure_core_classes.py:288-316) -/
def restore (E : Env) (R : Reg) (p : Nat) : Pickled → Reg × Option Nat
  | .autonomous isl s strict => begin R { cls := .autonomous, portal := p, island := isl, src := s, strict := strict }
  | .pure isl s strict gs es =>
    match begin R { cls := .pure, portal := p, island := isl, src := s, strict := strict, guards := gs } with
    | (R, none) => (R, none)
    | (R, some i) => match R.objs[i]? with
      | none => (R, none)
      | some o => match adopt p R o es with
        | (R, false) => (R, none)
        | (R, true) => match complete E R i with
          | (R, false) => (R, none)
          | (R, true) => (R, some i)

/-! ## Histories -/

/-- what a session does (autonomous_decorators.py:69-99, ordinary_core_classes.py:128-133, 175-197, pure_core_classes.py:273-317) -/
inductive Op
  | decorate (d : Decl)
  | start (i : Nat)
  | pickle (i : Nat)
  | restore (p : Nat) (s : Pickled)
  deriving DecidableEq

/-- one operation; an exception ends the operation, not the session
(autonomous_decorators.py:69-99, ordinary_core_classes.py:128-133, 175-197, pure_core_classes.py:273-317) -/
def step (E : Env) (R : Reg) : Op → Reg
  | .decorate d => (decorate R d).1
  | .start i => (start E R i).1
  | .pickle i => (pickle E R i).1
  | .restore p s => (restore E R p s).1

/-- a history of a session (autonomous_decorators.py:69-99, pure_core_classes.py:273-317) -/
def run (E : Env) (R : Reg) (ops : List Op) : Reg := ops.foldl (step E) R

end Pyth.Registry
