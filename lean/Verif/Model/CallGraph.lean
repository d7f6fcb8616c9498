/-!
# Call graph exploration (`pythagoras/_060_autonomous_functions/call_graph_explorer.py`)

A function is given by its name and the set of external names its source refers to (what
`analyze_names_in_function` finds: `explicitly_global_unbound_deep`,
`explicitly_nonlocal_unbound_deep`, `unclassified_deep`).  Python sets are duplicate-free lists; the
order in which Python iterates over a set is unspecified, so every iteration over a set goes through
an arbitrary rearrangement `iter`.
-/
namespace Pyth.CallGraph

variable {N : Type} [DecidableEq N]

/-- a function: name and referenced external names (call_graph_explorer.py:6-33) -/
structure Fn (N : Type) where
  name : N
  refs : List N

/-- Python dict from names to sets (call_graph_explorer.py:35-97) -/
abbrev Deps (N : Type) := List (N × List N)

/-- `s | {x}` (call_graph_explorer.py:35-97) -/
def insertSet (s : List N) (x : N) : List N := if x ∈ s then s else s ++ [x]
/-- `s | t` (call_graph_explorer.py:64-97) -/
def union (s t : List N) : List N := t.foldl insertSet s
/-- `s & t` (call_graph_explorer.py:35-62) -/
def inter (s t : List N) : List N := s.filter (fun x => decide (x ∈ t))
/-- `d[k]`, `none` = KeyError (call_graph_explorer.py:35-97) -/
def dget (d : Deps N) (k : N) : Option (List N) := d.lookup k
/-- `d[k] = v` (call_graph_explorer.py:35-97) -/
def dset (d : Deps N) (k : N) (v : List N) : Deps N :=
  if k ∈ d.map (·.1) then d.map (fun e => if e.1 = k then (k, v) else e) else d ++ [(k, v)]

/-- `get_referenced_names` (call_graph_explorer.py:6-33): the single dictionary item -/
def referencedNames (f : Fn N) : N × List N := (f.name, union [f.name] f.refs)

/-- the loop on lines 56-57 -/
def collect (fns : List (Fn N)) : Deps N :=
  fns.foldl (fun d f => dset d (referencedNames f).1 (referencedNames f).2) []

/-- `explore_call_graph_shallow` (call_graph_explorer.py:35-61) -/
def shallow (iter : List N → List N) (fns : List (Fn N)) : Option (Deps N) :=
  let all := collect fns
  let names := all.map (·.1)
  (iter names).foldlM (fun d name => do
    let s ← dget d name
    pure (dset d name (inter s names))) all

/-- one pass of lines 90-92: `new = set(old); for r in old: new |= deps[r]` -/
def expandOnce (iter : List N → List N) (d : Deps N) (old : List N) : Option (List N) :=
  (iter old).foldlM (fun new r => do
    let s ← dget d r
    pure (union new s)) old

/-- the `while True` loop (lines 89-95), with fuel; outer `none`: fuel exhausted, inner `none`: KeyError -/
def closure (iter : List N → List N) (d : Deps N) : Nat → List N → Option (Option (List N))
  | 0, _ => none
  | fuel + 1, old => match expandOnce iter d old with
    | none => some none
    | some new => if new.length = old.length then some (some new) else closure iter d fuel new

/-- `explore_call_graph_deep` (call_graph_explorer.py:63-97).  The dictionary is updated in place while
the names are processed one after the other. -/
def deepLoop (iter : List N → List N) (fuel : Nat) : List N → Deps N → Option (Option (Deps N))
  | [], d => some (some d)
  | f :: order, d => match dget d f with
    | none => some none
    | some old => match closure iter d fuel old with
      | none => none
      | some none => some none
      | some (some new) => deepLoop iter fuel order (dset d f new)

/-- `explore_call_graph_deep`; `some none`: an exception, `none`: out of fuel (call_graph_explorer.py:64-97) -/
def deep (iter : List N → List N) (fuel : Nat) (fns : List (Fn N)) : Option (Option (Deps N)) :=
  match shallow iter fns with
  | none => some none
  | some d => deepLoop iter fuel (iter (d.map (·.1))) d

end Pyth.CallGraph
