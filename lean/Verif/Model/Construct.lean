import Mathlib.Data.Rat.Defs
import Mathlib.Algebra.Order.Ring.Rat
/-!
# Construction, clearing and the end of a program, for all classes of portals

The constructors (foundation.py:54-64, logging_portals.py:120-138, data_portals.py:35-53,
ordinary_core_classes.py:20-25, safe_core_classes.py:13-18, autonomous_core_classes.py:40-51, pure_core_classes.py:52-88,
swarming_portals.py:32-80), `_clear` of each class, `_clear_all` (foundation.py:222-229) and what happens when the program
ends (`_clean_runtime_id`, swarming_portals.py:229-243).

One program on one node.  Simplifications: a portal's attribute is usable, or not (absent or `None`); directories are
numbers; random signatures are taken from a counter; the portal stack is not modelled here (see `PortalStack`).
-/
namespace Pyth.Construct

/-- the classes of portals, each a subclass of the one before (`DefaultLocalPortal` differs from `swarming` by its
parameters only)
(the class statements of foundation.py:30, logging_portals.py:92, data_portals.py:15, ordinary_core_classes.py:19, safe_core_classes.py:12, autonomous_core_classes.py:35, pure_core_classes.py:44, swarming_portals.py:29) -/
inductive Kind | basic | logging | data | ordinary | safe | autonomous | pure | swarming
  deriving DecidableEq, Repr

/-- attributes of portal objects (attributes assigned by the constructors, foundation.py:54-64 to swarming_portals.py:32-80) -/
inductive Attr
  | rootDict | crashHistory | eventLog | valueStore | pChecks | islandName | knownFns | results | requests | runHistory
  | nWorkers | computeNodes | nodeId | runtimeId
  deriving DecidableEq, Repr

/-- parameters of the constructors (swarming_portals.py:32-46) -/
structure Params where
  /-- the directory -/
  store : Nat
  /-- opening the directory does not raise (foundation.py:54-61) -/
  rootOk : Bool := true
  /-- `p_consistency_checks` -/
  p : Option Rat := none
  /-- `default_island_name`; `none`: not a string -/
  island : Option String := some "Samos"
  /-- `n_background_workers`; `none`: not convertible to int, like `None` -/
  n : Option Int := some 3
  /-- `runtime_id` -/
  rid : Option Nat := none

/-- exceptions of constructors and of clearing (foundation.py:54-64 to swarming_portals.py:32-80) -/
inductive Err | assertion | type | attribute | os
  deriving DecidableEq, Repr

/-- a portal object: its class and the attributes assigned so far (foundation.py:54-64) -/
structure Obj where
  kind : Kind
  store : Nat
  usable : Attr → Bool := fun _ => false

/-- the program and the portals' directories, as far as this node is concerned (foundation.py:48-50, swarming_portals.py:29-80) -/
structure Sys where
  /-- all portal objects created, by handle -/
  objs : List Obj := []
  /-- `BasicPortal.all_portals`, in order of insertion -/
  known : List Nat := []
  /-- `LoggingPortal.exception_handlers_registered` -/
  handlers : Bool := false
  /-- `atexit.register(_clean_runtime_id)` was called -/
  atexit : Bool := false
  /-- `compute_nodes.pkl[node_id, "runtime_id"]` of each directory -/
  record : Nat → Option Nat
  /-- random signatures generated so far -/
  fresh : Nat := 0
  /-- background workers launched: directory and runtime id -/
  launched : List (Nat × Nat) := []

/-- assignment of attributes of object `i` (assignments in the constructors, foundation.py:54-64 to swarming_portals.py:32-80) -/
def Sys.assign (s : Sys) (i : Nat) (as : List Attr) : Sys :=
  { s with objs := s.objs.modify i fun o => { o with usable := fun a => o.usable a || as.contains a } }

/-- the part of the construction that each class contributes, in the order of execution; `none`: no exception
(foundation.py:54-64 to swarming_portals.py:32-80) -/
def stage (k : Kind) (p : Params) (i : Nat) (s : Sys) : Sys × Option Err :=
  match k with
  -- foundation.py:62-64; the object is registered here
  | .basic => ({ s.assign i [.rootDict] with known := s.known ++ [i] }, none)
  -- logging_portals.py:122-138
  | .logging => ({ s.assign i [.crashHistory, .eventLog] with handlers := true }, none)
  -- data_portals.py:42-53
  | .data =>
    if (match p.p with | none => true | some x => decide (0 ≤ x ∧ x ≤ 1)) then (s.assign i [.pChecks, .valueStore], none)
    else (s, some .assertion)
  | .ordinary => (s, none)
  | .safe => (s, none)
  -- autonomous_core_classes.py:47-51
  | .autonomous =>
    if (match p.island with | none => false | some x => decide (1 ≤ x.length)) then
      (s.assign i [.islandName, .knownFns], none)
    else (s, some .assertion)
  -- pure_core_classes.py:61-88
  | .pure => (s.assign i [.results, .requests, .runHistory], none)
  -- swarming_portals.py:42-80
  | .swarming =>
    match p.n with
    | none => (s, some .type)
    | some n =>
      if n < 0 then (s, some .assertion)
      else
        let s := s.assign i [.nWorkers, .computeNodes, .nodeId, .runtimeId]
        match p.rid with
        | some r => ({ s with launched := s.launched ++ List.replicate n.toNat (p.store, r) }, none)
        | none =>
          ({ s with
              record := fun d => if d = p.store then some s.fresh else s.record d
              fresh := s.fresh + 1
              atexit := s.atexit || decide (s.known.length = 1)
              launched := s.launched ++ List.replicate n.toNat (p.store, s.fresh) }, none)

/-- the classes whose constructors run, base class first (the calls `super().__init__`, e.g. swarming_portals.py:46-56) -/
def Kind.chain : Kind → List Kind
  | .basic => [.basic]
  | .logging => [.basic, .logging]
  | .data => [.basic, .logging, .data]
  | .ordinary => [.basic, .logging, .data, .ordinary]
  | .safe => [.basic, .logging, .data, .ordinary, .safe]
  | .autonomous => [.basic, .logging, .data, .ordinary, .safe, .autonomous]
  | .pure => [.basic, .logging, .data, .ordinary, .safe, .autonomous, .pure]
  | .swarming => [.basic, .logging, .data, .ordinary, .safe, .autonomous, .pure, .swarming]

/-- the stages one after the other, until one raises (the calls `super().__init__`, e.g. swarming_portals.py:46-56) -/
def stages (p : Params) (i : Nat) : List Kind → Sys → Sys × Option Err
  | [], s => (s, none)
  | k :: ks, s => match stage k p i s with
    | (s, some e) => (s, some e)
    | (s, none) => stages p i ks s

/-- `SwarmingPortal(…)` etc.: the new object has the next handle (swarming_portals.py:32-80) -/
def construct (k : Kind) (p : Params) (s : Sys) : Sys × Option Err :=
  if p.rootOk then stages p s.objs.length k.chain { s with objs := s.objs ++ [{ kind := k, store := p.store }] }
  else (s, some .os)

/-- attributes that the class sets to `None` in `_clear` (swarming_portals.py:130-134, pure_core_classes.py:106-110,
autonomous_core_classes.py:86-90 (`known_functions = dict()`), data_portals.py:100-104 (`_p_consistency_checks = 1`),
logging_portals.py:141-145, foundation.py:217-220) -/
def cleared (k : Kind) : List Attr :=
  k.chain.flatMap fun
    | .basic => [.rootDict]
    | .logging => [.crashHistory, .eventLog]
    | .data => [.valueStore]
    | .ordinary => []
    | .safe => []
    | .autonomous => [.islandName]
    | .pure => [.results, .requests, .runHistory]
    | .swarming => [.computeNodes]

/-- `portal._clear()`; `none`: AttributeError.  A swarming portal first removes its record
(foundation.py:217-220, swarming_portals.py:131-136) -/
def clear (i : Nat) (s : Sys) : Option Sys :=
  match s.objs[i]? with
  | none => none
  | some o =>
    if o.kind = .swarming ∧ ¬ (o.usable .nodeId = true ∧ o.usable .computeNodes = true) then none
    else some { s with
      record := if o.kind = .swarming then (fun d => if d = o.store then none else s.record d) else s.record
      objs := s.objs.modify i fun o => { o with usable := fun a => o.usable a && !(cleared o.kind).contains a } }

/-- the loop of `BasicPortal._clear_all` (foundation.py:222-229) -/
def clearLoop : List Nat → Sys → Sys × Option Err
  | [], s => (s, none)
  | i :: l, s => match clear i s with
    | none => (s, some .attribute)
    | some s => clearLoop l s

/-- `_clear_all` (logging_portals.py:187-194, foundation.py:222-229); called through a logging portal or a subclass -/
def clearAll (s : Sys) : Sys × Option Err :=
  match clearLoop s.known { s with handlers := false } with
  | (s, some e) => (s, some e)
  | (s, none) => ({ s with known := [] }, none)

/-- `_clean_runtime_id` (swarming_portals.py:229-243): exceptions are swallowed -/
def cleanRuntimeIds : List Nat → Sys → Sys
  | [], s => s
  | i :: l, s => cleanRuntimeIds l (match s.objs[i]? with
    | some o => if o.usable .computeNodes then { s with record := fun d => if d = o.store then none else s.record d } else s
    | none => s)

/-- the program ends (swarming_portals.py:229-242) -/
def endProgram (s : Sys) : Sys := if s.atexit then cleanRuntimeIds s.known s else s

end Pyth.Construct
