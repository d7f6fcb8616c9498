import Verif.Model.Construct
/-!
# The processes of a program: background workers and the processes that execute one request

`SwarmingPortal._launch_background_worker`, `_background_worker` and `_process_random_execution_request`
(swarming_portals.py:121-128, 177-226), `get_params` of the portal classes (foundation.py:66-69, data_portals.py:55-59,
autonomous_core_classes.py:53-57, swarming_portals.py:82-87) and the reconstruction of a portal from its parameters
(`parameterizable.get_object_from_portable_params`: the class is found by its name and called with the parameters).

Every process has its own portal objects (`Construct.Sys`); the directories (here: the records of runtime ids) are shared.
Simplifications: one node; portals of the main program are swarming portals; the functions executed on request do not
create portals; opening a directory succeeds in workers if it did in the main program; the module `__main__`, which Python
imports again in every spawned process, does not create portals.
-/
namespace Pyth.Tree
open Pyth.Construct

/-- the class of a portal (swarming_portals.py:29, default_local_portal.py:7) -/
inductive Cls | default | swarming
  deriving DecidableEq, Repr

/-- the parameters that `get_params` returns (foundation.py:66-69, data_portals.py:55-59, autonomous_core_classes.py:53-57,
swarming_portals.py:82-87), and the class -/
structure Config where
  cls : Cls
  store : Nat
  p : Rat
  island : String
  n : Int
  rid : Nat
  deriving DecidableEq

/-- `get_params` of a portal that was constructed with these parameters and has this runtime id: `p_consistency_checks`
`None` becomes 0 (data_portals.py:43-44) -/
def configOf (cls : Cls) (p : Params) (rid : Nat) : Config :=
  { cls := cls, store := p.store, p := p.p.getD 0, island := p.island.getD "", n := p.n.getD 0, rid := rid }

/-- the parameters as arguments of a constructor (swarming_portals.py:82-86, 121-128) -/
def Config.toParams (c : Config) : Params :=
  { store := c.store, p := some c.p, island := some c.island, n := some c.n, rid := some c.rid }

/-- what a process was started for (swarming_portals.py:58-80, 177-226) -/
inductive Role
  | main
  /-- `_background_worker(**params)` -/
  | worker (c : Config)
  /-- `_process_random_execution_request(**params)`, launched by process `parent` -/
  | request (c : Config) (parent : Nat)
  deriving DecidableEq

/-- how far a process is (swarming_portals.py:58-80, 177-226) -/
inductive Phase
  | starting | running
  /-- `p.join()` (swarming_portals.py:195) -/
  | waiting (child : Nat)
  | ended
  deriving DecidableEq

/-- a process: what it was started for, how far it is, and its portals
(swarming_portals.py:121-128, 177-226) -/
structure Proc where
  role : Role
  phase : Phase := .starting
  /-- the portal objects of the process -/
  sys : Sys := { record := fun _ => none }
  /-- the parameters of its portals -/
  configs : List Config := []

/-- all processes (swarming_portals.py:121-128, 177-226) -/
structure Tree where
  procs : List Proc
  /-- the records of runtime ids in the directories -/
  record : Nat → Option Nat

/-- the main program before it creates portals (before swarming_portals.py:32) -/
def initial (record : Nat → Option Nat) : Tree := { procs := [{ role := .main, phase := .running }], record := record }

/-- Process `i` calls the constructor with parameters `p` (swarming_portals.py:32-79); each worker it launches is a new
process, which gets the portal's parameters with `n_background_workers = 0` (swarming_portals.py:121-128) -/
def build (cls : Cls) (p : Params) (i : Nat) (x : Proc) (t : Tree) : Tree × Option Err :=
  match construct .swarming p { x.sys with record := t.record } with
  | (s, e) =>
    ({ record := s.record
       procs := (t.procs.modify i fun y => { y with
          sys := s
          configs := match e with
            | none => y.configs ++ [configOf cls p (p.rid.getD x.sys.fresh)]
            | some _ => y.configs }) ++
        (s.launched.drop x.sys.launched.length).map fun q =>
          { role := .worker { configOf cls p q.2 with n := 0 } } }, e)

/-- `parameterizable.get_object_from_portable_params(params)` (swarming_portals.py:179-181, 200-202): the constructor of
`DefaultLocalPortal` takes no arguments (default_local_portal.py:18, 30), a TypeError -/
def rebuild (c : Config) (i : Nat) (x : Proc) (t : Tree) : Tree × Option Err :=
  match c.cls with
  | .default => (t, some .type)
  | .swarming => build .swarming c.toParams i x t

/-- change the phase of a process (swarming_portals.py:58-80, 177-226) -/
def Tree.setPhase (t : Tree) (i : Nat) (ph : Phase) : Tree :=
  { t with procs := t.procs.modify i fun x => { x with phase := ph } }

/-- a process starts by reconstructing its portal (swarming_portals.py:179-182, 200-203); if that fails it ends -/
def startProc (c : Config) (i : Nat) (x : Proc) (t : Tree) : Tree :=
  match rebuild { c with n := 0 } i x t with
  | (t', none) => t'.setPhase i .running
  | (t', some _) => t'.setPhase i .ended

/-- One step of process `i` (process 0 is the main program). (swarming_portals.py:58-80, 121-128, 177-226) -/
inductive Step : Nat → Tree → Tree → Prop
  /-- the main program creates a portal, or fails to -/
  | construct {t : Tree} (cls : Cls) (p : Params) (x : Proc) : t.procs[0]? = some x → x.phase = .running →
      Step 0 t (build cls p 0 x t).1
  /-- the main program clears portals or ends, or another program writes the record of a directory -/
  | record {t : Tree} (r : Nat → Option Nat) : Step 0 t { t with record := r }
  /-- swarming_portals.py:179-182 -/
  | workerStart {t : Tree} (i : Nat) (c : Config) (x : Proc) : t.procs[i]? = some x → x.role = .worker c →
      x.phase = .starting → Step i t (startProc c i x t)
  /-- swarming_portals.py:188-194: the runtime id is live; launch a process for one request -/
  | spawn {t : Tree} (i : Nat) (c : Config) (x : Proc) : t.procs[i]? = some x → x.role = .worker c → x.phase = .running →
      t.record c.store = some c.rid →
      Step i t { t with procs := (t.procs.modify i fun y => { y with phase := .waiting t.procs.length }) ++
        [{ role := .request { c with n := 0 } i }] }
  /-- swarming_portals.py:188-189 -/
  | quit {t : Tree} (i : Nat) (c : Config) (x : Proc) : t.procs[i]? = some x → x.role = .worker c → x.phase = .running →
      t.record c.store ≠ some c.rid → Step i t (t.setPhase i .ended)
  /-- swarming_portals.py:195 -/
  | join {t : Tree} (i j : Nat) (x y : Proc) : t.procs[i]? = some x → x.phase = .waiting j → t.procs[j]? = some y →
      y.phase = .ended → Step i t (t.setPhase i .running)
  /-- swarming_portals.py:200-203 -/
  | requestStart {t : Tree} (i j : Nat) (c : Config) (x : Proc) : t.procs[i]? = some x → x.role = .request c j →
      x.phase = .starting → Step i t (startProc c i x t)
  /-- the request is executed, or there is none, or an exception occurs -/
  | requestEnd {t : Tree} (i j : Nat) (c : Config) (x : Proc) : t.procs[i]? = some x → x.role = .request c j →
      x.phase = .running → Step i t (t.setPhase i .ended)
  /-- any process other than the main program can be killed -/
  | kill {t : Tree} (i : Nat) : i ≠ 0 → Step i t (t.setPhase i .ended)

/-- the states that a program can get to (histories of swarming_portals.py:58-80, 121-128, 177-226) -/
inductive Reachable (r : Nat → Option Nat) : Tree → Prop
  | init : Reachable r (initial r)
  | step {i : Nat} {t t' : Tree} : Reachable r t → Step i t t' → Reachable r t'

/-- a process has not ended (swarming_portals.py:177-226) -/
def Alive (t : Tree) (i : Nat) : Prop := ∃ x, t.procs[i]? = some x ∧ x.phase ≠ .ended

end Pyth.Tree
