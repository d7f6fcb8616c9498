import Verif.Model.PureFn
/-!
# Histories of a session that uses pure functions

A session is any sequence of operations of the API, in any order, with any outcome, interleaved with
what other processes do to the shared portals: storing values (`.val (.foreign …)`), storing results,
requesting and dropping executions.  An operation of this session runs without interference.
-/
namespace Pyth.Pure
open Pyth.World Pyth.Portal

/-- one step of a session (pure_core_classes.py:374-491, 637-718, value_addresses.py:26-61, 142-153) -/
inductive POp (U A : Type)
  /-- portals, contexts, `except` clauses, `ValueAddr` objects -/
  | val (op : ValueAddr.Op (Val U A) A)
  /-- `f(**kw)` (pure_core_classes.py:404-442, autonomous_core_classes.py:314-316) -/
  | call (p : PortalId) (n : Nat) (f : FnId) (kw : Kw U)
  /-- `f.get_address(**kw)` (pure_core_classes.py:374-378) -/
  | address (p : PortalId) (f : FnId) (kw : Kw U)
  /-- `f.swarm(**kw)` (pure_core_classes.py:383-391) -/
  | swarm (p : PortalId) (f : FnId) (kw : Kw U)
  /-- `f.run(**kw)` (pure_core_classes.py:393-401) -/
  | run (n : Nat) (p : PortalId) (f : FnId) (kw : Kw U)
  /-- `f.swarm_list(l)` (pure_core_classes.py:444-461) -/
  | swarmList (sh : List Nat → List Nat) (p : PortalId) (f : FnId) (l : List (Kw U))
  /-- `f.run_list(l)` (pure_core_classes.py:463-473) -/
  | runList (n : Nat) (sh1 sh2 : List Nat → List Nat) (p : PortalId) (f : FnId) (l : List (Kw U))
  /-- a background worker rebuilds an address from its text (swarming_portals.py:212-215) -/
  | fromKey (p : PortalId) (k : Key A)
  /-- `addr.execute()` (pure_core_classes.py:637-645) -/
  | rexec (n : Nat) (r : Nat)
  /-- `addr.get(timeout=0)` (pure_core_classes.py:671-718) -/
  | rget (r : Nat)
  /-- `addr.ready` (pure_core_classes.py:626-635) -/
  | rready (r : Nat)
  /-- `addr.request_execution()` (pure_core_classes.py:648-655) -/
  | rrequest (r : Nat)
  /-- `addr.kwargs` (pure_core_classes.py:775-779) -/
  | rkwargs (r : Nat)
  /-- `addr.drop_execution_request()` (pure_core_classes.py:658-661) -/
  | rdrop (r : Nat)
  /-- another process completes the call `f(**vals)` in portal `p` with value `u` -/
  | foreignResult (p : PortalId) (f : FnId) (vals : List (String × U)) (u : U)
  /-- another process requests the call `f(**vals)` in portal `p` -/
  | foreignRequest (p : PortalId) (f : FnId) (vals : List (String × U))
  /-- another process drops a request -/
  | foreignDrop (p : PortalId) (k : Key A)

variable {U A : Type} [DecidableEq U] [DecidableEq A] (addrOf : Val U A → A)

/-- the text of the address of the call `f(**vals)`: names sorted, then function name and the hash of
the signature (pure_core_classes.py:549-559) -/
def keyOf (f : FnId) (vals : List (String × U)) : Key A :=
  (f, addrOf (.sig f (addrOf (.fn f))
    (addrOf (.args ((sortKw vals).map fun x => (x.1, addrOf (.user x.2)))))))

/-- another process stores the result of a call: the value, then the result record, each unless there
is an entry already (first_entry_dict.py) -/
def putResult (p : PortalId) (f : FnId) (vals : List (String × U)) (u : U) (s : PWorld U A) :
    PWorld U A :=
  let s := (storeSet p (addrOf (.user u)) (.user u) s).2
  let entry : Key A → Option A := fun k =>
    if k = keyOf addrOf f vals then some (addrOf (.user u)) else none
  { s with ext := { s.ext with
      results := fun q => if q = p
        then { s.ext.results q with data := fun k => ((s.ext.results q).data k).or (entry k) }
        else s.ext.results q } }

/-- the state after the step (also when the operation raises) (pure_core_classes.py:374-491, 637-718, value_addresses.py:26-61, 142-153) -/
def POp.step (prog : FnId → Fn U) (s : PWorld U A) : POp U A → PWorld U A
  | .val op => op.step addrOf s
  | .call p n f kw => (exec addrOf prog p n f kw s).2
  | .address p f kw => (getAddress addrOf p f kw s).2
  | .swarm p f kw => (Pure.swarm addrOf p f kw s).2
  | .run n p f kw => (Pure.run addrOf prog n p f kw s).2
  | .swarmList sh p f l => (Pure.swarmList addrOf sh p f l s).2
  | .runList n sh1 sh2 p f l => (Pure.runList addrOf prog n sh1 sh2 p f l s).2
  | .fromKey p k => (rFromKey p k s).2
  | .rexec n r => (rExecute addrOf prog n r s).2
  | .rget r => (rGet addrOf r s).2
  | .rready r => (rReady addrOf r s).2
  | .rrequest r => (rRequest addrOf r s).2
  | .rkwargs r => (rKwargs r s).2
  | .rdrop r => (rDrop r s).2
  | .foreignResult p f vals u => putResult addrOf p f vals u s
  | .foreignRequest p f vals =>
    { s with ext := { s.ext with requests := upd2 s.ext.requests p (keyOf addrOf f vals) true } }
  | .foreignDrop p k =>
    { s with ext := { s.ext with requests := upd2 s.ext.requests p k false } }

/-- a history (histories of pure_core_classes.py:374-491, 637-718) -/
def session (prog : FnId → Fn U) (s : PWorld U A) (ops : List (POp U A)) : PWorld U A :=
  ops.foldl (POp.step addrOf prog) s

end Pyth.Pure
