import Verif.Model.World
/-!
# `ValueAddr` (`pythagoras/_030_data_portals/value_addresses.py`) and `HashAddr.from_strings`

`addrOf v` is the address text of value `v` (modelled in detail in `Verif.Model.HashAddr`); here it
is an arbitrary function.
-/
namespace Pyth.ValueAddr
open Pyth.World Pyth.Portal

variable {A V E : Type} [DecidableEq A] [DecidableEq V] (addrOf : V → A)

/-- the loop of `get_from_noncurrent_portals` (value_addresses.py:126-139) over the list of portals;
`o` is `self` as it was when the loop started (its text and portal never change) -/
def getLoop (i : Nat) (o : AddrObj A V) : List PortalId → M A V E V
  | [] => raiseNew .keyError
  | q :: qs => fun s =>
    -- try: ... return result
    match (do
        let r ← withP q (storeGet q o.chain)
        withOpt o.portal (fun p => storeSet p o.chain r)
        updObj i (fun x => { x with value := some r })
        pure r : M A V E V) s with
    | (.ok r, s') => (.ok r, s')
    -- except: continue
    | (.error _, s') => getLoop i o qs s'

/-- `get_from_noncurrent_portals` (value_addresses.py:126-139) -/
def getFromNoncurrent (i : Nat) : M A V E V := do
  let o ← readObj i
  let s ← PyM.get
  getLoop i o (noncurrentList s)

/-- `get_from_current_portal` (value_addresses.py:114-123) -/
def getFromCurrent (i : Nat) : M A V E V := do
  let o ← readObj i
  match o.value with
  | some v => pure v
  | none => withOpt o.portal (fun p => do
      let r ← storeGet p o.chain
      updObj i (fun x => { x with value := some r })
      pure r)

/-- `ValueAddr.get` (value_addresses.py:142-153) -/
def get (i : Nat) : M A V E V := do
  let o ← readObj i
  match o.value with
  | some v => pure v
  | none => tryE (getFromCurrent i) (fun _ => getFromNoncurrent i)

/-- `get_typed` (value_addresses.py:156-163): `isinst` is `isinstance(_, expected_type)`; the timeout is not
modelled (it is only passed on, and `get` does not use it) -/
def getTyped (isinst : V → Bool) (i : Nat) : M A V E V := do
  let v ← get i
  if isinst v then pure v else raiseNew .assertionError

/-- the loop of `_ready_in_noncurrent_portals` (value_addresses.py:88-97) -/
def readyLoop (i : Nat) (o : AddrObj A V) : List PortalId → M A V E Bool
  | [] => pure false
  | q :: qs => do
    let found ← withP q (do
      let h ← storeHas q o.chain
      if h then do
        let data ← storeGet q o.chain
        withOpt o.portal (fun p => storeSet p o.chain data)
        updObj i (fun x => { x with ready := true })
        pure true
      else pure false)
    if found then pure true else readyLoop i o qs

/-- `ready` (value_addresses.py:100-111, with 76-85) -/
def ready (i : Nat) : M A V E Bool := do
  let o ← readObj i
  if o.ready then pure true
  else do
    let p ← needPortal o.portal
    let h ← storeHas p o.chain
    if h then do
      updObj i (fun x => { x with ready := true })
      pure true
    else do
      let s ← PyM.get
      let r ← readyLoop i o (noncurrentList s)
      if r then do
        updObj i (fun x => { x with ready := true })
        pure true
      else pure false

/-- `ValueAddr(v, portal)` for a value `v` that has no `get_ValueAddr` method
(value_addresses.py:26-61) -/
def new (v : V) (suggested : Option PortalId) : M A V E Nat := do
  let p ← bestPortal suggested
  withP p (pure ())                       -- lines 38-39: `with portal: if hasattr(...)` fails
  let i ← alloc { chain := addrOf v, portal := some p }
  withP p (storeSet p (addrOf v) v)
  updObj i (fun x => { x with value := some v, ready := true })
  pure i

/-- `ValueAddr(addr, portal)` for an existing `ValueAddr` object (value_addresses.py:38-49) -/
def conv (j : Nat) (suggested : Option PortalId) : M A V E Nat := do
  let p ← bestPortal suggested
  withP p (do
    let d ← readObj j
    let i ← alloc { chain := d.chain, portal := some p }
    let h ← storeHas p d.chain
    if (some p ≠ d.portal) ∧ h = false then do
      let data ← get j
      storeSet p d.chain data
      updObj i (fun x => { x with ready := true })
      pure i
    else do
      updObj i (fun x => { x with ready := true })
      pure i)

/-- `ValueAddr.from_strings` (hash_addresses.py:73-89) -/
def fromStrings (a : A) (suggested : Option PortalId) (assertReadiness : Bool) : M A V E Nat := do
  let p ← bestPortal suggested
  let i ← alloc { chain := a, portal := some p }
  if assertReadiness then do
    let r ← ready i
    if r then pure i else raiseNew .assertionError
  else pure i

/-- `__copy__` (value_addresses.py:174-180) -/
def copy (i : Nat) : M A V E Nat := do
  let o ← readObj i
  fromStrings o.chain o.portal false

/-- `__setstate__` of the pickled state of object `i` (value_addresses.py:165-172 and
`capture_portal`, portal_aware_classes.py:32-38) -/
def unpickle (i : Nat) : M A V E Nat := do
  let o ← readObj i
  let s ← PyM.get
  alloc { chain := o.chain, portal := s.sys.stack.head? }

/-- One step of an arbitrary history of a session: any operation on any object, portal
creation, entering/leaving portals (also out of order), entering/leaving `except` clauses, another
process storing a value into a shared portal. (value_addresses.py:26-179, foundation.py:54-64, 112-139) -/
inductive Op (V A : Type)
  | new (v : V) (p : Option PortalId)
  | conv (i : Nat) (p : Option PortalId)
  | fromStrings (a : A) (p : Option PortalId) (check : Bool)
  | copy (i : Nat)
  | unpickle (i : Nat)
  | get (i : Nat)
  | ready (i : Nat)
  | newPortal (p : PortalId)
  | enter (p : PortalId)
  | exit (p : PortalId)
  | beginExcept (k : Kind)
  | endExcept
  | foreign (p : PortalId) (v : V)

/-- the state after the step (also when the operation raises) (value_addresses.py:26-179, foundation.py:54-64, 112-139) -/
def Op.step (w : World A V E) : Op V A → World A V E
  | .new v p => (ValueAddr.new addrOf v p w).2
  | .conv i p => (ValueAddr.conv i p w).2
  | .fromStrings a p c => (ValueAddr.fromStrings a p c w).2
  | .copy i => (ValueAddr.copy i w).2
  | .unpickle i => (ValueAddr.unpickle i w).2
  | .get i => (ValueAddr.get i w).2
  | .ready i => (ValueAddr.ready i w).2
  | .newPortal p => { w with sys := register w.sys p }
  | .enter p => (enterP p w).2
  | .exit p => (exitP p w).2
  | .beginExcept k => { w with handling := ⟨w.nextExc, k⟩ :: w.handling, nextExc := w.nextExc + 1 }
  | .endExcept => { w with handling := w.handling.tail }
  | .foreign p v => (storeSet p (addrOf v) v w).2

/-- a history (histories of value_addresses.py:26-179) -/
def run (w : World A V E) (ops : List (Op V A)) : World A V E := ops.foldl (Op.step addrOf) w

end Pyth.ValueAddr
