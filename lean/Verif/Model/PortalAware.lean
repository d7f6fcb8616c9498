import Verif.Model.PortalStack
/-!
# Pickling and copying of portal-aware objects (`pythagoras/_010_basic_portals/portal_aware_classes.py`)
-/
namespace Pyth.Aware
open Pyth.Portal

/-- The classes of objects that differ in pickling, copying or the `portal` property.  `ValueAddr` returns the stored portal
as it is (value_addresses.py:71-73); the other portal-aware classes capture one when they have none
(portal_aware_classes.py:24-28; pure_core_classes.py:532-534, 562-563). -/
inductive Kind
  /-- any object that does not know portals: numbers, strings, lists, … -/
  | data
  | valueAddr
  | resultAddr
  | callSignature
  /-- an autonomous or pure function -/
  | function
  /-- an ordinary or safe function -/
  | ordinaryFn
  | portal
  deriving DecidableEq, Repr

/-- the class is portal-aware, and its objects can be pickled (portal_aware_classes.py:6-18) -/
def Kind.aware : Kind → Bool
  | .valueAddr | .resultAddr | .callSignature | .function => true
  | _ => false

/-- exceptions (portal_aware_classes.py:20-62) -/
inductive PErr
  /-- `NotAllowedError("Portal objects cannot be pickled.")` -/
  | notAllowed
  /-- `NotImplementedError("OrdinaryFn objects are not pickable.")` -/
  | notImplemented
  /-- `None.known_functions` -/
  | attributeError
  /-- a failed `assert` in the choice of a portal -/
  | assertionError
  /-- a value is in no known portal -/
  | keyError
  deriving DecidableEq, Repr

/-- An object: class, its own strings (address strings, names, sources, numbers), the objects it refers to (elements of a
list, addresses inside a call signature), its `_portal` (if portal-aware). Caches are not pickled and not modelled.
(portal_aware_classes.py:6-37) -/
inductive Obj
  | mk (kind : Kind) (strs : List String) (children : List Obj) (portal : Option PortalId)

/-- Pickled data (what `__getstate__` returns, recursively) (portal_aware_classes.py:39-47) -/
inductive Data
  | mk (kind : Kind) (strs : List String) (children : List Data)

/-- the exception that `__getstate__` and `__setstate__` of a class always raise (foundation.py:231-235,
ordinary_core_classes.py:202-206) -/
def Kind.refusal : Kind → Option PErr
  | .portal => some .notAllowed
  | .ordinaryFn => some .notImplemented
  | _ => none

mutual
/-- `__getstate__` (value_addresses.py:165-167, pure_core_classes.py:273-286, 515-521, 591-593,
autonomous_core_classes.py:318-327): the object's own data, no portal.  Completing the registration of a pure function, which
is part of it, is modelled in `Verif.Model.Registry` (`pickle`). -/
def pickle : Obj → Except PErr Data
  | .mk k ss cs _ => match k.refusal with
    | some e => .error e
    | none => match pickleL cs with
      | .error e => .error e
      | .ok ds => .ok (.mk k ss ds)
/-- the parts of an object, one after the other (portal_aware_classes.py:39-47) -/
def pickleL : List Obj → Except PErr (List Data)
  | [] => .ok []
  | o :: os => match pickle o with
    | .error e => .error e
    | .ok d => match pickleL os with
      | .error e => .error e
      | .ok ds => .ok (d :: ds)
end

/-- `__setstate__` of one object whose parts exist (value_addresses.py:169-172, pure_core_classes.py:288-316, 523-530, 583-588,
autonomous_core_classes.py:329-338): restore the data, `_portal = None`, `capture_portal()`, i.e. the most recently
entered portal (portal_aware_classes.py:31-37).  Functions are registered in that portal at once
(`_begin_fn_registration`, autonomous_core_classes.py:146-151), which needs one; whether the registration is accepted is
modelled in `Verif.Model.Registry` (`restore`). -/
def setState (s : Sys) (k : Kind) (ss : List String) (cs : List Obj) : Except PErr Obj :=
  match k.refusal with
  | some e => .error e
  | none =>
    if k = .function ∧ s.stack = [] then .error .attributeError
    else .ok (.mk k ss cs (if k.aware then s.stack.head? else none))

mutual
/-- Unpickling: the parts first, in the same context (portal_aware_classes.py:49-58) -/
def unpickle (s : Sys) : Data → Except PErr Obj
  | .mk k ss cs => match unpickleL s cs with
    | .error e => .error e
    | .ok os => setState s k ss os
/-- the parts, one after the other (portal_aware_classes.py:49-58) -/
def unpickleL (s : Sys) : List Data → Except PErr (List Obj)
  | [] => .ok []
  | d :: ds => match unpickle s d with
    | .error e => .error e
    | .ok o => match unpickleL s ds with
      | .error e => .error e
      | .ok os => .ok (o :: os)
end

/-- the `portal` property: its value, and the object afterwards (portal_aware_classes.py:24-37) -/
def portalOf (s : Sys) : Obj → Option PortalId × Obj
  | .mk .valueAddr ss cs p => (p, .mk .valueAddr ss cs p)
  | .mk k ss cs (some p) => (some p, .mk k ss cs (some p))
  | .mk k ss cs none => (s.stack.head?, .mk k ss cs s.stack.head?)

/-- `HashAddr.__eq__` (hash_addresses.py:106-108): same class and same strings -/
def addrEq : Obj → Obj → Bool
  | .mk k ss _ _, .mk k' ss' _ _ => k == k' && ss == ss'

/-- `HashAddr.__ne__` (hash_addresses.py:110-112) -/
def addrNe (o o' : Obj) : Bool := !addrEq o o'

/-- `copy.copy(o)`: `ValueAddr.__copy__` (value_addresses.py:174-180: an address with the same strings for the portal of the
original, or for the best portal, hash_addresses.py:70-86, portal_aware_classes.py:20-21), `PortalAwareClass.__copy__` for the
others (portal_aware_classes.py:60-63: `__setstate__(__getstate__())`, the parts are not copied); objects without portals are
copied by Python, portals and ordinary functions through their `__getstate__`. -/
def copy (level : PortalId → Nat) (dflt : Sys → PortalId × Sys) (s : Sys) : Obj → Except PErr Obj × Sys
  | .mk .valueAddr ss cs p => match bestPortal level dflt p s with
    | .error _ => (.error .assertionError, s)
    | .ok (q, s') => (.ok (.mk .valueAddr ss cs (some q)), s')
  | .mk .data ss cs p => (.ok (.mk .data ss cs p), s)
  | .mk k ss cs _ => (setState s k ss cs, s)

/-- `copy.deepcopy(o)`: Python copies the result of `__getstate__` recursively and passes it to `__setstate__`; what occurs
twice in an object is copied once (sharing is not modelled) (portal_aware_classes.py:39-62) -/
def deepcopy (s : Sys) (o : Obj) : Except PErr Obj :=
  match pickle o with
  | .error e => .error e
  | .ok d => unpickle s d

/-! ## Storing objects -/

/-- the value stores of all portals; the text of an address is the hash of the pickled object
(data_portals.py:35-53, value_addresses.py:57-61) -/
def Stores (A : Type) : Type := PortalId → A → Option Data

variable {A : Type} [DecidableEq A] (hash : Data → A)

/-- `ValueAddr(o)` for portal `p` (value_addresses.py:52-60): the hash signature is computed from the pickled object
(hash_signatures.py:13-19) before anything is stored -/
def put (p : PortalId) (o : Obj) (m : Stores A) : Except PErr A × Stores A :=
  match pickle o with
  | .error e => (.error e, m)
  | .ok d => (.ok (hash d), fun q a => if q = p ∧ a = hash d then some d else m q a)

/-- the context in a block `with q:` (foundation.py:112-120) -/
def within (q : PortalId) (s : Sys) : Sys := (Portal.enter q s).toOption.getD s

/-- the loop of `get_from_noncurrent_portals` (value_addresses.py:130-138) for an address `a` of portal `p`: the value is read
in a block of the portal that has it, and stored (pickled again) in `p`; every exception leads to the next portal -/
def getElsewhere (s : Sys) (p : PortalId) (a : A) (m : Stores A) : List PortalId → Except PErr Obj × Stores A
  | [] => (.error .keyError, m)
  | q :: qs => match m q a with
    | none => getElsewhere s p a m qs
    | some d => match unpickle (within q s) d with
      | .error _ => getElsewhere s p a m qs
      | .ok o => match pickle o with
        | .error _ => getElsewhere s p a m qs
        | .ok d' => (.ok o, fun q' a' => if q' = p ∧ a' = a then some d' else m q' a')

/-- the portals of `get_noncurrent_portals` (foundation.py:176-192); all portals are of class `DataPortal` or below here
(see C91 for others) -/
def others (s : Sys) : List PortalId := (noncurrent (fun _ => 0) 0 s).toOption.getD []

/-- `addr.get()` for an address `a` of portal `p` without caches (value_addresses.py:114-153): the value is read in a block of
`p` -/
def get (p : PortalId) (a : A) (s : Sys) (m : Stores A) : Except PErr Obj × Stores A :=
  match m p a with
  | some d => match unpickle (within p s) d with
    | .ok o => (.ok o, m)
    | .error _ => getElsewhere s p a m (others s)
  | none => getElsewhere s p a m (others s)

/-- what a program does: enters, leaves, creates portals (also in disorder), stores objects, reads addresses
(foundation.py:54-64, 112-139, value_addresses.py:26-61, 142-153) -/
inductive Op (A : Type)
  | context (c : Call)
  | put (p : PortalId) (o : Obj)
  | get (p : PortalId) (a : A)

/-- one operation; an exception ends the operation only (foundation.py:54-64, 112-139, value_addresses.py:26-61, 142-153) -/
def step (x : Sys × Stores A) : Op A → Sys × Stores A
  | .context c => (Call.step x.1 c, x.2)
  | .put p o => (x.1, (put hash p o x.2).2)
  | .get p a => (x.1, (get p a x.1 x.2).2)

/-- a history, from the start of a program with empty stores (foundation.py:54-64, 112-139, value_addresses.py:26-61, 142-153) -/
def history (h : List (Op A)) : Sys × Stores A := h.foldl (step hash) ({}, fun _ _ => none)

end Pyth.Aware
