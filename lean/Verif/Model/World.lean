import Verif.Model.PortalStack
import Verif.Model.FirstEntry
/-!
# The running session: portal context, value stores, address objects, exceptions and crash logs

Everything a Pythagoras operation reads or writes at run time.  `A` is the type of address texts
(the pair prefix/hash signature), `V` the type of storable values, `E` additional state used by
higher layers (pure functions) and not touched by the operations defined here.

Simplifications: all portals are (at least) `DataPortal`s, so the class assertions of the portal
getters never fail; reading a stored value back from disk gives the same value; crash records keep
only which exception was logged under which kind of path (their unique random id, traceback and
environment summary are not modelled).
-/
namespace Pyth.World
open Pyth.Portal (PortalId Sys)

/-- classes of exceptions (raised in logging_portals.py, value_addresses.py, pure_core_classes.py and by user code) -/
inductive Kind
  | keyError | assertionError | indexError | typeError | attributeError | timeoutError
  | storageError
  | user (n : Nat)
  deriving DecidableEq, Repr

/-- an exception object: identity and class (logging_portals.py:267-296) -/
structure Exc where
  id : Nat
  kind : Kind
  deriving DecidableEq, Repr

/-- one entry of a crash history: which exception, and under which prefix
(`none` = `__CATCH_ALL__`, `some f` = the prefix of function `f`) (logging_portals.py:223-265) -/
structure CrashRec where
  exc : Nat
  fn : Option Nat
  deriving DecidableEq, Repr

/-- a `ValueAddr` object (value_addresses.py:13-171): its text, `_portal` (`none` = Python `None`),
the cache attributes `_value` and `_ready` (`false` = attribute absent; the code never stores
`False` in it) -/
structure AddrObj (A V : Type) where
  chain : A
  portal : Option PortalId
  value : Option V := none
  ready : Bool := false
  deriving DecidableEq, Repr

/-- a session: the portal context, the stores and crash histories of all portals, the address objects, the marks of exceptions
(foundation.py:48-50, logging_portals.py:120-139, data_portals.py:35-53) -/
structure World (A V E : Type) where
  sys : Sys := {}
  /-- `portal.value_store` (data_portals.py:48-54) -/
  store : PortalId → FirstEntry.Dict A V
  /-- address objects; the object id is the position -/
  heap : List (AddrObj A V) := []
  /-- exceptions being handled, innermost first: `sys.exc_info()` is the head -/
  handling : List Exc := []
  /-- identity of the next exception object -/
  nextExc : Nat := 0
  /-- exceptions carrying the note `__suppress_logging__` -/
  marked : List Nat := []
  /-- `portal.crash_history` -/
  crashes : PortalId → List CrashRec
  /-- the random numbers that will be drawn, and how many were drawn already -/
  draws : Nat → Rat
  nd : Nat := 0
  /-- the portal that `get_default_portal` would create -/
  dflt : PortalId := 0
  ext : E

/-- a Python computation over the session (for logging_portals.py:310-330, value_addresses.py:26-179) -/
abbrev M (A V E α : Type) := PyM Exc (World A V E) α

variable {A V E α : Type} [DecidableEq A] [DecidableEq V]

/-- `raise` of a new exception object (user code, and the assertions of value_addresses.py) -/
def raiseNew (k : Kind) : M A V E α := fun s =>
  (.error ⟨s.nextExc, k⟩, { s with nextExc := s.nextExc + 1 })

/-- exceptions of the portal context as exception objects (foundation.py:112-133) -/
def ctxKind : Portal.Err → Kind
  | .indexError => .indexError
  | .assertionError => .assertionError
  | .user n => .user n

/-- `portal.__enter__()` (foundation.py:112-120) -/
def enterP (p : PortalId) : M A V E Unit := fun s =>
  match Portal.enter p s.sys with
  | .ok sys => (.ok (), { s with sys := sys })
  | .error e => raiseNew (ctxKind e) s

/-- `LoggingPortal.get_entered_portals()` (logging_portals.py:180-182) -/
def enteredList (s : World A V E) : List PortalId := s.sys.stack.foldl Portal.dictInsert []

/-- `_persist_exception_information` (logging_portals.py:222-258): record exception `e` in every
entered portal once per prefix, then mark it; nothing happens for an already marked exception
(`_exception_needs_to_be_processed`, lines 277-291). -/
def persistExc (prefixes : List (Option Nat)) (e : Exc) (s : World A V E) : World A V E :=
  if e.id ∈ s.marked then s
  else { s with
    crashes := fun p => if p ∈ enteredList s
      then s.crashes p ++ prefixes.map (fun f => ⟨e.id, f⟩) else s.crashes p
    marked := e.id :: s.marked }

/-- `LoggingPortal._exception_logger` (logging_portals.py:309-323): looks at `sys.exc_info()` -/
def exceptionLogger (s : World A V E) : World A V E :=
  match s.handling with
  | [] => s
  | e :: _ => persistExc [none] e s

/-- `LoggingPortal.__exit__` (logging_portals.py:326-329) followed by `BasicPortal.__exit__` -/
def exitP (p : PortalId) : M A V E Unit := fun s =>
  let s := exceptionLogger s
  match Portal.exit p s.sys with
  | .ok sys => (.ok (), { s with sys := sys })
  | .error e => raiseNew (ctxKind e) s

/-- while `m` runs, `sys.exc_info()` is `e` (read by logging_portals.py:310-330) -/
def handlingE (e : Exc) (m : M A V E α) : M A V E α := fun s =>
  match m { s with handling := e :: s.handling } with
  | (r, s') => (r, { s' with handling := s'.handling.tail })

/-- `try: m except: h` — the handler runs with the exception as `sys.exc_info()` (user code) -/
def tryE (m : M A V E α) (h : Exc → M A V E α) : M A V E α := fun s =>
  match m s with
  | (.ok a, s') => (.ok a, s')
  | (.error e, s') => handlingE e (h e) s'

/-- `with p: body`.  `__exit__` returns False: the exception of the body propagates, unless
`__exit__` raises itself. (foundation.py:112-133, logging_portals.py:326-330) -/
def withP (p : PortalId) (body : M A V E α) : M A V E α := fun s =>
  match enterP p s with
  | (.error e, s') => (.error e, s')
  | (.ok _, s') => match body s' with
    | (.ok a, s'') => match exitP p s'' with
      | (.ok _, s3) => (.ok a, s3)
      | (.error e, s3) => (.error e, s3)
    | (.error e, s'') => match handlingE e (exitP p) s'' with
      | (.ok _, s3) => (.error e, s3)
      | (.error e', s3) => (.error e', s3)

/-- `get_best_portal_to_use` (foundation.py:161-172); the default local portal is registered when
no portal exists (its construction is not modelled here). -/
def bestPortal (suggested : Option PortalId) : M A V E PortalId := fun s =>
  match suggested with
  | some p => (.ok p, s)
  | none => match s.sys.stack with
    | p :: _ => (.ok p, s)
    | [] => match s.sys.all.getLast? with
      | some p => (.ok p, s)
      | none => (.ok s.dflt, { s with sys := Portal.register s.sys s.dflt })

/-- `DataPortal.get_noncurrent_portals()` (foundation.py:176-192) -/
def noncurrentList (s : World A V E) : List PortalId :=
  match s.sys.stack with
  | [] => s.sys.all
  | c :: _ => s.sys.all.filter (fun p => p != c)

/-- `with x:` where `x` may be Python's `None` (value_addresses.py:142-153) -/
def withOpt (p : Option PortalId) (body : PortalId → M A V E α) : M A V E α :=
  match p with
  | some p => withP p (body p)
  | none => raiseNew .typeError

/-- `x.value_store` where `x` may be Python's `None` (value_addresses.py:77-153) -/
def needPortal (p : Option PortalId) : M A V E PortalId :=
  match p with
  | some p => PyM.ret p
  | none => raiseNew .attributeError

/-! ### value stores -/

/-- exceptions of the stores as exceptions of the session (first_entry_dict.py:33-70) -/
def storeKind : FirstEntry.Err → Kind
  | .storage => .storageError
  | .inconsistent => .assertionError
  | .missing => .assertionError

/-- `portal.value_store[a] = v` (`FirstEntryDict.__setitem__`, without storage faults)
(value_addresses.py:57-61, first_entry_dict.py:33-70) -/
def storeSet (p : PortalId) (a : A) (v : V) : M A V E Unit := fun s =>
  let o : FirstEntry.Op A V := ⟨a, v, s.draws s.nd, .none, .none⟩
  match FirstEntry.setItem o (s.store p) with
  | (r, d) =>
    let s := { s with nd := s.nd + 1, store := fun q => if q = p then d else s.store q }
    match r with
    | .ok _ => (.ok (), s)
    | .error e => raiseNew (storeKind e) s

/-- `portal.value_store[a]` (value_addresses.py:114-123) -/
def storeGet (p : PortalId) (a : A) : M A V E V := fun s =>
  match (s.store p).data a with
  | some v => (.ok v, s)
  | none => raiseNew .keyError s

/-- `a in portal.value_store` (value_addresses.py:77-86) -/
def storeHas (p : PortalId) (a : A) : M A V E Bool := fun s =>
  (.ok ((s.store p).data a).isSome, s)

/-! ### address objects -/

/-- create an address object (value_addresses.py:26-61) -/
def alloc (o : AddrObj A V) : M A V E Nat := fun s =>
  (.ok s.heap.length, { s with heap := s.heap ++ [o] })

/-- read the attributes of an object; a non-existing object cannot be named by a Python program
(modelled as an attribute error) (value_addresses.py:63-153) -/
def readObj (i : Nat) : M A V E (AddrObj A V) := fun s =>
  match s.heap[i]? with
  | some o => (.ok o, s)
  | none => raiseNew .attributeError s

/-- assign attributes of an object (value_addresses.py:63-153) -/
def updObj (i : Nat) (f : AddrObj A V → AddrObj A V) : M A V E Unit := fun s =>
  (.ok (), { s with heap := s.heap.modify i f })

end Pyth.World
