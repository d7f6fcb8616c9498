import Verif.Model.PortalStack
import Mathlib.Logic.Function.Basic
/-!
# Portals of different classes in one program
(value_addresses.py, pure_core_classes.py, foundation.py)

The other models take all known portals to be of one class.  Here every portal has the class it was created with:
portals of class `DataPortal` and below hold values, portals of class `PureCodePortal` and below also hold results.  An
operation that looks for something in other portals goes through *all* known portals except the current one, and first
asserts that all of them are of the class it needs.

Simplifications.  Address objects are given by their portal and text, without caches.  Storing what a call consists of
(function, signature) is not modelled, only the argument values; logging of exceptions is not modelled; a body is an
arbitrary state transformer.  Consistency checks are switched off.
-/
namespace Pyth.Mixed
open Pyth.Portal (PortalId Sys)

variable {A V : Type}

/-- exceptions (value_addresses.py:114-153, pure_core_classes.py:596-635) -/
inductive Err
  /-- a failed `assert isinstance(...)` on the list of portals -/
  | wrongClass
  /-- the portal has no such dictionary (`AttributeError`) -/
  | noDict
  /-- found nowhere (`KeyError`) -/
  | notFound
  /-- raised by the body of a function -/
  | body (n : Nat)
  deriving DecidableEq, Repr

/-- the dictionaries of the portals (data_portals.py:35-53, pure_core_classes.py:52-88) -/
structure Mem (A V : Type) where
  /-- `portal.value_store` -/
  store : PortalId → A → Option V
  /-- `portal.execution_results` -/
  results : PortalId → A → Option A

/-- what does not change during an operation: the known portals, the portals entered, and the classes; `data` and `pure`
are the positions of the classes `DataPortal` and `PureCodePortal` in the chain of portal classes
(foundation.py:48-50, and the overridings of `get_noncurrent_portals`, e.g. data_portals.py:91-94) -/
structure Ctx where
  sys : Sys
  level : PortalId → Nat
  data : Nat
  pure : Nat

/-- the same inside a block `with p:` (foundation.py:112-120); only the current portal matters here -/
def Ctx.within (c : Ctx) (p : PortalId) : Ctx := { c with sys := { c.sys with stack := p :: c.sys.stack } }

variable [DecidableEq A]

/-- `p.value_store[a] = v` (data_portals.py:35-53) -/
def Mem.put (m : Mem A V) (p : PortalId) (a : A) (v : V) : Mem A V :=
  { m with store := Function.update m.store p (Function.update (m.store p) a (some v)) }

/-- `p.execution_results[a] = r`: the first entry stays (first_entry_dict.py:40-53) -/
def Mem.setResult (m : Mem A V) (p : PortalId) (a r : A) : Mem A V :=
  match m.results p a with
  | some _ => m
  | none => { m with results := Function.update m.results p (Function.update (m.results p) a (some r)) }

variable (h : V → A)

/-- `ValueAddr(v)` in portal `p` (value_addresses.py:52-60) -/
def storeValue (c : Ctx) (p : PortalId) (v : V) (m : Mem A V) : Except Err A × Mem A V :=
  if c.data ≤ c.level p then (.ok (h v), m.put p (h v) v) else (.error .noDict, m)

/-- the first of the portals that holds a value for `a` (value_addresses.py:126-139) -/
def firstValue (m : Mem A V) (a : A) : List PortalId → Option V
  | [] => none
  | q :: qs => match m.store q a with
    | some v => some v
    | none => firstValue m a qs

/-- `addr.get()` of a value address of portal `p` (value_addresses.py:114-153): an exception of any kind in the own
portal leads to the other ones -/
def fetch (c : Ctx) (p : PortalId) (a : A) (m : Mem A V) : Except Err V × Mem A V :=
  match m.store p a with
  | some v => (.ok v, m)
  | none => match Portal.noncurrent c.level c.data c.sys with
    | .error _ => (.error .wrongClass, m)
    | .ok qs => match firstValue m a qs with
      | some v => (.ok v, m.put p a v)
      | none => (.error .notFound, m)

/-- the first of the portals that holds a result for `a` (pure_core_classes.py:606-622) -/
def firstResult (m : Mem A V) (a : A) : List PortalId → Option (PortalId × A)
  | [] => none
  | q :: qs => match m.results q a with
    | some r => some (q, r)
    | none => firstResult m a qs

/-- `addr.ready` of a result address of portal `p` (pure_core_classes.py:606-635); the copies of the function and the
arguments are not modelled -/
def ready (c : Ctx) (p : PortalId) (a : A) (m : Mem A V) : Except Err Bool × Mem A V :=
  match m.results p a with
  | some _ => (.ok true, m)
  | none => match Portal.noncurrent c.level c.pure c.sys with
    | .error _ => (.error .wrongClass, m)
    | .ok qs => match firstResult m a qs with
      | none => (.ok false, m)
      | some (q, r) => match m.store q r with
        | none => (.error .notFound, m)
        | some v => (.ok true, (m.put p (h v) v).setResult p a (h v))

/-- storing the values of the arguments (kw_args.py:33-39) -/
def storeArgs (c : Ctx) (p : PortalId) : List V → Mem A V → Except Err Unit × Mem A V
  | [], m => (.ok (), m)
  | v :: vs, m => match storeValue h c p v m with
    | (.error e, m) => (.error e, m)
    | (.ok _, m) => storeArgs c p vs m

/-- `get()` of a result that is ready (pure_core_classes.py:689-692) -/
def readResult (p : PortalId) (a : A) (m : Mem A V) : Except Err V :=
  match m.results p a with
  | none => .error .notFound
  | some r => match m.store p r with
    | none => .error .notFound
    | some v => .ok v

/-- a call `f(**kw)` of a pure function of portal `p` (pure_core_classes.py:404-442) with argument values `vs`; `a`: the
address of the call -/
def call (c : Ctx) (p : PortalId) (a : A) (vs : List V) (body : Mem A V → Except Nat V × Mem A V) (m : Mem A V) :
    Except Err V × Mem A V :=
  match storeArgs h (c.within p) p vs m with
  | (.error e, m) => (.error e, m)
  | (.ok _, m) => match ready h (c.within p) p a m with
    | (.error e, m) => (.error e, m)
    | (.ok true, m) => (readResult p a m, m)
    | (.ok false, m) => match body m with
      | (.error n, m) => (.error (.body n), m)
      | (.ok v, m) => match storeValue h (c.within p) p v m with
        | (.error e, m) => (.error e, m)
        | (.ok r, m) => (.ok v, m.setResult p a r)

end Pyth.Mixed
