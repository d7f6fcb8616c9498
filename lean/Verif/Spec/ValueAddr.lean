import Verif.Model.ValueAddr
/-!
# Vocabulary for the properties of value addresses (C14–C19)
-/
namespace Pyth.ValueAddr
open Pyth.World Pyth.Portal

variable {A V E : Type} [DecidableEq A] [DecidableEq V]

/-- A fresh session: no portal entered, no address object yet.  The portals may already hold data of
earlier sessions or other programs, filed under the right addresses. -/
structure Start (addrOf : V → A) (w : World A V E) : Prop where
  stack : w.sys.stack = []
  counters : w.sys.counters = []
  heap : w.heap = []
  stored : ∀ p a v, (w.store p).data a = some v → addrOf v = a

/-- portal `p` holds value `v` under address text `a` -/
def HoldsVal (w : World A V E) (p : PortalId) (a : A) (v : V) : Prop := (w.store p).data a = some v

/-- object `i` is an address with text `a`, bound to portal `p` -/
def IsAddr (w : World A V E) (i : Nat) (a : A) (p : Option PortalId) : Prop :=
  ∃ o, w.heap[i]? = some o ∧ o.chain = a ∧ o.portal = p

/-- the portal is known to the session but is not the most recently entered one -/
def KnownNoncurrent (w : World A V E) (q : PortalId) : Prop :=
  q ∈ w.sys.all ∧ w.sys.stack.head? ≠ some q

/-- A history in which an address object is converted by `ValueAddr(addr)` only when the object is
known to be ready (created from a value, or a readiness check succeeded on it before). -/
def SafeHistory (addrOf : V → A) : World A V E → List (Op V A) → Prop
  | _, [] => True
  | w, op :: ops =>
    (∀ j p, op = .conv j p → ∀ o, w.heap[j]? = some o → o.ready = true) ∧
    SafeHistory addrOf (op.step addrOf w) ops

end Pyth.ValueAddr
