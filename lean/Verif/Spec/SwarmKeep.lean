import Verif.Spec.SwarmParts
/-!
# Requests that are not lost (specification for C92)
-/
namespace Pyth.Parts
open Pyth.Pure (Val FnId)

variable {U A P : Type}

/-- the call with address `a` is requested in portal `p`, or has a result there -/
def Asked (s : Shared U A P) (p : P) (a : A) : Prop := s.requests p a = true ∨ (s.results p a).isSome = true

variable [DecidableEq P] [DecidableEq A]

/-- any number of steps of any processes, with crashes, during which no process calls `addr.drop_execution_request()`
for an address object of portal `p` with text `a` such that `N p a` -/
inductive CalmSteps (h : Val U A → A) (code : FnId → List (String × Val U A) → Code U A P) (travel : Prop)
    (knows : P → List P → Prop) (N : P → A → Prop) : State U A P → State U A P → Prop
  | refl (s) : CalmSteps h code travel knows N s s
  | step {s t u} (i) (x : CalmSteps h code travel knows N s t) (y : Step h code travel knows i t u)
      (calm : (∀ p a next, N p a → (t.procs i).mode ≠ .code (.op (.dropAddr p a) next)) ∨ u = t.setProc i {}) :
      CalmSteps h code travel knows N s u

end Pyth.Parts
