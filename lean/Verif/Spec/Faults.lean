import Verif.Model.Faults
import Verif.Spec.SwarmParts
/-!
# Executions in which accesses fail (specification for C105)
-/
namespace Pyth.Parts
open Pyth.Pure (Val FnId)

variable {U A P : Type}

/-- the code catches neither exceptions of operations nor of the functions it calls -/
inductive Uncaught : Code U A P → Prop
  | ret (v) : Uncaught (.ret v)
  | raise : Uncaught .raise
  | op (c next) (failed : next .missing = .raise) (raised : next .raised = .raise) (rest : ∀ r, Uncaught (next r)) :
      Uncaught (.op c next)

variable [DecidableEq P] [DecidableEq A]

/-- reachable from empty portals, by any number of steps of any processes, with crashes and failing accesses -/
def FReachable (h : Val U A → A) (code : FnId → List (String × Val U A) → Code U A P)
    (travel : Prop) (knows : P → List P → Prop) (s : State U A P) : Prop := FSteps h code travel knows init s

/-- the same, during which no process calls `addr.drop_execution_request()` for an address object of portal `p` with text `a` such
that `N p a` -/
inductive FCalmSteps (h : Val U A → A) (code : FnId → List (String × Val U A) → Code U A P) (travel : Prop)
    (knows : P → List P → Prop) (N : P → A → Prop) : State U A P → State U A P → Prop
  | refl (s) : FCalmSteps h code travel knows N s s
  | step {s t u} (i) (x : FCalmSteps h code travel knows N s t) (y : FStep h code travel knows i t u)
      (calm : (∀ p a next, N p a → (t.procs i).mode ≠ .code (.op (.dropAddr p a) next)) ∨ u = t.setProc i {}) :
      FCalmSteps h code travel knows N s u

end Pyth.Parts
