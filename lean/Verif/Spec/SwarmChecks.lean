import Verif.Spec.SwarmParts
/-!
# Executions with consistency checks (specification for C99)
-/
namespace Pyth.Parts
open Pyth.Pure (Val FnId)

variable {U A P : Type}

/-- the portal in which an operation works -/
def Cmd.portal : Cmd U A P → P
  | .store p _ => p
  | .fetch p _ _ => p
  | .getAddress p _ _ _ => p
  | .swarm p _ _ _ => p
  | .swarmList p _ _ _ _ => p
  | .execute p _ _ _ => p
  | .executeAddr p _ _ => p
  | .requestAddr p _ _ => p
  | .dropAddr p _ => p
  | .isReady p _ _ => p
  | .getResult p _ _ _ => p
  | .lookAt p _ _ => p

variable [DecidableEq P] [DecidableEq A]

/-- An execution: all its states, the last one first.  In the processes in `on` consistency checks always take place
(`p_consistency_checks = 1`), in the others by chance. -/
inductive Exec (h : Val U A → A) (code : FnId → List (String × Val U A) → Code U A P)
    (travel : Prop) (knows : P → List P → Prop) (on : Nat → Prop) : List (State U A P) → Prop
  | start : Exec h code travel knows on [init]
  | step {s l} (i u) (x : Exec h code travel knows on (s :: l)) (y : Step h code travel knows i s u)
      (checked : on i → ∀ k, (s.procs i).mode = .io (.toss k) → u = s.goto i (.io (k true)) ∨ u = s.setProc i {}) :
      Exec h code travel knows on (u :: s :: l)

end Pyth.Parts
