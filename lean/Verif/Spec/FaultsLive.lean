import Verif.Spec.Faults
import Verif.Spec.SwarmDone
/-!
# Getting something done although accesses of others fail (specification for C106)
-/
namespace Pyth.Parts
open Pyth.Pure (Val FnId)

variable {U A P : Type} [DecidableEq P] [DecidableEq A]

/-- the other processes take any number of steps, may die, and any of their accesses may fail; process `i` does nothing -/
inductive FOthers (h : Val U A → A) (code : FnId → List (String × Val U A) → Code U A P)
    (travel : Prop) (knows : P → List P → Prop) (i : Nat) (s : State U A P) : State U A P → Prop
  | refl : FOthers h code travel knows i s s
  | step {t u} (j) (hj : j ≠ i) (x : FOthers h code travel knows i s t) (y : FStep h code travel knows j t u) :
      FOthers h code travel knows i s u

/-- Process `i`, if it is not killed and its own accesses succeed, comes to a state in `G` after a finite number of its own
steps, whatever the others do, and whatever fails for them, in between; until then it is never stuck, and never at rest. -/
inductive FWill (h : Val U A → A) (code : FnId → List (String × Val U A) → Code U A P)
    (travel : Prop) (knows : P → List P → Prop) (i : Nat) (G : State U A P → Prop) : State U A P → Prop
  | now (s) (g : G s) : FWill h code travel knows i G s
  | later (s) (busy : ¬ Resting (s.procs i)) (can : ∀ s', FOthers h code travel knows i s s' → ∃ t, Act h code travel knows i s' t)
      (all : ∀ s' t, FOthers h code travel knows i s s' → Act h code travel knows i s' t → FWill h code travel knows i G t) :
      FWill h code travel knows i G s

/-- any number of steps of any processes, with crashes; accesses may fail, but not those of process `i` -/
inductive GoodFor (h : Val U A → A) (code : FnId → List (String × Val U A) → Code U A P)
    (travel : Prop) (knows : P → List P → Prop) (i : Nat) (s : State U A P) : State U A P → Prop
  | refl : GoodFor h code travel knows i s s
  | own {t u} (x : GoodFor h code travel knows i s t) (y : Step h code travel knows i t u) : GoodFor h code travel knows i s u
  | other {t u} (j) (hj : j ≠ i) (x : GoodFor h code travel knows i s t) (y : FStep h code travel knows j t u) :
      GoodFor h code travel knows i s u

/-- `σ` is an infinite execution from empty portals in which accesses may fail, `who n` the process that takes step `n` -/
structure FRun (h : Val U A → A) (code : FnId → List (String × Val U A) → Code U A P)
    (travel : Prop) (knows : P → List P → Prop) (σ : Nat → State U A P) (who : Nat → Nat) : Prop where
  start : σ 0 = init
  step : ∀ n, FStep h code travel knows (who n) (σ n) (σ (n + 1))

end Pyth.Parts
