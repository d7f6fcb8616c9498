import Verif.Spec.SwarmLive
/-!
# Executions in which requests get served (specification for C93)
-/
namespace Pyth.Parts
open Pyth.Pure (Val FnId)

variable {U A P : Type} [DecidableEq P] [DecidableEq A]

/-- `σ` is an infinite execution from empty portals, `who n` the process that takes step `n` -/
structure Run (h : Val U A → A) (code : FnId → List (String × Val U A) → Code U A P)
    (travel : Prop) (knows : P → List P → Prop) (σ : Nat → State U A P) (who : Nat → Nat) : Prop where
  start : σ 0 = init
  step : ∀ n, Step h code travel knows (who n) (σ n) (σ (n + 1))

/-- nobody ever calls `addr.drop_execution_request()` for an address object of portal `p` with text `a`: a process that
stands at such a call dies -/
def NeverDropped (σ : Nat → State U A P) (who : Nat → Nat) (p : P) (a : A) : Prop :=
  ∀ n next, ((σ n).procs (who n)).mode = .code (.op (.dropAddr p a) next) → σ (n + 1) = (σ n).setProc (who n) {}

/-- In the infinite execution `σ`, from time `m` until process `i` has nothing to do any more: it takes steps again and again, its
accesses to storage succeed, and it is not killed.  What happens to it afterwards does not matter. -/
def AliveFrom (h : Val U A → A) (code : FnId → List (String × Val U A) → Code U A P)
    (travel : Prop) (knows : P → List P → Prop) (i : Nat) (σ : Nat → State U A P) (who : Nat → Nat) (m : Nat) : Prop :=
  ∀ n, m ≤ n → (∀ l, m ≤ l → l ≤ n → ¬ Resting ((σ l).procs i)) →
    (∃ n', n ≤ n' ∧ who n' = i) ∧ (who n = i → Act h code travel knows i (σ n) (σ (n + 1)))

/-- If a request for `a` stays visible in portal `p` from some time on, then some worker of the portal finds it at some
later time, and its accesses succeed, and it is not killed, until it is through with it (many others may fail or die over it). -/
def Served (h : Val U A → A) (code : FnId → List (String × Val U A) → Code U A P)
    (travel : Prop) (knows : P → List P → Prop) (σ : Nat → State U A P) (who : Nat → Nat) (p : P) (a : A) : Prop :=
  ∀ k, (∀ m, k ≤ m → (σ m).sh.requests p a = true) → ∃ m i os, k ≤ m ∧ knows p os ∧ (σ m).procs i = {} ∧
    σ (m + 1) = (σ m).setProc i ⟨.io (work h p os a), [], some a⟩ ∧ AliveFrom h code travel knows i σ who (m + 1)

end Pyth.Parts
