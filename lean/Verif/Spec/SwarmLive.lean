import Verif.Spec.SwarmParts
/-!
# What it means that a process gets something done (specification for C90)
-/
namespace Pyth.Parts
open Pyth.Pure (Val FnId)

variable {U A P : Type} [DecidableEq P] [DecidableEq A]

/-- the other processes take any number of steps (and may die); process `i` does nothing -/
inductive Others (h : Val U A → A) (code : FnId → List (String × Val U A) → Code U A P)
    (travel : Prop) (knows : P → List P → Prop) (i : Nat) (s : State U A P) : State U A P → Prop
  | refl : Others h code travel knows i s s
  | step {t u} (j) (hj : j ≠ i) (x : Others h code travel knows i s t) (y : Step h code travel knows j t u) :
      Others h code travel knows i s u

/-- the process has nothing to do: it is idle, or its script has ended -/
def Resting (x : Proc U A P) : Prop :=
  x.mode = .idle ∨ (((∃ v, x.mode = .code (.ret v)) ∨ x.mode = .code .raise) ∧ x.stack = [])

/-- Process `i`, if it is not killed, comes to a state in `G` after a finite number of its own steps, whatever the others
do in between; until then it is never stuck, and never at rest. -/
inductive Will (h : Val U A → A) (code : FnId → List (String × Val U A) → Code U A P)
    (travel : Prop) (knows : P → List P → Prop) (i : Nat) (G : State U A P → Prop) : State U A P → Prop
  | now (s) (g : G s) : Will h code travel knows i G s
  | later (s) (busy : ¬ Resting (s.procs i)) (can : ∀ s', Others h code travel knows i s s' → ∃ t, Act h code travel knows i s' t)
      (all : ∀ s' t, Others h code travel knows i s s' → Act h code travel knows i s' t → Will h code travel knows i G t) :
      Will h code travel knows i G s

/-- `σ` is an infinite execution, `who n` the process that takes step `n`; unless it is at rest, process
`i` is not killed, and takes a step at some later time -/
structure Alive (h : Val U A → A) (code : FnId → List (String × Val U A) → Code U A P)
    (travel : Prop) (knows : P → List P → Prop) (i : Nat) (σ : Nat → State U A P) (who : Nat → Nat) : Prop where
  step : ∀ n, Step h code travel knows (who n) (σ n) (σ (n + 1))
  own : ∀ n, who n = i → ¬ Resting ((σ n).procs i) → Act h code travel knows i (σ n) (σ (n + 1))
  again : ∀ n, ¬ Resting ((σ n).procs i) → ∃ m, n ≤ m ∧ who m = i

/-- Evaluating the code comes to an end, with every reply that the evaluation of its operations can give.  Calls for the
results of which it waits without a timeout (only if `waits`) do not raise: the exception would not reach it. -/
inductive Halts (h : Val U A → A) (code : FnId → List (String × Val U A) → Code U A P) (waits : Prop) : Code U A P → Prop
  | ret (v) : Halts h code waits (.ret v)
  | raise : Halts h code waits .raise
  | op (c next) (run : ∀ f vs, Runs h c f vs → Halts h code waits (code f vs))
      (may : ∀ p os a, c = .getResult p os a none → waits)
      (call : ∀ p os f vs, c = .getResult p os (callOf h f vs) none → Halts h code waits (code f vs))
      (well : ∀ p os f vs, c = .getResult p os (callOf h f vs) none → ¬ Outcome h code True (code f vs) .raised)
      (rest : ∀ r, Answer h code True c r → Halts h code waits (next r)) : Halts h code waits (.op c next)

/-- The code uses only address objects that it got itself (`vs`: of values, `rs`: of results of calls), in portals that its
process may use. -/
inductive Lawful (h : Val U A → A) (code : FnId → List (String × Val U A) → Code U A P) (travel : Prop)
    (knows : P → List P → Prop) : List (P × A) → List (P × A) → Code U A P → Prop
  | ret (vs rs v) : Lawful h code travel knows vs rs (.ret v)
  | raise (vs rs) : Lawful h code travel knows vs rs .raise
  | op (vs rs c next) (legal : ∃ p os, Legal travel knows vs rs (c.at p os))
      (rest : ∀ r, Answer h code True c r → Lawful h code travel knows (r.vaddrs ++ vs) (r.raddrs ++ rs) (next r)) :
      Lawful h code travel knows vs rs (.op c next)

end Pyth.Parts
