import Verif.Spec.SwarmDone
/-!
# Calls that wait for other calls (specification for C97)
-/
namespace Pyth.Parts
open Pyth.Pure (Val FnId)

variable {U A P : Type} [DecidableEq P] [DecidableEq A]

/-- at some time some process waits in `addr.get()` without a timeout, for an address object of portal `p` with text `a` -/
def Awaited (σ : Nat → State U A P) (p : P) (a : A) : Prop := ∃ n i os, ((σ n).procs i).mode = .io (.wait p os a)

/-- the steps of the processes in `I` only, none of which dies -/
inductive Among (h : Val U A → A) (code : FnId → List (String × Val U A) → Code U A P) (travel : Prop)
    (knows : P → List P → Prop) (I : Nat → Prop) (s : State U A P) : State U A P → Prop
  | refl : Among h code travel knows I s s
  | step {t u} (i) (hi : I i) (x : Among h code travel knows I s t) (y : Act h code travel knows i t u) :
      Among h code travel knows I s u

end Pyth.Parts
