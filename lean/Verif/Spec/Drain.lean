import Verif.Model.Drain
/-!
# What it means that workers empty the queue (specification for C98)
-/
namespace Pyth.Drain
open Pyth.Retry Pyth.Scan

variable {K : Type} [DecidableEq K]

/-- an infinite execution, starting without workers at work -/
structure Run (σ : Nat → Sys K) (ev : Nat → Ev K) : Prop where
  start : ∀ i, (σ 0).busy i = .idle
  step : ∀ n, Step (σ n) (ev n) (σ (n + 1))

/-- a scan starts with this event, of worker `i` -/
def Ev.Lists (i : Nat) : Ev K → Prop
  | .list j _ _ => i = j
  | _ => False

/-- worker `i` scans the requests, or has chosen a call that it has not yet started -/
def Choosing (s : Sys K) (i : Nat) : Prop := (∃ r c l, s.busy i = .looking r c l) ∨ ∃ k, s.busy i = .chosen k

/-- an event of worker `i` -/
def Ev.By (i : Nat) : Ev K → Prop
  | .list j _ _ => i = j
  | .look j => i = j
  | .pick j _ => i = j
  | .start j => i = j
  | .finish j _ => i = j
  | .kill j => i = j
  | _ => False

/-- the workers of the portal are the numbers below `w`; they go on scanning: again and again some worker starts a scan; a worker that
has started one goes on; and only finitely many times a worker is killed while it scans or before it has started the call it
chose (it may be killed as often as you like while a call runs).  Time goes on. -/
structure Working (σ : Nat → Sys K) (ev : Nat → Ev K) (w : Nat) : Prop where
  few : ∀ n i, (ev n).By i → i < w
  scans : ∀ n, ∃ m i, n ≤ m ∧ (ev m).Lists i
  go : ∀ n i, Choosing (σ n) i → ∃ m, n ≤ m ∧ (ev m).By i
  kills : ∃ n, ∀ m i, n ≤ m → ev m = .kill i → ¬ Choosing (σ m) i
  time : ∀ t, ∃ n, t ≤ (σ n).clock

/-- only these calls are ever requested, and checking them raises no exceptions -/
def Calls (σ : Nat → Sys K) (S : List K) : Prop :=
  ∀ n k, k ∈ (σ n).q.requests → k ∈ S ∧ (σ n).q.can k ≠ .raises

end Pyth.Drain
