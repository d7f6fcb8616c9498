import Verif.Props.WorkerScan
import Mathlib.Algebra.BigOperators.Group.Finset.Basic
import Mathlib.Order.Interval.Finset.Nat
/-!
# Specification for C117: the chance that a worker chooses a request

A worker scans the requests again and again.  Two random numbers are drawn in a scan: how many candidates are considered
(`random.randint(200, 5000)`) and which of them is chosen (`entropy_infuser.choice`), each with equal probabilities.  Everything else -
which requests there are, in what order they are seen, what other processes do meanwhile, the time, and how executions end - is chosen by
an adversary who knows all random numbers drawn before.
-/
namespace Pyth.Scan
variable {K : Type} [DecidableEq K]

/-- what a scan finds -/
structure Sight (K : Type) where
  q : Queue K
  now : Rat
  order : List K
  ok : Bool

/-- the random numbers of a scan: limit and choice -/
abbrev Numbers := Nat × Nat

/-- what the worker will find after scans with these random numbers (the first ones first) -/
abbrev Adversary (K : Type) := List Numbers → Sight K

/-- what the worker does in a scan -/
def Sight.outcome (s : Sight K) (x : Numbers) : Outcome K := (job s.q s.now s.order x.1 x.2 s.ok).2

/-- how many candidates there are to choose from -/
def Sight.choices (s : Sight K) (limit : Nat) : Nat :=
  match scan s.q s.now limit s.order [] with
  | some cands => cands.length
  | none => 0

/-- the mean of `f 0`, …, `f (n - 1)`, or `f 0` if there is nothing to choose from -/
def meanBelow (n : Nat) (f : Nat → Rat) : Rat := if n = 0 then f 0 else (∑ i ∈ Finset.range n, f i) / n

/-- the mean over the values of `random.randint(200, 5000)` -/
def meanLimit (f : Nat → Rat) : Rat := (∑ l ∈ Finset.Icc 200 5000, f l) / 4801

/-- the probability that none of the next `r` scans, after those with the numbers `h`, executes `k` -/
def missed (adv : Adversary K) (k : K) : Nat → List Numbers → Rat
  | 0, _ => 1
  | r + 1, h => meanLimit fun l => meanBelow ((adv h).choices l) fun i =>
      if (adv h).outcome (l, i) = .executed k then 0 else missed adv k r (h ++ [(l, i)])

/-- `k` has not been executed in the scans with these random numbers -/
def NotYet (adv : Adversary K) (k : K) (h : List Numbers) : Prop :=
  ∀ h' x, h' ++ [x] <+: h → (adv h').outcome x ≠ .executed k

/-- The scan sees a request for `k`, which needs execution and can be executed, it does not fail, and there are at most `m`
such requests. -/
structure Sight.Shows (s : Sight K) (k : K) (m : Nat) : Prop where
  all : s.order.Perm s.q.requests
  requested : k ∈ s.q.requests
  candidate : Candidate s.q s.now k
  sound : ∀ p ∈ s.q.requests, ¬ Poison s.q s.now p
  few : (s.q.requests.filter (Candidate s.q s.now)).length ≤ m

end Pyth.Scan
