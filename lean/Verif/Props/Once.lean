import Mathlib.Data.List.Dedup
import Verif.Proofs.PureSlackAll
import Verif.Props.PureCalls
import Verif.Examples.Pure
/-!
# C118: each call of a deterministic program is executed at most once

`AnyCall` is one call `f(**vals)` of portal `p`, with depth bound `n`; `callAll` makes calls one after
another, whatever their outcomes.  `attempts` is the list of execution attempts in the run history of a call
(pure_core_classes.py:966-971): every execution of a pure function's code starts one.
-/
set_option linter.unusedSectionVars false
set_option linter.unusedVariables false
namespace Pyth.Pure
open Pyth.World Pyth.Portal

variable {U A : Type} [DecidableEq U] [DecidableEq A] {addrOf : Val U A → A}

/-- a call of function `f` with plain arguments `vals`; `n` bounds the nesting of calls -/
structure AnyCall (U : Type) where
  n : Nat
  f : FnId
  vals : List (String × U)

/-- the calls as operations of a session -/
def callAll (p : PortalId) (cs : List (AnyCall U)) : List (POp U A) :=
  cs.map fun c => .call p c.n c.f (rawKw c.vals)

/-- the call returns or raises within its nesting bound, in the reference semantics -/
def AnyCall.Ends (prog : FnId → Fn U) (c : AnyCall U) : Prop := ref prog c.n c.f c.vals ≠ .error diverge

/-- the stored result of the call `f(**vals)` -/
def HasResult (addrOf : Val U A → A) (s : PWorld U A) (p : PortalId) (f : FnId) (vals : List (String × U)) : Prop :=
  ((s.ext.results p).data (keyOf addrOf f vals)).isSome

/-- the number of attempts to execute the call `f(**vals)` -/
def attemptsOf (addrOf : Val U A → A) (s : PWorld U A) (p : PortalId) (f : FnId) (vals : List (String × U)) : Nat :=
  (s.ext.attempts p (keyOf addrOf f vals)).length

/-! ### proof support -/

theorem once_calls (hinj : Function.Injective addrOf) {prog : FnId → Fn U} (hd : DetProg prog) {p : PortalId} {cfg : Option Rat}
    (hcfg : cfg = none ∨ cfg = some 0) {b : Key A → Nat} {st : Key A → Prop} (cs : List (AnyCall U)) {s : PWorld U A}
    (hs : Good addrOf (correct prog) s) (he : ∀ c ∈ cs, c.Ends prog) (h : Once addrOf prog p cfg b st (fun _ => False) s) :
    Once addrOf prog p cfg b st (fun _ => False) (session addrOf prog s (callAll p cs)) := by
  induction cs generalizing s with
  | nil => exact h
  | cons c cs ih =>
    have h1 := ((recOnce_exec (p := p) (b := b) (st := st) hinj hd hcfg c.n) c.n (le_refl _) (fun _ => False)
      (fun _ _ h => h.elim) none c.f c.vals (he c List.mem_cons_self)).at hs h
    have h2 : Once addrOf prog p cfg b st (fun _ => False) (exec addrOf prog p c.n c.f (rawKw c.vals) s).2 := by
      cases hr : (exec addrOf prog p c.n c.f (rawKw c.vals) s).1 with
      | ok u => exact h1.2.1 u hr
      | error e => exact h1.2.2 e hr
    exact ih (s := (exec addrOf prog p c.n c.f (rawKw c.vals) s).2) (h1.1.good hs) (fun c' hc' => he c' (List.mem_cons_of_mem _ hc')) h2

theorem slack_calls (hinj : Function.Injective addrOf) {K : Accept U} {E : Prop} {prog : FnId → Fn U} (hm : Mode K E prog) {p : PortalId} {g0 : FnId}
    {v0 : List (String × U)} {d e : Nat} (cs : List (AnyCall U)) {s : PWorld U A}
    (hs : Good addrOf K s) (h : Slack addrOf p g0 v0 d e s) :
    Slack addrOf p g0 v0 d e (session addrOf prog s (callAll p cs)) := by
  induction cs generalizing s with
  | nil => exact h
  | cons c cs ih =>
    have h1 := (recSlack_exec (p := p) (g0 := g0) (v0 := v0) hinj hm c.n d e none c.f c.vals).at hs h
    have h2 : Slack addrOf p g0 v0 d e (exec addrOf prog p c.n c.f (rawKw c.vals) s).2 := by
      cases hr : (exec addrOf prog p c.n c.f (rawKw c.vals) s).1 with
      | ok u => exact h1.2.1 u hr
      | error e => exact h1.2.2 e hr
    exact ih (s := (exec addrOf prog p c.n c.f (rawKw c.vals) s).2) (h1.1.good hs) h2

/-! ### C118 -/

theorem runs_le_attempts (hinj : Function.Injective addrOf) {K : Accept U} {E : Prop} {prog : FnId → Fn U} (hm : Mode K E prog)
    {s : PWorld U A} (hs : Good addrOf K s) {p : PortalId} (cs : List (AnyCall U))
    {s' : PWorld U A} (hs' : session addrOf prog s (callAll p cs) = s') (g : FnId) (vals : List (String × U)) :
    codeRuns s' g vals + attemptsOf addrOf s p g vals ≤ codeRuns s g vals + attemptsOf addrOf s' p g vals := by
  have h := slack_calls (p := p) (g0 := g) (v0 := vals) (d := attemptsOf addrOf s p g vals) (e := codeRuns s g vals)
    hinj hm cs hs (by unfold Slack attemptsOf; rw [keyOf_eq]; omega)
  rw [hs'] at h
  unfold Slack at h
  unfold attemptsOf at h ⊢
  rw [keyOf_eq] at h ⊢
  omega

/-! ### C118: executions and attempts -/

/-- **C118** Whatever calls of any program (deterministic or not) are made, whether or not they end and whatever
their outcomes, and whether or not consistency checks are on: the code of a pure function is never executed
without an attempt in the run history of just that call - of function `g` with arguments `vals`. -/
theorem C118_executions_are_attempts (hinj : Function.Injective addrOf) (prog : FnId → Fn U)
    {s : PWorld U A} (hs : Reached addrOf prog s) {p : PortalId} (cs : List (AnyCall U))
    {s' : PWorld U A} (hs' : session addrOf prog s (callAll p cs) = s') (g : FnId) (vals : List (String × U)) :
    codeRuns s' g vals + attemptsOf addrOf s p g vals ≤ codeRuns s g vals + attemptsOf addrOf s' p g vals :=
  runs_le_attempts hinj (mode_any prog) (hs.good hinj) cs hs' g vals

/-- **C118** The same for every session: any program, any operations - calls in any portals, also with addresses
as arguments, batches, executions through addresses, whatever other processes do meanwhile.  There are finitely
many portals, listed without repetition, in whose run histories every execution of the code of `g` with
arguments `vals` has its own attempt. -/
theorem C118_every_execution_attempted (hinj : Function.Injective addrOf) (prog : FnId → Fn U)
    {s : PWorld U A} (hs : Reached addrOf prog s) (ops : List (POp U A)) (hl : LegalAll addrOf prog (anything U) s ops)
    {s' : PWorld U A} (hs' : session addrOf prog s ops = s') (g : FnId) (vals : List (String × U)) :
    ∃ ps : List PortalId, ps.Nodup ∧
      codeRuns s' g vals + (ps.map fun p => attemptsOf addrOf s p g vals).sum ≤
        codeRuns s g vals + (ps.map fun p => attemptsOf addrOf s' p g vals).sum := by
  obtain ⟨qs, h⟩ := AllOps.slack_session (g0 := g) (v0 := vals) hinj prog ops (hs.good hinj) hl
  refine ⟨qs.dedup, List.nodup_dedup qs, ?_⟩
  have h1 := h qs.dedup (List.subset_dedup qs) (qs.dedup.map fun p => attemptsOf addrOf s p g vals).sum (codeRuns s g vals)
    (by unfold AllOps.Slack attemptsOf; rw [keyOf_eq]; omega)
  rw [hs'] at h1
  unfold AllOps.Slack at h1
  unfold attemptsOf at h1 ⊢
  rw [keyOf_eq] at h1 ⊢
  omega

/-- **C118** Let calls of a deterministic program be made one after another in a portal whose consistency
checks are off, each of them ending (with a value or with an exception), whatever is already cached.  Then for
every call `g(**vals)` whose code returns a value - one of the calls made, or one that their code makes, at
any depth and any number of times - there is at most one attempt to execute it, and its code is executed at most
once; neither happens if its result was stored before; and if there was an attempt, its result is stored. -/
theorem C118_executed_at_most_once (hinj : Function.Injective addrOf) {prog : FnId → Fn U} (hd : DetProg prog)
    {s : PWorld U A} (hs : ReachedDet addrOf prog s) {p : PortalId} (hc : ChecksOff s p)
    (cs : List (AnyCall U)) (he : ∀ c ∈ cs, c.Ends prog)
    {s' : PWorld U A} (hs' : session addrOf prog s (callAll p cs) = s')
    (g : FnId) (vals : List (String × U)) (u : U) (hg : Den prog g vals (.ok u)) :
    attemptsOf addrOf s' p g vals ≤ attemptsOf addrOf s p g vals + 1 ∧
    attemptsOf addrOf s p g vals ≤ attemptsOf addrOf s' p g vals ∧
    codeRuns s' g vals ≤ codeRuns s g vals + 1 ∧
    (HasResult addrOf s p g vals → attemptsOf addrOf s' p g vals = attemptsOf addrOf s p g vals ∧
      codeRuns s' g vals ≤ codeRuns s g vals) ∧
    (HasResult addrOf s p g vals → HasResult addrOf s' p g vals) ∧
    (attemptsOf addrOf s' p g vals ≠ attemptsOf addrOf s p g vals → HasResult addrOf s' p g vals) := by
  have h := once_calls (b := fun k => (s.ext.attempts p k).length) (st := fun k => ((s.ext.results p).data k).isSome)
    hinj hd hc cs (hs.good hinj hd) he ⟨rfl, fun k _ => ⟨id, .inl rfl⟩⟩
  have hr := runs_le_attempts hinj (mode_det hd) (hs.good hinj hd) (p := p) cs hs' g vals
  rw [hs'] at h
  obtain ⟨h1, h2⟩ := h.2 (keyOf addrOf g vals) ⟨g, vals, u, hg, rfl⟩
  dsimp only at h1 h2
  unfold attemptsOf at hr ⊢
  unfold HasResult
  rcases h2 with h2 | ⟨h2, h3, h4⟩
  · exact ⟨by omega, by omega, by omega, fun _ => ⟨h2, by omega⟩, h1, fun h => absurd h2 h⟩
  · refine ⟨by omega, by omega, by omega, fun h => absurd h h3, h1, fun _ => ?_⟩
    exact h4.resolve_right id

/-- **C118** In particular, a call of a pure function that returned a value is not executed again, whatever
calls are made later. -/
theorem C118_never_again (hinj : Function.Injective addrOf) {prog : FnId → Fn U} (hd : DetProg prog)
    {s : PWorld U A} (hs : ReachedDet addrOf prog s) {p : PortalId} (hc : ChecksOff s p)
    (c : AnyCall U) (cs : List (AnyCall U)) (he : ∀ x ∈ c :: cs, x.Ends prog) (hp : (prog c.f).isPure = true)
    {u : U} {s1 s' : PWorld U A} (h1 : exec addrOf prog p c.n c.f (rawKw c.vals) s = (.ok u, s1))
    (hs' : session addrOf prog s1 (callAll p cs) = s') :
    attemptsOf addrOf s' p c.f c.vals = attemptsOf addrOf s1 p c.f c.vals ∧ codeRuns s' c.f c.vals ≤ codeRuns s1 c.f c.vals := by
  have hs1 : session addrOf prog s (callAll p [c]) = s1 := by
    show (exec addrOf prog p c.n c.f (rawKw c.vals) s).2 = s1
    rw [h1]
  have hr1 : ReachedDet addrOf prog s1 := by
    rw [← hs1]
    exact hs.session ⟨trivial, trivial⟩ ⟨⟨c.vals, .inl rfl⟩, trivial⟩
  have hden := C23_memoization_transparent hinj hd hs p c.n c.f (kw := rawKw c.vals) (vals := c.vals) (.inl rfl)
  rw [h1] at hden
  have hc1 : ChecksOff s1 p := by
    have := once_calls (b := fun k => (s.ext.attempts p k).length) (st := fun k => ((s.ext.results p).data k).isSome)
      hinj hd hc [c] (hs.good hinj hd) (fun x hx => he x (by simp at hx; simp [hx])) ⟨rfl, fun k _ => ⟨id, .inl rfl⟩⟩
    rw [hs1] at this
    unfold ChecksOff; rw [this.1]; exact hc
  have hst : HasResult addrOf s1 p c.f c.vals := by
    cases hn : c.n with
    | zero => exact absurd (by simp [ref, hn]) (he c List.mem_cons_self)
    | succ n =>
      have := call_cases hinj (mode_det hd) False False (hs.good hinj hd) p n hp (kw := rawKw c.vals) (vals := c.vals)
        (.inr (.inl rfl)) (denKw_raw s c.vals) (fun h => h.elim) (fun h => h.elim)
      obtain ⟨s2, h2, _, h3, _⟩ := this
      rw [← hn, h1] at h2 h3
      obtain rfl : s1 = s2 := h2
      exact (h3 u rfl).1
  exact (C118_executed_at_most_once hinj hd hr1 hc1 cs (fun x hx => he x (List.mem_cons_of_mem _ hx)) hs' c.f c.vals u hden).2.2.2.1 hst

/-! ### the hypotheses are met -/

open Ex

/-- Fibonacci numbers of 6 and 7, then 6 again -/
def fibCalls : List (AnyCall Nat) := [⟨9, 2, [("n", 6)]⟩, ⟨9, 2, [("n", 7)]⟩, ⟨9, 2, [("n", 6)]⟩]

example : ReachedDet Ex.addrOf detProg (start none fun _ => 0) ∧ ChecksOff (start none fun _ => 0) 0 ∧
    ∀ c ∈ fibCalls, c.Ends detProg := by
  refine ⟨ReachedDet.start (start_ok _ _ _), .inl rfl, ?_⟩
  intro c hc
  simp only [fibCalls, List.mem_cons, List.not_mem_nil, or_false] at hc
  rcases hc with rfl | rfl | rfl <;> (unfold AnyCall.Ends; decide +kernel)

/-- evaluated directly the code of Fibonacci number 2 runs 8 + 13 + 8 times; here every number is computed
exactly once -/
example : (List.range 9).map (fun k => attemptsOf Ex.addrOf
      (session Ex.addrOf detProg (start none fun _ => 0) (callAll 0 fibCalls)) 0 2 [("n", k)]) =
    [1, 1, 1, 1, 1, 1, 1, 1, 0] ∧
    (List.range 9).map (fun k => codeRuns
      (session Ex.addrOf detProg (start none fun _ => 0) (callAll 0 fibCalls)) 2 [("n", k)]) =
    [1, 1, 1, 1, 1, 1, 1, 1, 0] := by decide +kernel

/-- a nondeterministic program with consistency checks: the code of function 8 is executed and attempted twice -/
example : Reached Ex.addrOf prog (start (some 1) fun _ => 1/4) ∧
    codeRuns (session Ex.addrOf prog (start (some 1) fun _ => 1/4) (callAll 0 [⟨3, 8, []⟩, ⟨3, 8, []⟩])) 8 [] = 2 ∧
    attemptsOf Ex.addrOf (session Ex.addrOf prog (start (some 1) fun _ => 1/4) (callAll 0 [⟨3, 8, []⟩, ⟨3, 8, []⟩])) 0 8 [] = 2 :=
  ⟨Reached.start (start_ok _ _ _), by decide +kernel, by decide +kernel⟩

/-- a session in two portals: a call, a request by another process, an address, an execution through it, a batch -/
def mixedOps : List (POp Nat Ex.T) :=
  [.call 0 3 8 [], .foreignRequest 1 8 [], .address 1 8 [], .rexec 3 1, .runList 3 id List.reverse 1 8 [[], []]]

theorem legal_rexec8 {s : PWorld Nat Ex.T} {r n : Nat} (h : s.ext.raddrs[r]?.map (fun o => o.key.1) = some 8) :
    Legal Ex.addrOf prog (anything Nat) s (.rexec n r) := by
  rintro k p ⟨o, h1, rfl, -⟩
  rw [h1] at h
  injection h with h
  have h : o.key.1 = 8 := h
  rw [h]; rfl

/-- it is a legal session of a nondeterministic program with consistency checks; function 8 is executed four
times, attempted once in portal 0 and three times in portal 1 -/
example : LegalAll Ex.addrOf prog (anything Nat) (start (some 1) fun _ => 1/4) mixedOps ∧
    codeRuns (session Ex.addrOf prog (start (some 1) fun _ => 1/4) mixedOps) 8 [] = 4 ∧
    attemptsOf Ex.addrOf (session Ex.addrOf prog (start (some 1) fun _ => 1/4) mixedOps) 0 8 [] = 1 ∧
    attemptsOf Ex.addrOf (session Ex.addrOf prog (start (some 1) fun _ => 1/4) mixedOps) 1 8 [] = 3 := by
  refine ⟨?_, by decide +kernel, by decide +kernel, by decide +kernel⟩
  simp only [mixedOps, LegalAll, and_true]
  refine ⟨trivial, trivial, ?_, legal_rexec8 (by decide +kernel), ?_⟩
  · simp only [Legal]; rfl
  · simp only [Legal]; exact ⟨rfl, fun l => .refl l, fun l => l.reverse_perm⟩

/-- the call must return a value: one that raises is executed again every time -/
example : attemptsOf Ex.addrOf (session Ex.addrOf detProg (start none fun _ => 0)
      (callAll 0 [⟨3, 5, [("x", 1)]⟩, ⟨3, 5, [("x", 1)]⟩])) 0 5 [("x", 1)] = 2 := by decide +kernel

/-- consistency checks must be off: with checks always on, a call is executed every time -/
example : attemptsOf Ex.addrOf (session Ex.addrOf detProg (start (some 1) fun _ => 0)
      (callAll 0 [⟨3, 1, [("x", 1)]⟩, ⟨3, 1, [("x", 1)]⟩])) 0 1 [("x", 1)] = 2 := by decide +kernel

end Pyth.Pure
