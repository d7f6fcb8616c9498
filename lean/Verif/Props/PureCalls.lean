import Verif.Proofs.PureMain
import Verif.Examples.Pure
/-!
# Calls of pure functions: C16 (results), C23–C28, C31

`exec addrOf prog p n f kw` is the call `f(**kw)` of a function of portal `p`; `n` bounds the depth of
nested calls.  `Reached` / `ReachedDet` are the states of arbitrary sessions, see `Spec.PureHistory`.
`Function.Injective addrOf`: different data have different hashes.
-/
set_option linter.unusedSectionVars false
set_option linter.unusedVariables false
namespace Pyth.Pure
open Pyth.World Pyth.Portal
open Pyth.ValueAddr (IsAddr HoldsVal)

variable {U A : Type} [DecidableEq U] [DecidableEq A] {addrOf : Val U A → A}

/-! ### proof support -/

theorem nowhere_of {s : PWorld U A} {f : FnId} {kw : Kw U} {vals : List (String × U)} (h : DenKw addrOf s kw vals)
    (hn : NoResultAnywhere addrOf s f vals) : Nowhere addrOf f kw s :=
  ⟨_, (denKw_sort h).match, hn⟩

theorem call_cases {K : Accept U} {E : Prop} {prog : FnId → Fn U} (hinj : Function.Injective addrOf) (hm : Mode K E prog) (S N : Prop)
    {s : PWorld U A} (hs : Good addrOf K s) (p : PortalId) (n : Nat) {f : FnId} (hf : (prog f).isPure = true) {kw : Kw U}
    {vals : List (String × U)} (hpl : PlainCall E prog f kw vals) (hkw : DenKw addrOf s kw vals)
    (hS : S → ∃ u, Stored addrOf s p f vals u) (hN : N → NoResultAnywhere addrOf s f vals) :
    ∃ s', (exec addrOf prog p (n + 1) f kw s).2 = s' ∧ Base addrOf K s s' ∧
    (∀ u, (exec addrOf prog p (n + 1) f kw s).1 = .ok u → ((s'.ext.results p).data (keyOf addrOf f vals)).isSome ∧
      Answered addrOf S N (hist s) p (keyOf addrOf f vals) kw u s') ∧
    (∀ e, (exec addrOf prog p (n + 1) f kw s).1 = .error e → RecErr (hist s) p (keyOf addrOf f vals) e.kind s' ∧
      Pending s' p (keyOf addrOf f vals) ∧ (S → MayCheck (s.ext.pCfg p) s')) := by
  have h := (sp_execPure (c := none) (R := False) (S := S) (N := N) hinj hm (fun h => h.elim) p f hf kw vals hpl n (hist s)).at hs
    ⟨⟨.inr hkw, fun h => (by obtain ⟨u, hu⟩ := hS h; exact ⟨_, (denKw_sort hkw).match, Option.isSome_iff_exists.2 ⟨_, hu.1⟩⟩),
      fun h => nowhere_of hkw (hN h)⟩, rfl⟩
  refine ⟨_, rfl, h.1, fun u hu => ?_, fun e he => ?_⟩
  · obtain ⟨_, ts, _, h2, h3, h4⟩ := h.2.1 u hu
    obtain rfl := h2.resolve_left id
    exact ⟨h3, h4⟩
  · rcases h.2.2 e he with h | ⟨_, ts, _, h2, h3, h4, h5⟩
    · exact h.elim
    · obtain rfl := h2.resolve_left id
      exact ⟨h3, h4, h5⟩

theorem rec_recorded {s s' : PWorld U A} {p : PortalId} {k : Key A} (h : Rec (hist s) p k s') : RunRecorded s s' p k :=
  ⟨h.1, h.2.1⟩

theorem rec_failure {s s' : PWorld U A} {p : PortalId} {k : Key A} {e : Kind} (h : RecErr (hist s) p k e s') :
    FailureRecorded s s' p k e := ⟨h.1.1, h.2⟩

theorem fromKey_run (p : PortalId) (k : Key A) (s : PWorld U A) :
    (rFromKey p k : PM U A Nat) s = (.ok s.ext.raddrs.length,
      { s with ext := { s.ext with raddrs := s.ext.raddrs ++ [{ key := k, portal := p }] } }) := rfl

theorem user_inj (hinj : Function.Injective addrOf) {u v : U} (h : some (addrOf (.user u)) = some (addrOf (.user v))) : u = v := by
  injection h with h
  have := hinj h
  injection this

/-! ### C16, C25 -/

/-- **C16** (with `C16_values_only_grow`) No operation of the API, whatever its outcome, removes or changes a
stored value or a stored result, in any portal. -/
theorem C16_results_only_grow (hinj : Function.Injective addrOf) (prog : FnId → Fn U) {s : PWorld U A}
    (hs : Reached addrOf prog s) (ops : List (POp U A)) (hl : LegalAll addrOf prog (anything U) s ops) :
    (∀ p k a, (s.ext.results p).data k = some a → ((session addrOf prog s ops).ext.results p).data k = some a) ∧
    ∀ p a v, HoldsVal s p a v → HoldsVal (session addrOf prog s ops) p a v := by
  have h := (session_keep hinj (mode_any prog) ops (hs.good hinj) hl (.inl trivial)).2
  exact ⟨h.results, h.grow.store⟩

/-- **C25** A recorded result never changes: after any further history it is still the result of the call, no
other value is, and an address of the call made then - from the text of the address, or from arguments with
the same values - returns it.  The functions need not be deterministic. -/
theorem C25_result_never_changes (hinj : Function.Injective addrOf) (prog : FnId → Fn U) {s : PWorld U A}
    (hs : Reached addrOf prog s) {p : PortalId} {f : FnId} {vals : List (String × U)} {u : U} (hu : Stored addrOf s p f vals u)
    (ops : List (POp U A)) (hl : LegalAll addrOf prog (anything U) s ops) :
    let s' := session addrOf prog s ops
    Stored addrOf s' p f vals u ∧ (∀ u', Stored addrOf s' p f vals u' → u' = u) ∧
    (∃ s2, (do let r ← rFromKey p (keyOf addrOf f vals); rGet addrOf r : PM U A U) s' = (.ok u, s2)) ∧
    ∀ kw, DenKw addrOf s' kw vals →
      ∃ s2, (do let r ← getAddress addrOf p f kw; rGet addrOf r : PM U A U) s' = (.ok u, s2) := by
  have hk := (session_keep hinj (mode_any prog) ops (hs.good hinj) hl (.inl trivial))
  have hst := hu.keep hk.2
  have hsome : (((session addrOf prog s ops).ext.results p).data (keyOf addrOf f vals)).isSome := by rw [hst.1]; rfl
  refine ⟨hst, fun u' h' => h'.unique hinj hst, ?_, fun kw hkw => ?_⟩
  · have hstep := step_fromKey hk.1 p (keyOf addrOf f vals) ⟨texts addrOf (sortKw vals), rfl, (denKw_sort (denKw_raw (addrOf := addrOf) (session addrOf prog s ops) vals)).match.sorted.2 (sortKw_sorted _)⟩
    rw [PyM.run_bind, fromKey_run]
    obtain ⟨u', s2, e, hq, hb⟩ := (sp_rGet_fresh (K := anything U) (addrOf := addrOf) (c := none) (session addrOf prog s ops).ext.raddrs.length
      (keyOf addrOf f vals) p).total hstep.good ⟨⟨_, List.getElem?_concat_length .., rfl, rfl, rfl⟩, hsome⟩
    have : u' = u := user_inj hinj (hq.symm.trans (hb.ev.results _ _ _ hst.1))
    subst this
    exact ⟨s2, e⟩
  · obtain ⟨r, s1, e1, ⟨ho, _⟩, hb1⟩ := (sp_getAddress_new (K := anything U) (c := none) hinj p f kw vals).total hk.1 hkw
    have hst1 := hst.keep (.ev hb1.ev)
    obtain ⟨u', s2, e, hq, hb⟩ := (sp_rGet_fresh (K := anything U) (addrOf := addrOf) (c := none) r
      (keyOf addrOf f vals) p).total (hb1.good hk.1) ⟨ho, by rw [hst1.1]; rfl⟩
    have : u' = u := user_inj hinj (hq.symm.trans (hb.ev.results _ _ _ hst1.1))
    subst this
    exact ⟨s2, by rw [PyM.run_bind, e1]; exact e⟩

/-! ### C23 -/

/-- **C23** Memoization is transparent.  The outcome of a call of a deterministic program, whatever is already
cached in whatever portals, is an outcome of the reference semantics, which evaluates the code with all
nested calls evaluated directly (`Den`); a call that is cut off at depth `n` also is in the reference
semantics.  Arguments are plain values, or stand for values if the program's guards are pure (see C30). -/
theorem C23_memoization_transparent (hinj : Function.Injective addrOf) {prog : FnId → Fn U} (hd : DetProg prog)
    {s : PWorld U A} (hs : ReachedDet addrOf prog s) (p : PortalId) (n : Nat) (f : FnId) {kw : Kw U} {vals : List (String × U)}
    (hkw : kw = rawKw vals ∨ (DenKw addrOf s kw vals ∧ (prog f).isPure = true ∧ PureGuards prog)) :
    match (exec addrOf prog p n f kw s).1 with
    | .ok u => Den prog f vals (.ok u)
    | .error e => (e.kind = diverge ∧ ref prog n f vals = .error diverge) ∨ Den prog f vals (.error e.kind) := by
  have hg := hs.good hinj hd
  have hpl : PlainCall False prog f kw vals := .inr (hkw.imp id fun h => h.2)
  have hden : DenKw addrOf s kw vals := by
    rcases hkw with rfl | h
    · exact denKw_raw s vals
    · exact h.1
  have h := (recOK_exec hinj (mode_det hd) p n none f kw vals hpl).at hg (.inr hden)
  rcases he : exec addrOf prog p n f kw s with ⟨r, s'⟩
  rw [he] at h
  cases r with
  | ok u => exact (h.2.1 u rfl).resolve_left id
  | error e =>
    rcases (h.2.2 e rfl).resolve_left id with h | h
    · exact .inl h
    · exact .inr h.2

/-- **C23** If evaluating the code directly terminates within nesting depth `n`, the call through the library
has exactly that outcome: the same value, or an exception of the same class. -/
theorem C23_same_outcome (hinj : Function.Injective addrOf) {prog : FnId → Fn U} (hd : DetProg prog)
    {s : PWorld U A} (hs : ReachedDet addrOf prog s) (p : PortalId) (n : Nat) (f : FnId) {kw : Kw U} {vals : List (String × U)}
    (hkw : kw = rawKw vals ∨ (DenKw addrOf s kw vals ∧ (prog f).isPure = true ∧ PureGuards prog))
    (ht : ref prog n f vals ≠ .error diverge) :
    (exec addrOf prog p n f kw s).1.mapError Exc.kind = ref prog n f vals := by
  have h := C23_memoization_transparent hinj hd hs p n f hkw
  have h0 : Den prog f vals (ref prog n f vals) := ⟨ht, n, rfl⟩
  rcases he : exec addrOf prog p n f kw s with ⟨r, s'⟩
  rw [he] at h
  cases r with
  | ok u => exact h.unique h0
  | error e =>
    rcases h with h | h
    · exact absurd h.2 ht
    · exact h.unique h0

/-! ### C24 -/

/-- **C24** If the result of a call is stored and consistency checks are off, calling again (with any
arguments standing for the same values) returns the stored value and executes nothing: no attempt, no
output, no record, no code is run. -/
theorem C24_cached_call (hinj : Function.Injective addrOf) (prog : FnId → Fn U) {s : PWorld U A} (hs : Reached addrOf prog s)
    {p : PortalId} {f : FnId} (hf : (prog f).isPure = true) {kw : Kw U} {vals : List (String × U)} (hkw : DenKw addrOf s kw vals)
    {u : U} (hu : Stored addrOf s p f vals u) (hc : ChecksOff s p) (n : Nat) :
    ∃ s', exec addrOf prog p (n + 1) f kw s = (.ok u, s') ∧ NothingRan s s' := by
  have hno : ∀ s' : PWorld U A, ¬ MayCheck (s.ext.pCfg p) s' := by
    rintro s' ⟨i, c, h1, h2, _⟩
    rcases hc with h | h
    · rw [h] at h1; cases h1
    · rw [h] at h1; cases h1; exact h2 rfl
  obtain ⟨s', rfl, hb, hok, herr⟩ := call_cases hinj (mode_any prog) True False (hs.good hinj) p n hf (.inl trivial) hkw
    (fun _ => ⟨u, hu⟩) (fun h => h.elim)
  rcases he : exec addrOf prog p (n + 1) f kw s with ⟨r, s'⟩
  rw [he] at hok herr hb
  cases r with
  | error e => exact absurd ((herr e rfl).2.2 trivial) (hno _)
  | ok v =>
    rcases (hok v rfl).2 with ⟨h1, _, _, h2⟩ | ⟨_, _, h, _⟩
    · have : v = u := user_inj hinj ((h2 trivial).symm.trans (hb.ev.results _ _ _ hu.1))
      subst this
      exact ⟨s', rfl, .of_hist h1⟩
    · exact absurd (h trivial).2 (hno _)

/-- **C24** The same when checks are enabled with probability `c` and the random numbers of the session never
call for one. -/
theorem C24_no_check_due (hinj : Function.Injective addrOf) (prog : FnId → Fn U) {s : PWorld U A} (hs : Reached addrOf prog s)
    {p : PortalId} {f : FnId} (hf : (prog f).isPure = true) {kw : Kw U} {vals : List (String × U)} (hkw : DenKw addrOf s kw vals)
    {u : U} (hu : Stored addrOf s p f vals u) {c : Rat} (hc : s.ext.pCfg p = some c) (hdraw : ∀ i, ¬ s.draws i < c) (n : Nat) :
    ∃ s', exec addrOf prog p (n + 1) f kw s = (.ok u, s') ∧ NothingRan s s' := by
  obtain ⟨s', rfl, hb, hok, herr⟩ := call_cases hinj (mode_any prog) True False (hs.good hinj) p n hf (.inl trivial) hkw
    (fun _ => ⟨u, hu⟩) (fun h => h.elim)
  rcases he : exec addrOf prog p (n + 1) f kw s with ⟨r, s'⟩
  rw [he] at hok herr hb
  have hno : ¬ MayCheck (s.ext.pCfg p) s' := by
    rintro ⟨i, c', h1, h2, h3⟩
    rw [hc] at h1; cases h1
    rw [hb.ev.draws] at h3
    exact hdraw i h3
  cases r with
  | error e => exact absurd ((herr e rfl).2.2 trivial) hno
  | ok v =>
    rcases (hok v rfl).2 with ⟨h1, _, _, h2⟩ | ⟨_, _, h, _⟩
    · have : v = u := user_inj hinj ((h2 trivial).symm.trans (hb.ev.results _ _ _ hu.1))
      subst this
      exact ⟨s', rfl, .of_hist h1⟩
    · exact absurd (h trivial).2 hno

/-! ### C26, C27 -/

/-- **C26** A failed call of a deterministic program: the exception is that of the code (or `AssertionError`
for a failed guard), nothing is stored as its result, it is requested, and the attempt is recorded together
with everything it printed and the traceback. -/
theorem C26_failed_call (hinj : Function.Injective addrOf) {prog : FnId → Fn U} (hd : DetProg prog)
    {s s' : PWorld U A} (hs : ReachedDet addrOf prog s) {p : PortalId} {n : Nat} {f : FnId} (hf : (prog f).isPure = true)
    {kw : Kw U} {vals : List (String × U)} (hkw : DenKw addrOf s kw vals) (hpl : kw = rawKw vals ∨ PureGuards prog)
    {e : Exc} (he : exec addrOf prog p (n + 1) f kw s = (.error e, s')) (hk : e.kind ≠ diverge) :
    Den prog f vals (.error e.kind) ∧ NoResult addrOf s' p f vals ∧ Requested addrOf s' p f vals ∧
      FailureRecorded s s' p (keyOf addrOf f vals) e.kind := by
  have hg := hs.good hinj hd
  have hden := C23_memoization_transparent hinj hd hs p (n + 1) f (kw := kw) (vals := vals) (hpl.imp id fun h => ⟨hkw, hf, h⟩)
  rw [he] at hden
  have hden : Den prog f vals (.error e.kind) := hden.resolve_left fun h => hk h.1
  obtain ⟨s1, h1, hb, hok, herr⟩ := call_cases hinj (mode_det hd) False False hg p n hf (.inr (hpl.imp id fun h => ⟨hf, h⟩)) hkw
    (fun h => h.elim) (fun h => h.elim)
  rw [he] at h1 herr
  cases h1
  obtain ⟨h2, h3, _⟩ := herr e rfl
  have hnone : NoResult addrOf s' p f vals := by
    unfold NoResult
    by_contra hne
    obtain ⟨u, _, hu⟩ := Stored.of_isSome (hb.good hg) (Option.isSome_iff_ne_none.2 hne)
    have : Den prog f vals (.ok u) := by
      obtain ⟨a, m, b⟩ := (show Den prog f (sortKw vals) (.ok u) from hu)
      exact ⟨a, m, by rw [ref_sort hd] at b; exact b⟩
    cases this.unique hden
  refine ⟨hden, hnone, ?_, rec_failure h2⟩
  rcases h3 with h | h
  · exact h
  · rw [hnone] at h; cases h

/-- **C26** A failed call of an arbitrary program: the attempt is recorded with its output, the call is
requested unless it has a result (from before, or stored by a nested call of the same function with the same
arguments), and no earlier result of any call is lost. -/
theorem C26_failed_call_any (hinj : Function.Injective addrOf) (prog : FnId → Fn U)
    {s s' : PWorld U A} (hs : Reached addrOf prog s) {p : PortalId} {n : Nat} {f : FnId} (hf : (prog f).isPure = true)
    {kw : Kw U} {vals : List (String × U)} (hkw : DenKw addrOf s kw vals)
    {e : Exc} (he : exec addrOf prog p (n + 1) f kw s = (.error e, s')) :
    FailureRecorded s s' p (keyOf addrOf f vals) e.kind ∧
    (Requested addrOf s' p f vals ∨ ∃ u, Stored addrOf s' p f vals u) ∧
    ∀ q g vs v, Stored addrOf s q g vs v → Stored addrOf s' q g vs v := by
  obtain ⟨s1, h1, hb, hok, herr⟩ := call_cases hinj (mode_any prog) False False (hs.good hinj) p n hf (.inl trivial) hkw
    (fun h => h.elim) (fun h => h.elim)
  rw [he] at h1 herr
  cases h1
  obtain ⟨h2, h3, _⟩ := herr e rfl
  refine ⟨rec_failure h2, h3.imp id fun h => ?_, fun q g vs v h => h.keep (.ev hb.ev)⟩
  obtain ⟨u, hu, _⟩ := Stored.of_isSome (hb.good (hs.good hinj)) h
  exact ⟨u, hu⟩

/-- **C27** A successful call without a result in any portal is executed and fully recorded: an attempt, the
output, the result record of the run with the returned value; a result is stored, `get` through a new
address of the call returns it, and no request is left. -/
theorem C27_successful_call (hinj : Function.Injective addrOf) (prog : FnId → Fn U)
    {s s' : PWorld U A} (hs : Reached addrOf prog s) {p : PortalId} {n : Nat} {f : FnId} (hf : (prog f).isPure = true)
    {kw : Kw U} {vals : List (String × U)} (hkw : DenKw addrOf s kw vals) (hnone : NoResultAnywhere addrOf s f vals)
    {u : U} (he : exec addrOf prog p (n + 1) f kw s = (.ok u, s')) :
    RunRecorded s s' p (keyOf addrOf f vals) ∧ ResultRecorded addrOf s s' p (keyOf addrOf f vals) u ∧
    ¬ Requested addrOf s' p f vals ∧
    ∃ v, Stored addrOf s' p f vals v ∧
      ∃ s2, (do let r ← getAddress addrOf p f kw; rGet addrOf r : PM U A U) s' = (.ok v, s2) := by
  have hg := hs.good hinj
  obtain ⟨s1, h1, hb, hok, herr⟩ := call_cases hinj (mode_any prog) False True hg p n hf (.inl trivial) hkw
    (fun h => h.elim) (fun _ => hnone)
  rw [he] at h1 hok
  cases h1
  obtain ⟨h2, h3⟩ := hok u rfl
  obtain ⟨v, hv, _⟩ := Stored.of_isSome (hb.good hg) h2
  rcases h3 with ⟨_, h, _⟩ | ⟨h3, cd, _, h4⟩
  · exact absurd trivial h
  · refine ⟨rec_recorded h3, h4.recorded, fun h => ?_, v, hv, ?_⟩
    · have := h4.request
      rw [h] at this; cases this
    · obtain ⟨r, s1, e1, ⟨ho, _⟩, hb1⟩ := (sp_getAddress_new (K := anything U) (c := none) hinj p f kw vals).total (hb.good hg) (hkw.keep (.ev hb.ev))
      have hst1 := hv.keep (.ev hb1.ev)
      obtain ⟨u', s2, e, hq, hb2⟩ := (sp_rGet_fresh (K := anything U) (addrOf := addrOf) (c := none) r
        (keyOf addrOf f vals) p).total (hb1.good (hb.good hg)) ⟨ho, by rw [hst1.1]; rfl⟩
      have : u' = v := user_inj hinj (hq.symm.trans (hb2.ev.results _ _ _ hst1.1))
      subst this
      exact ⟨s2, by rw [PyM.run_bind, e1]; exact e⟩

/-- **C27** For a deterministic program the stored result is the returned value. -/
theorem C27_stored_value (hinj : Function.Injective addrOf) {prog : FnId → Fn U} (hd : DetProg prog)
    {s s' : PWorld U A} (hs : ReachedDet addrOf prog s) {p : PortalId} {n : Nat} {f : FnId} (hf : (prog f).isPure = true)
    {kw : Kw U} {vals : List (String × U)} (hkw : DenKw addrOf s kw vals) (hpl : kw = rawKw vals ∨ PureGuards prog)
    {u : U} (he : exec addrOf prog p (n + 1) f kw s = (.ok u, s')) : Stored addrOf s' p f vals u := by
  have hg := hs.good hinj hd
  have hden := C23_memoization_transparent hinj hd hs p (n + 1) f (kw := kw) (vals := vals) (hpl.imp id fun h => ⟨hkw, hf, h⟩)
  rw [he] at hden
  obtain ⟨s1, h1, hb, hok, herr⟩ := call_cases hinj (mode_det hd) False False hg p n hf (.inr (hpl.imp id fun h => ⟨hf, h⟩)) hkw
    (fun h => h.elim) (fun h => h.elim)
  rw [he] at h1 hok
  cases h1
  obtain ⟨h2, _⟩ := hok u rfl
  obtain ⟨v, hv, hKv⟩ := Stored.of_isSome (hb.good hg) h2
  have : Den prog f vals (.ok v) := by
    obtain ⟨a, m, b⟩ := (show Den prog f (sortKw vals) (.ok v) from hKv)
    exact ⟨a, m, by rw [ref_sort hd] at b; exact b⟩
  cases this.unique (show Den prog f vals (.ok u) from hden)
  exact hv

/-! ### C28 -/

/-- **C28** Consistency checking.  The result of the call is `u0`, the portal's check probability is `c` and the
random numbers (all below 1) call for a check: the call is executed again.  If it returns, it returns `u0`;
so a re-execution with a different outcome raises.  In any case the attempt is recorded, the stored result
is kept, and the check probability in force afterwards is the configured one. -/
theorem C28_consistency_check (hinj : Function.Injective addrOf) (prog : FnId → Fn U) {s : PWorld U A} (hs : Reached addrOf prog s)
    {p : PortalId} {f : FnId} (hf : (prog f).isPure = true) {kw : Kw U} {vals : List (String × U)} (hkw : DenKw addrOf s kw vals)
    {u0 : U} (hu : Stored addrOf s p f vals u0) {c : Rat} (hc : s.ext.pCfg p = some c) (hc0 : c ≠ 0)
    (hdraw : ∀ i, s.draws i < c ∧ s.draws i < 1) (n : Nat) :
    let r := exec addrOf prog p (n + 1) f kw s
    RunRecorded s r.2 p (keyOf addrOf f vals) ∧ Stored addrOf r.2 p f vals u0 ∧
    (r.2.ext.results p).pCheck = some c ∧
    ∀ u, r.1 = .ok u → u = u0 ∧ ResultRecorded addrOf s r.2 p (keyOf addrOf f vals) u0 := by
  have hg := hs.good hinj
  obtain ⟨s', rfl, hb, hok, herr⟩ := call_cases hinj (mode_any prog) True False hg p n hf (.inl trivial) hkw
    (fun _ => ⟨u0, hu⟩) (fun h => h.elim)
  have hst := hu.keep (.ev hb.ev)
  have hpc : ((exec addrOf prog p (n + 1) f kw s).2.ext.results p).pCheck = some c := by
    rw [hb.wf.pCheck, hb.ev.pCfg, hc]
  rcases he : exec addrOf prog p (n + 1) f kw s with ⟨r, s'⟩
  rw [he] at hok herr hb hst hpc
  have hno : ¬ NoCheck (s.ext.pCfg p) s' := by
    rintro (h | h | ⟨i, c', h1, h2⟩)
    · rw [hc] at h; cases h
    · rw [hc] at h; cases h; exact hc0 rfl
    · rw [hc] at h1; cases h1
      rw [hb.ev.draws] at h2
      exact h2 (hdraw i).1
  cases r with
  | error e => exact ⟨rec_recorded (herr e rfl).1.1, hst, hpc, fun u h => by cases h⟩
  | ok v =>
    rcases (hok v rfl).2 with ⟨_, _, h, _⟩ | ⟨h1, cd, h2, h3⟩
    · exact absurd h hno
    · refine ⟨rec_recorded h1, hst, hpc, fun u h => ?_⟩
      cases h
      have := h3.check (h2 trivial).1 (fun i => by rw [hb.ev.draws]; exact (hdraw i).2)
      have : v = u0 := user_inj hinj (this.symm.trans hst.1)
      subst this
      exact ⟨rfl, h3.recorded⟩

/-- **C28** For a deterministic program the check succeeds: whether or not a check is due, the call returns the
stored value (if evaluating it directly terminates within depth `n`). -/
theorem C28_check_succeeds (hinj : Function.Injective addrOf) {prog : FnId → Fn U} (hd : DetProg prog)
    {s : PWorld U A} (hs : ReachedDet addrOf prog s) {p : PortalId} {n : Nat} {f : FnId} (hf : (prog f).isPure = true)
    {vals : List (String × U)} {u : U} (hu : Stored addrOf s p f vals u) (ht : ref prog n f vals ≠ .error diverge) :
    (exec addrOf prog p n f (rawKw vals) s).1.mapError Exc.kind = .ok u := by
  rw [C23_same_outcome hinj hd hs p n f (.inl rfl) ht]
  have hg := hs.good hinj hd
  obtain ⟨v, hv, hKv⟩ := Stored.of_isSome hg (Option.isSome_iff_exists.2 ⟨_, hu.1⟩)
  obtain rfl := hu.unique hinj hv
  have : Den prog f vals (.ok u) := by
    obtain ⟨a, m, b⟩ := (show Den prog f (sortKw vals) (.ok u) from hKv)
    exact ⟨a, m, by rw [ref_sort hd] at b; exact b⟩
  exact Den.unique ⟨ht, n, rfl⟩ this

/-- **C28** The storing step itself: with the check forced, storing `u` for a call whose result is `u0` raises
exactly if `u` differs from `u0`; the stored results stay as they were, and the configured probability is
back in force. -/
theorem C28_store_checked (hinj : Function.Injective addrOf) (p : PortalId) (k : Key A) (u u0 : U) (cfg : Option Rat)
    (s : PWorld U A) (h : (s.ext.results p).data k = some (addrOf (.user u0))) (hdraw : ∀ i, s.draws i < 1) :
    let r := storeResult p k (addrOf (.user u)) true cfg s
    (r.1.isOk = true ↔ u = u0) ∧ (r.2.ext.results p).data = (s.ext.results p).data ∧ (r.2.ext.results p).pCheck = cfg := by
  have e : storeResult p k (addrOf (.user u)) true cfg s =
      ((resSet p k (addrOf (.user u)) (setPCheck p (some 1) s).2).1,
        (setPCheck p cfg (resSet p k (addrOf (.user u)) (setPCheck p (some 1) s).2).2).2) := rfl
  obtain ⟨d, nx, h1, h2, h3, h4, h5⟩ := resSet_run p k (addrOf (.user u)) (setPCheck p (some 1) s).2
  have hd : ((setPCheck p (some 1) s).2.ext.results p).data = (s.ext.results p).data := by
    simp [setPCheck, modExt]
  have hpc : ((setPCheck p (some 1) s).2.ext.results p).pCheck = some 1 := by
    simp [setPCheck, modExt]
  rw [hd] at h2 h4 h5
  rw [e, h1]
  refine ⟨⟨fun hok => ?_, fun hu => ?_⟩, ?_, ?_⟩
  · have hok' : (resSet p k (addrOf (.user u)) (setPCheck p (some 1) s).2).1 = .ok () := by
      revert hok
      cases (resSet p k (addrOf (.user u)) (setPCheck p (some 1) s).2).1 with
      | ok x => intro _; rfl
      | error x => intro h; cases h
    have := h5 _ h hok' hpc (hdraw _)
    exact (user_inj hinj (congrArg some this)).symm
  · subst hu
    show (resSet p k _ _).1.isOk = true
    rw [h4 (.inr h)]; rfl
  · show ((if p = p then _ else _ : FirstEntry.Dict (Key A) A)).data = _
    simp only [if_true]
    rw [h2]
    funext k'
    by_cases hk : k' = k
    · subst hk; rw [h]; rfl
    · simp [hk]
  · show ((if p = p then _ else _ : FirstEntry.Dict (Key A) A)).pCheck = _
    simp

/-! ### C31 -/

/-- the environment of the caller: entered portals with their counters, exceptions being handled, running
functions, open output capturers - these just got what was printed to the screen meanwhile -/
structure EnvRestored (s s' : PWorld U A) : Prop where
  portals : s'.sys.stack = s.sys.stack ∧ s'.sys.counters = s.sys.counters
  handling : s'.handling = s.handling
  running : s'.ext.frames = s.ext.frames
  output : ∃ out, s'.ext.screen = s.ext.screen ++ out ∧ s'.ext.caps = s.ext.caps.map (· ++ out)

theorem Base.env {K : Accept U} {s s' : PWorld U A} (h : Base addrOf K s s') : EnvRestored s s' :=
  ⟨⟨h.ctx.stack, h.ctx.counters⟩, h.ctx.handling, h.ev.frames, let ⟨o, h1, h2⟩ := h.ev.out; ⟨o, h2, h1⟩⟩

/-- **C31** However a call ends - value, exception of the code, of a guard, of the library, or cut off - and
whichever function, program and arguments it has, the environment is left as found. -/
theorem C31_call_restores_environment (hinj : Function.Injective addrOf) (prog : FnId → Fn U) {s : PWorld U A}
    (hs : Reached addrOf prog s) (p : PortalId) (n : Nat) (f : FnId) (kw : Kw U) :
    EnvRestored s (exec addrOf prog p n f kw s).2 :=
  ((gen_exec hinj prog p n f kw).at (hs.good hinj) trivial).1.env

/-- **C31** The same for the other operations of pure functions and of addresses of their calls. -/
theorem C31_operations_restore_environment (hinj : Function.Injective addrOf) (prog : FnId → Fn U) {s : PWorld U A}
    (hs : Reached addrOf prog s) (p : PortalId) (n : Nat) (f : FnId) (kw : Kw U) (l : List (Kw U)) (r : Nat)
    (sh1 sh2 : List Nat → List Nat) (h1 : ∀ l, (sh1 l).Perm l) (h2 : ∀ l, (sh2 l).Perm l)
    (hf : (prog f).isPure = true) (hr : ∀ k p, IsResAddr s r k p → (prog k.1).isPure = true) :
    EnvRestored s (getAddress addrOf p f kw s).2 ∧ EnvRestored s (swarm addrOf p f kw s).2 ∧
    EnvRestored s (run addrOf prog n p f kw s).2 ∧ EnvRestored s (swarmList addrOf sh1 p f l s).2 ∧
    EnvRestored s (runList addrOf prog n sh1 sh2 p f l s).2 ∧ EnvRestored s (rExecute addrOf prog n r s).2 ∧
    EnvRestored s (rGet addrOf r s).2 ∧ EnvRestored s (rReady addrOf r s).2 ∧ EnvRestored s (rRequest addrOf r s).2 := by
  have hg := hs.good hinj
  have hm := mode_any prog
  exact ⟨((sp_getAddress (c := none) (R := True) hinj p f kw []).at hg (.inl trivial)).1.env,
    ((sp_swarm (c := none) (R := True) hinj p f kw []).at hg (.inl trivial)).1.env,
    ((sp_run (c := none) (R := True) hinj hm id p f kw [] hf (.inl trivial) n).at hg (.inl trivial)).1.env,
    ((sp_swarmList (c := none) (R := True) hinj p f sh1 h1 l (l.map fun _ => []) (by simp) s).at hg ⟨.inl trivial, sameFree.refl s⟩).1.env,
    ((sp_runList (c := none) (R := True) hinj hm id p f hf (.inl trivial) n sh1 sh2 h1 h2 l (l.map fun _ => []) (by simp)).at hg (.inl trivial)).1.env,
    ((gen_rExecute (c := none) hinj prog n r).at hg (fun o ho => hr o.key o.portal ⟨o, ho, rfl, rfl⟩)).1.env,
    ((gen_rGet (c := none) hinj r).at hg trivial).1.env, ((gen_rReady (c := none) hinj r).at hg trivial).1.env,
    ((gen_rRequest (c := none) hinj r).at hg trivial).1.env⟩

end Pyth.Pure

/-! ### the hypotheses are met -/

namespace Pyth.Pure.Ex
open Pyth.World Pyth.Portal

/-- checks off; `fib(3)` was called in portal 0 -/
def fibState : PWorld Nat T := session addrOf detProg (start none fun _ => 0) [.val (.newPortal 0), .call 0 9 2 [("n", .raw 3)]]

theorem fibState_reached : Reached addrOf detProg fibState :=
  (Reached.start (start_ok _ _ _)).session ⟨trivial, trivial, trivial⟩
theorem fibState_reachedDet : ReachedDet addrOf detProg fibState :=
  (ReachedDet.start (start_ok _ _ _)).session ⟨trivial, trivial, trivial⟩ ⟨trivial, ⟨[("n", 3)], .inl rfl⟩, trivial⟩

/-- C16, C24, C25: the results of `fib(3)` and of the nested call `fib(2)` are stored, checks are off -/
example : Stored addrOf fibState 0 2 [("n", 3)] 2 ∧ Stored addrOf fibState 0 2 [("n", 2)] 1 ∧ ChecksOff fibState 0 := by
  refine ⟨⟨?_, ?_⟩, ⟨?_, ?_⟩, .inl ?_⟩ <;> (try unfold ValueAddr.HoldsVal) <;> decide +kernel

/-- C23: evaluated directly, `fib(7)` terminates within depth 9 with 13 -/
example : ref detProg 9 2 [("n", 7)] = .ok 13 := by decide +kernel

/-- C26: function 5 raises, and so does function 4 when its guard rejects the argument -/
example : out (exec addrOf detProg 0 3 5 [("x", .raw 1)] fibState) = .error (.user 6) ∧
    out (exec addrOf detProg 0 3 4 [("x", .raw 0)] fibState) = .error .assertionError := by decide +kernel

/-- C27: there is no result of `fib(4)` yet, and the call succeeds -/
example : NoResultAnywhere addrOf (start none fun _ => 0) 2 [("n", 4)] ∧
    out (exec addrOf detProg 0 12 2 [("n", .raw 4)] (start none fun _ => 0)) = .ok 3 :=
  ⟨fun _ => rfl, by decide +kernel⟩

/-- check probability 1; the nondeterministic function 8 was called and returned 0 -/
def checkState : PWorld Nat T := session addrOf prog (start (some 1) fun i => if i < 9 then 1/4 else 3/4)
  [.val (.newPortal 0), .call 0 3 8 []]

theorem checkState_reached : Reached addrOf prog checkState :=
  (Reached.start (start_ok _ _ _)).session ⟨trivial, trivial, trivial⟩

/-- C28: the stored result is 0, the check is due, and it finds a different value -/
example : Stored addrOf checkState 0 8 [] 0 ∧ checkState.ext.pCfg 0 = some 1 ∧ (∀ i, checkState.draws i < 1) ∧
    out (exec addrOf prog 0 3 8 [] checkState) = .error .assertionError := by
  refine ⟨⟨by decide +kernel, ?_⟩, by decide +kernel, fun i => ?_, by decide +kernel⟩
  · unfold ValueAddr.HoldsVal; decide +kernel
  · have := (session_keep (K := anything Nat) (E := True) addrOf_inj (mode_any prog) [.val (.newPortal 0), .call 0 3 8 []]
      (good_start (start_ok (anything Nat) (some 1) fun i => if i < 9 then 1/4 else 3/4)) ⟨trivial, trivial, trivial⟩ (.inl trivial)).2.draws
    unfold checkState
    rw [this]
    show (if i < 9 then (1/4 : Rat) else 3/4) < 1
    split <;> decide +kernel

/-- C28: checking a deterministic function succeeds -/
example : out (exec addrOf prog 0 9 2 [("n", .raw 3)]
    (session addrOf prog (start (some 1) fun _ => 1/4) [.call 0 9 2 [("n", .raw 3)]])) = .ok 2 := by decide +kernel

end Pyth.Pure.Ex
