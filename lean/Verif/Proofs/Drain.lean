import Verif.Spec.Drain
import Mathlib.Tactic
/-!
# Lemmas for C98
-/
namespace Pyth.Drain
open Pyth.Retry Pyth.Scan

variable {K : Type} [DecidableEq K]

/-! ## one step -/

/-- the workers' part of the state is changed by an event of the worker only -/
theorem step_other {s s' : Sys K} {e : Ev K} (h : Step s e s') (i : Nat) (hi : ¬ e.By i) : s'.busy i = s.busy i := by
  cases h with
  | list j order limit _ _ _ => exact Function.update_of_ne (fun h => hi h) _ _
  | look j k rest cands limit _ => exact Function.update_of_ne (fun h => hi h) _ _
  | pick j cands limit choice _ _ => exact Function.update_of_ne (fun h => hi h) _ _
  | start j k _ =>
    unfold startRun
    split
    · exact Function.update_of_ne (fun h => hi h) _ _
    · exact Function.update_of_ne (fun h => hi h) _ _
  | finish j k ok _ =>
    unfold finishRun
    split
    · exact Function.update_of_ne (fun h => hi h) _ _
    · exact Function.update_of_ne (fun h => hi h) _ _
  | kill j => exact Function.update_of_ne (fun h => hi h) _ _
  | attempt k => rfl
  | request k => rfl
  | drop k => rfl
  | store k => rfl
  | pass t _ => rfl

theorem step_can {s s' : Sys K} {e : Ev K} (h : Step s e s') : s'.q.can = s.q.can := by
  cases h <;> try rfl
  · unfold startRun; split <;> rfl
  · unfold finishRun; split <;> rfl

theorem step_clock {s s' : Sys K} {e : Ev K} (h : Step s e s') : s.clock ≤ s'.clock := by
  cases h <;> try exact le_refl _
  · unfold startRun; split <;> exact le_refl _
  · unfold finishRun; split <;> exact le_refl _
  · assumption

theorem attempt_prefix (s : Sys K) (k x : K) : s.q.attempts x <+: (s.attempt k).q.attempts x := by
  unfold Sys.attempt
  dsimp only
  split
  · rename_i h; subst h; exact List.prefix_append _ _
  · exact List.prefix_rfl

theorem step_attempts {s s' : Sys K} {e : Ev K} (h : Step s e s') (x : K) : s.q.attempts x <+: s'.q.attempts x := by
  cases h <;> try exact List.prefix_rfl
  · unfold startRun
    split
    · exact List.prefix_rfl
    · exact attempt_prefix _ _ _
  · unfold finishRun; split <;> exact List.prefix_rfl
  · exact attempt_prefix _ _ _

theorem store_ready (s : Sys K) (k x : K) (h : s.q.ready x = true) : (s.store k).q.ready x = true := by
  unfold Sys.store
  dsimp only
  split
  · rfl
  · exact h

theorem step_ready {s s' : Sys K} {e : Ev K} (h : Step s e s') (x : K) (hr : s.q.ready x = true) : s'.q.ready x = true := by
  cases h <;> try exact hr
  · unfold startRun; split <;> exact hr
  · unfold finishRun
    split
    · exact store_ready _ _ _ hr
    · exact hr
  · exact store_ready _ _ _ hr

/-! ## executions -/

variable {σ : Nat → Sys K} {ev : Nat → Ev K}

theorem Run.can (h : Run σ ev) (n : Nat) : (σ n).q.can = (σ 0).q.can := by
  induction n with
  | zero => rfl
  | succ n ih => rw [step_can (h.step n), ih]

theorem Run.clock (h : Run σ ev) {n m : Nat} (hm : n ≤ m) : (σ n).clock ≤ (σ m).clock := by
  induction m, hm using Nat.le_induction with
  | base => exact le_refl _
  | succ m _ ih => exact le_trans ih (step_clock (h.step m))

theorem Run.attempts (h : Run σ ev) {n m : Nat} (hm : n ≤ m) (x : K) :
    (σ n).q.attempts x <+: (σ m).q.attempts x := by
  induction m, hm using Nat.le_induction with
  | base => exact List.prefix_rfl
  | succ m _ ih => exact ih.trans (step_attempts (h.step m) x)

theorem Run.ready (h : Run σ ev) {n m : Nat} (hm : n ≤ m) (x : K) (hr : (σ n).q.ready x = true) :
    (σ m).q.ready x = true := by
  induction m, hm using Nat.le_induction with
  | base => exact hr
  | succ m _ ih => exact step_ready (h.step m) x ih

/-- there is a result, or the workers have given up -/
def Over (s : Sys K) (x : K) : Prop := s.q.ready x = true ∨ (s.q.attempts x).length > 5

theorem Over.needs {s : Sys K} {x : K} (h : Over s x) (t : Rat) : s.q.needs t x = false := by
  unfold Queue.needs needsExecution
  rcases h with h | h
  · simp [h]
  · split
    · rfl
    · cases ha : s.q.attempts x with
      | nil => rw [ha] at h; cases h
      | cons t ts => rw [ha] at h

theorem Run.over (h : Run σ ev) {n m : Nat} (hm : n ≤ m) (x : K) (ho : Over (σ n) x) : Over (σ m) x := by
  rcases ho with ho | ho
  · exact Or.inl (h.ready hm x ho)
  · exact Or.inr (lt_of_lt_of_le ho (h.attempts hm x).length_le)

/-- the attempts of a call that is never over do not change any more after some time -/
theorem Run.settles (h : Run σ ev) (x : K) (ho : ∀ n, ¬ Over (σ n) x) :
    ∃ N, ∀ m, N ≤ m → (σ m).q.attempts x = (σ N).q.attempts x := by
  by_contra hc
  push Not at hc
  have grow : ∀ j, ∃ n, j ≤ ((σ n).q.attempts x).length := by
    intro j
    induction j with
    | zero => exact ⟨0, Nat.zero_le _⟩
    | succ j ih =>
      obtain ⟨n, hn⟩ := ih
      obtain ⟨m, hm, hne⟩ := hc n
      refine ⟨m, ?_⟩
      have hp := h.attempts hm x
      rcases Nat.lt_or_ge ((σ n).q.attempts x).length ((σ m).q.attempts x).length with hl | hl
      · omega
      · exact absurd (hp.eq_of_length (le_antisymm hp.length_le hl)).symm hne
  obtain ⟨n, hn⟩ := grow 6
  exact ho n (Or.inr hn)

theorem latest_le (b : Rat) : ∀ (t : Rat) (ts : List Rat), t ≤ b → (∀ u ∈ ts, u ≤ b) → latest t ts ≤ b
  | t, [], h, _ => h
  | t, u :: us, h, hs =>
    latest_le b (max t u) us (max_le h (hs u List.mem_cons_self)) (fun v hv => hs v (List.mem_cons_of_mem _ hv))

/-- a call that is never over needs execution from some time on -/
theorem Run.needs (h : Run σ ev) (ht : ∀ t, ∃ n, t ≤ (σ n).clock) (x : K) (ho : ∀ n, ¬ Over (σ n) x) :
    ∃ N, ∀ m, N ≤ m → (σ m).q.needs (σ m).clock x = true := by
  obtain ⟨N, hN⟩ := h.settles x ho
  have hlen : ¬ ((σ N).q.attempts x).length > 5 := fun hl => ho N (Or.inr hl)
  cases ha : (σ N).q.attempts x with
  | nil =>
    refine ⟨N, fun m hm => ?_⟩
    have hr : (σ m).q.ready x = false := by
      cases hr : (σ m).q.ready x
      · rfl
      · exact absurd (Or.inl hr) (ho m)
    unfold Queue.needs needsExecution
    rw [hN m hm, ha, hr]
    simp
  | cons t ts =>
    rw [ha] at hlen
    obtain ⟨N2, hN2⟩ := ht (latest t ts + 10 * 2 ^ (t :: ts).length + 1)
    refine ⟨max N N2, fun m hm => ?_⟩
    have hr : (σ m).q.ready x = false := by
      cases hr : (σ m).q.ready x
      · rfl
      · exact absurd (Or.inl hr) (ho m)
    have hc := h.clock (le_trans (le_max_right N N2) hm)
    unfold Queue.needs needsExecution
    rw [hN m (le_trans (le_max_left N N2) hm), ha, hr]
    simp only [Bool.false_eq_true, if_false, if_neg hlen, decide_eq_true_eq]
    linarith

/-- what a worker does next: if it will do something, then from the state it is in now -/
theorem Run.next (h : Run σ ev) (i n : Nat) (he : ∃ m, n ≤ m ∧ (ev m).By i) :
    ∃ m, n ≤ m ∧ (ev m).By i ∧ (σ m).busy i = (σ n).busy i := by
  classical
  have hm := Nat.find_spec he
  have hmin := fun m (hm : m < Nat.find he) => Nat.find_min he hm
  refine ⟨Nat.find he, hm.1, hm.2, ?_⟩
  have : ∀ m, n ≤ m → m ≤ Nat.find he → (σ m).busy i = (σ n).busy i := by
    intro m hnm
    induction m, hnm using Nat.le_induction with
    | base => intro _; rfl
    | succ m hnm ih =>
      intro hle
      rw [step_other (h.step m) i (fun hb => hmin m (by omega) ⟨hnm, hb⟩)]
      exact ih (by omega)
  exact this _ hm.1 (le_refl _)

/-- a step of a worker that has chosen a call -/
theorem step_chosen {s s' : Sys K} {e : Ev K} (h : Step s e s') {i : Nat} (hi : e.By i) {k : K}
    (hb : s.busy i = .chosen k) :
    (e = .kill i ∧ s' = s.setBusy i .idle) ∨ (e = .start i ∧ s' = startRun s i k) := by
  cases h with
  | list j order limit h1 _ _ => cases hi; rw [hb] at h1; cases h1
  | look j k rest cands limit h1 => cases hi; rw [hb] at h1; cases h1
  | pick j cands limit choice h1 _ => cases hi; rw [hb] at h1; cases h1
  | start j k' h1 => cases hi; rw [hb] at h1; cases h1; exact Or.inr ⟨rfl, rfl⟩
  | finish j k ok h1 => cases hi; rw [hb] at h1; cases h1
  | kill j => cases hi; exact Or.inl ⟨rfl, rfl⟩
  | attempt k => exact hi.elim
  | request k => exact hi.elim
  | drop k => exact hi.elim
  | store k => exact hi.elim
  | pass t _ => exact hi.elim

/-- a step of a worker that scans -/
theorem step_looking {s s' : Sys K} {e : Ev K} (h : Step s e s') {i : Nat} (hi : e.By i) {r c : List K} {l : Nat}
    (hb : s.busy i = .looking r c l) :
    (e = .kill i ∧ s' = s.setBusy i .idle) ∨
    (∃ k rest, r = k :: rest ∧ s' = s.setBusy i (lookAt s k rest c l)) ∨
    (r = [] ∧ ∃ choice, (c ≠ [] → choice < c.length) ∧ s' = s.setBusy i (choose c choice)) := by
  cases h with
  | list j order limit h1 _ _ => cases hi; rw [hb] at h1; cases h1
  | look j k rest cands limit h1 =>
    cases hi; rw [hb] at h1; cases h1; exact Or.inr (Or.inl ⟨k, rest, rfl, rfl⟩)
  | pick j cands limit choice h1 h2 =>
    cases hi; rw [hb] at h1; cases h1; exact Or.inr (Or.inr ⟨rfl, choice, h2, rfl⟩)
  | start j k' h1 => cases hi; rw [hb] at h1; cases h1
  | finish j k ok h1 => cases hi; rw [hb] at h1; cases h1
  | kill j => cases hi; exact Or.inl ⟨rfl, rfl⟩
  | attempt k => exact hi.elim
  | request k => exact hi.elim
  | drop k => exact hi.elim
  | store k => exact hi.elim
  | pass t _ => exact hi.elim

@[simp] theorem setBusy_busy (s : Sys K) (i : Nat) (b : Busy K) : (s.setBusy i b).busy i = b :=
  Function.update_self _ _ _

theorem startRun_busy (s : Sys K) (i : Nat) (k : K) :
    (startRun s i k).busy i = .idle ∨ (startRun s i k).busy i = .running k := by
  unfold startRun
  split
  · exact Or.inl (setBusy_busy _ _ _)
  · exact Or.inr (setBusy_busy _ _ _)

/-- where the look at a request leads -/
theorem lookAt_cases (s : Sys K) (k : K) (rest c : List K) (l : Nat) :
    (lookAt s k rest c l = .idle ∧ s.q.can k = .raises) ∨
    (lookAt s k rest c l = .looking rest c l ∧ ¬ (s.q.needs s.clock k = true ∧ s.q.can k = .yes)) ∨
    (∃ r', lookAt s k rest c l = .looking r' (c ++ [k]) l ∧ (r' = [] ∨ r' = rest) ∧
      s.q.needs s.clock k = true ∧ s.q.can k = .yes) := by
  unfold lookAt
  cases hn : s.q.needs s.clock k
  · right; left; simp
  · cases hc : s.q.can k
    · right; right
      simp only [if_true]
      exact ⟨_, rfl, by split <;> simp, trivial, trivial⟩
    · right; left; simp
    · left; simp

theorem choose_cases (c : List K) (choice : Nat) :
    (choose c choice = .idle) ∨ ∃ x ∈ c, choose c choice = .chosen x := by
  unfold choose
  cases hc : c[choice]? with
  | none => exact Or.inl rfl
  | some x => exact Or.inr ⟨x, List.mem_of_getElem? hc, rfl⟩

theorem choose_some {c : List K} {choice : Nat} (h : choice < c.length) : ∃ x ∈ c, choose c choice = .chosen x := by
  unfold choose
  rw [List.getElem?_eq_getElem h]
  exact ⟨_, List.getElem_mem h, rfl⟩

theorem not_choosing_idle {s : Sys K} {i : Nat} (h : s.busy i = .idle) : ¬ Choosing s i := by
  rintro (⟨r, c, l, h'⟩ | ⟨k, h'⟩) <;> rw [h] at h' <;> cases h'

theorem not_choosing_running {s : Sys K} {i : Nat} {k : K} (h : s.busy i = .running k) : ¬ Choosing s i := by
  rintro (⟨r, c, l, h'⟩ | ⟨k, h'⟩) <;> rw [h] at h' <;> cases h'

/-- a call chosen is soon started (or the worker dies) -/
theorem Run.leaves_chosen (h : Run σ ev) (hgo : ∀ n i, Choosing (σ n) i → ∃ m, n ≤ m ∧ (ev m).By i)
    {i n : Nat} {k : K} (hb : (σ n).busy i = .chosen k) : ∃ m, n ≤ m ∧ ¬ Choosing (σ m) i := by
  obtain ⟨m, hm, he, hs⟩ := h.next i n (hgo n i (Or.inr ⟨k, hb⟩))
  rw [hb] at hs
  refine ⟨m + 1, by omega, ?_⟩
  rcases step_chosen (h.step m) he hs with ⟨_, e⟩ | ⟨_, e⟩
  · rw [e]; exact not_choosing_idle (setBusy_busy _ _ _)
  · rw [e]
    rcases startRun_busy (σ m) i k with h' | h'
    · exact not_choosing_idle h'
    · exact not_choosing_running h'

/-- a scan ends -/
theorem Run.leaves_looking (h : Run σ ev) (hgo : ∀ n i, Choosing (σ n) i → ∃ m, n ≤ m ∧ (ev m).By i) {i : Nat} :
    ∀ (j n : Nat) (r c : List K) (l : Nat), r.length ≤ j → (σ n).busy i = .looking r c l →
      ∃ m, n ≤ m ∧ ¬ Choosing (σ m) i := by
  intro j
  induction j with
  | zero =>
    intro n r c l hj hb
    obtain ⟨m, hm, he, hs⟩ := h.next i n (hgo n i (Or.inl ⟨r, c, l, hb⟩))
    rw [hb] at hs
    rcases step_looking (h.step m) he hs with ⟨_, e⟩ | ⟨k, rest, e1, _⟩ | ⟨_, choice, _, e⟩
    · exact ⟨m + 1, by omega, by rw [e]; exact not_choosing_idle (setBusy_busy _ _ _)⟩
    · rw [e1] at hj; simp at hj
    · rcases choose_cases c choice with hc | ⟨x, _, hc⟩
      · exact ⟨m + 1, by omega, by rw [e, hc]; exact not_choosing_idle (setBusy_busy _ _ _)⟩
      · obtain ⟨m', hm', hx⟩ := h.leaves_chosen hgo (n := m + 1) (i := i) (k := x) (by rw [e, hc]; exact setBusy_busy _ _ _)
        exact ⟨m', by omega, hx⟩
  | succ j ih =>
    intro n r c l hj hb
    obtain ⟨m, hm, he, hs⟩ := h.next i n (hgo n i (Or.inl ⟨r, c, l, hb⟩))
    rw [hb] at hs
    rcases step_looking (h.step m) he hs with ⟨_, e⟩ | ⟨k, rest, e1, e⟩ | ⟨_, choice, _, e⟩
    · exact ⟨m + 1, by omega, by rw [e]; exact not_choosing_idle (setBusy_busy _ _ _)⟩
    · subst e1
      simp only [List.length_cons] at hj
      rcases lookAt_cases (σ m) k rest c l with ⟨hc, _⟩ | ⟨hc, _⟩ | ⟨r', hc, hr', _⟩
      · exact ⟨m + 1, by omega, by rw [e, hc]; exact not_choosing_idle (setBusy_busy _ _ _)⟩
      · obtain ⟨m', hm', hx⟩ := ih (m + 1) rest c l (by omega) (by rw [e, hc]; exact setBusy_busy _ _ _)
        exact ⟨m', by omega, hx⟩
      · obtain ⟨m', hm', hx⟩ := ih (m + 1) r' (c ++ [k]) l (by rcases hr' with rfl | rfl; exact Nat.zero_le _; omega)
          (by rw [e, hc]; exact setBusy_busy _ _ _)
        exact ⟨m', by omega, hx⟩
    · rcases choose_cases c choice with hc | ⟨x, _, hc⟩
      · exact ⟨m + 1, by omega, by rw [e, hc]; exact not_choosing_idle (setBusy_busy _ _ _)⟩
      · obtain ⟨m', hm', hx⟩ := h.leaves_chosen hgo (n := m + 1) (i := i) (k := x) (by rw [e, hc]; exact setBusy_busy _ _ _)
        exact ⟨m', by omega, hx⟩

theorem Run.leaves (h : Run σ ev) (hgo : ∀ n i, Choosing (σ n) i → ∃ m, n ≤ m ∧ (ev m).By i) (i n : Nat) :
    ∃ m, n ≤ m ∧ ¬ Choosing (σ m) i := by
  by_cases hc : Choosing (σ n) i
  · rcases hc with ⟨r, c, l, hb⟩ | ⟨k, hb⟩
    · exact h.leaves_looking hgo _ n r c l (le_refl _) hb
    · exact h.leaves_chosen hgo hb
  · exact ⟨n, le_refl _, hc⟩

/-- worker `i` does not hold call `x` among its candidates -/
def Clean (s : Sys K) (i : Nat) (x : K) : Prop :=
  (∀ r c l, s.busy i = .looking r c l → x ∉ c) ∧ s.busy i ≠ .chosen x

theorem clean_of_not_choosing {s : Sys K} {i : Nat} (h : ¬ Choosing s i) (x : K) : Clean s i x :=
  ⟨fun r c l hb => absurd (Or.inl ⟨r, c, l, hb⟩) h, fun hb => h (Or.inr ⟨x, hb⟩)⟩

theorem clean_of_busy {s s' : Sys K} {i : Nat} {x : K} (h : s'.busy i = s.busy i) (hc : Clean s i x) : Clean s' i x := by
  unfold Clean at *
  rw [h]; exact hc

/-- what a worker starts to hold needs execution -/
theorem step_clean {s s' : Sys K} {e : Ev K} (h : Step s e s') {i : Nat} {x : K} (hn : s.q.needs s.clock x = false)
    (hc : Clean s i x) : Clean s' i x := by
  by_cases hi : e.By i
  · have hid : ∀ {s' : Sys K}, s'.busy i = .idle → Clean s' i x :=
      fun hb => clean_of_not_choosing (not_choosing_idle hb) x
    have hru : ∀ {s' : Sys K} {k : K}, s'.busy i = .running k → Clean s' i x :=
      fun hb => clean_of_not_choosing (not_choosing_running hb) x
    cases h with
    | list j order limit h1 _ _ =>
      cases hi
      refine ⟨fun r c l hb => ?_, fun hb => ?_⟩
      · rw [setBusy_busy] at hb; cases hb; simp
      · rw [setBusy_busy] at hb; cases hb
    | look j k rest cands limit h1 =>
      cases hi
      rcases lookAt_cases s k rest cands limit with ⟨h2, _⟩ | ⟨h2, _⟩ | ⟨r', h2, hr', h3, _⟩
      · exact hid (by rw [h2]; exact setBusy_busy _ _ _)
      · refine ⟨fun r c l hb => ?_, fun hb => ?_⟩
        · rw [h2, setBusy_busy] at hb; cases hb; exact hc.1 _ _ _ h1
        · rw [h2, setBusy_busy] at hb; cases hb
      · refine ⟨fun r c l hb => ?_, fun hb => ?_⟩
        · rw [h2, setBusy_busy] at hb; cases hb
          intro hx
          rcases List.mem_append.mp hx with hx | hx
          · exact hc.1 _ _ _ h1 hx
          · simp only [List.mem_singleton] at hx; subst hx; rw [hn] at h3; cases h3
        · rw [h2, setBusy_busy] at hb; cases hb
    | pick j cands limit choice h1 _ =>
      cases hi
      rcases choose_cases cands choice with h2 | ⟨y, hy, h2⟩
      · exact hid (by rw [h2]; exact setBusy_busy _ _ _)
      · refine ⟨fun r c l hb => ?_, fun hb => ?_⟩
        · rw [h2, setBusy_busy] at hb; cases hb
        · rw [h2, setBusy_busy] at hb; cases hb; exact hc.1 _ _ _ h1 hy
    | start j k h1 =>
      cases hi
      rcases startRun_busy s i k with h2 | h2
      · exact hid h2
      · exact hru h2
    | finish j k ok h1 =>
      cases hi
      refine hid ?_
      unfold finishRun
      split <;> exact setBusy_busy _ _ _
    | kill j => cases hi; exact hid (setBusy_busy _ _ _)
    | attempt k => exact hi.elim
    | request k => exact hi.elim
    | drop k => exact hi.elim
    | store k => exact hi.elim
    | pass t _ => exact hi.elim
  · exact clean_of_busy (step_other h i hi) hc

/-- a worker chooses a call only finitely often -/
theorem Run.chosen_rarely (h : Run σ ev) (hgo : ∀ n i, Choosing (σ n) i → ∃ m, n ≤ m ∧ (ev m).By i)
    (hk : ∃ n, ∀ m i, n ≤ m → ev m = .kill i → ¬ Choosing (σ m) i) (i : Nat) (x : K) :
    ∃ N, ∀ m, N ≤ m → (σ m).busy i ≠ .chosen x := by
  by_cases ho : ∃ n, Over (σ n) x
  · obtain ⟨n, ho⟩ := ho
    obtain ⟨N, hN, hc⟩ := h.leaves hgo i n
    refine ⟨N, fun m hm => ?_⟩
    have : Clean (σ m) i x := by
      induction m, hm using Nat.le_induction with
      | base => exact clean_of_not_choosing hc x
      | succ m hm ih => exact step_clean (h.step m) ((h.over (by omega) x ho).needs _) ih
    exact this.2
  · push Not at ho
    obtain ⟨N1, hN1⟩ := h.settles x ho
    obtain ⟨N2, hN2⟩ := hk
    refine ⟨max N1 N2, fun m hm hb => ?_⟩
    obtain ⟨m', hm', he, hs⟩ := h.next i m (hgo m i (Or.inr ⟨x, hb⟩))
    rw [hb] at hs
    rcases step_chosen (h.step m') he hs with ⟨e, _⟩ | ⟨_, e⟩
    · exact hN2 m' i (by omega) e (Or.inr ⟨x, hs⟩)
    · have h1 := hN1 m' (by omega)
      have h2 := hN1 (m' + 1) (by omega)
      rw [e] at h2
      unfold startRun at h2
      rw [if_neg (fun hr => ho m' (Or.inl hr))] at h2
      rw [← h1] at h2
      simp [Sys.setBusy, Sys.addRequest, Sys.attempt] at h2

theorem Run.chosen_rarely_all (h : Run σ ev) (hgo : ∀ n i, Choosing (σ n) i → ∃ m, n ≤ m ∧ (ev m).By i)
    (hk : ∃ n, ∀ m i, n ≤ m → ev m = .kill i → ¬ Choosing (σ m) i) (S : List K) (w : Nat) :
    ∃ N, ∀ m, N ≤ m → ∀ i, i < w → ∀ x ∈ S, (σ m).busy i ≠ .chosen x := by
  have one : ∀ i, ∃ N, ∀ m, N ≤ m → ∀ x ∈ S, (σ m).busy i ≠ .chosen x := by
    intro i
    induction S with
    | nil => exact ⟨0, fun _ _ x hx => (nomatch hx)⟩
    | cons y S ih =>
      obtain ⟨N1, h1⟩ := ih
      obtain ⟨N2, h2⟩ := h.chosen_rarely hgo hk i y
      refine ⟨max N1 N2, fun m hm x hx => ?_⟩
      rcases List.mem_cons.mp hx with rfl | hx
      · exact h2 m (by omega)
      · exact h1 m (by omega) x hx
  induction w with
  | zero => exact ⟨0, fun _ _ i hi => (nomatch hi)⟩
  | succ w ih =>
    obtain ⟨N1, h1⟩ := ih
    obtain ⟨N2, h2⟩ := one w
    refine ⟨max N1 N2, fun m hm i hi x hx => ?_⟩
    rcases Nat.lt_succ_iff_lt_or_eq.mp hi with hi | rfl
    · exact h1 m (by omega) i hi x hx
    · exact h2 m (by omega) x hx

/-- workers look only at requested calls -/
theorem Run.held (h : Run σ ev) {S : List K} (hS : Calls σ S) (n i : Nat) (r c : List K) (l : Nat)
    (hb : (σ n).busy i = .looking r c l) : ∀ x ∈ r ++ c, x ∈ S ∧ (σ 0).q.can x ≠ .raises := by
  induction n generalizing r c l with
  | zero => rw [h.start] at hb; cases hb
  | succ n ih =>
    have hst := h.step n
    by_cases hi : (ev n).By i
    · generalize hs' : σ (n + 1) = s' at *
      generalize he : ev n = e at *
      cases hst with
      | list j order limit h1 h2 _ =>
        cases hi
        rw [setBusy_busy] at hb; cases hb
        intro x hx
        simp only [List.append_nil] at hx
        have := hS n x (h2.subset hx)
        rw [h.can n] at this; exact this
      | look j k rest cands limit h1 =>
        cases hi
        have := ih _ _ _ h1
        rcases lookAt_cases (σ n) k rest cands limit with ⟨h2, _⟩ | ⟨h2, _⟩ | ⟨r', h2, hr', h3, _⟩
        · rw [h2, setBusy_busy] at hb; cases hb
        · rw [h2, setBusy_busy] at hb; cases hb
          intro x hx; exact this x (List.mem_cons_of_mem _ hx)
        · rw [h2, setBusy_busy] at hb; cases hb
          intro x hx
          apply this x
          simp only [List.mem_append, List.mem_cons, List.mem_singleton, List.not_mem_nil, or_false] at hx ⊢
          rcases hr' with rfl | rfl
          · rcases hx with hx | hx | hx
            · cases hx
            · exact Or.inr hx
            · exact Or.inl (Or.inl hx)
          · rcases hx with hx | hx | hx
            · exact Or.inl (Or.inr hx)
            · exact Or.inr hx
            · exact Or.inl (Or.inl hx)
      | pick j cands limit choice h1 _ =>
        cases hi
        rcases choose_cases cands choice with h2 | ⟨y, hy, h2⟩ <;> · rw [h2, setBusy_busy] at hb; cases hb
      | start j k h1 =>
        cases hi
        rcases startRun_busy (σ n) i k with h2 | h2 <;> · rw [h2] at hb; cases hb
      | finish j k ok h1 =>
        cases hi
        unfold finishRun at hb
        split at hb <;> · rw [setBusy_busy] at hb; cases hb
      | kill j => cases hi; rw [setBusy_busy] at hb; cases hb
      | attempt k => exact hi.elim
      | request k => exact hi.elim
      | drop k => exact hi.elim
      | store k => exact hi.elim
      | pass t _ => exact hi.elim
    · rw [step_other hst i hi] at hb
      exact ih _ _ _ hb

/-- a scan that has a candidate, or will find one, ends with a choice -/
theorem Run.chooses (h : Run σ ev) (hgo : ∀ n i, Choosing (σ n) i → ∃ m, n ≤ m ∧ (ev m).By i) {S : List K}
    (hS : Calls σ S) {N : Nat} (hk : ∀ m i, N ≤ m → ev m = .kill i → ¬ Choosing (σ m) i) {x : K}
    (hx : ∀ m, N ≤ m → (σ m).q.needs (σ m).clock x = true) (hy : (σ 0).q.can x = .yes) {i : Nat} :
    ∀ (j n : Nat) (r c : List K) (l : Nat), N ≤ n → r.length ≤ j → (σ n).busy i = .looking r c l →
      (x ∈ r ∨ c ≠ []) → ∃ m y, n ≤ m ∧ y ∈ S ∧ (σ m).busy i = .chosen y := by
  intro j
  induction j with
  | zero =>
    intro n r c l hn hj hb hxc
    obtain ⟨m, hm, he, hs⟩ := h.next i n (hgo n i (Or.inl ⟨r, c, l, hb⟩))
    rw [hb] at hs
    have hr : r = [] := List.length_eq_zero_iff.mp (by omega)
    subst hr
    have hc : c ≠ [] := hxc.resolve_left (by simp)
    rcases step_looking (h.step m) he hs with ⟨e, _⟩ | ⟨k, rest, e1, _⟩ | ⟨_, choice, hch, e⟩
    · exact absurd (Or.inl ⟨_, _, _, hs⟩) (hk m i (by omega) e)
    · cases e1
    · obtain ⟨y, hy, h2⟩ := choose_some (hch hc)
      exact ⟨m + 1, y, by omega, (h.held hS m i _ _ _ hs y (by simpa using hy)).1, by rw [e, h2]; exact setBusy_busy _ _ _⟩
  | succ j ih =>
    intro n r c l hn hj hb hxc
    obtain ⟨m, hm, he, hs⟩ := h.next i n (hgo n i (Or.inl ⟨r, c, l, hb⟩))
    rw [hb] at hs
    have held := h.held hS m i _ _ _ hs
    rcases step_looking (h.step m) he hs with ⟨e, _⟩ | ⟨k, rest, e1, e⟩ | ⟨e1, choice, hch, e⟩
    · exact absurd (Or.inl ⟨_, _, _, hs⟩) (hk m i (by omega) e)
    · subst e1
      simp only [List.length_cons] at hj
      have hcan := h.can m
      rcases lookAt_cases (σ m) k rest c l with ⟨_, hr⟩ | ⟨h2, hno⟩ | ⟨r', h2, hr', _⟩
      · exact absurd (by rw [hcan] at hr; exact hr) (held k (by simp)).2
      · have hxk : x ∈ rest ∨ c ≠ [] := by
          rcases hxc with hxc | hxc
          · rcases List.mem_cons.mp hxc with rfl | hxc
            · exact absurd ⟨hx m (by omega), by rw [hcan]; exact hy⟩ hno
            · exact Or.inl hxc
          · exact Or.inr hxc
        obtain ⟨m', y, hm', h3⟩ := ih (m + 1) rest c l (by omega) (by omega) (by rw [e, h2]; exact setBusy_busy _ _ _) hxk
        exact ⟨m', y, by omega, h3⟩
      · obtain ⟨m', y, hm', h3⟩ := ih (m + 1) r' (c ++ [k]) l (by omega)
          (by rcases hr' with rfl | rfl; exact Nat.zero_le _; omega) (by rw [e, h2]; exact setBusy_busy _ _ _) (Or.inr (by simp))
        exact ⟨m', y, by omega, h3⟩
    · subst e1
      have hc : c ≠ [] := hxc.resolve_left (by simp)
      obtain ⟨y, hy, h2⟩ := choose_some (hch hc)
      exact ⟨m + 1, y, by omega, (held y (by simpa using hy)).1, by rw [e, h2]; exact setBusy_busy _ _ _⟩

end Pyth.Drain
