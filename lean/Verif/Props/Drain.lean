import Verif.Examples.Drain
/-!
# C98: workers empty the queue of a portal
-/
namespace Pyth.Drain
open Pyth.Retry Pyth.Scan

variable {K : Type} [DecidableEq K] {σ : Nat → Sys K} {ev : Nat → Ev K}

/-- **C98** (partial): as long as workers go on scanning, a request for a call that can be executed does not wait forever: its request
disappears, or it gets a result, or the workers have given up after more than five attempts – however many workers there are, however
their looks interleave with each other and with clients, in whatever order the requests are iterated and whatever the random choices
are.  Missing: requests for infinitely many different calls, and requests whose check raises an exception (C72) – for both the claim
is false of the code. -/
theorem C98_no_request_passed_over (h : Run σ ev) (w : Nat) (hw : Working σ ev w) (S : List K) (hS : Calls σ S)
    (n : Nat) (k : K) (hk : (σ n).q.can k = .yes) :
    ∃ m, n ≤ m ∧ (k ∉ (σ m).q.requests ∨ (σ m).q.ready k = true ∨ ((σ m).q.attempts k).length > 5) := by
  by_contra hc
  push Not at hc
  have ho : ∀ m, ¬ Over (σ m) k := by
    intro m ho
    have := h.over (le_max_left m n) k ho
    obtain ⟨_, h1, h2⟩ := hc (max m n) (le_max_right m n)
    rcases this with h3 | h3
    · exact h1 h3
    · omega
  have hy : (σ 0).q.can k = .yes := by rw [← h.can n]; exact hk
  obtain ⟨N1, h1⟩ := h.needs hw.time k ho
  obtain ⟨N2, h2⟩ := hw.kills
  obtain ⟨N3, h3⟩ := h.chosen_rarely_all hw.go hw.kills S w
  obtain ⟨m, i, hm, hl⟩ := hw.scans (max n (max N1 (max N2 N3)))
  cases he : ev m with
  | list j order limit =>
    rw [he] at hl
    cases hl
    have hiw : i < w := hw.few m i (by rw [he]; rfl)
    have hst := h.step m
    rw [he] at hst
    obtain ⟨hb, hx⟩ : (σ (m + 1)).busy i = .looking order [] limit ∧ k ∈ order := by
      generalize σ (m + 1) = s' at hst
      cases hst with
      | list _ _ _ _ h2 _ => exact ⟨setBusy_busy _ _ _, h2.symm.subset (hc m (by omega)).1⟩
    obtain ⟨m', y, hm', hyS, hch⟩ := h.chooses hw.go hS (N := max N1 N2) (fun m i hm => h2 m i (by omega))
      (fun m hm => h1 m (by omega)) hy (i := i) _ (m + 1) order [] limit (by omega) (le_refl _) hb (Or.inl hx)
    exact h3 m' (by omega) i hiw y hyS hch
  | _ => rw [he] at hl; exact hl

/-- **C98** (partial): a call that can be executed, was requested and not yet attempted gets its result, if its runs return, nobody
withdraws the request and no client calls it in vain meanwhile.  Missing: as above. -/
theorem C98_result_arrives (h : Run σ ev) (w : Nat) (hw : Working σ ev w) (S : List K) (hS : Calls σ S)
    (n : Nat) (k : K) (hreq : k ∈ (σ n).q.requests) (hk : (σ n).q.can k = .yes) (hat : (σ n).q.attempts k = [])
    (hdrop : ∀ m, n ≤ m → ev m ≠ .drop k ∧ ev m ≠ .attempt k)
    (hruns : ∀ m i, n ≤ m → (σ m).busy i = .running k →
      ((ev m).By i → ev m = .finish i true) ∧ ∃ m', m ≤ m' ∧ (ev m').By i) :
    ∃ m, n ≤ m ∧ (σ m).q.ready k = true := by
  by_contra hc
  push Not at hc
  have hfin : ∀ m i, n ≤ m → (σ m).busy i ≠ .running k := by
    intro m i hm hb
    obtain ⟨m', hm', he, hs⟩ := h.next i m (hruns m i hm hb).2
    rw [hb] at hs
    have hst := h.step m'
    rw [(hruns m' i (by omega) hs).1 he] at hst
    refine hc (m' + 1) (by omega) ?_
    generalize σ (m' + 1) = s' at hst
    cases hst with
    | finish _ k' _ h1 =>
      rw [hs] at h1; cases h1
      simp [finishRun, Sys.setBusy, Sys.dropRequest, Sys.store]
  have hkeep : ∀ m, n ≤ m → k ∈ (σ m).q.requests ∧ (σ m).q.attempts k = [] := by
    intro m hm
    induction m, hm using Nat.le_induction with
    | base => exact ⟨hreq, hat⟩
    | succ m hm ih =>
      have hst := h.step m
      have hno := hc (m + 1) (by omega)
      have hrun := fun i => hfin (m + 1) i (by omega)
      have hd := hdrop m hm
      generalize σ (m + 1) = s' at hst hno hrun
      generalize ev m = e at hst hd
      cases hst with
      | list j order limit h1 _ _ => exact ih
      | look j k rest cands limit h1 => exact ih
      | pick j cands limit choice h1 _ => exact ih
      | start j k' h1 =>
        have hr := hrun j
        unfold startRun at hr ⊢
        split
        · exact ih
        · rename_i hne
          rw [if_neg hne] at hr
          have hkk : k' ≠ k := by
            rintro rfl
            exact hr (Function.update_self _ _ _)
          refine ⟨?_, ?_⟩
          · show k ∈ if k' ∈ (σ m).q.requests then (σ m).q.requests else (σ m).q.requests ++ [k']
            split
            · exact ih.1
            · exact List.mem_append_left _ ih.1
          · simp only [Sys.setBusy, Sys.addRequest, Sys.attempt, if_neg (Ne.symm hkk)]
            exact ih.2
      | finish j k' ok h1 =>
        unfold finishRun
        have hkk : k' ≠ k := by
          rintro rfl
          exact hfin m j hm h1
        split
        · exact ⟨List.mem_filter.mpr ⟨ih.1, by simpa using Ne.symm hkk⟩, ih.2⟩
        · exact ih
      | kill j => exact ih
      | attempt k' =>
        have hkk : k' ≠ k := by
          rintro rfl
          exact hd.2 rfl
        exact ⟨ih.1, by simp only [Sys.attempt, if_neg (Ne.symm hkk)]; exact ih.2⟩
      | request k' =>
        refine ⟨?_, ih.2⟩
        simp only [Sys.addRequest]
        split
        · exact ih.1
        · exact List.mem_append_left _ ih.1
      | drop k' =>
        have hkk : k' ≠ k := by
          rintro rfl
          exact hd.1 rfl
        exact ⟨List.mem_filter.mpr ⟨ih.1, by simpa using Ne.symm hkk⟩, ih.2⟩
      | store k' => exact ih
      | pass t _ => exact ih
  obtain ⟨m, hm, h1⟩ := C98_no_request_passed_over h w hw S hS n k hk
  have h2 := hkeep m hm
  rcases h1 with h1 | h1 | h1
  · exact h1 h2.1
  · exact hc m hm h1
  · rw [h2.2] at h1; cases h1

/-- the workers that hold the call -/
noncomputable def holders (s : Sys K) (w : Nat) (k : K) : Finset Nat :=
  open Classical in (Finset.range w).filter (fun i => ¬ Clean s i k)

theorem holders_le (s : Sys K) (w : Nat) (k : K) : (holders s w k).card ≤ w := by
  classical
  unfold holders
  exact le_trans (Finset.card_filter_le _ _) (by simp)

/-- a step that does not execute the call, or does -/
theorem step_runs {s s' : Sys K} {e : Ev K} (h : Step s e s') (k : K) :
    s'.runs.count k = s.runs.count k ∨
    (s'.runs.count k = s.runs.count k + 1 ∧ (s'.q.attempts k).length = (s.q.attempts k).length + 1 ∧
      ∃ i, e.By i ∧ s.busy i = .chosen k ∧ s'.busy i = .running k) := by
  cases h <;> try exact Or.inl rfl
  · rename_i i x h1
    unfold startRun
    split
    · exact Or.inl rfl
    · by_cases hx : x = k
      · subst hx
        refine Or.inr ⟨by simp, by simp [Sys.setBusy, Sys.addRequest, Sys.attempt], i, rfl, h1, setBusy_busy _ _ _⟩
      · left
        simp [hx]
  · unfold finishRun; split <;> exact Or.inl rfl

/-- **C98**: however many requests, clients and scans there are, `w` workers execute one call at most `5 + w` times (a single worker
at most six times), on any history. -/
theorem C98_few_executions (h : Run σ ev) (h0 : (σ 0).runs = []) (w : Nat) (hw : ∀ n i, (ev n).By i → i < w) (n : Nat) (k : K) :
    (σ n).runs.count k ≤ 5 + w := by
  classical
  have key : (σ n).runs.count k ≤ ((σ n).q.attempts k).length ∧ (σ n).runs.count k + (holders (σ n) w k).card ≤ 5 + w := by
    induction n with
    | zero => rw [h0]; simp only [List.count_nil]; exact ⟨Nat.zero_le _, by have := holders_le (σ 0) w k; omega⟩
    | succ n ih =>
      have hst := h.step n
      have hle := (step_attempts hst k).length_le
      have hH := holders_le (σ (n + 1)) w k
      rcases step_runs hst k with hr | ⟨hr, hlen, i, hi, hb, hb'⟩
      · refine ⟨by omega, ?_⟩
        rw [hr]
        by_cases h5 : (σ n).runs.count k ≤ 5
        · omega
        · have hover : Over (σ n) k := Or.inr (by omega)
          have hsub : holders (σ (n + 1)) w k ⊆ holders (σ n) w k := by
            intro j hj
            unfold holders at hj ⊢
            rw [Finset.mem_filter] at hj ⊢
            exact ⟨hj.1, fun hcl => hj.2 (step_clean hst (hover.needs _) hcl)⟩
          have := Finset.card_le_card hsub
          omega
      · refine ⟨by omega, ?_⟩
        by_cases h5 : (σ n).runs.count k + 1 ≤ 5
        · omega
        · have hmem : i ∈ holders (σ n) w k := by
            unfold holders
            rw [Finset.mem_filter]
            exact ⟨Finset.mem_range.mpr (hw n i hi), fun hcl => hcl.2 hb⟩
          have hsub : holders (σ (n + 1)) w k ⊆ (holders (σ n) w k).erase i := by
            intro j hj
            unfold holders at hj ⊢
            rw [Finset.mem_filter] at hj
            rw [Finset.mem_erase, Finset.mem_filter]
            have hji : j ≠ i := by
              rintro rfl
              exact hj.2 (clean_of_not_choosing (not_choosing_running hb') k)
            refine ⟨hji, hj.1, fun hcl => hj.2 (clean_of_busy (step_other hst j ?_) hcl)⟩
            intro hbj
            generalize ev n = e at hi hbj
            cases e <;> first | exact hi.elim | exact hji (Eq.trans hbj hi.symm)
          have := Finset.card_le_card hsub
          rw [Finset.card_erase_of_mem hmem] at this
          have hpos : 0 < (holders (σ n) w k).card := Finset.card_pos.mpr ⟨i, hmem⟩
          omega
  omega

/-- **C98** (counterexample): without the bound on the number of different calls the claim is false.  Whatever random numbers the
worker draws (`lim`: how many candidates it considers, `ch`: which of them it takes), if the dictionary is iterated in an unlucky order
and clients keep filing new requests, so that there are more than 5000 others before it, then a request is never even looked at: it
can be executed, all calls return, the worker never stops, and the request stays in the queue forever without a single attempt. -/
theorem C98_starvation_counterexample (lim ch : Nat → Nat) (hl : ∀ j, Limit (lim j)) :
    ∃ (σ : Nat → Sys Nat) (ev : Nat → Ev Nat), Run σ ev ∧ Working σ ev 1 ∧
      (∀ n i o l, ev n = .list i o l → l = lim (σ n).runs.length) ∧
      (∀ n i j c l, ev n = .pick i j → (σ n).busy i = .looking [] c l → j = ch (σ n).runs.length % c.length) ∧
      (∀ n i ok, ev n = .finish i ok → ok = true) ∧ (∀ n x, (σ n).q.can x = .yes) ∧
      ∀ n, 0 ∈ (σ n).q.requests ∧ (σ n).q.ready 0 = false ∧ (σ n).q.attempts 0 = [] ∧ 0 ∉ (σ n).runs := by
  refine ⟨Demo.states 5002 lim ch (Demo.crowd 5002), Demo.events 5002 lim ch (Demo.crowd 5002), Demo.run hl (fun _ => rfl),
    Demo.working hl (fun _ => rfl), ?_, ?_, ?_, fun n => (Demo.inv_states hl n).common.can, fun n => ?_⟩
  · intro n i o l h
    unfold Demo.events Demo.next Demo.act at h
    split at h
    · cases h
    · split at h
      · split at h
        · cases h
        · cases h; rfl
      all_goals cases h
  · intro n i j c l h hb
    unfold Demo.events Demo.next Demo.act at h
    split at h
    · cases h
    · split at h
      · split at h
        · cases h
        · cases h
      · cases h
      · rename_i h3
        cases h
        rw [h3] at hb; cases hb; rfl
      all_goals cases h
  · intro n i ok h
    unfold Demo.events Demo.next Demo.act at h
    split at h
    · cases h
    · split at h
      · split at h
        · cases h
        · cases h
      all_goals cases h
      rfl
  · have hc := (Demo.inv_states (ch := ch) hl n).common
    exact ⟨hc.zero, (hc.new 0 hc.not_run).2, (hc.new 0 hc.not_run).1, hc.not_run⟩

/-! ## the hypotheses can be met -/

theorem small_calls (lim ch : Nat → Nat) (hl : ∀ j, Limit (lim j)) :
    Calls (Demo.states 0 lim ch Demo.small) [0, 1, 2] := by
  intro n k hk
  refine ⟨(Demo.small_requests n).1 k hk, ?_⟩
  rw [(Demo.run hl (fun _ => rfl)).can n]
  show (if k = 2 then Can.no else Can.yes) ≠ .raises
  split <;> exact fun h => (nomatch h)

/-- a portal with one worker and three requests: call 1, which was attempted before, is not passed over, … -/
example : ∃ m, 1 ∉ (Demo.states 0 (fun _ => 200) (fun j => 7 * j) Demo.small m).q.requests ∨
    (Demo.states 0 (fun _ => 200) (fun j => 7 * j) Demo.small m).q.ready 1 = true ∨
    ((Demo.states 0 (fun _ => 200) (fun j => 7 * j) Demo.small m).q.attempts 1).length > 5 := by
  have hl : ∀ j : Nat, Limit ((fun _ => 200 : Nat → Nat) j) := fun _ => ⟨le_refl 200, by norm_num⟩
  obtain ⟨m, _, h⟩ := C98_no_request_passed_over (Demo.run (full := 0) (ch := fun j => 7 * j) hl (fun _ => rfl)) 1
    (Demo.working hl (fun _ => rfl)) [0, 1, 2] (small_calls _ _ hl) 0 1 rfl
  exact ⟨m, h⟩

/-- … and call 0, which was not, gets a result; call 2 is executed at most six times (never, in fact) -/
example : (∃ m, (Demo.states 0 (fun _ => 200) (fun j => 7 * j) Demo.small m).q.ready 0 = true) ∧
    ∀ n, (Demo.states 0 (fun _ => 200) (fun j => 7 * j) Demo.small n).runs.count 2 ≤ 5 + 1 := by
  have hl : ∀ j : Nat, Limit ((fun _ => 200 : Nat → Nat) j) := fun _ => ⟨le_refl 200, by norm_num⟩
  have hrun := Demo.run (full := 0) (lim := fun _ => 200) (ch := fun j => 7 * j) (s := Demo.small) hl (fun _ => rfl)
  have hwork := Demo.working (full := 0) (lim := fun _ => 200) (ch := fun j => 7 * j) (s := Demo.small) hl (fun _ => rfl)
  refine ⟨?_, fun n => C98_few_executions hrun rfl 1 hwork.few n 2⟩
  obtain ⟨m, _, h⟩ := C98_result_arrives hrun 1 hwork [0, 1, 2] (small_calls _ _ hl) 0 0 (by decide) rfl rfl
    (fun m _ => Demo.events_client m 0) (fun m i _ h => Demo.events_running hl (fun _ => rfl) m i 0 h)
  exact ⟨m, h⟩

end Pyth.Drain
