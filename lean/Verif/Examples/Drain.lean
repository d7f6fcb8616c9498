import Verif.Proofs.Drain
/-!
# A portal with one worker, and a client that keeps the queue filled (for C98)
-/
namespace Pyth.Drain.Demo
open Pyth.Retry Pyth.Scan Pyth.Drain

/-- a call nobody has asked for yet -/
def fresh (s : Sys Nat) : Nat := (s.q.requests ++ s.runs).sum + 1

/-- call 0 comes last -/
def order (s : Sys Nat) : List Nat := s.q.requests.filter (· ≠ 0) ++ s.q.requests.filter (fun x => ¬ x ≠ 0)

/-- what happens next: the queue is filled up to `full`, scanned, a call chosen and executed -/
def act (full : Nat) (lim ch : Nat → Nat) (s : Sys Nat) : Ev Nat × Sys Nat :=
  match s.busy 0 with
  | .idle =>
    if s.q.requests.length < full then (.request (fresh s), s.addRequest (fresh s))
    else (.list 0 (order s) (lim s.runs.length), s.setBusy 0 (.looking (order s) [] (lim s.runs.length)))
  | .looking (k :: rest) cands limit => (.look 0, s.setBusy 0 (lookAt s k rest cands limit))
  | .looking [] cands _ =>
    (.pick 0 (ch s.runs.length % cands.length), s.setBusy 0 (choose cands (ch s.runs.length % cands.length)))
  | .chosen k => (.start 0, startRun s 0 k)
  | .running k => (.finish 0 true, finishRun s 0 k true)

/-- one unit of time passes -/
def tock (s : Sys Nat) : Ev Nat × Sys Nat := (.pass (s.clock + 1), { s with clock := s.clock + 1 })

def next (full : Nat) (lim ch : Nat → Nat) (n : Nat) (s : Sys Nat) : Ev Nat × Sys Nat :=
  if n % 2 = 0 then tock s else act full lim ch s

def states (full : Nat) (lim ch : Nat → Nat) (s : Sys Nat) : Nat → Sys Nat
  | 0 => s
  | n + 1 => (next full lim ch n (states full lim ch s n)).2

def events (full : Nat) (lim ch : Nat → Nat) (s : Sys Nat) (n : Nat) : Ev Nat :=
  (next full lim ch n (states full lim ch s n)).1

variable {full : Nat} {lim ch : Nat → Nat} {s : Sys Nat}

theorem order_perm (s : Sys Nat) : (order s).Perm s.q.requests := by
  unfold order
  have := List.filter_append_perm (fun x => decide (x ≠ 0)) s.q.requests
  simpa using this

theorem act_step (hl : ∀ j, Limit (lim j)) (s : Sys Nat) : Step s (act full lim ch s).1 (act full lim ch s).2 := by
  unfold act
  cases hb : s.busy 0 with
  | idle =>
    dsimp only
    split
    · exact Step.request _
    · exact Step.list 0 _ _ hb (order_perm s) (hl _)
  | looking r c l =>
    cases r with
    | cons k rest => exact Step.look 0 k rest c l hb
    | nil => exact Step.pick 0 c l _ hb (fun hc => Nat.mod_lt _ (List.length_pos_iff.mpr hc))
  | chosen k => exact Step.start 0 k hb
  | running k => exact Step.finish 0 k true hb

theorem next_step (hl : ∀ j, Limit (lim j)) (n : Nat) (s : Sys Nat) :
    Step s (next full lim ch n s).1 (next full lim ch n s).2 := by
  unfold next
  split
  · exact Step.pass _ (by linarith)
  · exact act_step hl s

theorem run (hl : ∀ j, Limit (lim j)) (hs : ∀ i, s.busy i = .idle) :
    Run (states full lim ch s) (events full lim ch s) :=
  ⟨hs, fun n => next_step hl n _⟩

/-- only worker 0 does something, and it is never killed -/
theorem act_by (s : Sys Nat) (i : Nat) (h : (act full lim ch s).1.By i) : i = 0 := by
  unfold act at h
  split at h
  · split at h
    · exact h.elim
    · exact h
  · exact h
  · exact h
  · exact h
  · exact h

theorem act_not_kill (s : Sys Nat) (i : Nat) : (act full lim ch s).1 ≠ .kill i := by
  unfold act
  split
  · split <;> exact fun h => (nomatch h)
  all_goals exact fun h => (nomatch h)

theorem act_choosing (s : Sys Nat) (h : Choosing s 0) : (act full lim ch s).1.By 0 := by
  unfold act
  rcases h with ⟨r, c, l, h⟩ | ⟨k, h⟩
  · rw [h]
    cases r <;> rfl
  · rw [h]; rfl

theorem clock_eq (n : Nat) : (states full lim ch s (2 * n)).clock = s.clock + n := by
  have hact : ∀ t : Sys Nat, (act full lim ch t).2.clock = t.clock := by
    intro t
    unfold act
    split
    · split <;> rfl
    · rfl
    · rfl
    · unfold startRun; split <;> rfl
    · unfold finishRun; split <;> rfl
  induction n with
  | zero => simp [states]
  | succ n ih =>
    have e : 2 * (n + 1) = 2 * n + 1 + 1 := by ring
    rw [e]
    have h1 : (states full lim ch s (2 * n + 1)) = (tock (states full lim ch s (2 * n))).2 := by
      rw [states, next, if_pos (by omega)]
    have h2 : (states full lim ch s (2 * n + 1 + 1)) = (act full lim ch (states full lim ch s (2 * n + 1))).2 := by
      rw [states, next, if_neg (by omega)]
    rw [h2, hact, h1]
    show (states full lim ch s (2 * n)).clock + 1 = _
    rw [ih]
    push_cast
    ring

def rankOf (full len : Nat) : Busy Nat → Nat
  | .idle => full - len
  | .running _ => full + 1
  | .chosen _ => full + 2
  | .looking r _ _ => full + 3 + r.length

/-- how far it is to the next scan -/
def rank (full : Nat) (s : Sys Nat) : Nat := rankOf full s.q.requests.length (s.busy 0)

theorem not_mem_fresh (s : Sys Nat) : fresh s ∉ s.q.requests ∧ fresh s ∉ s.runs := by
  have : ∀ l : List Nat, ∀ x ∈ l, x ≤ l.sum := fun l x hx => List.le_sum_of_mem hx
  unfold fresh
  constructor
  · intro h
    have := this (s.q.requests ++ s.runs) _ (List.mem_append_left _ h)
    omega
  · intro h
    have := this (s.q.requests ++ s.runs) _ (List.mem_append_right _ h)
    omega

theorem rank_busy {s : Sys Nat} {b : Busy Nat} (h : s.busy 0 = b) :
    rank full s = rankOf full s.q.requests.length b := by
  unfold rank; rw [h]

theorem act_progress (s : Sys Nat) :
    (∃ o l, (act full lim ch s).1 = .list 0 o l) ∨ rank full (act full lim ch s).2 < rank full s := by
  unfold act
  cases hb : s.busy 0 with
  | idle =>
    dsimp only
    split
    · right
      rename_i hlt
      have h2 : (s.addRequest (fresh s)).busy 0 = .idle := hb
      have h3 : (s.addRequest (fresh s)).q.requests = s.q.requests ++ [fresh s] := by
        unfold Sys.addRequest
        exact if_neg (not_mem_fresh s).1
      rw [rank_busy h2, rank_busy hb]
      dsimp only [rankOf]
      rw [h3, List.length_append, List.length_singleton]
      omega
    · exact Or.inl ⟨_, _, rfl⟩
  | looking r c l =>
    right
    cases r with
    | cons k rest =>
      dsimp only
      rw [rank_busy hb]
      rcases lookAt_cases s k rest c l with ⟨h2, _⟩ | ⟨h2, _⟩ | ⟨r', h2, hr', _⟩
      · rw [h2, rank_busy (setBusy_busy _ _ _)]; dsimp only [rankOf]; omega
      · rw [h2, rank_busy (setBusy_busy _ _ _)]; dsimp only [rankOf, List.length_cons]; omega
      · rw [h2, rank_busy (setBusy_busy _ _ _)]; dsimp only [rankOf, List.length_cons]
        rcases hr' with rfl | rfl
        · simp only [List.length_nil]; omega
        · omega
    | nil =>
      dsimp only
      rw [rank_busy hb]
      rcases choose_cases c (ch s.runs.length % c.length) with h2 | ⟨x, _, h2⟩
      · rw [h2, rank_busy (setBusy_busy _ _ _)]; dsimp only [rankOf]; omega
      · rw [h2, rank_busy (setBusy_busy _ _ _)]; dsimp only [rankOf]; omega
  | chosen k =>
    right
    dsimp only
    rw [rank_busy hb]
    rcases startRun_busy s 0 k with h2 | h2
    · rw [rank_busy h2]; dsimp only [rankOf]; omega
    · rw [rank_busy h2]; dsimp only [rankOf]; omega
  | running k =>
    right
    dsimp only
    rw [rank_busy hb]
    have h2 : (finishRun s 0 k true).busy 0 = .idle := setBusy_busy _ _ _
    rw [rank_busy h2]; dsimp only [rankOf]; omega

theorem odd_step (n : Nat) (hn : n % 2 = 1) : states full lim ch s (n + 2) =
    (tock (act full lim ch (states full lim ch s n)).2).2 := by
  have h1 : states full lim ch s (n + 1) = (act full lim ch (states full lim ch s n)).2 := by
    rw [states, next, if_neg (by omega)]
  show (next full lim ch (n + 1) (states full lim ch s (n + 1))).2 = _
  rw [next, if_pos (by omega), h1]

theorem scans (n : Nat) : ∃ m i, n ≤ m ∧ (events full lim ch s m).Lists i := by
  have odd : ∀ j n, n % 2 = 1 → rank full (states full lim ch s n) ≤ j →
      ∃ m i, n ≤ m ∧ (events full lim ch s m).Lists i := by
    intro j
    induction j with
    | zero =>
      intro n hn hj
      rcases act_progress (full := full) (lim := lim) (ch := ch) (states full lim ch s n) with ⟨o, l, h⟩ | h
      · refine ⟨n, 0, le_refl _, ?_⟩
        rw [events, next, if_neg (by omega), h]; rfl
      · omega
    | succ j ih =>
      intro n hn hj
      rcases act_progress (full := full) (lim := lim) (ch := ch) (states full lim ch s n) with ⟨o, l, h⟩ | h
      · refine ⟨n, 0, le_refl _, ?_⟩
        rw [events, next, if_neg (by omega), h]; rfl
      · obtain ⟨m, i, hm, hl⟩ := ih (n + 2) (by omega) (by
          rw [odd_step n hn]
          show rank full (act full lim ch (states full lim ch s n)).2 ≤ j
          omega)
        exact ⟨m, i, by omega, hl⟩
  rcases Nat.mod_two_eq_zero_or_one n with h | h
  · obtain ⟨m, i, hm, hl⟩ := odd _ (n + 1) (by omega) (le_refl _)
    exact ⟨m, i, by omega, hl⟩
  · exact odd _ n h (le_refl _)

theorem events_by (n i : Nat) (h : (events full lim ch s n).By i) : i = 0 := by
  unfold events next at h
  split at h
  · exact h.elim
  · exact act_by _ _ h

theorem others_idle (hl : ∀ j, Limit (lim j)) (hs : ∀ i, s.busy i = .idle) (n i : Nat) (hi : i ≠ 0) :
    (states full lim ch s n).busy i = .idle := by
  induction n with
  | zero => exact hs i
  | succ n ih =>
    rw [step_other ((run hl hs).step n) i (fun h => hi (events_by n i h))]
    exact ih

theorem working (hl : ∀ j, Limit (lim j)) (hs : ∀ i, s.busy i = .idle) :
    Working (states full lim ch s) (events full lim ch s) 1 where
  few n i h := by rw [events_by n i h]; exact Nat.zero_lt_one
  scans := scans
  go n i h := by
    have hi : i = 0 := by
      by_contra hi
      exact not_choosing_idle (others_idle hl hs n i hi) h
    subst hi
    rcases Nat.mod_two_eq_zero_or_one n with hn | hn
    · refine ⟨n + 1, by omega, ?_⟩
      unfold events next
      rw [if_neg (by omega)]
      apply act_choosing
      have e : states full lim ch s (n + 1) = (tock (states full lim ch s n)).2 := by
        rw [states, next, if_pos hn]
      rw [e]
      exact h
    · refine ⟨n, le_refl _, ?_⟩
      unfold events next
      rw [if_neg (by omega)]
      exact act_choosing _ h
  kills := by
    refine ⟨0, fun m i _ he => ?_⟩
    exfalso
    unfold events next at he
    split at he
    · cases he
    · exact act_not_kill _ _ he
  time t := by
    obtain ⟨n, hn⟩ := exists_nat_ge (t - s.clock)
    exact ⟨2 * n, by rw [clock_eq]; linarith⟩

/-! ## the call that is never looked at -/

/-- a queue of `n` calls -/
def crowd (n : Nat) : Sys Nat where
  q := { requests := List.range n, ready := fun _ => false, attempts := fun _ => [], can := fun _ => .yes }
  busy _ := .idle
  clock := 0
  runs := []

/-- what always holds -/
structure Common (s : Sys Nat) : Prop where
  nodup : s.q.requests.Nodup
  zero : 0 ∈ s.q.requests
  not_run : 0 ∉ s.runs
  new : ∀ x, x ∉ s.runs → s.q.attempts x = [] ∧ s.q.ready x = false
  can : ∀ x, s.q.can x = .yes

def Phase (s : Sys Nat) : Busy Nat → Prop
  | .idle => ∀ x ∈ s.q.requests, x ∉ s.runs
  | .looking r c l => (∀ x ∈ s.q.requests, x ∉ s.runs) ∧ (∀ x ∈ c, x ≠ 0 ∧ x ∈ s.q.requests) ∧
      ((∃ a, r = a ++ [0] ∧ c.length ≤ l ∧ l < c.length + a.length ∧ ∀ x ∈ a, x ≠ 0 ∧ x ∈ s.q.requests) ∨
        (r = [] ∧ c ≠ []))
  | .chosen x => (∀ x ∈ s.q.requests, x ∉ s.runs) ∧ x ≠ 0 ∧ x ∈ s.q.requests
  | .running x => (∀ y ∈ s.q.requests, y ≠ x → y ∉ s.runs) ∧ x ≠ 0 ∧ x ∈ s.runs

structure Inv (s : Sys Nat) : Prop where
  common : Common s
  phase : Phase s (s.busy 0)

theorem inv_setBusy {s : Sys Nat} {b : Busy Nat} (hc : Common s) (hp : Phase s b) : Inv (s.setBusy 0 b) := by
  refine ⟨⟨hc.nodup, hc.zero, hc.not_run, hc.new, hc.can⟩, ?_⟩
  rw [setBusy_busy]
  cases b <;> exact hp

theorem inv_tock {s : Sys Nat} (h : Inv s) : Inv (tock s).2 := by
  refine ⟨⟨h.common.nodup, h.common.zero, h.common.not_run, h.common.new, h.common.can⟩, ?_⟩
  have hp := h.phase
  show Phase (tock s).2 (s.busy 0)
  generalize s.busy 0 = b at hp
  cases b <;> exact hp

theorem others_length {s : Sys Nat} (h : s.q.requests.Nodup) :
    (s.q.requests.filter (fun x => decide (¬ x ≠ 0))).length ≤ 1 := by
  have h1 : (s.q.requests.filter (fun x => decide (¬ x ≠ 0))).Nodup := h.filter _
  have h2 : ∀ x ∈ s.q.requests.filter (fun x => decide (¬ x ≠ 0)), x = 0 := by
    intro x hx
    simpa using (List.mem_filter.mp hx).2
  generalize s.q.requests.filter (fun x => decide (¬ x ≠ 0)) = l at h1 h2
  match l, h1, h2 with
  | [], _, _ => simp
  | [_], _, _ => simp
  | a :: b :: l, h1, h2 =>
    exfalso
    have ha := h2 a (by simp)
    have hb := h2 b (by simp)
    subst ha; subst hb
    simp at h1

theorem zero_part {s : Sys Nat} (h : s.q.requests.Nodup) (h0 : 0 ∈ s.q.requests) :
    s.q.requests.filter (fun x => decide (¬ x ≠ 0)) = [0] := by
  have h1 := others_length h
  have h2 : 0 ∈ s.q.requests.filter (fun x => decide (¬ x ≠ 0)) := List.mem_filter.mpr ⟨h0, by simp⟩
  generalize s.q.requests.filter (fun x => decide (¬ x ≠ 0)) = l at h1 h2
  match l, h1, h2 with
  | [a], _, h2 => rw [List.mem_singleton.mp h2]
  | a :: b :: l, h1, _ => simp at h1

theorem needs_new {s : Sys Nat} (h : Common s) {x : Nat} (hx : x ∉ s.runs) : s.q.needs s.clock x = true := by
  obtain ⟨h1, h2⟩ := h.new x hx
  unfold Queue.needs needsExecution
  rw [h1, h2]
  rfl

theorem inv_act (hl : ∀ j, Limit (lim j)) {s : Sys Nat} (h : Inv s) : Inv (act 5002 lim ch s).2 := by
  have hc := h.common
  have hp := h.phase
  unfold act
  cases hb : s.busy 0 with
  | idle =>
    rw [hb] at hp
    dsimp only
    split
    · have hf := not_mem_fresh s
      have h3 : (s.addRequest (fresh s)).q.requests = s.q.requests ++ [fresh s] := by
        unfold Sys.addRequest
        exact if_neg hf.1
      refine ⟨⟨?_, ?_, hc.not_run, hc.new, hc.can⟩, ?_⟩
      · show (s.addRequest (fresh s)).q.requests.Nodup
        rw [h3]
        exact List.nodup_append.mpr ⟨hc.nodup, List.nodup_singleton _, by
          intro a ha b hb e
          rw [List.mem_singleton] at hb
          subst hb; subst e
          exact hf.1 ha⟩
      · show 0 ∈ (s.addRequest (fresh s)).q.requests
        rw [h3]; exact List.mem_append_left _ hc.zero
      · show Phase (s.addRequest (fresh s)) (s.busy 0)
        rw [hb]
        intro x hx
        rw [h3] at hx
        rcases List.mem_append.mp hx with hx | hx
        · exact hp x hx
        · rw [List.mem_singleton] at hx; subst hx; exact hf.2
    · rename_i hlen
      apply inv_setBusy hc
      refine ⟨hp, fun x hx => (nomatch hx), Or.inl ⟨s.q.requests.filter (· ≠ 0), ?_, Nat.zero_le _, ?_, ?_⟩⟩
      · unfold order
        rw [zero_part hc.nodup hc.zero]
      · have h1 := (order_perm s).length_eq
        unfold order at h1
        rw [List.length_append] at h1
        have h2 := others_length hc.nodup
        have h3 := (hl s.runs.length).2
        rw [List.length_nil]
        omega
      · intro x hx
        obtain ⟨h1, h2⟩ := List.mem_filter.mp hx
        exact ⟨by simpa using h2, h1⟩
  | looking r c l =>
    rw [hb] at hp
    obtain ⟨h1, h2, h3⟩ := hp
    cases r with
    | cons k rest =>
      dsimp only
      apply inv_setBusy hc
      rcases h3 with ⟨a, ha, h4, h5, h6⟩ | ⟨h4, _⟩
      · cases a with
        | nil => simp only [List.length_nil] at h5; omega
        | cons k' a =>
          injection ha with e1 e2
          subst e1; subst e2
          have hk := h6 k (by simp)
          have hn := needs_new hc (h1 k hk.2)
          unfold lookAt
          rw [if_pos hn, hc.can k]
          dsimp only
          have h7 : ∀ x ∈ c ++ [k], x ≠ 0 ∧ x ∈ s.q.requests := by
            intro x hx
            rcases List.mem_append.mp hx with hx | hx
            · exact h2 x hx
            · rw [List.mem_singleton] at hx; subst hx; exact hk
          split
          · exact ⟨h1, h7, Or.inr ⟨rfl, by simp⟩⟩
          · rename_i hlen
            rw [List.length_cons] at h5
            rw [List.length_append, List.length_singleton] at hlen
            exact ⟨h1, h7, Or.inl ⟨a, rfl, by rw [List.length_append, List.length_singleton]; omega,
              by rw [List.length_append, List.length_singleton]; omega,
              fun x hx => h6 x (List.mem_cons_of_mem _ hx)⟩⟩
      · cases h4
    | nil =>
      dsimp only
      apply inv_setBusy hc
      rcases h3 with ⟨a, ha, _⟩ | ⟨_, hne⟩
      · cases a <;> cases ha
      · rcases choose_cases c (ch s.runs.length % c.length) with h4 | ⟨x, hx, h4⟩
        · rw [h4]; exact h1
        · rw [h4]; exact ⟨h1, h2 x hx⟩
  | chosen k =>
    rw [hb] at hp
    obtain ⟨h1, h2, h3⟩ := hp
    have hr := (hc.new k (h1 k h3)).2
    dsimp only
    unfold startRun
    rw [if_neg (by rw [hr]; simp)]
    have h4 : ((s.attempt k).addRequest k).q.requests = s.q.requests := if_pos h3
    refine ⟨⟨?_, ?_, ?_, ?_, hc.can⟩, ?_⟩
    · show ((s.attempt k).addRequest k).q.requests.Nodup
      rw [h4]; exact hc.nodup
    · show 0 ∈ ((s.attempt k).addRequest k).q.requests
      rw [h4]; exact hc.zero
    · show 0 ∉ s.runs ++ [k]
      intro hx
      rcases List.mem_append.mp hx with hx | hx
      · exact hc.not_run hx
      · rw [List.mem_singleton] at hx; exact h2 hx.symm
    · intro x hx
      have hx1 : x ∉ s.runs := fun h => hx (List.mem_append_left _ h)
      have hx2 : x ≠ k := fun h => hx (List.mem_append_right _ (by simp [h]))
      refine ⟨?_, (hc.new x hx1).2⟩
      show (if x = k then _ else s.q.attempts x) = []
      rw [if_neg hx2]; exact (hc.new x hx1).1
    · show Phase _ (Function.update s.busy 0 (.running k) 0)
      rw [Function.update_self]
      refine ⟨?_, h2, List.mem_append_right _ (by simp)⟩
      intro y hy hne hyr
      have hy' : y ∈ s.q.requests := by
        have : y ∈ ((s.attempt k).addRequest k).q.requests := hy
        rw [h4] at this; exact this
      rcases List.mem_append.mp hyr with h5 | h5
      · exact h1 y hy' h5
      · rw [List.mem_singleton] at h5; exact hne h5
  | running k =>
    rw [hb] at hp
    obtain ⟨h1, h2, h3⟩ := hp
    dsimp only
    unfold finishRun
    rw [if_pos rfl]
    refine ⟨⟨?_, ?_, hc.not_run, ?_, hc.can⟩, ?_⟩
    · exact hc.nodup.filter _
    · exact List.mem_filter.mpr ⟨hc.zero, by simpa using Ne.symm h2⟩
    · intro x hx
      refine ⟨(hc.new x hx).1, ?_⟩
      have hx2 : x ≠ k := fun h => hx (by rw [h]; exact h3)
      show (if x = k then true else s.q.ready x) = false
      rw [if_neg hx2]; exact (hc.new x hx).2
    · show Phase _ (Function.update s.busy 0 .idle 0)
      rw [Function.update_self]
      intro y hy
      have hy : y ∈ s.q.requests.filter (· ≠ k) := hy
      obtain ⟨hy1, hy2⟩ := List.mem_filter.mp hy
      exact h1 y hy1 (by simpa using hy2)

theorem inv_crowd (n : Nat) (hn : 0 < n) : Inv (crowd n) :=
  ⟨⟨List.nodup_range, List.mem_range.mpr hn, fun h => (nomatch h), fun _ _ => ⟨rfl, rfl⟩, fun _ => rfl⟩,
    fun _ _ h => (nomatch h)⟩

theorem inv_states (hl : ∀ j, Limit (lim j)) (n : Nat) : Inv (states 5002 lim ch (crowd 5002) n) := by
  induction n with
  | zero => exact inv_crowd 5002 (by decide)
  | succ n ih =>
    rw [states, next]
    split
    · exact inv_tock ih
    · exact inv_act hl ih

/-! ## a queue that is emptied -/

/-- three requests: call 1 was attempted before, call 2 cannot be executed in this environment -/
def small : Sys Nat where
  q := { requests := [0, 1, 2], ready := fun _ => false, attempts := fun x => if x = 1 then [0] else [],
         can := fun x => if x = 2 then .no else .yes }
  busy _ := .idle
  clock := 0
  runs := []

theorem small_requests (n : Nat) : (∀ x ∈ (states 0 lim ch small n).q.requests, x ∈ [0, 1, 2]) ∧
    (∀ r c l, (states 0 lim ch small n).busy 0 = .looking r c l → ∀ x ∈ r ++ c, x ∈ [0, 1, 2]) ∧
    ∀ x, (states 0 lim ch small n).busy 0 = .chosen x → x ∈ [0, 1, 2] := by
  induction n with
  | zero => exact ⟨fun x hx => hx, fun _ _ _ h => (nomatch h), fun _ h => (nomatch h)⟩
  | succ n ih =>
    rw [states, next]
    generalize states 0 lim ch small n = s at ih
    obtain ⟨h1, h2, h3⟩ := ih
    split
    · exact ⟨h1, h2, h3⟩
    · unfold act
      cases hb : s.busy 0 with
      | idle =>
        dsimp only
        rw [if_neg (Nat.not_lt_zero _)]
        refine ⟨h1, fun r c l h => ?_, fun x h => ?_⟩
        · rw [setBusy_busy] at h; cases h
          intro x hx
          rw [List.append_nil] at hx
          exact h1 x ((order_perm s).subset hx)
        · rw [setBusy_busy] at h; cases h
      | looking r c l =>
        have h2 := h2 _ _ _ hb
        cases r with
        | cons k rest =>
          dsimp only
          rcases lookAt_cases s k rest c l with ⟨h4, _⟩ | ⟨h4, _⟩ | ⟨r', h4, hr', _⟩
          · exact ⟨h1, fun r c l h => (by rw [h4, setBusy_busy] at h; cases h),
              fun x h => (by rw [h4, setBusy_busy] at h; cases h)⟩
          · refine ⟨h1, fun r c l h => ?_, fun x h => (by rw [h4, setBusy_busy] at h; cases h)⟩
            rw [h4, setBusy_busy] at h; cases h
            intro x hx
            exact h2 x (List.mem_cons_of_mem _ hx)
          · refine ⟨h1, fun r c l h => ?_, fun x h => (by rw [h4, setBusy_busy] at h; cases h)⟩
            rw [h4, setBusy_busy] at h; cases h
            intro x hx
            apply h2 x
            rcases List.mem_append.mp hx with hx | hx
            · rcases hr' with rfl | rfl
              · cases hx
              · exact List.mem_cons_of_mem _ (List.mem_append_left _ hx)
            · rcases List.mem_append.mp hx with hx | hx
              · exact List.mem_append_right _ hx
              · rw [List.mem_singleton.mp hx]; exact List.mem_cons_self
        | nil =>
          dsimp only
          rcases choose_cases c (ch s.runs.length % c.length) with h4 | ⟨y, hy, h4⟩
          · exact ⟨h1, fun r c l h => (by rw [h4, setBusy_busy] at h; cases h),
              fun x h => (by rw [h4, setBusy_busy] at h; cases h)⟩
          · refine ⟨h1, fun r c l h => (by rw [h4, setBusy_busy] at h; cases h), fun x h => ?_⟩
            rw [h4, setBusy_busy] at h; cases h
            exact h2 y hy
      | chosen k =>
        dsimp only
        have hk := h3 k hb
        refine ⟨?_, fun r c l h => ?_, fun x h => ?_⟩
        · unfold startRun
          split
          · exact h1
          · intro x hx
            have hx : x ∈ if k ∈ s.q.requests then s.q.requests else s.q.requests ++ [k] := hx
            split at hx
            · exact h1 x hx
            · rcases List.mem_append.mp hx with hx | hx
              · exact h1 x hx
              · rw [List.mem_singleton.mp hx]; exact hk
        · rcases startRun_busy s 0 k with h4 | h4 <;> · rw [h4] at h; cases h
        · rcases startRun_busy s 0 k with h4 | h4 <;> · rw [h4] at h; cases h
      | running k =>
        dsimp only
        have hb' : (finishRun s 0 k true).busy 0 = .idle := setBusy_busy _ _ _
        refine ⟨?_, fun r c l h => (by rw [hb'] at h; cases h), fun x h => (by rw [hb'] at h; cases h)⟩
        intro x hx
        exact h1 x (List.mem_filter.mp hx).1

theorem act_client (s : Sys Nat) (k : Nat) : (act full lim ch s).1 ≠ .drop k ∧ (act full lim ch s).1 ≠ .attempt k := by
  unfold act
  split
  · split <;> exact ⟨fun h => (nomatch h), fun h => (nomatch h)⟩
  all_goals exact ⟨fun h => (nomatch h), fun h => (nomatch h)⟩

theorem events_client (n k : Nat) : events full lim ch s n ≠ .drop k ∧ events full lim ch s n ≠ .attempt k := by
  unfold events next
  split
  · exact ⟨fun h => (nomatch h), fun h => (nomatch h)⟩
  · exact act_client _ _

theorem events_running (hl : ∀ j, Limit (lim j)) (hs : ∀ i, s.busy i = .idle) (m i k : Nat)
    (h : (states full lim ch s m).busy i = .running k) :
    ((events full lim ch s m).By i → events full lim ch s m = .finish i true) ∧
      ∃ m', m ≤ m' ∧ (events full lim ch s m').By i := by
  have hi : i = 0 := by
    by_contra hi
    rw [others_idle hl hs m i hi] at h; cases h
  subst hi
  have he : ∀ t : Sys Nat, t.busy 0 = .running k → (act full lim ch t).1 = .finish 0 true := by
    intro t ht
    unfold act; rw [ht]
  rcases Nat.mod_two_eq_zero_or_one m with hn | hn
  · refine ⟨fun hb => ?_, m + 1, by omega, ?_⟩
    · unfold events next at hb
      rw [if_pos hn] at hb; exact hb.elim
    · have e : states full lim ch s (m + 1) = (tock (states full lim ch s m)).2 := by
        rw [states, next, if_pos hn]
      unfold events next
      rw [if_neg (by omega), he _ (by rw [e]; exact h)]
      rfl
  · have : events full lim ch s m = .finish 0 true := by
      unfold events next
      rw [if_neg (by omega), he _ h]
    exact ⟨fun _ => this, m, le_refl _, by rw [this]; rfl⟩

end Pyth.Drain.Demo
