import Verif.Model.Waiting
import Verif.Model.Retry
import Mathlib.Tactic.Linarith
import Mathlib.Tactic.NormNum
import Mathlib.Tactic.Ring
import Mathlib.Algebra.Order.Floor.Semiring
import Mathlib.Data.Rat.Floor
/-!
# C34, C35: waiting for results, retrying calls
-/
namespace Pyth.Waiting

variable {V : Type}

/-! ### specification -/

/-- time does not go back, the random numbers are in the requested range, and it is not 1970 -/
structure Env.Real (e : Env V) : Prop where
  start : 0 < e.start
  over : ∀ n, 0 ≤ e.over n
  noise : ∀ n, -(1/2) ≤ e.noise n ∧ e.noise n ≤ 1/2

/-- the first result seen by one of the first `n` polls -/
def firstSeen (look : Nat → Option V) : Nat → Option V
  | 0 => none
  | n + 1 => match firstSeen look n with
    | some v => some v
    | none => look n

/-! ### proof support -/

theorem adjust_cases (stop : Option Rat) (now b : Rat) :
    (∃ p, 1 ≤ p ∧ (adjust stop now b : Status V) = .waiting now p ∧ (∀ t, stop = some t → t ≠ 0 → now ≤ t ∧ now + p ≤ t + 1)) ∨
    ((adjust stop now b : Status V) = .timedOut now ∧ ∃ t, stop = some t ∧ t ≠ 0 ∧ t < now) := by
  unfold adjust
  cases stop with
  | none => exact Or.inl ⟨_, le_max_left _ _, rfl, fun t h => (by cases h)⟩
  | some t =>
    by_cases h0 : t = 0
    · simp only [h0, if_true]
      exact Or.inl ⟨_, le_max_left _ _, rfl, fun u hu hn => (by cases hu; exact absurd rfl hn)⟩
    · simp only [h0, if_false]
      by_cases h1 : t < now
      · simp only [h1, if_true]
        exact Or.inr ⟨trivial, t, rfl, h0, h1⟩
      · simp only [h1, if_false]
        refine Or.inl ⟨_, le_max_left _ _, rfl, fun u hu _ => ?_⟩
        cases hu
        have h1' := not_lt.1 h1
        refine ⟨h1', ?_⟩
        split
        · rcases max_cases (1:Rat) (t - now) with ⟨e, _⟩ | ⟨e, _⟩ <;> rw [e] <;> linarith
        · rename_i h2
          have h2' := not_lt.1 h2
          rcases max_cases (1:Rat) b with ⟨e, _⟩ | ⟨e, _⟩ <;> rw [e] <;> linarith

theorem run_succ (e : Env V) (timeout : Option Rat) (n : Nat) :
    run e timeout (n + 1) = round e (stopTime e timeout) n (run e timeout n) := rfl

theorem round_waiting (e : Env V) (stop : Option Rat) (n : Nat) (now p : Rat) :
    round e stop n (.waiting now p) = match e.look n with
      | some v => .got v
      | none => adjust stop (now + p + e.over n) (p * 2 + e.noise n) := rfl

/-- once `get` ended, it stays so -/
theorem run_ended {e : Env V} {timeout : Option Rat} {n : Nat} {s : Status V} (h : run e timeout n = s)
    (hs : ∀ a b, s ≠ .waiting a b) (m : Nat) : run e timeout (n + m) = s := by
  induction m with
  | zero => exact h
  | succ m ih =>
    show round e _ _ (run e timeout (n + m)) = s
    rw [ih]
    cases s with
    | waiting a b => exact absurd rfl (hs a b)
    | got v => rfl
    | timedOut t => rfl

/-- if it still waits, it waited in all rounds before -/
theorem run_before {e : Env V} {timeout : Option Rat} {n : Nat} {a b : Rat} (h : run e timeout n = .waiting a b) {m : Nat}
    (hm : m ≤ n) : ∃ a' b', run e timeout m = .waiting a' b' := by
  cases hs : run e timeout m with
  | waiting a' b' => exact ⟨a', b', rfl⟩
  | got v =>
    have := run_ended hs (by intro _ _ x; cases x) (n - m)
    rw [Nat.add_sub_cancel' hm, h] at this; cases this
  | timedOut t =>
    have := run_ended hs (by intro _ _ x; cases x) (n - m)
    rw [Nat.add_sub_cancel' hm, h] at this; cases this

theorem waiting_step {e : Env V} {timeout : Option Rat} {n : Nat} {a b : Rat} (h : run e timeout (n + 1) = .waiting a b) :
    e.look n = none ∧ ∃ a' b', run e timeout n = .waiting a' b' ∧ a = a' + b' + e.over n ∧
      (adjust (stopTime e timeout) a (b' * 2 + e.noise n) : Status V) = .waiting a b := by
  obtain ⟨a', b', hw⟩ := run_before h (Nat.le_succ n)
  rw [run_succ, hw, round_waiting] at h
  cases hl : e.look n with
  | some v => rw [hl] at h; cases h
  | none =>
    rw [hl] at h
    rcases adjust_cases (V := V) (stopTime e timeout) (a' + b' + e.over n) (b' * 2 + e.noise n) with ⟨p, _, hp, _⟩ | ⟨hp, _⟩
    · have h2 := h
      rw [hp] at h2
      injection h2 with h3 h4
      refine ⟨rfl, a', b', hw, h3.symm, ?_⟩
      rw [← h3]; rw [← h3] at h; exact h
    · exact absurd (hp.symm.trans h) (by intro x; cases x)

/-- what holds while waiting -/
theorem waiting_inv {e : Env V} (he : e.Real) {timeout : Option Rat} {n : Nat} {a b : Rat} (h : run e timeout n = .waiting a b) :
    1 ≤ b ∧ e.start + n ≤ a ∧ firstSeen e.look n = none ∧
      (∀ t, timeout = some t → 0 ≤ t → a ≤ e.start + t ∧ a + b ≤ e.start + t + 1) := by
  induction n generalizing a b with
  | zero =>
    injection h with h1 h2
    subst h1; subst h2
    refine ⟨le_refl _, by simp, rfl, fun t _ ht => ⟨by linarith, by linarith⟩⟩
  | succ n ih =>
    obtain ⟨hl, a', b', hw, ha, hadj⟩ := waiting_step h
    obtain ⟨h1, h2, h3, h4⟩ := ih hw
    rcases adjust_cases (V := V) (stopTime e timeout) a (b' * 2 + e.noise n) with ⟨p, hp, hp', hq⟩ | ⟨hp, _⟩
    · rw [hp'] at hadj
      injection hadj with _ hb
      subst hb
      refine ⟨hp, ?_, ?_, fun t ht h0 => ?_⟩
      · push_cast
        have := he.over n
        linarith
      · show (match firstSeen e.look n with | some v => some v | none => e.look n) = none
        rw [h3]; exact hl
      · subst ht
        have := hq (e.start + t) rfl (by have := he.start; intro x; linarith)
        exact this
    · exact absurd (hp.symm.trans hadj) (by intro x; cases x)

theorem timedOut_step {e : Env V} {timeout : Option Rat} {n : Nat} {t : Rat} (h : run e timeout n = .timedOut t) :
    ∃ m a b, n = m + 1 + (n - (m + 1)) ∧ run e timeout m = .waiting a b ∧ e.look m = none ∧ t = a + b + e.over m ∧
      ∃ d, timeout = some d ∧ e.start + d < t := by
  induction n with
  | zero => cases h
  | succ n ih =>
    cases hs : run e timeout n with
    | waiting a b =>
      rw [run_succ, hs, round_waiting] at h
      cases hl : e.look n with
      | some v => rw [hl] at h; cases h
      | none =>
        rw [hl] at h
        refine ⟨n, a, b, by omega, hs, hl, ?_⟩
        rcases adjust_cases (V := V) (stopTime e timeout) (a + b + e.over n) (b * 2 + e.noise n) with ⟨p, _, hp, _⟩ | ⟨hp, u, hu, _, hlt⟩
        · exact absurd (hp.symm.trans h) (by intro x; cases x)
        · have : a + b + e.over n = t := by
            have := hp.symm.trans h
            injection this
          refine ⟨this.symm, ?_⟩
          cases timeout with
          | none => cases hu
          | some d =>
            refine ⟨d, rfl, ?_⟩
            injection hu with hu
            have hu : e.start + d = u := hu
            rw [hu, ← this]; exact hlt
    | got v => rw [run_succ, hs] at h; cases h
    | timedOut u =>
      rw [run_succ, hs] at h
      injection h with h
      subst h
      obtain ⟨m, a, b, hm, r⟩ := ih hs
      exact ⟨m, a, b, by omega, r⟩

/-! ### C34 -/

/-- the value returned is the first one a poll sees; if a poll sees a value before the timeout, it is returned -/
theorem C34_returns_first_seen (e : Env V) (timeout : Option Rat) (n : Nat) (v : V) :
    run e timeout n = .got v ↔ firstSeen e.look n = some v ∧ ∀ t, run e timeout n ≠ .timedOut t := by
  induction n with
  | zero => exact ⟨fun h => (by cases h), fun h => (by cases h.1)⟩
  | succ n ih =>
    have hf : firstSeen e.look (n + 1) = (match firstSeen e.look n with | some v => some v | none => e.look n) := rfl
    cases hs : run e timeout n with
    | got w =>
      have hw : run e timeout (n + 1) = .got w := by rw [run_succ, hs]; rfl
      rw [hs] at ih
      rw [hw, hf]
      constructor
      · intro h
        rw [((ih.1 h).1)]
        exact ⟨rfl, fun t x => by cases x⟩
      · rintro ⟨h, _⟩
        by_cases hwv : w = v
        · rw [hwv]
        · cases hx : firstSeen e.look n with
          | some u =>
            rw [hx] at h
            injection h with h
            exact ih.2 ⟨by rw [hx, h], fun t x => by cases x⟩
          | none =>
            exfalso
            -- `w` was seen
            have key : ∀ m, m ≤ n → ∀ u, run e timeout m = .got u → firstSeen e.look m ≠ none := by
              intro m
              induction m with
              | zero => intro _ u hu; cases hu
              | succ m ihm =>
                intro hm u hu hnone
                cases hsm : run e timeout m with
                | got u' =>
                  refine ihm (by omega) u' hsm ?_
                  have : (match firstSeen e.look m with | some v => some v | none => e.look m) = none := hnone
                  cases hy : firstSeen e.look m with
                  | none => rfl
                  | some y => rw [hy] at this; cases this
                | timedOut t => rw [run_succ, hsm] at hu; cases hu
                | waiting a b =>
                  rw [run_succ, hsm, round_waiting] at hu
                  have : (match firstSeen e.look m with | some v => some v | none => e.look m) = none := hnone
                  cases hy : firstSeen e.look m with
                  | some y => rw [hy] at this; cases this
                  | none =>
                    rw [hy] at this
                    have this : e.look m = none := this
                    rw [this] at hu
                    rcases adjust_cases (V := V) (stopTime e timeout) (a + b + e.over m) (b * 2 + e.noise m) with ⟨p, _, hp, _⟩ | ⟨hp, _⟩
                    · exact absurd (hp.symm.trans hu) (by intro x; cases x)
                    · exact absurd (hp.symm.trans hu) (by intro x; cases x)
            exact key n (le_refl n) w hs hx
    | timedOut t =>
      have hw : run e timeout (n + 1) = .timedOut t := by rw [run_succ, hs]; rfl
      rw [hw]
      exact ⟨fun h => (by cases h), fun h => absurd rfl (h.2 t)⟩
    | waiting a b =>
      have hnone : firstSeen e.look n = none := by
        have key : ∀ m, ∀ a b, run e timeout m = .waiting a b → firstSeen e.look m = none := by
          intro m
          induction m with
          | zero => intros; rfl
          | succ m ihm =>
            intro a b h
            obtain ⟨hl, a', b', hw, _⟩ := waiting_step h
            show (match firstSeen e.look m with | some v => some v | none => e.look m) = none
            rw [ihm _ _ hw]; exact hl
        exact key n a b hs
      rw [run_succ, hs, round_waiting, hf, hnone]
      cases hl : e.look n with
      | some u =>
        constructor
        · intro h
          injection h with h
          subst h
          exact ⟨rfl, fun t x => by cases x⟩
        · rintro ⟨h, _⟩
          injection h with h
          rw [h]
      | none =>
        refine ⟨fun h => ?_, fun h => (by cases h.1)⟩
        rcases adjust_cases (V := V) (stopTime e timeout) (a + b + e.over n) (b * 2 + e.noise n) with ⟨p, _, hp, _⟩ | ⟨hp, _⟩
        · exact absurd (hp.symm.trans h) (by intro x; cases x)
        · exact absurd (hp.symm.trans h) (by intro x; cases x)

/-- a `TimeoutError` comes only after the timeout has elapsed, no poll has seen a result, and it comes at most one second
late (plus the time lost outside sleeping in the last round) -/
theorem C34_timeout_error (e : Env V) (he : e.Real) (d : Rat) (hd : 0 ≤ d) (n : Nat) (t : Rat)
    (h : run e (some d) n = .timedOut t) :
    e.start + d < t ∧ ∃ m < n, firstSeen e.look (m + 1) = none ∧ t ≤ e.start + d + 1 + e.over m := by
  obtain ⟨m, a, b, hm, hw, hl, ht, d', hd', hlt⟩ := timedOut_step h
  cases hd'
  obtain ⟨_, _, h3, h4⟩ := waiting_inv he hw
  refine ⟨hlt, m, by omega, ?_, ?_⟩
  · show (match firstSeen e.look m with | some v => some v | none => e.look m) = none
    rw [h3]; exact hl
  · have := (h4 d rfl hd).2
    rw [ht]; linarith

/-- without a timeout no `TimeoutError` is raised -/
theorem C34_no_timeout_no_error (e : Env V) (n : Nat) (t : Rat) : run e none n ≠ .timedOut t := by
  intro h
  obtain ⟨_, _, _, _, _, _, _, d, hd, _⟩ := timedOut_step h
  cases hd

/-- without a timeout it waits until a poll sees a result -/
theorem C34_no_timeout_waits (e : Env V) (n : Nat) :
    (∀ m < n, e.look m = none) ↔ ∃ a b, run e none n = .waiting a b := by
  have hseen : ∀ n, (∀ m < n, e.look m = none) ↔ firstSeen e.look n = none := by
    intro n
    induction n with
    | zero => exact ⟨fun _ => rfl, fun _ m hm => absurd hm (Nat.not_lt_zero m)⟩
    | succ n ih =>
      have hf : firstSeen e.look (n + 1) = (match firstSeen e.look n with | some v => some v | none => e.look n) := rfl
      rw [hf]
      constructor
      · intro h
        rw [ih.1 (fun m hm => h m (by omega))]
        exact h n (by omega)
      · intro h
        cases hx : firstSeen e.look n with
        | some v => rw [hx] at h; cases h
        | none =>
          rw [hx] at h
          intro m hm
          by_cases e' : m = n
          · rw [e']; exact h
          · exact ih.2 hx m (by omega)
  rw [hseen]
  constructor
  · intro h
    cases hs : run e none n with
    | waiting a b => exact ⟨a, b, rfl⟩
    | got v => rw [((C34_returns_first_seen e none n v).1 hs).1] at h; cases h
    | timedOut t => exact absurd hs (C34_no_timeout_no_error e n t)
  · rintro ⟨a, b, h⟩
    cases hx : firstSeen e.look n with
    | none => rfl
    | some v =>
      have := (C34_returns_first_seen e none n v).2 ⟨hx, C34_no_timeout_no_error e n⟩
      rw [h] at this; cases this

/-- with a timeout it ends, at the latest after `⌊timeout⌋ + 1` rounds -/
theorem C34_timeout_ends (e : Env V) (he : e.Real) (d : Rat) (hd : 0 ≤ d) (n : Nat) (hn : d < n) (a b : Rat) :
    run e (some d) n ≠ .waiting a b := by
  intro h
  obtain ⟨_, h2, _, h4⟩ := waiting_inv he h
  have := (h4 d rfl hd).1
  linarith

/-- every pause takes at least one second -/
theorem C34_pause_at_least_one_second (e : Env V) (he : e.Real) (timeout : Option Rat) (n : Nat) (p : Rat)
    (h : pauseIn e timeout n = some p) : 1 ≤ p := by
  unfold pauseIn at h
  cases hs : run e timeout n with
  | waiting a b =>
    rw [hs] at h
    cases hl : e.look n with
    | none => rw [hl] at h; injection h with h; rw [← h]; exact (waiting_inv he hs).1
    | some v => rw [hl] at h; cases h
  | got v => rw [hs] at h; cases h
  | timedOut t => rw [hs] at h; cases h

/-- exponential backoff: without a timeout the pauses double, up to the random part -/
theorem C34_exponential_backoff (e : Env V) (he : e.Real) (n : Nat) (p : Rat) (h : pauseIn e none n = some p) :
    2 ^ n / 2 + 1/2 ≤ p ∧ p ≤ 3/2 * 2 ^ n - 1/2 := by
  have key : ∀ n a b, run e none n = .waiting a b → (2:Rat) ^ n / 2 + 1/2 ≤ b ∧ b ≤ 3/2 * 2 ^ n - 1/2 := by
    intro n
    induction n with
    | zero => intro a b h; injection h with _ h; subst h; norm_num
    | succ n ih =>
      intro a b h
      obtain ⟨_, a', b', hw, _, hadj⟩ := waiting_step h
      have hadj : (Status.waiting a (max 1 (b' * 2 + e.noise n)) : Status V) = .waiting a b := hadj
      injection hadj with _ hb
      obtain ⟨i1, i2⟩ := ih a' b' hw
      obtain ⟨n1, n2⟩ := he.noise n
      have hpow : (1:Rat) ≤ 2 ^ n := one_le_pow₀ (by norm_num)
      rw [← hb, pow_succ]
      rcases max_cases (1:Rat) (b' * 2 + e.noise n) with ⟨x, y⟩ | ⟨x, y⟩ <;> rw [x] <;> constructor <;> linarith
  unfold pauseIn at h
  cases hs : run e none n with
  | waiting a b =>
    rw [hs] at h
    cases hl : e.look n with
    | none => rw [hl] at h; injection h with h; rw [← h]; exact key n a b hs
    | some v => rw [hl] at h; cases h
  | got v => rw [hs] at h; cases h
  | timedOut t => rw [hs] at h; cases h

/-- the call stays requested while `get` waits and after a timeout; the request is dropped when the value is returned -/
theorem C34_requested_until_returned (e : Env V) (timeout : Option Rat) (n : Nat) :
    requestedAfter e timeout n = false ↔ ∃ v, run e timeout n = .got v := by
  unfold requestedAfter
  cases run e timeout n with
  | waiting a b => exact ⟨fun h => (by cases h), fun ⟨v, h⟩ => (by cases h)⟩
  | got v => exact ⟨fun _ => ⟨v, rfl⟩, fun _ => rfl⟩
  | timedOut t => exact ⟨fun h => (by cases h), fun ⟨v, h⟩ => (by cases h)⟩

end Pyth.Waiting

namespace Pyth.Retry

/-! ### C35 -/

theorem latest_spec (t : Rat) (ts : List Rat) : latest t ts ∈ t :: ts ∧ ∀ u ∈ t :: ts, u ≤ latest t ts := by
  induction ts generalizing t with
  | nil => exact ⟨List.mem_singleton.2 rfl, fun u hu => by rw [List.mem_singleton.1 hu]; exact le_refl _⟩
  | cons a as ih =>
    obtain ⟨h1, h2⟩ := ih (max t a)
    constructor
    · show latest (max t a) as ∈ t :: a :: as
      rcases List.mem_cons.1 h1 with h | h
      · rcases max_choice t a with e | e
        · rw [h, e]; simp
        · rw [h, e]; simp
      · simp [h]
    · intro u hu
      show u ≤ latest (max t a) as
      rcases List.mem_cons.1 hu with h | h
      · rw [h]; exact le_trans (le_max_left _ _) (h2 _ (List.mem_cons_self ..))
      · rcases List.mem_cons.1 h with h | h
        · rw [h]; exact le_trans (le_max_right _ _) (h2 _ (List.mem_cons_self ..))
        · exact h2 u (List.mem_cons_of_mem _ h)

/-- a call is offered for execution exactly if it has no result and either was never attempted, or was attempted at most
five times, every attempt being more than `10 * 2^n` seconds old -/
theorem C35_retry_policy (ready : Bool) (attempts : List Rat) (now : Rat) :
    needsExecution ready attempts now = true ↔
      ready = false ∧ (attempts = [] ∨ (attempts.length ≤ 5 ∧ ∀ t ∈ attempts, now - t > 10 * 2 ^ attempts.length)) := by
  unfold needsExecution
  cases ready with
  | true => simp
  | false =>
    cases attempts with
    | nil => simp
    | cons t ts =>
      simp only [Bool.false_eq_true, if_false, true_and]
      obtain ⟨h1, h2⟩ := latest_spec t ts
      by_cases hl : (t :: ts).length > 5
      · simp only [hl, if_true, Bool.false_eq_true, false_iff]
        rintro (h | ⟨h, _⟩)
        · cases h
        · omega
      · simp only [hl, if_false, decide_eq_true_eq]
        constructor
        · intro h
          refine Or.inr ⟨by omega, fun u hu => ?_⟩
          have := h2 u hu
          linarith
        · rintro (h | ⟨_, h⟩)
          · cases h
          · exact h _ h1

/-- after more than five attempts it is never offered again -/
theorem C35_gives_up (attempts : List Rat) (h : attempts.length > 5) (now : Rat) (ready : Bool) :
    needsExecution ready attempts now = false := by
  rcases hb : needsExecution ready attempts now with _ | _
  · rfl
  · rcases ((C35_retry_policy _ _ _).1 hb).2 with e | ⟨e, _⟩
    · rw [e] at h; cases h
    · omega

/-- otherwise it is offered again after some time, however the attempts ended -/
theorem C35_offered_again (attempts : List Rat) (h : attempts.length ≤ 5) :
    ∃ t0, ∀ now, t0 ≤ now → needsExecution false attempts now = true := by
  cases attempts with
  | nil => exact ⟨0, fun now _ => (C35_retry_policy _ _ _).2 ⟨rfl, Or.inl rfl⟩⟩
  | cons t ts =>
    refine ⟨latest t ts + 10 * 2 ^ (t :: ts).length + 1, fun now hn => (C35_retry_policy _ _ _).2 ⟨rfl, Or.inr ⟨h, fun u hu => ?_⟩⟩⟩
    have := (latest_spec t ts).2 u hu
    linarith

end Pyth.Retry

/-! ### concrete cases -/
namespace Pyth.Waiting.Ex

/-- the result appears at the third poll; every round loses a tenth of a second; the random numbers are 1/4 -/
def env : Env String :=
  { start := 1000, look := fun n => if n ≥ 2 then some "x" else none, over := fun _ => 1/10, noise := fun _ => 1/4 }

example : env.Real := ⟨by show (0:Rat) < 1000; norm_num, fun _ => by show (0:Rat) ≤ 1/10; norm_num, fun _ => by show -(1/2:Rat) ≤ 1/4 ∧ (1/4:Rat) ≤ 1/2; norm_num⟩
example : run env none 3 = .got "x" := by decide +kernel
example : run env none 2 = .waiting (1000 + 1 + 1/10 + 9/4 + 1/10) (19/4) := by decide +kernel
-- timeout after 2 seconds: at 1001.1 the pause is 1, at 1002.2 the error is raised
example : run env (some 2) 2 = .timedOut (1000 + 22/10) := by decide +kernel
-- timeout 0: the pause of one second is made nevertheless
example : run env (some 0) 1 = .timedOut (1000 + 11/10) := by decide +kernel

end Pyth.Waiting.Ex

namespace Pyth.Retry.Ex

example : needsExecution false [] 100 = true := by decide +kernel
example : needsExecution false [100, 50] 140 = false := by decide +kernel
example : needsExecution false [50, 100] 141 = true := by decide +kernel
example : needsExecution false [1, 2, 3, 4, 5] 326 = true := by decide +kernel
example : needsExecution false [1, 2, 3, 4, 5, 6] 100000 = false := by decide +kernel

end Pyth.Retry.Ex
