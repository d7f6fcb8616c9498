import Verif.Proofs.Noticing
import Mathlib.Data.Fin.VecNotation
/-!
# C116: how probably differing values get noticed

With the probability `p_consistency_checks` = p, differing values given to keys that have one go unnoticed, all of them, with
probability (1 - p)^w, where w is the number of such assignments.
-/
namespace Pyth.Noticing
open Pyth.FirstEntry
variable {K V : Type} [DecidableEq K] [DecidableEq V]

/-- **C116** (1). Exact number: of all outcomes of the random numbers in a history of `n` assignments to a dictionary with check
probability `p`, how many lead to no exception. -/
theorem C116_count (s : Dict K V) {p : Rat} (hp : s.pCheck = some p) (h0 : 0 ≤ p) (h1 : p ≤ 1) {n : Nat} (a : Fin n → K × V) :
    unnoticed s a = (2 ^ 53 - ⌈p * 2 ^ 53⌉₊) ^ differing s.data a * (2 ^ 53) ^ (n - differing s.data a) := by
  have h : ∀ draws : Fin n → Draw, (∀ i, Returns s a draws i) ↔ ∀ i, Differs s.data a i → ¬ (draws i).value < p :=
    fun draws => forall_congr' fun i => returns_iff s hp a draws i
  unfold unnoticed
  rw [Nat.card_congr (Equiv.subtypeEquivRight h), card_forall (Differs s.data a) (fun d : Draw => d.value < p)]
  show (Nat.card Draw - checking p) ^ _ * _ = _
  rw [checking_eq p h0 h1, Nat.card_fin]
  rfl

theorem differing_le (before : K → Option V) {n : Nat} (a : Fin n → K × V) : differing before a ≤ n := by
  classical
  unfold differing
  rw [Nat.card_eq_fintype_card]
  exact (Fintype.card_subtype_le _).trans_eq (Fintype.card_fin n)

/-- **C116** (2). The probability that nothing is noticed is at most (1 - p)^w, `w` the number of differing assignments; it is
exactly this if `p` is one of the numbers that `random.random()` may give, or 1. -/
theorem C116_probability (s : Dict K V) {p : Rat} (hp : s.pCheck = some p) (h0 : 0 ≤ p) (h1 : p ≤ 1) {n : Nat} (a : Fin n → K × V) :
    (unnoticed s a : Rat) / (2 ^ 53) ^ n ≤ (1 - p) ^ differing s.data a ∧
    ((∃ m : Nat, p = m / 2 ^ 53) → (unnoticed s a : Rat) / (2 ^ 53) ^ n = (1 - p) ^ differing s.data a) := by
  rw [C116_count s hp h0 h1 a]
  have hw := differing_le s.data a
  generalize differing s.data a = w at hw
  obtain ⟨r, rfl⟩ := Nat.exists_eq_add_of_le hw
  rw [Nat.add_sub_cancel_left]
  have hN : (0 : Rat) < 2 ^ 53 := by positivity
  have hle : ⌈p * 2 ^ 53⌉₊ ≤ 2 ^ 53 := by
    rw [Nat.ceil_le]
    have : p * 2 ^ 53 ≤ 1 * 2 ^ 53 := mul_le_mul_of_nonneg_right h1 hN.le
    rw [one_mul] at this
    exact_mod_cast this
  have hcast : ((2 ^ 53 - ⌈p * 2 ^ 53⌉₊ : Nat) : Rat) = 2 ^ 53 - (⌈p * 2 ^ 53⌉₊ : Rat) := by
    rw [Nat.cast_sub hle]; norm_cast
  have e : (((2 ^ 53 - ⌈p * 2 ^ 53⌉₊) ^ w * (2 ^ 53) ^ r : Nat) : Rat) / (2 ^ 53) ^ (w + r) =
      ((2 ^ 53 - (⌈p * 2 ^ 53⌉₊ : Rat)) / 2 ^ 53) ^ w := by
    rw [Nat.cast_mul, Nat.cast_pow, Nat.cast_pow, hcast, pow_add, div_pow]
    have h2 : ((2 ^ 53 : Nat) : Rat) = 2 ^ 53 := by norm_cast
    rw [h2, mul_div_mul_right _ _ (by positivity)]
  rw [e]
  constructor
  · apply pow_le_pow_left₀
    · apply div_nonneg _ hN.le
      rw [sub_nonneg]
      exact_mod_cast hle
    · rw [div_le_iff₀ hN, sub_mul, one_mul]
      exact sub_le_sub_left (Nat.le_ceil _) _
  · rintro ⟨m, rfl⟩
    congr 1
    rw [div_mul_cancel₀ _ hN.ne', Nat.ceil_natCast, sub_div, div_self hN.ne']

/-- **C116** (3). No false alarms: an assignment that gives no differing value returns normally, whatever the random numbers and the
check probability are; so nothing is ever noticed if there is no differing value. -/
theorem C116_no_false_alarm (s : Dict K V) (hp : ∀ p, s.pCheck = some p → 0 ≤ p ∧ p ≤ 1) {n : Nat} (a : Fin n → K × V)
    (draws : Fin n → Draw) (i : Fin n) (hi : ¬ Differs s.data a i) : Returns s a draws i := by
  cases h : s.pCheck with
  | none => exact returns_none s h a draws i
  | some p => exact (returns_iff s h a draws i).2 fun hd => absurd hd hi

/-- **C116** (4). With check probability 1 the first differing value is noticed for sure; with 0 or `None` nothing is noticed, ever. -/
theorem C116_extremes (s : Dict K V) {n : Nat} (a : Fin n → K × V) :
    (s.pCheck = some 1 → ∀ draws i, Returns s a draws i ↔ ¬ Differs s.data a i) ∧
    (s.pCheck = some 0 ∨ s.pCheck = none → ∀ draws i, Returns s a draws i) := by
  constructor
  · intro h draws i
    rw [returns_iff s h a draws i]
    have : (draws i).value < 1 := by
      unfold Draw.value
      rw [div_lt_iff₀ (by positivity), one_mul]
      exact_mod_cast (draws i).isLt
    exact ⟨fun hx hd => hx hd this, fun hx hd => absurd hd hx⟩
  · rintro (h | h) draws i
    · exact (returns_iff s h a draws i).2 fun _ => not_lt.2 (value_nonneg _)
    · exact returns_none s h a draws i

/-! ## A concrete case -/

/-- a dictionary that checks one assignment in eight; key 0 has the value 5 -/
def sample : Dict Nat Nat := { data := fun k => if k = 0 then some 5 else none, pCheck := some (1 / 8) }

/-- assignments: a differing one, an equal one, a new key, a differing one for the new key -/
def someAssignments : Fin 4 → Nat × Nat := ![(0, 6), (0, 5), (1, 7), (1, 8)]

instance (before : Nat → Option Nat) {n : Nat} (a : Fin n → Nat × Nat) (i : Fin n) : Decidable (Differs before a i) :=
  decidable_of_iff
    ((before (a i).1 ≠ none ∧ before (a i).1 ≠ some (a i).2) ∨
      (before (a i).1 = none ∧ ∃ j, j < i ∧ (a j).1 = (a i).1 ∧ (∀ k, k < j → (a k).1 ≠ (a i).1) ∧ (a j).2 ≠ (a i).2)) <| by
    unfold Differs
    cases h : before (a i).1 with
    | none => simp
    | some v => simp

theorem sample_differing : differing sample.data someAssignments = 2 := by
  unfold differing
  rw [Nat.card_eq_fintype_card]
  decide +kernel

/-- the probability that both go unnoticed is 49/64 -/
example : (unnoticed sample someAssignments : Rat) / (2 ^ 53) ^ 4 = 49 / 64 := by
  rw [(C116_probability sample rfl (by decide +kernel) (by decide +kernel) someAssignments).2 ⟨2 ^ 50, by norm_num⟩, sample_differing]
  norm_num

end Pyth.Noticing
