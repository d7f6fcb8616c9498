import Verif.Spec.Chance
import Mathlib.Algebra.Order.BigOperators.Group.Finset
import Mathlib.Algebra.BigOperators.Field
import Mathlib.Data.Rat.Cast.Order
import Mathlib.Tactic.Ring
import Mathlib.Tactic.Linarith
import Mathlib.Tactic.FieldSimp
import Mathlib.Tactic.Positivity
/-! # Proofs for C117 -/
namespace Pyth.Scan
variable {K : Type} [DecidableEq K]

theorem meanBelow_le {n : Nat} {f : Nat → Rat} {B : Rat} (h : ∀ i, i < n ∨ i = 0 → f i ≤ B) : meanBelow n f ≤ B := by
  unfold meanBelow
  split
  · exact h 0 (.inr rfl)
  · rename_i hn
    have hn' : (0 : Rat) < n := by exact_mod_cast Nat.pos_of_ne_zero hn
    rw [div_le_iff₀ hn']
    have := Finset.sum_le_card_nsmul (Finset.range n) f B (fun i hi => h i (.inl (Finset.mem_range.1 hi)))
    rw [Finset.card_range, nsmul_eq_mul] at this
    linarith

theorem meanBelow_nonneg {n : Nat} {f : Nat → Rat} (h : ∀ i, 0 ≤ f i) : 0 ≤ meanBelow n f := by
  unfold meanBelow
  split
  · exact h 0
  · exact div_nonneg (Finset.sum_nonneg fun i _ => h i) (by positivity)

/-- one of the values is 0 -/
theorem meanBelow_zero {n m : Nat} {f : Nat → Rat} {B : Rat} (hB : 0 ≤ B) (h : ∀ i, i < n → f i ≤ B) (j : Nat) (hj : j < n)
    (h0 : f j = 0) (hm : n ≤ m) : meanBelow n f ≤ (1 - 1 / m) * B := by
  unfold meanBelow
  rw [if_neg (by omega)]
  have hn : (0 : Rat) < n := by exact_mod_cast (by omega : 0 < n)
  have hm' : (0 : Rat) < m := by exact_mod_cast (by omega : 0 < m)
  have h1 : ∑ i ∈ Finset.range n, f i ≤ (n - 1) * B := by
    rw [← Finset.add_sum_erase _ _ (Finset.mem_range.2 hj), h0, zero_add]
    have := Finset.sum_le_card_nsmul ((Finset.range n).erase j) f B
      (fun i hi => h i (Finset.mem_range.1 (Finset.mem_of_mem_erase hi)))
    rw [Finset.card_erase_of_mem (Finset.mem_range.2 hj), Finset.card_range, nsmul_eq_mul, Nat.cast_sub (by omega)] at this
    simpa using this
  have h2 : (∑ i ∈ Finset.range n, f i) / n ≤ (1 - 1 / n) * B := by
    rw [div_le_iff₀ hn]
    calc _ ≤ (n - 1) * B := h1
      _ = (1 - 1 / n) * B * n := by field_simp
  refine h2.trans (mul_le_mul_of_nonneg_right ?_ hB)
  have : (1 : Rat) / m ≤ 1 / n := one_div_le_one_div_of_le hn (by exact_mod_cast hm)
  linarith

theorem meanLimit_le {f : Nat → Rat} {A B : Rat} (a : Nat) (ha : 200 ≤ a) (ha' : a ≤ 5000) (h1 : ∀ l, 200 ≤ l → l ≤ 5000 → f l ≤ B)
    (h2 : ∀ l, a ≤ l → l ≤ 5000 → f l ≤ A) :
    meanLimit f ≤ ((a - 200 : Nat) * B + (5001 - a : Nat) * A) / 4801 := by
  unfold meanLimit
  refine div_le_div_of_nonneg_right ?_ (by norm_num)
  have hs : Finset.Icc 200 5000 = Finset.Ico 200 a ∪ Finset.Icc a 5000 := by
    ext x; simp only [Finset.mem_union, Finset.mem_Icc, Finset.mem_Ico]; omega
  have hd : Disjoint (Finset.Ico 200 a) (Finset.Icc a 5000) := by
    rw [Finset.disjoint_left]
    intro x hx hy
    rw [Finset.mem_Ico] at hx
    rw [Finset.mem_Icc] at hy
    omega
  rw [hs, Finset.sum_union hd]
  refine add_le_add ?_ ?_
  · have := Finset.sum_le_card_nsmul (Finset.Ico 200 a) f B (fun i hi => by
      rw [Finset.mem_Ico] at hi; exact h1 i hi.1 (by omega))
    rwa [Nat.card_Ico, nsmul_eq_mul] at this
  · have := Finset.sum_le_card_nsmul (Finset.Icc a 5000) f A (fun i hi => by
      rw [Finset.mem_Icc] at hi; exact h2 i hi.1 hi.2)
    rwa [Nat.card_Icc, nsmul_eq_mul] at this

theorem meanLimit_nonneg {f : Nat → Rat} (h : ∀ i, 0 ≤ f i) : 0 ≤ meanLimit f :=
  div_nonneg (Finset.sum_nonneg fun i _ => h i) (by norm_num)

theorem missed_nonneg (adv : Adversary K) (k : K) (r : Nat) (h : List Numbers) : 0 ≤ missed adv k r h := by
  induction r generalizing h with
  | zero => rw [missed]; norm_num
  | succ r ih =>
    rw [missed]
    refine meanLimit_nonneg fun l => meanBelow_nonneg fun i => ?_
    split
    · exact le_refl _
    · exact ih _

/-- with a limit that is high enough, one of the choices executes `k` -/
theorem shows_choice {s : Sight K} {k : K} {m : Nat} (hs : s.Shows k m) (limit : Nat) (hl : m ≤ limit + 1) :
    s.choices limit ≤ m ∧ ∃ j, j < s.choices limit ∧ s.outcome (limit, j) = .executed k := by
  obtain ⟨cands, hc, hmem⟩ := (C72_every_candidate_possible_partial s.q s.now s.order hs.all limit hs.sound
    (hs.few.trans hl) s.ok).2
  have hr := scan_some (by simp) hc
  have hlen : cands.length ≤ m := by
    rw [hr, List.nil_append, List.length_take]
    refine (min_le_right _ _).trans ?_
    rw [(hs.all.filter _).length_eq]
    exact hs.few
  have hch : s.choices limit = cands.length := by unfold Sight.choices; rw [hc]
  rw [hch]
  refine ⟨hlen, ?_⟩
  obtain ⟨j, hj, he⟩ := List.getElem_of_mem ((hmem k).2 ⟨hs.requested, hs.candidate⟩)
  refine ⟨j, hj, ?_⟩
  unfold Sight.outcome job
  rw [hc]
  simp only [List.getElem?_eq_getElem hj, he]

theorem NotYet.step {adv : Adversary K} {k : K} {h : List Numbers} (hn : NotYet adv k h) {x : Numbers}
    (hx : (adv h).outcome x ≠ .executed k) : NotYet adv k (h ++ [x]) := by
  intro h' y hp
  rcases List.prefix_concat_iff.1 hp with e | hp
  · obtain ⟨rfl, e2⟩ := List.append_inj' e rfl
    rw [List.singleton_inj.1 e2]
    exact hx
  · exact hn h' y hp

/-- the chance to be executed in one scan, at least -/
def chance (m : Nat) : Rat := ((5001 - max 200 (m - 1) : Nat) : Rat) / 4801 / m

theorem missed_le (adv : Adversary K) (k : K) (m : Nat) (h1 : 1 ≤ m) (h2 : m ≤ 5001)
    (hs : ∀ h, NotYet adv k h → (adv h).Shows k m) (r : Nat) (h : List Numbers) (hn : NotYet adv k h) :
    missed adv k r h ≤ (1 - chance m) ^ r := by
  have hm : (0 : Rat) < m := by exact_mod_cast h1
  have hc1 : chance m ≤ 1 := by
    unfold chance
    rw [div_le_iff₀ hm, div_le_iff₀ (by norm_num)]
    have : ((5001 - max 200 (m - 1) : Nat) : Rat) ≤ 4801 := by exact_mod_cast (by omega : 5001 - max 200 (m - 1) ≤ 4801)
    have : (1 : Rat) ≤ m := by exact_mod_cast h1
    nlinarith
  induction r generalizing h with
  | zero => rw [missed, pow_zero]
  | succ r ih =>
    rw [missed]
    have hB : 0 ≤ (1 - chance m) ^ r := pow_nonneg (by linarith) r
    have hle : ∀ l i, (if (adv h).outcome (l, i) = .executed k then 0 else missed adv k r (h ++ [(l, i)])) ≤ (1 - chance m) ^ r := by
      intro l i
      split
      · exact hB
      · rename_i hx
        exact ih _ (hn.step hx)
    have := meanLimit_le (f := fun l => meanBelow ((adv h).choices l) fun i =>
      if (adv h).outcome (l, i) = .executed k then 0 else missed adv k r (h ++ [(l, i)]))
      (A := (1 - 1 / m) * (1 - chance m) ^ r) (B := (1 - chance m) ^ r) (max 200 (m - 1)) (le_max_left _ _) (by omega)
      (fun l _ _ => meanBelow_le fun i _ => hle l i)
      (fun l hl _ => by
        obtain ⟨hc, j, hj, hx⟩ := shows_choice (hs h hn) l (by omega)
        exact meanBelow_zero hB (fun i _ => hle l i) j hj (if_pos hx) hc)
    refine this.trans (le_of_eq ?_)
    rw [pow_succ]
    have e1 : ((max 200 (m - 1) - 200 : Nat) : Rat) = 4801 - ((5001 - max 200 (m - 1) : Nat) : Rat) := by
      rw [eq_sub_iff_add_eq]
      exact_mod_cast (by omega : max 200 (m - 1) - 200 + (5001 - max 200 (m - 1)) = 4801)
    rw [e1]
    unfold chance
    field_simp
    ring

end Pyth.Scan
