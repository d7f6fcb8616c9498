import Verif.Props.Events
import Mathlib.SetTheory.Cardinal.Finite
import Mathlib.Data.Fintype.BigOperators
import Mathlib.Tactic.NormNum
/-!
# C63: how long the search for a unique name takes
-/
namespace Pyth.Events

/-- an outcome of `random.randint(1, 10_000_000_000)` -/
abbrev Suffix := Fin 10000000000

/-- the numbers drawn, as an infinite sequence (only the first `r` are used below) -/
def numbers {r : Nat} (u : Fin r → Suffix) (j : Nat) : Nat := if h : j < r then (u ⟨j, h⟩).val + 1 else 0

theorem uniqueLoop_none (desired : String) (existing : List String) (draws : Nat → Nat) (n i : Nat) (c : String) :
    uniqueLoop desired existing draws (n + 1) i c = none ↔
      c ∈ existing ∧ ∀ j, i ≤ j → j < i + n → desired ++ "_" ++ toString (draws j) ∈ existing := by
  induction n generalizing i c with
  | zero =>
    unfold uniqueLoop
    by_cases h : c ∈ existing
    · rw [if_pos h]
      exact iff_of_true rfl ⟨h, fun j h1 h2 => by omega⟩
    · rw [if_neg h]
      simp [h]
  | succ n ih =>
    rw [uniqueLoop]
    by_cases h : c ∈ existing
    · rw [if_pos h, ih]
      constructor
      · rintro ⟨h1, h2⟩
        refine ⟨h, fun j hj hj' => ?_⟩
        rcases Nat.eq_or_lt_of_le hj with rfl | hj
        · exact h1
        · exact h2 j hj (by omega)
      · rintro ⟨_, h2⟩
        exact ⟨h2 i (Nat.le_refl _) (by omega), fun j hj hj' => h2 j (by omega) (by omega)⟩
    · rw [if_neg h]
      simp [h]

theorem card_all (S : Type) [Finite S] (P : S → Prop) (r : Nat) :
    Nat.card { u : Fin r → S // ∀ i, P (u i) } = Nat.card { x : S // P x } ^ r := by
  rw [Nat.card_congr (Equiv.subtypePiEquivPi (p := fun _ x => P x)), Nat.card_pi, Finset.prod_const, Finset.card_univ,
    Fintype.card_fin]

theorem card_taken (N : Nat) (desired : String) (existing : List String) :
    Nat.card { x : Fin N // desired ++ "_" ++ toString (x.val + 1) ∈ existing } ≤ existing.length := by
  classical
  refine le_trans ?_ existing.toFinset_card_le
  rw [← Fintype.card_coe, ← Nat.card_eq_fintype_card]
  refine Nat.card_le_card_of_injective
    (fun x => (⟨desired ++ "_" ++ toString (x.1.val + 1), List.mem_toFinset.2 x.2⟩ : { s // s ∈ existing.toFinset })) ?_
  intro a b e
  have h1 := suffix_inj desired _ _ (congrArg Subtype.val e)
  exact Subtype.ext (Fin.ext (by omega))

/-- **C63**: the search ends with probability 1, and quickly: among all outcomes of `r` numbers drawn, those after which the search has
still not ended are at most `n`^r of (10^10)^r, where `n` is the number of existing names. -/
theorem C63_search_is_short (desired : String) (existing : List String) (r : Nat) :
    Nat.card { u : Fin r → Suffix // makeUniqueName desired existing (numbers u) (r + 1) 0 = none } ≤ existing.length ^ r ∧
    Nat.card (Fin r → Suffix) = 10000000000 ^ r := by
  constructor
  · have h : ∀ u : Fin r → Suffix, makeUniqueName desired existing (numbers u) (r + 1) 0 = none →
        ∀ i, desired ++ "_" ++ toString ((u i).val + 1) ∈ existing := by
      intro u hu i
      have := ((uniqueLoop_none desired existing (numbers u) r 0 desired).1 hu).2 i.val (Nat.zero_le _) (by omega)
      simpa [numbers, i.isLt] using this
    have hc : Nat.card { u : Fin r → Suffix // makeUniqueName desired existing (numbers u) (r + 1) 0 = none } ≤
        Nat.card { u : Fin r → Suffix // ∀ i, desired ++ "_" ++ toString ((u i).val + 1) ∈ existing } :=
      Nat.card_le_card_of_injective (fun u => ⟨u.1, h u.1 u.2⟩) (fun a b e => by
        have := congrArg Subtype.val e
        exact Subtype.ext this)
    refine hc.trans ?_
    rw [card_all Suffix (fun x => desired ++ "_" ++ toString (x.val + 1) ∈ existing)]
    exact Nat.pow_le_pow_left (card_taken _ _ _) r
  · rw [Nat.card_pi, Finset.prod_const, Finset.card_univ, Fintype.card_fin, Nat.card_fin]

/-- in 100 existing names: after two numbers the search has ended, but for one in 10^16 outcomes -/
example (desired : String) (existing : List String) (h : existing.length = 100) :
    Nat.card { u : Fin 2 → Suffix // makeUniqueName desired existing (numbers u) 3 0 = none } * 10 ^ 16 ≤
      Nat.card (Fin 2 → Suffix) := by
  obtain ⟨h1, h2⟩ := C63_search_is_short desired existing 2
  rw [h2]
  rw [h] at h1
  calc _ ≤ 100 ^ 2 * 10 ^ 16 := Nat.mul_le_mul_right _ h1
    _ = 10000000000 ^ 2 := by norm_num

end Pyth.Events
