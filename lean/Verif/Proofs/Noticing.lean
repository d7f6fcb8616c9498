import Verif.Spec.Noticing
import Verif.Props.FirstEntry
import Mathlib.Algebra.BigOperators.Group.Finset.Piecewise
import Mathlib.Data.Fintype.BigOperators
import Mathlib.Algebra.Order.Floor.Ring
import Mathlib.Algebra.Order.Floor.Semiring
import Mathlib.Data.Rat.Floor
import Mathlib.Order.Interval.Finset.Fin
import Mathlib.Tactic.Ring
import Mathlib.Tactic.NormNum
import Mathlib.Tactic.Positivity
/-! # Proofs for C116 -/
namespace Pyth.Noticing
open Pyth.FirstEntry
variable {K V : Type} [DecidableEq K] [DecidableEq V]

theorem run_pCheck (s : Dict K V) (ops : List (Op K V)) : (run s ops).pCheck = s.pCheck := by
  induction ops generalizing s with
  | nil => rfl
  | cons o ops ih =>
    show (run (setItem o s).2 ops).pCheck = _
    rw [ih]
    have hchk : ∀ n s', (check o n s').2.pCheck = s'.pCheck := by
      intro n s'
      unfold check
      repeat' split
      all_goals rfl
    unfold setItem
    cases h : storeFirst o s.data with
    | mk r d =>
      cases r with
      | error e => rfl
      | ok needed =>
        cases hd : d o.key with
        | none => simp only [hd]
        | some v => simp only [hd]; exact hchk _ _

theorem length_assignments {n : Nat} (a : Fin n → K × V) (draws : Fin n → Draw) : (assignments a draws).length = n := by
  simp [assignments]

theorem getElem_assignments {n : Nat} (a : Fin n → K × V) (draws : Fin n → Draw) (j : Nat) (h : j < n) :
    (assignments a draws)[j]'(by rw [length_assignments]; exact h) =
      ⟨(a ⟨j, h⟩).1, (a ⟨j, h⟩).2, (draws ⟨j, h⟩).value, .none, .none⟩ := by
  simp [assignments]

theorem find_take {n : Nat} (a : Fin n → K × V) (draws : Fin n → Draw) (i : Fin n) (k : K) (v : V) :
    (((assignments a draws).take i.val).find? (fun o => decide (o.key = k))).map (fun o => o.value) = some v ↔
      ∃ j < i, (a j).1 = k ∧ (∀ l < j, (a l).1 ≠ k) ∧ (a j).2 = v := by
  rw [Option.map_eq_some_iff]
  constructor
  · rintro ⟨o, ho, rfl⟩
    rw [List.find?_eq_some_iff_getElem] at ho
    obtain ⟨hk, j, hj, hjo, hl⟩ := ho
    rw [List.length_take, length_assignments, Nat.lt_min] at hj
    rw [List.getElem_take, getElem_assignments a draws j hj.2] at hjo
    subst hjo
    refine ⟨⟨j, hj.2⟩, hj.1, by simpa using hk, fun l hlj => ?_, rfl⟩
    have := hl l.val hlj
    rw [List.getElem_take, getElem_assignments a draws l.val l.isLt] at this
    simpa using this
  · rintro ⟨j, hji, hk, hl, hv⟩
    refine ⟨⟨(a j).1, (a j).2, (draws j).value, .none, .none⟩, ?_, hv⟩
    rw [List.find?_eq_some_iff_getElem]
    have hj : j.val < ((assignments a draws).take i.val).length := by
      rw [List.length_take, length_assignments]; exact Nat.lt_min.2 ⟨hji, j.isLt⟩
    refine ⟨by simpa using hk, j.val, hj, ?_, fun l hlj => ?_⟩
    · rw [List.getElem_take, getElem_assignments a draws j.val j.isLt]
    · rw [List.getElem_take, getElem_assignments a draws l (lt_trans hlj j.isLt)]
      simpa using hl ⟨l, lt_trans hlj j.isLt⟩ hlj

/-- what the key of the `i`-th assignment holds when it is made -/
theorem held_differs (s : Dict K V) {n : Nat} (a : Fin n → K × V) (draws : Fin n → Draw) (i : Fin n) :
    (∃ old, (run s ((assignments a draws).take i.val)).data (a i).1 = some old ∧ old ≠ (a i).2) ↔ Differs s.data a i := by
  rw [C07_first_value_wins s _ _ (fun o ho => by
    have := List.mem_of_mem_take ho
    simp only [assignments, List.mem_ofFn] at this
    obtain ⟨x, rfl⟩ := this
    exact .inl rfl)]
  cases hs : s.data (a i).1 with
  | some v => simp [Differs, hs]
  | none =>
    simp only [Option.none_or, Differs, hs, reduceCtorEq, false_and, exists_false, false_or, true_and]
    constructor
    · rintro ⟨old, ho, hne⟩
      obtain ⟨j, h1, h2, h3, h4⟩ := (find_take a draws i _ _).1 ho
      exact ⟨j, h1, h2, h3, by rw [h4]; exact hne⟩
    · rintro ⟨j, h1, h2, h3, h4⟩
      exact ⟨(a j).2, (find_take a draws i _ _).2 ⟨j, h1, h2, h3, rfl⟩, h4⟩

theorem value_nonneg (d : Draw) : 0 ≤ d.value := by
  unfold Draw.value; positivity

theorem returns_iff {p : Rat} (s : Dict K V) (hp : s.pCheck = some p) {n : Nat} (a : Fin n → K × V) (draws : Fin n → Draw)
    (i : Fin n) : Returns s a draws i ↔ (Differs s.data a i → ¬ (draws i).value < p) := by
  have hx := C08_exact (run s ((assignments a draws).take i.val))
    ⟨(a i).1, (a i).2, (draws i).value, .none, .none⟩ rfl
  simp only [run_pCheck, hp] at hx
  obtain ⟨h1, h2⟩ := hx
  rw [← held_differs s a draws i]
  unfold Returns
  by_cases hc : (draws i).value < p
  · have hc' : ∃ q, some p = some q ∧ 0 < q ∧ (draws i).value < q :=
      ⟨p, rfl, lt_of_le_of_lt (value_nonneg _) hc, hc⟩
    cases hd : (run s ((assignments a draws).take i.val)).data (a i).1 with
    | none => rw [(h2 (.inl hd)).1]; simp
    | some old =>
      obtain ⟨_, h3, h4⟩ := h1 old hd hc'
      by_cases he : old = (a i).2
      · rw [(h3 he).1]; simp [he]
      · rw [(h4 he).1]; simp [he, hc]
  · rw [(h2 (.inr (by rintro ⟨q, hq, _, h⟩; cases hq; exact hc h))).1]
    simp [hc]

theorem returns_none (s : Dict K V) (hp : s.pCheck = none) {n : Nat} (a : Fin n → K × V) (draws : Fin n → Draw)
    (i : Fin n) : Returns s a draws i :=
  C08_check_p0 _ _ (.inl (by rw [run_pCheck]; exact hp)) (.inl rfl)

theorem card_forall {n : Nat} {S : Type} [Finite S] (W : Fin n → Prop) (P : S → Prop) :
    Nat.card { u : Fin n → S // ∀ i, W i → ¬ P (u i) } =
      (Nat.card S - Nat.card { x : S // P x }) ^ Nat.card { i // W i } * Nat.card S ^ (n - Nat.card { i // W i }) := by
  classical
  haveI := Fintype.ofFinite S
  rw [Nat.card_congr (Equiv.subtypePiEquivPi (p := fun i x => W i → ¬ P x)), Nat.card_pi]
  have h : ∀ i, Nat.card { x : S // W i → ¬ P x } =
      if W i then Nat.card S - Nat.card { x : S // P x } else Nat.card S := by
    intro i
    by_cases hw : W i
    · simp only [hw, true_imp_iff, if_true]
      simp only [Nat.card_eq_fintype_card]
      rw [Fintype.card_subtype_compl]
    · rw [if_neg hw]
      exact Nat.card_congr (Equiv.subtypeUnivEquiv (fun x h => absurd h hw))
  simp only [h]
  rw [Finset.prod_ite, Finset.prod_const, Finset.prod_const, Finset.filter_not, Finset.card_sdiff_of_subset (Finset.filter_subset _ _)]
  simp only [Nat.card_eq_fintype_card, Fintype.card_subtype, Finset.card_univ, Fintype.card_fin]

theorem card_below (N m : Nat) (h : m ≤ N) : Nat.card { d : Fin N // d.val < m } = m := by
  rw [Nat.card_congr (⟨fun x => ⟨x.1.val, x.2⟩, fun x => ⟨⟨x.val, lt_of_lt_of_le x.isLt h⟩, x.isLt⟩, fun x => rfl, fun x => rfl⟩ :
    { d : Fin N // d.val < m } ≃ Fin m), Nat.card_fin]

theorem checking_eq (p : Rat) (h0 : 0 ≤ p) (h1 : p ≤ 1) : checking p = ⌈p * 2 ^ 53⌉₊ := by
  classical
  unfold checking
  have hlt : ∀ d : Draw, d.value < p ↔ d.val < ⌈p * 2 ^ 53⌉₊ := by
    intro d
    rw [Nat.lt_ceil]
    unfold Draw.value
    rw [div_lt_iff₀ (by positivity)]
  have hle : ⌈p * 2 ^ 53⌉₊ ≤ 2 ^ 53 := by
    rw [Nat.ceil_le]
    have : p * 2 ^ 53 ≤ 1 * 2 ^ 53 := mul_le_mul_of_nonneg_right h1 (by positivity)
    rw [one_mul] at this
    exact_mod_cast this
  rw [Nat.card_congr (Equiv.subtypeEquivRight hlt)]
  exact card_below _ _ hle

end Pyth.Noticing
