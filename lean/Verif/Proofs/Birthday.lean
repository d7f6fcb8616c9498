import Verif.Spec.Birthday
import Verif.Proofs.Base32
import Verif.Proofs.HashAddr
import Mathlib.Algebra.BigOperators.Intervals
import Mathlib.Data.Fintype.Card
import Mathlib.SetTheory.Cardinal.Finite
import Mathlib.Order.Interval.Finset.Fin
import Mathlib.Tactic.Ring
import Mathlib.Tactic.NormNum
import Mathlib.Tactic.Positivity
import Mathlib.Algebra.Order.BigOperators.Group.Finset
/-! # Proofs for C114 -/
namespace Pyth.Birthday
open Pyth.Base32 Pyth.HashAddr Finset

section generic
variable {S T : Type} [Fintype S] [DecidableEq S] [DecidableEq T]

theorem pair_bound (B : Nat) {k : Nat} (sig : Fin k → S → T) (hB : ∀ i t, #{s : S | sig i s = t} ≤ B) (i j : Fin k)
    (h : i ≠ j) :
    #{u : Fin k → S | sig i (u i) = sig j (u j)} ≤ B * Fintype.card S ^ (k - 1) := by
  classical
  let r : (Fin k → S) → ({x : Fin k // x ≠ j} → S) := fun u x => u x.1
  have h1 := Finset.card_le_mul_card_image (f := r) (s := {u : Fin k → S | sig i (u i) = sig j (u j)}) B (by
    intro a ha
    refine le_trans ?_ (hB j (sig i (a ⟨i, h⟩)))
    apply Finset.card_le_card_of_injOn (fun u => u j)
    · intro u hu
      simp only [coe_filter, mem_filter, mem_univ, true_and, Set.mem_setOf_eq] at hu ⊢
      obtain ⟨h1, h2⟩ := hu
      rw [← h1, ← h2]
    · intro u hu v hv huv
      simp only [coe_filter, mem_filter, mem_univ, true_and, Set.mem_setOf_eq] at hu hv
      funext x
      by_cases hx : x = j
      · subst hx; exact huv
      · exact (congrFun hu.2 ⟨x, hx⟩).trans (congrFun hv.2 ⟨x, hx⟩).symm)
  refine h1.trans (Nat.mul_le_mul_left _ ?_)
  refine (Finset.card_le_univ _).trans ?_
  rw [Fintype.card_fun]
  simp

theorem birthday (B : Nat) {k : Nat} (sig : Fin k → S → T) (hB : ∀ i t, #{s : S | sig i s = t} ≤ B) :
    2 * Fintype.card S * Nat.card { u : Fin k → S // ∃ i j, i ≠ j ∧ sig i (u i) = sig j (u j) } ≤
      k * (k - 1) * B * Nat.card (Fin k → S) := by
  classical
  rw [Nat.card_eq_fintype_card, Nat.card_eq_fintype_card, Fintype.card_subtype]
  let P : Finset (Σ _ : Fin k, Fin k) := (univ : Finset (Fin k)).sigma fun i => Finset.Iio i
  have hsub : ({u : Fin k → S | ∃ i j, i ≠ j ∧ sig i (u i) = sig j (u j)} : Finset _) ⊆
      P.biUnion fun p => {u : Fin k → S | sig p.1 (u p.1) = sig p.2 (u p.2)} := by
    intro u hu
    simp only [mem_filter, mem_univ, true_and] at hu
    obtain ⟨i, j, hne, he⟩ := hu
    rw [mem_biUnion]
    rcases lt_or_gt_of_ne hne with h | h
    · exact ⟨⟨j, i⟩, by simp [P, h], by simp [he]⟩
    · exact ⟨⟨i, j⟩, by simp [P, h], by simp [he]⟩
  have h1 := (card_le_card hsub).trans card_biUnion_le
  have h2 : ∑ p ∈ P, #{u : Fin k → S | sig p.1 (u p.1) = sig p.2 (u p.2)} ≤
      ∑ _p ∈ P, B * Fintype.card S ^ (k - 1) := by
    apply Finset.sum_le_sum
    intro p hp
    apply pair_bound B sig hB
    simp only [P, mem_sigma, mem_univ, true_and, mem_Iio] at hp
    exact (ne_of_lt hp).symm
  rw [Finset.sum_const, Nat.nsmul_eq_mul] at h2
  have hP : 2 * #P = k * (k - 1) := by
    have : #P = ∑ i ∈ range k, i := by
      rw [← Fin.sum_univ_eq_sum_range (fun i => i) k]
      simp [P, Finset.card_sigma]
    rw [this, Nat.mul_comm, Finset.sum_range_id_mul_two]
  have h3 := h1.trans h2
  rw [Fintype.card_fun, Fintype.card_fin]
  rcases Nat.eq_zero_or_pos k with hk | hk
  · subst hk
    have : #P = 0 := by simpa using hP
    rw [this, Nat.zero_mul, Nat.le_zero] at h3
    rw [h3]; simp
  · have e : Fintype.card S ^ k = Fintype.card S ^ (k - 1) * Fintype.card S := by
      rw [← Nat.pow_succ]; congr 1; omega
    calc 2 * Fintype.card S * _ ≤ 2 * Fintype.card S * (#P * (B * Fintype.card S ^ (k - 1))) := Nat.mul_le_mul_left _ h3
      _ = (2 * #P) * B * (Fintype.card S ^ (k - 1) * Fintype.card S) := by ring
      _ = _ := by rw [hP, e]

end generic

/-! ## The numbers with a given signature -/

theorem enc_length_le (n : Nat) : ∀ L, n < 32 ^ L → (enc n).length ≤ L := by
  induction n using Nat.strongRecOn with
  | ind n ih =>
    intro L h
    by_cases h0 : n = 0
    · subst h0; simp [enc_zero]
    · cases L with
      | zero => simp at h; omega
      | succ L =>
        rw [enc_pos n h0, List.length_append, List.length_singleton]
        have := ih (n / 32) (Nat.div_lt_self (Nat.pos_of_ne_zero h0) (by decide)) L
          (by rw [Nat.pow_succ] at h; exact Nat.div_lt_of_lt_mul (by rw [Nat.mul_comm]; exact h))
        omega

/-- how many numbers share their leading digits -/
def fiber (J : Nat) : Nat := ∑ j ∈ range (J + 1), 32 ^ j

theorem sig_fiber (J : Nat) (t : List Char) (s : Finset Nat) (hs : ∀ n ∈ s, n < 32 ^ (22 + J) ∧ randomSignature n = t) :
    #s ≤ fiber J := by
  classical
  rcases s.eq_empty_or_nonempty with rfl | ⟨n0, hn0⟩
  · simp
  -- all numbers of `s` lie in one of these intervals
  have key : ∀ n ∈ s, ∃ j ≤ J, enc (n / 32 ^ j) = t := by
    intro n hn
    obtain ⟨hlt, hsig⟩ := hs n hn
    have hl := enc_length_le n _ hlt
    refine ⟨(enc n).length - 22, by omega, ?_⟩
    rw [← hsig]
    unfold randomSignature maxSignatureLength
    rw [convert_nat, ← enc_take n _ (by omega)]
    by_cases h : (enc n).length ≤ 22
    · rw [List.take_of_length_le h, List.take_of_length_le (by omega)]
    · congr 1; omega
  obtain ⟨j0, _, hm⟩ := key n0 hn0
  have hsub : s ⊆ (range (J + 1)).biUnion fun j => Ico (n0 / 32 ^ j0 * 32 ^ j) (n0 / 32 ^ j0 * 32 ^ j + 32 ^ j) := by
    intro n hn
    obtain ⟨j, hj, he⟩ := key n hn
    have : n / 32 ^ j = n0 / 32 ^ j0 := enc_injective (he.trans hm.symm)
    rw [mem_biUnion]
    refine ⟨j, by simp; omega, ?_⟩
    rw [mem_Ico, ← this]
    have h1 := Nat.div_add_mod n (32 ^ j)
    have h2 := Nat.mod_lt n (Nat.pow_pos (n := j) (show 0 < 32 by decide))
    rw [Nat.mul_comm] at h1
    omega
  refine (card_le_card hsub).trans (card_biUnion_le.trans ?_)
  unfold fiber
  apply le_of_eq
  apply Finset.sum_congr rfl
  intro j _
  simp

/-! ## Random signatures -/

theorem uuid_lt (u : Uuid4) : u.int < 2 ^ 128 := by
  obtain ⟨a, b, c⟩ := u
  have := a.2; have := b.2; have := c.2
  simp only [Uuid4.int]
  omega

theorem uuid_inj : Function.Injective Uuid4.int := by
  intro u v h
  obtain ⟨a, b, c⟩ := u
  obtain ⟨a', b', c'⟩ := v
  have := a.2; have := b.2; have := c.2
  have := a'.2; have := b'.2; have := c'.2
  simp only [Uuid4.int] at h
  have h1 : a = a' := Fin.ext (by omega)
  have h2 : b = b' := Fin.ext (by omega)
  have h3 : c = c' := Fin.ext (by omega)
  rw [h1, h2, h3]

theorem two128 : 2 ^ 128 ≤ 32 ^ (22 + 4) := by decide +kernel

theorem two256 : 2 ^ 256 ≤ 32 ^ (22 + 30) := by decide +kernel

theorem fiber4 : fiber 4 = 1082401 := by decide +kernel

theorem map_fiber {S : Type} [Fintype S] [DecidableEq S] (num : S → Nat) (hinj : Function.Injective num) (J M : Nat)
    (hM : M ≤ 32 ^ (22 + J)) (hlt : ∀ s, num s < M) (t : List Char) : #{s : S | randomSignature (num s) = t} ≤ fiber J := by
  classical
  have h := sig_fiber J t (({s : S | randomSignature (num s) = t} : Finset S).image num) (by
    intro n hn
    obtain ⟨u, hu, rfl⟩ := Finset.mem_image.1 hn
    exact ⟨Nat.lt_of_lt_of_le (hlt u) hM, (Finset.mem_filter.1 hu).2⟩)
  rw [Finset.card_image_of_injective _ hinj] at h
  exact h

theorem uuid_fiber (t : List Char) : #{u : Uuid4 | randomSignature u.int = t} ≤ 1082401 :=
  fiber4 ▸ map_fiber Uuid4.int uuid_inj 4 _ two128 uuid_lt t

/-! ## Addresses -/

/-- the number a digest denotes -/
def Digest.num (d : Digest) : Nat := (List.ofFn fun i => (d i).val).foldl (fun a x => a * 16 + x) 0

theorem hexc (x : Fin 16) : "0123456789abcdef".toList.getD x.val '?' = hexChar x.val := by revert x; decide

theorem fold_inj : ∀ (l m : List Nat) (a b : Nat), l.length = m.length → (∀ x ∈ l, x < 16) → (∀ x ∈ m, x < 16) →
    l.foldl (fun a x => a * 16 + x) a = m.foldl (fun a x => a * 16 + x) b → a = b ∧ l = m
  | [], [], a, b, _, _, _, h => ⟨h, rfl⟩
  | x :: l, y :: m, a, b, hl, h1, h2, h => by
    simp only [List.foldl_cons] at h
    obtain ⟨e1, e2⟩ := fold_inj l m _ _ (by simpa using hl) (fun z hz => h1 z (by simp [hz])) (fun z hz => h2 z (by simp [hz])) h
    have := h1 x (by simp)
    have := h2 y (by simp)
    have : a = b := by omega
    have : x = y := by omega
    exact ⟨by assumption, by rw [e2, this]⟩

theorem num_inj : Function.Injective Digest.num := by
  intro d e h
  obtain ⟨_, h2⟩ := fold_inj _ _ _ _ (by simp) (by simp [List.mem_ofFn]) (by simp [List.mem_ofFn]) h
  funext i
  exact Fin.ext (congrFun (List.ofFn_injective h2) i)

theorem fold_lt : ∀ (l : List Nat) (a : Nat), (∀ x ∈ l, x < 16) →
    l.foldl (fun a x => a * 16 + x) a < (a + 1) * 16 ^ l.length
  | [], a, _ => by simp
  | x :: l, a, h => by
    have hx := h x (by simp)
    refine (fold_lt l _ (fun z hz => h z (by simp [hz]))).trans_le ?_
    rw [List.length_cons, Nat.pow_succ, Nat.mul_comm (16 ^ l.length), ← Nat.mul_assoc]
    exact Nat.mul_le_mul_right _ (by show a * 16 + x + 1 ≤ _; omega)

theorem num_lt (d : Digest) : d.num < 2 ^ 256 := by
  have := fold_lt (List.ofFn fun i => (d i).val) 0 (by simp [List.mem_ofFn])
  rw [List.length_ofFn] at this
  exact this.trans_le (by decide +kernel)

theorem digest_sig (d : Digest) : hashSignature d.text = some (randomSignature d.num) := by
  have ht : d.text = (List.ofFn fun i => (d i).val).map hexChar := by
    unfold Digest.text
    rw [List.map_ofFn]
    rfl
  unfold hashSignature convertBase16ToBase32
  rw [if_neg (by rw [ht]; simp), ht, parseHex_map _ 0 (by simp [List.mem_ofFn])]
  rfl

theorem label_fiber {S A : Type} [Fintype S] [DecidableEq S] [DecidableEq A] (num : S → Nat)
    (hinj : Function.Injective num) (J M : Nat) (hM : M ≤ 32 ^ (22 + J)) (hlt : ∀ s, num s < M) (label : S → A)
    (hl : ∀ s s', label s = label s' → randomSignature (num s) = randomSignature (num s')) (t : A) :
    #{s : S | label s = t} ≤ fiber J := by
  classical
  rcases ({d : S | label d = t} : Finset S).eq_empty_or_nonempty with h | ⟨d0, hd0⟩
  · rw [h]; simp
  refine (Finset.card_le_card ?_).trans (map_fiber num hinj J M hM hlt (randomSignature (num d0)))
  intro d hd
  rw [Finset.mem_filter]
  exact ⟨Finset.mem_univ _, hl _ _ ((Finset.mem_filter.1 hd).2.trans (Finset.mem_filter.1 hd0).2.symm)⟩

theorem addr_sig (x : List Char × Size) (d e : Digest) (h : address (obj x d) = address (obj x e)) :
    randomSignature d.num = randomSignature e.num := by
  simp only [address, buildHashSignature, obj, digest_sig, Option.map_some, Option.some.injEq, Prod.mk.injEq,
    List.append_cancel_left_eq] at h
  exact h.2

theorem digest_fiber (x : List Char × Size) (t : Option (List Char × List Char)) :
    #{d : Digest | address (obj x d) = t} ≤ fiber 30 :=
  label_fiber Digest.num num_inj 30 _ two256 num_lt (fun d => address (obj x d)) (addr_sig x) t

end Pyth.Birthday
