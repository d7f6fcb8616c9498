import Verif.Proofs.Birthday
/-!
# C114: signatures almost never coincide

Random signatures identify executions, events and sessions; signatures of digests identify values, functions and calls.
That two of them are equal is possible, but the number of such outcomes is a vanishing part of all outcomes, for any
number of drawings.
-/
namespace Pyth.Birthday
open Pyth.Base32 Pyth.HashAddr

theorem card_uuid : Fintype.card Uuid4 = 2 ^ 122 := by
  simp only [Uuid4, Fintype.card_prod, Fintype.card_fin]
  decide +kernel

theorem card_digest : Fintype.card Digest = 2 ^ 256 := by
  simp only [Digest, Fintype.card_fun, Fintype.card_fin]
  decide +kernel

/-- **C114** (1). `k` random signatures, drawn anywhere by anybody: the part of the outcomes in which two of them are equal
is at most `k * (k - 1) / 2 * 1082401 / 2 ^ 122`. -/
theorem C114_random_signatures (k : Nat) :
    2 * 2 ^ 122 * badDrawings k ≤ k * (k - 1) * 1082401 * Nat.card (Fin k → Uuid4) := by
  have h := birthday (S := Uuid4) 1082401 (k := k) (fun _ v => randomSignature v.int) (fun _ t => uuid_fiber t)
  rw [card_uuid] at h
  exact h

/-- **C114** (2). `k` objects of any classes and sizes, whose digests are independent and random: the part of the outcomes
in which two of them get the same address is at most `k * (k - 1) / 2 * (2 ^ 151) / 2 ^ 256`. -/
theorem C114_addresses {k : Nat} (xs : Fin k → List Char × Size) :
    2 * 2 ^ 256 * badHashings xs ≤ k * (k - 1) * 2 ^ 151 * Nat.card (Fin k → Digest) := by
  have h := birthday (S := Digest) (fiber 30) (k := k) (fun i d => address (obj (xs i) d)) (fun i t => digest_fiber (xs i) t)
  rw [card_digest] at h
  refine h.trans (Nat.mul_le_mul_right _ (Nat.mul_le_mul_left _ ?_))
  decide +kernel

theorem at_most {a c A B T : Nat} (h : a * A ≤ B * T) (hb : B * c ≤ a) (ha : 0 < a) : A * c ≤ T := by
  have h1 : a * (A * c) ≤ a * T := by
    calc a * (A * c) = (a * A) * c := by rw [Nat.mul_assoc]
      _ ≤ (B * T) * c := Nat.mul_le_mul_right _ h
      _ = (B * c) * T := by rw [Nat.mul_assoc, Nat.mul_comm T, ← Nat.mul_assoc]
      _ ≤ a * T := Nat.mul_le_mul_right _ hb
  exact Nat.le_of_mul_le_mul_left h1 ha

/-- C114: among up to a billion random signatures two are equal in less than one of nine million million outcomes. -/
theorem C114_billion_signatures (k : Nat) (hk : k ≤ 10 ^ 9) :
    badDrawings k * (9 * 10 ^ 12) ≤ Nat.card (Fin k → Uuid4) := by
  refine at_most (C114_random_signatures k) ?_ (by decide +kernel)
  have : k * (k - 1) ≤ 10 ^ 9 * 10 ^ 9 := Nat.mul_le_mul hk (by omega)
  exact (Nat.mul_le_mul_right _ (Nat.mul_le_mul_right _ this)).trans (by decide +kernel)

/-- C114: among up to a million million objects two get the same address in less than one of ten million outcomes. -/
theorem C114_many_addresses {k : Nat} (xs : Fin k → List Char × Size) (hk : k ≤ 10 ^ 12) :
    badHashings xs * 10 ^ 7 ≤ Nat.card (Fin k → Digest) := by
  refine at_most (C114_addresses xs) ?_ (by decide +kernel)
  have : k * (k - 1) ≤ 10 ^ 12 * 10 ^ 12 := Nat.mul_le_mul hk (by omega)
  exact (Nat.mul_le_mul_right _ (Nat.mul_le_mul_right _ this)).trans (by decide +kernel)

/-! ## It is possible -/

theorem enc_length (n L : Nat) (h1 : 32 ^ L ≤ n) (h2 : n < 32 ^ (L + 1)) : (enc n).length = L + 1 := by
  refine Nat.le_antisymm (enc_length_le n _ h2) ?_
  by_contra hc
  have : ∀ (m : Nat), m < 32 ^ (enc m).length := by
    intro m
    induction m using Nat.strongRecOn with
    | ind m ih =>
      by_cases h0 : m = 0
      · subst h0; simp [enc_zero]
      · have := ih (m / 32) (Nat.div_lt_self (Nat.pos_of_ne_zero h0) (by decide))
        rw [enc_pos m h0, List.length_append, List.length_singleton, Nat.pow_succ, Nat.mul_comm]
        omega
  have := this n
  have h3 : 32 ^ (enc n).length ≤ 32 ^ L := Nat.pow_le_pow_right (by decide) (by omega)
  omega

/-- the random bits with these values -/
def bits (a b c : Nat) (ha : a < 2 ^ 48) (hb : b < 2 ^ 12) (hc : c < 2 ^ 62) : Uuid4 := (⟨a, ha⟩, ⟨b, hb⟩, ⟨c, hc⟩)

theorem bits_int (a b c : Nat) (ha hb hc) : (bits a b c ha hb hc).int = a * 2 ^ 80 + 4 * 2 ^ 76 + b * 2 ^ 64 + 2 * 2 ^ 62 + c :=
  rfl

theorem sig_eq (m n : Nat) (hm : 32 ^ 25 ≤ m ∧ m < 32 ^ (25 + 1)) (hn : 32 ^ 25 ≤ n ∧ n < 32 ^ (25 + 1))
    (h : m / 32 ^ 4 = n / 32 ^ 4) : randomSignature m = randomSignature n := by
  unfold randomSignature maxSignatureLength
  rw [convert_nat, convert_nat]
  have l1 := enc_length m 25 hm.1 hm.2
  have l2 := enc_length n 25 hn.1 hn.2
  have t1 := enc_take m 4 (by omega)
  have t2 := enc_take n 4 (by omega)
  rw [l1] at t1
  rw [l2] at t2
  refine t1.trans (Eq.trans ?_ t2.symm)
  rw [h]

/-- C114: signatures can coincide: two different random numbers with the same random signature. -/
theorem C114_coincidence_possible : ∃ u v : Uuid4, u ≠ v ∧ randomSignature u.int = randomSignature v.int := by
  refine ⟨bits (2 ^ 47) 0 0 (by decide +kernel) (by decide +kernel) (by decide +kernel),
    bits (2 ^ 47) 0 1 (by decide +kernel) (by decide +kernel) (by decide +kernel), ?_, ?_⟩
  · exact fun h => Nat.zero_ne_one (congrArg (fun w : Uuid4 => w.2.2.val) h)
  · rw [bits_int, bits_int]
    exact sig_eq _ _ (by decide +kernel) (by decide +kernel) (by decide +kernel)

/-- two equal signatures among two drawings: there is such an outcome -/
example : 0 < badDrawings 2 := by
  obtain ⟨u, v, hne, h⟩ := C114_coincidence_possible
  unfold badDrawings
  have : Nonempty { u : Fin 2 → Uuid4 // Coincide (fun v => randomSignature v.int) u } :=
    ⟨⟨fun i => if i = 0 then u else v, 0, 1, by decide, h⟩⟩
  exact Nat.card_pos

end Pyth.Birthday
