import Verif.Proofs.Base32
/-! # Properties C10, C11: base-32 numbers and signatures -/
namespace Pyth.Base32

/-- C10 (a): round trip for every natural number. -/
theorem C10_round_trip (n : Nat) : convertBase32ToInt (convertIntToBase32 n) = some n := by
  unfold convertBase32ToInt
  rw [convert_nat, enc_lower]
  exact decodeLoop_enc n

/-- C10 (b): distinct numbers have distinct texts. -/
theorem C10_injective (m n : Nat) (h : convertIntToBase32 m = convertIntToBase32 n) : m = n := by
  rw [convert_nat, convert_nat] at h
  exact enc_injective h

/-- C10 (c): the text uses only the alphabet and does not start with the digit 0; it is empty exactly
for 0 (and for negative numbers). -/
theorem C10_canonical (n : Int) :
    (∀ c ∈ convertIntToBase32 n, c ∈ "0123456789abcdefghijklmnopqrstuv".toList) ∧
    (∀ c, (convertIntToBase32 n).head? = some c → c ≠ '0') ∧
    (convertIntToBase32 n = [] ↔ n ≤ 0) := by
  by_cases h : n ≤ 0
  · rw [convert_neg n h]; simp [h]
  · obtain ⟨k, rfl⟩ : ∃ k : Nat, n = k := ⟨n.toNat, by omega⟩
    rw [convert_nat]
    refine ⟨enc_mem k, enc_head k, ?_⟩
    constructor
    · intro e
      have := decodeLoop_enc k
      rw [e] at this
      simp [decodeLoop] at this
      omega
    · intro e; exact absurd e h

/-- C10 (d): conversely every text over the alphabet without leading 0 is the text of the number it
decodes to (so encoding is a bijection between the numbers and these texts). -/
theorem C10_decode_encode (s : List Char)
    (hs : ∀ c ∈ s, c ∈ "0123456789abcdefghijklmnopqrstuv".toList)
    (h0 : ∀ c, s.head? = some c → c ≠ '0') :
    ∃ n : Nat, convertBase32ToInt s = some n ∧ convertIntToBase32 n = s := by
  have hlow : s.map Char.toLower = s := by
    conv => rhs; rw [← List.map_id s]
    exact List.map_congr_left (fun c hc => alphabet_lower c (hs c hc))
  have hdec : ∀ (t : List Char) a, (∀ c ∈ t, c ∈ alphabet) → ∃ n, decodeLoop t a = some n := by
    intro t
    induction t with
    | nil => intro a _; exact ⟨a, rfl⟩
    | cons c t ih =>
      intro a ht
      obtain ⟨i, _, _, hv⟩ := alphabet_props c (ht c List.mem_cons_self)
      simp only [decodeLoop, hv]
      exact ih _ (fun x hx => ht x (List.mem_cons_of_mem _ hx))
  obtain ⟨n, hn⟩ := hdec s 0 hs
  refine ⟨n, ?_, ?_⟩
  · unfold convertBase32ToInt; rw [hlow]; exact hn
  · rw [convert_nat, enc_decodeLoop s 0 n hs (.inr h0) hn, enc_zero]; rfl

/-- C10 (e): decoding rejects exactly the texts with a character that is (after lower-casing) not in
the alphabet. -/
theorem C10_decode_total (s : List Char) :
    convertBase32ToInt s = none ↔
      ∃ c ∈ s, c.toLower ∉ "0123456789abcdefghijklmnopqrstuv".toList := by
  unfold convertBase32ToInt
  suffices ∀ (t : List Char) a, decodeLoop t a = none ↔ ∃ c ∈ t, c ∉ alphabet by
    rw [this]
    constructor
    · rintro ⟨c, hc, hn⟩
      obtain ⟨d, hd, rfl⟩ := List.mem_map.1 hc
      exact ⟨d, hd, hn⟩
    · rintro ⟨c, hc, hn⟩
      exact ⟨c.toLower, List.mem_map.2 ⟨c, hc, rfl⟩, hn⟩
  intro t
  induction t with
  | nil => intro a; simp [decodeLoop]
  | cons c t ih =>
    intro a
    by_cases hc : c ∈ alphabet
    · obtain ⟨i, _, _, hv⟩ := alphabet_props c hc
      simp only [decodeLoop, hv]
      rw [ih]
      simp [hc]
    · have : digitValue c = none := by
        unfold digitValue
        simp only
        rw [if_neg]
        intro hlt
        exact hc (List.idxOf_lt_length_iff.1 hlt)
      simp only [decodeLoop, this, true_iff]
      exact ⟨c, List.mem_cons_self, hc⟩

/-- a hexadecimal digit in lower or upper case -/
def hexDigit (d : Nat) (upper : Bool) : Char :=
  (if upper then "0123456789ABCDEF" else "0123456789abcdef").toList.getD d '?'

theorem hexValue_hexDigit : ∀ (d : Fin 16) (b : Bool), hexValue (hexDigit d b) = some d.val := by
  decide

/-- C10 (f): a non-empty hexadecimal digest, in lower, upper or mixed case, and its base-32 form
denote the same number. -/
theorem C10_hex_value (ds : List (Nat × Bool)) (hne : ds ≠ []) (hd : ∀ d ∈ ds, d.1 < 16) :
    ∃ s, convertBase16ToBase32 (ds.map (fun d => hexDigit d.1 d.2)) = some s ∧
      convertBase32ToInt s = some (ds.foldl (fun a d => a * 16 + d.1) 0) := by
  refine ⟨_, ?_, C10_round_trip _⟩
  unfold convertBase16ToBase32
  rw [if_neg (by simp [hne])]
  have : ∀ (ds : List (Nat × Bool)) (a : Nat), (∀ d ∈ ds, d.1 < 16) →
      parseHex (ds.map (fun d => hexDigit d.1 d.2)) a
        = some (ds.foldl (fun a d => a * 16 + d.1) a) := by
    intro ds
    induction ds with
    | nil => intro a _; rfl
    | cons d ds ih =>
      intro a h
      have hd := hexValue_hexDigit ⟨d.1, h d List.mem_cons_self⟩ d.2
      simp only at hd
      simp only [List.map_cons, parseHex, hd, List.foldl_cons]
      exact ih _ (fun x hx => h x (List.mem_cons_of_mem _ hx))
  rw [this ds 0 hd]

example : convertBase16ToBase32 "ff".toList = some "7v".toList := by
  have h : parseHex "ff".toList 0 = some 255 := by decide
  have e : enc 255 = "7v".toList := by
    rw [enc_pos 255 (by decide), enc_pos (255 / 32) (by decide), show 255 / 32 / 32 = 0 from rfl,
      enc_zero]
    decide
  unfold convertBase16ToBase32
  rw [if_neg (by decide), h, ← e]
  exact congrArg some (convert_nat 255)

/-- C10 (g): letter case is irrelevant for decoding. -/
theorem C10_case_insensitive (s : List Char) :
    convertBase32ToInt (s.map Char.toLower) = convertBase32ToInt s := by
  unfold convertBase32ToInt
  congr 1
  rw [List.map_map]
  apply List.map_congr_left
  intro c _
  simp only [Function.comp]
  unfold Char.toLower
  split
  · rename_i h
    rw [dif_neg]
    intro h2
    have h3 := h2.2
    simp only [UInt32.le_iff_toNat_le, UInt32.toNat_add] at h h3
    have h4 : ('a'.val - 'A'.val).toNat = 32 := by decide
    have h5 : 'A'.val.toNat = 65 := by decide
    have h6 : 'Z'.val.toNat = 90 := by decide
    have h7 := h.1
    rw [h4] at h3
    rw [h6] at h3 h
    rw [h5] at h
    omega
  · rfl

/-- C11 (a): signatures have at most 22 characters, all from the alphabet. -/
theorem C11_signature_form (hexdigest sig : List Char) (h : hashSignature hexdigest = some sig) :
    sig.length ≤ 22 ∧ ∀ c ∈ sig, c ∈ "0123456789abcdefghijklmnopqrstuv".toList := by
  unfold hashSignature at h
  cases hc : convertBase16ToBase32 hexdigest with
  | none => rw [hc] at h; simp at h
  | some s =>
    rw [hc] at h
    simp at h
    subst h
    refine ⟨by simp [maxSignatureLength]; omega, ?_⟩
    intro c hcm
    have hcs := List.mem_of_mem_take hcm
    unfold convertBase16ToBase32 at hc
    split at hc
    · simp at hc; subst hc; simp at hcs; subst hcs; decide
    · cases hp : parseHex hexdigest 0 with
      | none => rw [hp] at hc; simp at hc
      | some n =>
        rw [hp] at hc
        simp at hc
        subst hc
        rw [convert_nat] at hcs
        exact enc_mem n c hcs

theorem C11_random_signature_form (r : Nat) :
    (randomSignature r).length ≤ 22 ∧
    ∀ c ∈ randomSignature r, c ∈ "0123456789abcdefghijklmnopqrstuv".toList := by
  unfold randomSignature
  refine ⟨by simp [maxSignatureLength]; omega, ?_⟩
  intro c hc
  have := List.mem_of_mem_take hc
  rw [convert_nat] at this
  exact enc_mem r c this

/-- C11 (b): what truncation keeps.  For numbers whose texts have the same length `L` (for a 256-bit
digest `L = 52` unless the leading bits vanish; 26 for a random 128-bit integer): the signatures agree
exactly if the numbers agree after dropping the last `L - 22` base-32 digits - that is in their
leading 110 bits.  In particular for `L ≤ 22` the signature determines the number. -/
theorem C11_truncation (m n L : Nat) (hm : (convertIntToBase32 m).length = L)
    (hn : (convertIntToBase32 n).length = L) :
    randomSignature m = randomSignature n ↔ m / 32 ^ (L - 22) = n / 32 ^ (L - 22) := by
  unfold randomSignature maxSignatureLength
  rw [convert_nat] at *
  rw [convert_nat] at *
  by_cases hL : L ≤ 22
  · have h0 : L - 22 = 0 := by omega
    rw [h0, List.take_of_length_le (by omega), List.take_of_length_le (by omega)]
    simp
    exact ⟨enc_injective, fun h => by rw [h]⟩
  · have e1 : (22 : Nat) = L - (L - 22) := by omega
    have t1 : (enc m).take 22 = enc (m / 32 ^ (L - 22)) := by
      have := enc_take m (L - 22) (by omega)
      rwa [hm, ← e1] at this
    have t2 : (enc n).take 22 = enc (n / 32 ^ (L - 22)) := by
      have := enc_take n (L - 22) (by omega)
      rwa [hn, ← e1] at this
    rw [t1, t2]
    exact ⟨enc_injective, fun h => by rw [h]⟩

/-- the length of the text is the number of base-32 digits: `32^(L-1) ≤ n < 32^L` -/
theorem C11_length (n : Nat) : n < 32 ^ (convertIntToBase32 n).length ∧
    (n ≠ 0 → 32 ^ ((convertIntToBase32 n).length - 1) ≤ n) := by
  rw [convert_nat]
  induction n using Nat.strongRecOn with
  | ind n ih =>
    by_cases h : n = 0
    · subst h; simp [enc_zero]
    · have hlt : n / 32 < n := Nat.div_lt_self (by omega) (by decide)
      obtain ⟨i1, i2⟩ := ih (n / 32) hlt
      rw [enc_pos n h]
      simp only [List.length_append, List.length_cons, List.length_nil, Nat.zero_add, Nat.pow_succ,
        Nat.add_sub_cancel]
      refine ⟨by omega, fun _ => ?_⟩
      by_cases h2 : n / 32 = 0
      · rw [h2, enc_zero]; simp; omega
      · have h3 := i2 h2
        cases hl : (enc (n / 32)).length with
        | zero => rw [hl] at i1; simp at i1; omega
        | succ k =>
          rw [hl] at h3
          simp only [Nat.add_sub_cancel] at h3
          rw [Nat.pow_succ]
          omega

/-- non-vacuity of C11: two numbers of 23 digits differing in the last digit share their signature -/
example : randomSignature (32 ^ 22 : Nat) = randomSignature (32 ^ 22 + 1 : Nat) := by
  have len : ∀ n : Nat, 32 ^ 22 ≤ n → n < 32 ^ 23 → (convertIntToBase32 n).length = 23 := by
    intro n h1 h2
    obtain ⟨a, b⟩ := C11_length n
    have b := b (by omega)
    have h3 : (convertIntToBase32 n).length < 24 := by
      by_cases h : (convertIntToBase32 n).length < 24
      · exact h
      · have : 32 ^ 23 ≤ 32 ^ ((convertIntToBase32 n).length - 1) := Nat.pow_le_pow_right (by decide) (by omega)
        omega
    have h4 : 22 < (convertIntToBase32 n).length := by
      by_cases h : 22 < (convertIntToBase32 n).length
      · exact h
      · have : 32 ^ (convertIntToBase32 n).length ≤ 32 ^ 22 := Nat.pow_le_pow_right (by decide) (by omega)
        omega
    omega
  rw [C11_truncation _ _ 23 (len _ (by decide) (by decide)) (len _ (by decide) (by decide))]

end Pyth.Base32
