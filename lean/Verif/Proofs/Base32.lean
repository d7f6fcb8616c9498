import Verif.Model.Base32
/-! Helper lemmas for base-32 conversions. -/
namespace Pyth.Base32

/-- encoding without accumulator -/
def enc (n : Nat) : List Char := encodeLoop n []

theorem encodeLoop_acc (n : Nat) (acc : List Char) : encodeLoop n acc = enc n ++ acc := by
  unfold enc
  induction n using Nat.strongRecOn generalizing acc with
  | ind n ih =>
    rw [encodeLoop, encodeLoop.eq_def n []]
    split
    · simp
    · rename_i h
      have hlt : n >>> 5 < n := by
        rw [Nat.shiftRight_eq_div_pow]
        exact Nat.div_lt_self (Nat.pos_of_ne_zero h) (by decide)
      rw [ih _ hlt, ih _ hlt [_]]
      simp

theorem enc_zero : enc 0 = [] := by unfold enc; rw [encodeLoop]; simp

theorem enc_pos (n : Nat) (h : n ≠ 0) : enc n = enc (n / 32) ++ [digit (n % 32)] := by
  have h1 : n >>> 5 = n / 32 := by rw [Nat.shiftRight_eq_div_pow]
  have h2 : n &&& 31 = n % 32 := Nat.and_two_pow_sub_one_eq_mod n 5
  conv => lhs; unfold enc
  rw [encodeLoop, dif_neg h, encodeLoop_acc, h1, h2]

theorem convert_nat (n : Nat) : convertIntToBase32 (n : Int) = enc n := by
  unfold convertIntToBase32
  split
  · rfl
  · have : n = 0 := by omega
    subst this; exact enc_zero.symm

theorem convert_neg (n : Int) (h : n ≤ 0) : convertIntToBase32 n = [] := by
  unfold convertIntToBase32; rw [if_neg (by omega)]

theorem digit_props : ∀ i : Fin 32, digitValue (digit i) = some i.val ∧ digit i ∈ alphabet ∧
    (digit i).toLower = digit i ∧ (i.val ≠ 0 → digit i ≠ '0') := by decide

theorem digitValue_digit (i : Nat) (h : i < 32) : digitValue (digit i) = some i :=
  (digit_props ⟨i, h⟩).1
theorem digit_mem (i : Nat) (h : i < 32) : digit i ∈ alphabet := (digit_props ⟨i, h⟩).2.1
theorem digit_lower (i : Nat) (h : i < 32) : (digit i).toLower = digit i := (digit_props ⟨i, h⟩).2.2.1
theorem digit_ne_zero (i : Nat) (h : i < 32) (h0 : i ≠ 0) : digit i ≠ '0' := (digit_props ⟨i, h⟩).2.2.2 h0

theorem alphabet_props : ∀ c ∈ alphabet, ∃ i, i < 32 ∧ digit i = c ∧ digitValue c = some i := by
  decide

theorem decodeLoop_append (a b : List Char) (n : Nat) :
    decodeLoop (a ++ b) n = (decodeLoop a n).bind (decodeLoop b) := by
  induction a generalizing n with
  | nil => rfl
  | cons c a ih =>
    simp only [List.cons_append, decodeLoop]
    cases digitValue c with
    | none => rfl
    | some d => exact ih _

theorem decodeLoop_enc (n : Nat) : decodeLoop (enc n) 0 = some n := by
  induction n using Nat.strongRecOn with
  | ind n ih =>
    by_cases h : n = 0
    · subst h; rw [enc_zero]; rfl
    · rw [enc_pos n h, decodeLoop_append, ih (n / 32) (Nat.div_lt_self (by omega) (by decide))]
      simp only [Option.bind, decodeLoop, digitValue_digit _ (Nat.mod_lt n (by decide))]
      congr 1
      omega

theorem enc_mem (n : Nat) : ∀ c ∈ enc n, c ∈ alphabet := by
  induction n using Nat.strongRecOn with
  | ind n ih =>
    by_cases h : n = 0
    · subst h; rw [enc_zero]; simp
    · rw [enc_pos n h]
      intro c hc
      rcases List.mem_append.1 hc with hc | hc
      · exact ih (n / 32) (Nat.div_lt_self (by omega) (by decide)) c hc
      · simp at hc; subst hc; exact digit_mem _ (Nat.mod_lt n (by decide))

theorem alphabet_lower : ∀ c ∈ alphabet, c.toLower = c := by decide

theorem enc_lower (n : Nat) : (enc n).map Char.toLower = enc n := by
  conv => rhs; rw [← List.map_id (enc n)]
  apply List.map_congr_left
  intro c hc
  exact alphabet_lower c (enc_mem n c hc)

theorem enc_head (n : Nat) : ∀ c, (enc n).head? = some c → c ≠ '0' := by
  induction n using Nat.strongRecOn with
  | ind n ih =>
    by_cases h : n = 0
    · subst h; rw [enc_zero]; simp
    · rw [enc_pos n h]
      intro c hc
      by_cases h2 : n / 32 = 0
      · rw [h2, enc_zero] at hc
        simp at hc
        subst hc
        exact digit_ne_zero _ (Nat.mod_lt n (by decide)) (by omega)
      · have hlt : n / 32 < n := Nat.div_lt_self (by omega) (by decide)
        apply ih (n / 32) hlt c
        cases he : enc (n / 32) with
        | nil =>
          have := decodeLoop_enc (n / 32)
          rw [he] at this
          simp [decodeLoop] at this
          omega
        | cons a l => rw [he] at hc; simpa using hc

theorem enc_injective {m n : Nat} (h : enc m = enc n) : m = n := by
  have h1 := decodeLoop_enc m
  have h2 := decodeLoop_enc n
  rw [h, h2] at h1
  exact (Option.some.inj h1).symm

/-- decoding with accumulator, on valid digits, is injective up to leading zeros: canonical strings
are recovered -/
theorem enc_decodeLoop (s : List Char) : ∀ (a n : Nat), (∀ c ∈ s, c ∈ alphabet) →
    (a ≠ 0 ∨ ∀ c, s.head? = some c → c ≠ '0') → decodeLoop s a = some n → enc n = enc a ++ s := by
  induction s with
  | nil =>
    intro a n _ _ h
    simp [decodeLoop] at h
    subst h; simp
  | cons c s ih =>
    intro a n hs ha h
    obtain ⟨i, hi, hd, hv⟩ := alphabet_props c (hs c List.mem_cons_self)
    simp only [decodeLoop, hv] at h
    have hne : a * 32 + i ≠ 0 := by
      rcases ha with ha | ha
      · omega
      · have hc0 := ha c rfl
        intro e
        have : i = 0 := by omega
        subst this
        exact hc0 (by rw [← hd]; decide)
    have := ih (a * 32 + i) n (fun x hx => hs x (List.mem_cons_of_mem _ hx)) (.inl hne) h
    rw [this, enc_pos _ hne]
    have e1 : (a * 32 + i) / 32 = a := by omega
    have e2 : (a * 32 + i) % 32 = i := by omega
    rw [e1, e2, hd]
    simp

/-- hexadecimal digit characters, lower case (as printed by `hexdigest`) -/
def hexChar (d : Nat) : Char := "0123456789abcdef".toList.getD d '?'

theorem hexValue_hexChar : ∀ d : Fin 16, hexValue (hexChar d) = some d.val := by decide

theorem parseHex_map (ds : List Nat) : ∀ a, (∀ d ∈ ds, d < 16) →
    parseHex (ds.map hexChar) a = some (ds.foldl (fun a d => a * 16 + d) a) := by
  induction ds with
  | nil => intro a _; rfl
  | cons d ds ih =>
    intro a h
    have hd := hexValue_hexChar ⟨d, h d List.mem_cons_self⟩
    simp only at hd
    simp only [List.map_cons, parseHex, hd, List.foldl_cons]
    exact ih _ (fun x hx => h x (List.mem_cons_of_mem _ hx))

/-- dropping the last `j` digits is integer division by `32^j` -/
theorem enc_take (n j : Nat) (hj : j ≤ (enc n).length) :
    (enc n).take ((enc n).length - j) = enc (n / 32 ^ j) := by
  induction j generalizing n with
  | zero => simp
  | succ j ih =>
    by_cases h : n = 0
    · subst h; simp [enc_zero]
    · have hl : (enc n).length = (enc (n / 32)).length + 1 := by rw [enc_pos n h]; simp
      rw [hl] at hj ⊢
      have h1 : (enc (n / 32)).length + 1 - (j + 1) = (enc (n / 32)).length - j := by omega
      rw [h1, enc_pos n h, List.take_append_of_le_length (by omega), ih (n / 32) (by omega),
        Nat.div_div_eq_div_mul, Nat.pow_succ, Nat.mul_comm 32]

end Pyth.Base32
