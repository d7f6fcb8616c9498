import Verif.Model.HashAddr
import Verif.Props.Base32
/-! Helper lemmas for hash addresses. -/
namespace Pyth.HashAddr

theorem str_injective {m n : Nat} (h : str m = str n) : m = n := by
  have h1 := Nat.ofDigitChars_toDigits (b := 10) (n := m) (by decide) (by decide)
  have h2 := Nat.ofDigitChars_toDigits (b := 10) (n := n) (by decide) (by decide)
  unfold str at h
  rw [h, h2] at h1
  exact h1.symm

theorem str_no_underscore (n : Nat) : '_' ∉ str n := Nat.underscore_not_in_toDigits

theorem str_ne_nil (n : Nat) : str n ≠ [] := Nat.toDigits_ne_nil

theorem isDigit_safe (c : Char) (h : c.isDigit) : c ∈ safeChars := by
  have h' : 48 ≤ c.toNat ∧ c.toNat ≤ 57 := by
    simp only [Char.isDigit, Bool.and_eq_true, decide_eq_true_eq, UInt32.le_iff_toNat_le] at h
    exact ⟨h.1, h.2⟩
  obtain ⟨k, hk, hc⟩ : ∃ k : Nat, k < 10 ∧ c = Char.ofNat (48 + k) := by
    refine ⟨c.toNat - 48, by omega, ?_⟩
    have : 48 + (c.toNat - 48) = c.toNat := by omega
    rw [this, Char.ofNat_toNat]
  subst hc
  have : ∀ k : Fin 10, Char.ofNat (48 + k) ∈ safeChars := by decide
  exact this ⟨k, hk⟩

theorem str_safe (n : Nat) : ∀ c ∈ str n, c ∈ safeChars := fun c hc =>
  isDigit_safe c (Nat.isDigit_of_mem_toDigits (by decide) (by decide) hc)

theorem replaceUnsafe_id (s : List Char) (h : ∀ c ∈ s, c ∈ safeChars) : replaceUnsafe s = s := by
  unfold replaceUnsafe
  conv => rhs; rw [← List.map_id s]
  exact List.map_congr_left (fun c hc => by simp [h c hc])

/-- what follows the first dimension -/
def body : List Nat → List Char
  | [] => ['_']
  | m :: ms => '_' :: 'x' :: '_' :: (str m ++ body ms)

theorem body_safe (ns : List Nat) : ∀ c ∈ body ns, c ∈ safeChars := by
  induction ns with
  | nil => intro c hc; simp [body] at hc; subst hc; decide
  | cons m ms ih =>
    intro c hc
    simp only [body, List.mem_cons, List.mem_append] at hc
    rcases hc with rfl | rfl | rfl | hc | hc
    · decide
    · decide
    · decide
    · exact str_safe m c hc
    · exact ih c hc

theorem foldl_dims (ns : List Nat) : ∀ (p : List Char) (n : Nat),
    let d := (n :: ns).foldl (fun d n => d ++ str n ++ "_x_".toList) p
    d.take (d.length - 3) ++ ['_'] = p ++ str n ++ body ns := by
  induction ns with
  | nil =>
    intro p n
    simp only [List.foldl_cons, List.foldl_nil, body]
    congr 1
    have h3 : "_x_".toList.length = 3 := by decide
    rw [List.length_append, h3, Nat.add_sub_cancel, List.take_left]
  | cons m ms ih =>
    intro p n
    have := ih (p ++ str n ++ "_x_".toList) m
    simp only [List.foldl_cons] at this ⊢
    rw [this]
    simp [body]

theorem descriptor_shaped_cons (n : Nat) (ns : List Nat) :
    descriptor (.shaped (n :: ns)) = "shape_".toList ++ (str n ++ body ns) := by
  unfold descriptor
  simp only
  have h3 : "_x_".toList.length = 3 := by decide
  rw [h3]
  have := foldl_dims ns "shape_".toList n
  simp only at this
  rw [this, List.append_assoc]
  apply replaceUnsafe_id
  intro c hc
  rcases List.mem_append.1 hc with hc | hc
  · have : ∀ c ∈ "shape_".toList, c ∈ safeChars := by decide
    exact this c hc
  · rcases List.mem_append.1 hc with hc | hc
    · exact str_safe n c hc
    · exact body_safe ns c hc

theorem descriptor_shaped_nil : descriptor (.shaped []) = "sha_".toList := by decide

theorem descriptor_sized (n : Nat) : descriptor (.sized n) = "len_".toList ++ (str n ++ ['_']) := by
  unfold descriptor
  simp only
  rw [List.append_assoc]
  apply replaceUnsafe_id
  intro c hc
  rcases List.mem_append.1 hc with hc | hc
  · have : ∀ c ∈ "len_".toList, c ∈ safeChars := by decide
    exact this c hc
  · rcases List.mem_append.1 hc with hc | hc
    · exact str_safe n c hc
    · simp at hc; subst hc; decide

theorem descriptor_plain : descriptor .plain = [] := rfl

/-- splitting at the first underscore is unique -/
theorem split_first {a b x y : List Char} (ha : '_' ∉ a) (hb : '_' ∉ b)
    (h : a ++ '_' :: x = b ++ '_' :: y) : a = b ∧ x = y := by
  induction a generalizing b with
  | nil =>
    cases b with
    | nil => simpa using h
    | cons c b => simp at h; exact absurd h.1 (fun e => hb (by rw [e]; exact List.mem_cons_self))
  | cons c a ih =>
    cases b with
    | nil => simp at h; exact absurd h.1.symm (fun e => ha (by rw [e]; exact List.mem_cons_self))
    | cons d b =>
      simp at h
      obtain ⟨e1, e2⟩ := ih (fun hm => ha (List.mem_cons_of_mem _ hm))
        (fun hm => hb (List.mem_cons_of_mem _ hm)) h.2
      exact ⟨by rw [h.1, e1], e2⟩

theorem body_injective (ns : List Nat) : ∀ (n m : Nat) (ms : List Nat),
    str n ++ body ns = str m ++ body ms → n = m ∧ ns = ms := by
  induction ns with
  | nil =>
    intro n m ms h
    cases ms with
    | nil =>
      obtain ⟨e1, _⟩ := split_first (str_no_underscore n) (str_no_underscore m) h
      exact ⟨str_injective e1, rfl⟩
    | cons k ks =>
      obtain ⟨_, e2⟩ := split_first (str_no_underscore n) (str_no_underscore m) h
      simp at e2
  | cons p ps ih =>
    intro n m ms h
    cases ms with
    | nil =>
      obtain ⟨_, e2⟩ := split_first (str_no_underscore n) (str_no_underscore m) h
      simp at e2
    | cons k ks =>
      obtain ⟨e1, e2⟩ := split_first (str_no_underscore n) (str_no_underscore m) h
      simp at e2
      obtain ⟨e3, e4⟩ := ih p k ks e2
      exact ⟨str_injective e1, by rw [e3, e4]⟩

theorem descriptor_injective {a b : Size} (h : descriptor a = descriptor b) : a = b := by
  have hs : "shape_".toList = ['s','h','a','p','e','_'] := by decide
  have hl : "len_".toList = ['l','e','n','_'] := by decide
  have h0 : "sha_".toList = ['s','h','a','_'] := by decide
  cases a with
  | plain =>
    cases b with
    | plain => rfl
    | sized n => rw [descriptor_plain, descriptor_sized, hl] at h; simp at h
    | shaped dims =>
      cases dims with
      | nil => rw [descriptor_plain, descriptor_shaped_nil] at h; simp at h
      | cons n ns => rw [descriptor_plain, descriptor_shaped_cons, hs] at h; simp at h
  | sized m =>
    cases b with
    | plain => rw [descriptor_plain, descriptor_sized, hl] at h; simp at h
    | sized n =>
      rw [descriptor_sized, descriptor_sized] at h
      have h := List.append_cancel_left h
      obtain ⟨e, _⟩ := split_first (str_no_underscore m) (str_no_underscore n) h
      rw [str_injective e]
    | shaped dims =>
      cases dims with
      | nil => rw [descriptor_sized, descriptor_shaped_nil, hl, h0] at h; simp at h
      | cons n ns => rw [descriptor_sized, descriptor_shaped_cons, hl, hs] at h; simp at h
  | shaped dims =>
    cases b with
    | plain =>
      cases dims with
      | nil => rw [descriptor_plain, descriptor_shaped_nil] at h; simp at h
      | cons n ns => rw [descriptor_plain, descriptor_shaped_cons, hs] at h; simp at h
    | sized m =>
      cases dims with
      | nil => rw [descriptor_sized, descriptor_shaped_nil, hl, h0] at h; simp at h
      | cons n ns => rw [descriptor_sized, descriptor_shaped_cons, hl, hs] at h; simp at h
    | shaped dims' =>
      cases dims with
      | nil =>
        cases dims' with
        | nil => rfl
        | cons n ns => rw [descriptor_shaped_nil, descriptor_shaped_cons, h0, hs] at h; simp at h
      | cons m ms =>
        cases dims' with
        | nil => rw [descriptor_shaped_nil, descriptor_shaped_cons, h0, hs] at h; simp at h
        | cons n ns =>
          rw [descriptor_shaped_cons, descriptor_shaped_cons] at h
          have h := List.append_cancel_left h
          obtain ⟨e1, e2⟩ := body_injective ms m n ns h
          rw [e1, e2]

/-- a descriptor is empty or ends in an underscore -/
theorem body_ends (ns : List Nat) : ∃ t, body ns = t ++ ['_'] := by
  induction ns with
  | nil => exact ⟨[], rfl⟩
  | cons m ms ih =>
    obtain ⟨t, ht⟩ := ih
    exact ⟨'_' :: 'x' :: '_' :: (str m ++ t), by simp [body, ht]⟩

theorem descriptor_ends (sz : Size) : descriptor sz = [] ∨ ∃ t, descriptor sz = t ++ ['_'] := by
  cases sz with
  | plain => left; rfl
  | sized n => right; exact ⟨"len_".toList ++ str n, by rw [descriptor_sized]; simp⟩
  | shaped dims =>
    right
    cases dims with
    | nil => exact ⟨"sha".toList, by rw [descriptor_shaped_nil]; decide⟩
    | cons n ns =>
      obtain ⟨t, ht⟩ := body_ends ns
      exact ⟨"shape_".toList ++ (str n ++ t), by rw [descriptor_shaped_cons, ht]; simp⟩

theorem split_last {d1 d2 s1 s2 : List Char} (h1 : d1 = [] ∨ ∃ t, d1 = t ++ ['_'])
    (h2 : d2 = [] ∨ ∃ t, d2 = t ++ ['_']) (n1 : '_' ∉ s1) (n2 : '_' ∉ s2)
    (h : d1 ++ s1 = d2 ++ s2) : d1 = d2 ∧ s1 = s2 := by
  rcases h1 with rfl | ⟨t1, rfl⟩
  · rcases h2 with rfl | ⟨t2, rfl⟩
    · exact ⟨rfl, h⟩
    · exfalso; apply n1
      simp at h; rw [h]; simp
  · rcases h2 with rfl | ⟨t2, rfl⟩
    · exfalso; apply n2
      simp at h; rw [← h]; simp
    · have hr := congrArg List.reverse h
      simp at hr
      obtain ⟨e1, e2⟩ := split_first (by simpa using n1) (by simpa using n2) hr
      simp at e1 e2
      exact ⟨by rw [e2], e1⟩

theorem sig_no_underscore {hex sig : List Char} (h : Base32.hashSignature hex = some sig) :
    '_' ∉ sig := by
  intro hm
  have := (Base32.C11_signature_form hex sig h).2 _ hm
  revert this
  decide

end Pyth.HashAddr
