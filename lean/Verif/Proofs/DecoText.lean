import Verif.Model.DecoText
import Verif.Spec.DecoText
/-! Lemmas about reading string literals -/
namespace Pyth.Deco
open Pyth.Src

/-- put a character before a decoded text -/
def consTo (c : Char) (t : Option Txt) : Option Txt := t.map (c :: ·)

theorem unescape_cons {c : Char} (hc : c ≠ '\\') (t : Txt) : unescape (c :: t) = consTo c (unescape t) := by
  simp [unescape, unescapeFrom, hc, consTo]

theorem unescapeFrom_drop : ∀ (k : Nat) (t : Txt), unescapeFrom k t = unescape (t.drop k)
  | 0, t => rfl
  | k + 1, [] => by simp [unescapeFrom, unescape]
  | k + 1, c :: t => by rw [unescapeFrom, unescapeFrom_drop k t]; simp

theorem unescape_escape (d : Char) (t : Txt) : unescape ('\\' :: d :: t) =
    (escapeOf d t).bind fun p => (unescape (t.drop p.2)).map (p.1 ++ ·) := by
  show unescapeFrom 0 _ = _
  simp only [unescapeFrom, List.head?_cons, List.tail_cons]
  cases h : escapeOf d t with
  | none => simp
  | some p =>
    obtain ⟨out, k⟩ := p
    simp [unescapeFrom_drop]

theorem scan_pair (q d : Char) (t : Txt) (hd : d ≠ '\x00') :
    scan q ('\\' :: d :: t) = (scan q t).map fun p => ('\\' :: d :: p.1, p.2) := by
  simp [scan, hd]

theorem scan_char {q c : Char} (h1 : c ≠ '\\') (h2 : c ≠ q) (h3 : c ≠ '\n') (h4 : c ≠ '\r') (h5 : c ≠ '\x00')
    {t : Txt} (ht : t ≠ []) : scan q (c :: t) = (scan q t).map fun p => (c :: p.1, p.2) := by
  cases t with
  | nil => exact absurd rfl ht
  | cons d r => simp [scan, h1, h2, h3, h4, h5]

theorem scan_end (q : Char) (hq : q ≠ '\\') (t : Txt) : scan q (q :: t) = some ([], t) := by
  cases t with
  | nil => simp [scan]
  | cons d r => simp [scan, hq]

theorem hexDigit_spec : ∀ d, d < 16 → hexVal (hexDigit d) = some d ∧ hexDigit d ≠ '\\' ∧ hexDigit d ≠ '\'' ∧
    hexDigit d ≠ '"' ∧ hexDigit d ≠ '\n' ∧ hexDigit d ≠ '\r' ∧ hexDigit d ≠ '\x00' := by
  decide +kernel

theorem hexNum_append : ∀ (l m : Txt) (acc : Nat), hexNum acc (l ++ m) = (hexNum acc l).bind fun a => hexNum a m
  | [], m, acc => rfl
  | c :: l, m, acc => by
    simp only [List.cons_append, hexNum]
    cases hexVal c with
    | none => rfl
    | some d => exact hexNum_append l m _

theorem hexNum_hex : ∀ (w n : Nat), n < 16 ^ w → hexNum 0 (hex w n) = some n
  | 0, n, h => by simp at h; subst h; rfl
  | w + 1, n, h => by
    have hn : n / 16 < 16 ^ w := by rw [Nat.div_lt_iff_lt_mul (by decide)]; rw [Nat.pow_succ] at h; exact h
    rw [hex, hexNum_append, hexNum_hex w _ hn]
    simp only [Option.bind_some, hexNum, (hexDigit_spec (n % 16) (Nat.mod_lt _ (by decide))).1]
    congr 1; omega

theorem hex_chars : ∀ (w n : Nat) (c : Char), c ∈ hex w n → c ≠ '\\' ∧ c ≠ '\'' ∧ c ≠ '"' ∧ c ≠ '\n' ∧ c ≠ '\r' ∧
    c ≠ '\x00'
  | 0, n, c, h => by simp [hex] at h
  | w + 1, n, c, h => by
    rw [hex, List.mem_append, List.mem_singleton] at h
    rcases h with h | rfl
    · exact hex_chars w _ c h
    · exact (hexDigit_spec (n % 16) (Nat.mod_lt _ (by decide))).2

theorem charOf_toNat (c : Char) : charOf c.toNat = some c := by
  unfold charOf
  rw [if_pos (show c.toNat.isValidChar from c.valid)]
  simp

theorem hexChar_hex (w : Nat) (c : Char) (h : c.toNat < 16 ^ w) : hexChar (hex w c.toNat) = some c := by
  simp [hexChar, hexNum_hex w _ h, charOf_toNat]

theorem scan_chars {q : Char} : ∀ (l : Txt), (∀ c ∈ l, c ≠ '\\' ∧ c ≠ q ∧ c ≠ '\n' ∧ c ≠ '\r' ∧ c ≠ '\x00') →
    ∀ {t : Txt}, t ≠ [] → scan q (l ++ t) = (scan q t).map fun p => (l ++ p.1, p.2)
  | [], _, t, _ => by simp
  | c :: l, h, t, ht => by
    obtain ⟨h1, h2, h3, h4, h5⟩ := h c (by simp)
    rw [List.cons_append, scan_char h1 h2 h3 h4 h5 (by simp [ht]), scan_chars l (fun d hd => h d (by simp [hd])) ht]
    simp [Function.comp_def]

/-- the quotes -/
def IsQuote (q : Char) : Prop := q = '\'' ∨ q = '"'

theorem scan_reprChar {p : Char → Bool} {q : Char} (hq : IsQuote q) (c : Char) {t : Txt} (ht : t ≠ []) :
    scan q (reprChar p q c ++ t) = (scan q t).map fun r => (reprChar p q c ++ r.1, r.2) := by
  have hx : ∀ (w : Nat) (e : Char), e ≠ '\x00' → scan q ('\\' :: e :: hex w c.toNat ++ t) =
      (scan q t).map fun r => ('\\' :: e :: hex w c.toNat ++ r.1, r.2) := by
    intro w e he
    rw [List.cons_append, List.cons_append, scan_pair _ _ _ he, scan_chars _ _ ht]
    · simp [Function.comp_def]
    · intro d hd
      obtain ⟨h1, h2, h3, h4⟩ := hex_chars w _ d hd
      refine ⟨h1, ?_, h4⟩
      rcases hq with rfl | rfl
      · exact h2
      · exact h3
  unfold reprChar
  have hq0 : q ≠ '\x00' := by rcases hq with rfl | rfl <;> decide
  split
  · rename_i h
    exact scan_pair _ _ _ (by rcases h with rfl | rfl; exact hq0; decide)
  · rename_i h
    split
    · exact scan_pair _ _ _ (by decide)
    · split
      · exact scan_pair _ _ _ (by decide)
      · split
        · exact scan_pair _ _ _ (by decide)
        · rename_i hn hr
          have plain : c.toNat ≠ 0 → scan q ([c] ++ t) = (scan q t).map fun r => ([c] ++ r.1, r.2) := by
            intro h0
            refine scan_char ?_ ?_ hn hr ?_ ht
            · intro e; exact h (.inr e)
            · intro e; exact h (.inl e)
            · rintro rfl; exact h0 rfl
          split
          · exact hx 2 'x' (by decide)
          · rename_i hl
            have h0 : c.toNat ≠ 0 := by omega
            split
            · exact plain h0
            · split
              · exact plain h0
              · split
                · exact hx 2 'x' (by decide)
                · split
                  · exact hx 4 'u' (by decide)
                  · exact hx 8 'U' (by decide)

theorem unescape_reprChar {p : Char → Bool} {q : Char} (hq : IsQuote q) (c : Char) (t : Txt) :
    unescape (reprChar p q c ++ t) = consTo c (unescape t) := by
  have hx : ∀ (w : Nat) (d : Char), (∀ r : Txt, w ≤ r.length → escapeOf d r = (hexChar (r.take w)).map fun e => ([e], w)) →
      c.toNat < 16 ^ w → unescape ('\\' :: d :: hex w c.toNat ++ t) = consTo c (unescape t) := by
    intro w d hd h
    have hl : ∀ w n, (hex w n).length = w := by
      intro w; induction w with
      | zero => intro n; rfl
      | succ w ih => intro n; simp [hex, ih]
    rw [List.cons_append, List.cons_append, unescape_escape, hd _ (by simp [hl]),
      List.take_left' (hl _ _), hexChar_hex w c h]
    simp [List.drop_left' (hl _ _), consTo]
  have hx2 : c.toNat < 256 → unescape ('\\' :: 'x' :: hex 2 c.toNat ++ t) = consTo c (unescape t) := by
    refine hx 2 'x' fun r hr => ?_
    have : ¬ r.length < 2 := by omega
    simp [escapeOf, simpleEscape, this]
  have hx4 : c.toNat < 65536 → unescape ('\\' :: 'u' :: hex 4 c.toNat ++ t) = consTo c (unescape t) := by
    refine hx 4 'u' fun r hr => ?_
    have : ¬ r.length < 4 := by omega
    simp [escapeOf, simpleEscape, this]
  have hx8 : unescape ('\\' :: 'U' :: hex 8 c.toNat ++ t) = consTo c (unescape t) := by
    have hlt : c.toNat < 16 ^ 8 := by
      have h2 := c.val.toNat_lt
      show c.val.toNat < _
      omega
    refine hx 8 'U' (fun r hr => ?_) hlt
    have : ¬ r.length < 8 := by omega
    simp [escapeOf, simpleEscape, this]
  unfold reprChar
  split
  · rename_i h
    have : simpleEscape c = some c := by
      have hc : c = '\\' ∨ c = '\'' ∨ c = '"' := by
        rcases h with rfl | rfl
        · rcases hq with rfl | rfl
          · exact .inr (.inl rfl)
          · exact .inr (.inr rfl)
        · exact .inl rfl
      simp [simpleEscape, hc]
    have hn : c ≠ '\n' ∧ c ≠ '\r' := by
      rcases h with rfl | rfl
      · rcases hq with rfl | rfl <;> decide
      · decide
    simp [unescape_escape, escapeOf, this, hn.1, hn.2, consTo]
  · rename_i h
    have hb : c ≠ '\\' := fun e => h (.inr e)
    split
    · rename_i e; subst e; simp [unescape_escape, escapeOf, simpleEscape, consTo]
    · split
      · rename_i e; subst e; simp [unescape_escape, escapeOf, simpleEscape, consTo]
      · split
        · rename_i e; subst e; simp [unescape_escape, escapeOf, simpleEscape, consTo]
        · split
          · exact hx2 (by omega)
          · split
            · exact unescape_cons hb t
            · split
              · exact unescape_cons hb t
              · split
                · exact hx2 (by omega)
                · split
                  · exact hx4 (by omega)
                  · exact hx8

theorem scan_repr {p : Char → Bool} {q : Char} (hq : IsQuote q) (rest : Txt) : ∀ (s : Txt),
    scan q (s.flatMap (reprChar p q) ++ q :: rest) = some (s.flatMap (reprChar p q), rest)
  | [] => by
    simp only [List.flatMap_nil, List.nil_append]
    exact scan_end q (by rcases hq with rfl | rfl <;> decide) rest
  | c :: s => by
    rw [List.flatMap_cons, List.append_assoc, scan_reprChar hq c (by simp), scan_repr hq rest s]
    simp

theorem unescape_repr {p : Char → Bool} {q : Char} (hq : IsQuote q) : ∀ (s : Txt),
    unescape (s.flatMap (reprChar p q)) = some s
  | [] => rfl
  | c :: s => by
    rw [List.flatMap_cons, unescape_reprChar hq c, unescape_repr hq s]; rfl

theorem reprChar_head (p : Char → Bool) {q : Char} (hq : IsQuote q) (c : Char) :
    ∃ a t, reprChar p q c = a :: t ∧ a ≠ q := by
  have hb : '\\' ≠ q := by rcases hq with rfl | rfl <;> decide
  unfold reprChar
  split
  · exact ⟨_, _, rfl, hb⟩
  · rename_i h
    have hc : c ≠ q := fun e => h (.inl e)
    repeat' split
    all_goals first | exact ⟨_, _, rfl, hb⟩ | exact ⟨_, _, rfl, hc⟩

/-- reading back a string literal whose content does not start with the delimiter -/
theorem literalAfter_of_scan {q : Char} {raw v rest : Txt} (hs : scan q (raw ++ q :: rest) = some (raw, rest))
    (hu : unescape raw = some v) (h : ∀ a, raw.head? = some a → a ≠ q) (hr : ∀ a, rest.head? = some a → a ≠ q) :
    literalAfter q (raw ++ q :: rest) = some (v, rest) := by
  unfold literalAfter
  rw [hs]
  cases raw with
  | nil =>
    cases rest with
    | nil => simp [hu]
    | cons b r =>
      have : b ≠ q := hr b rfl
      simp [hu, this]
  | cons a raw =>
    have ha : a ≠ q := h a rfl
    cases raw with
    | nil => simp [hu, ha]
    | cons b r => simp [hu, ha]

theorem literalAfter_repr {p : Char → Bool} {q : Char} (hq : IsQuote q) (s rest : Txt)
    (hr : ∀ a, rest.head? = some a → a ≠ q) :
    literalAfter q (s.flatMap (reprChar p q) ++ q :: rest) = some (s, rest) := by
  refine literalAfter_of_scan (scan_repr hq rest s) (unescape_repr hq s) ?_ hr
  cases s with
  | nil => intro a h; simp at h
  | cons c s =>
    obtain ⟨a, t, h1, h2⟩ := reprChar_head p hq c
    intro b hb
    rw [List.flatMap_cons, h1] at hb
    simp at hb
    rw [← hb]; exact h2

/-! ## Plain names -/

theorem scan_plain {s : Txt} (h : Plain s) (rest : Txt) : scan '\'' (s ++ '\'' :: rest) = some (s, rest) := by
  induction h with
  | nil => exact scan_end _ (by decide) rest
  | char c hc _ ih =>
    simp only [List.mem_cons, List.not_mem_nil, or_false, not_or] at hc
    rw [List.cons_append, scan_char hc.2.1 hc.1 hc.2.2.1 hc.2.2.2.1 hc.2.2.2.2 (by simp), ih]; rfl
  | backslash d hd _ ih =>
    rw [List.cons_append, List.cons_append, scan_pair _ _ _ (by rintro rfl; exact hd (by decide)), ih]; rfl

theorem octVal_none {d : Char} (hd : d ∉ escapeChars) : octVal d = none := by
  unfold octVal
  rw [if_neg]
  rintro ⟨h1, h2⟩
  have h3 : 48 ≤ d.toNat := h1
  have h4 : d.toNat ≤ 55 := h2
  apply hd
  have : d = Char.ofNat d.toNat := by simp
  rw [this]
  have : ∀ n, 48 ≤ n → n ≤ 55 → Char.ofNat n ∈ escapeChars := by
    intro n h5 h6
    have : n = 48 ∨ n = 49 ∨ n = 50 ∨ n = 51 ∨ n = 52 ∨ n = 53 ∨ n = 54 ∨ n = 55 := by omega
    rcases this with rfl | rfl | rfl | rfl | rfl | rfl | rfl | rfl <;> decide
  exact this _ h3 h4

theorem unescape_plain {s : Txt} (h : Plain s) : unescape s = some s := by
  induction h with
  | nil => rfl
  | char c hc _ ih =>
    rw [unescape_cons (by rintro rfl; exact hc (by decide)), ih]; rfl
  | @backslash d r hd _ ih =>
    have ho := octVal_none hd
    simp only [escapeChars, List.mem_cons, List.not_mem_nil, or_false, not_or] at hd
    simp [unescape_escape, escapeOf, simpleEscape, hd, ho, ih]

theorem plain_head {s : Txt} (h : Plain s) : ∀ a, s.head? = some a → a ≠ '\'' := by
  intro a ha
  cases h with
  | nil => simp at ha
  | char c hc _ => simp at ha; rintro rfl; subst ha; exact hc (by decide)
  | backslash d _ _ => simp at ha; rw [← ha]; decide

theorem literalAfter_plain {s : Txt} (h : Plain s) (rest : Txt) (hr : ∀ a, rest.head? = some a → a ≠ '\'') :
    literalAfter '\'' (s ++ '\'' :: rest) = some (s, rest) :=
  literalAfter_of_scan (scan_plain h rest) (unescape_plain h) (plain_head h) hr

end Pyth.Deco
