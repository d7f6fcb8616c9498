import Verif.Model.Dates
import Mathlib.Tactic.IntervalCases
/-! # C64: date strings sort chronologically -/
namespace Pyth.Dates

/-- `d` is earlier than `d'` -/
def Earlier (d d' : Date) : Prop :=
  d.year < d'.year ∨ d.year = d'.year ∧ (d.month < d'.month ∨
    d.month = d'.month ∧ d.day < d'.day)

/-- a date with a four-digit year -/
def Valid (d : Date) : Prop :=
  1000 ≤ d.year ∧ d.year ≤ 9999 ∧ 1 ≤ d.month ∧ d.month ≤ 12 ∧ 1 ≤ d.day ∧ d.day ≤ 31

theorem digit_lt : ∀ a b : Fin 10, digit a.1 < digit b.1 ↔ a.1 < b.1 := by decide
theorem digit_inj : ∀ a b : Fin 10, digit a.1 = digit b.1 ↔ a.1 = b.1 := by decide

theorem digit_lt' {a b : Nat} (ha : a < 10) (hb : b < 10) : digit a < digit b ↔ a < b :=
  digit_lt ⟨a, ha⟩ ⟨b, hb⟩
theorem digit_inj' {a b : Nat} (ha : a < 10) (hb : b < 10) : digit a = digit b ↔ a = b :=
  digit_inj ⟨a, ha⟩ ⟨b, hb⟩

theorem lex_append : ∀ (a a' x x' : List Char), a.length = a'.length →
    (a ++ x < a' ++ x' ↔ a < a' ∨ a = a' ∧ x < x')
  | [], [], x, x', _ => by simp
  | c :: a, c' :: a', x, x', h => by
    have ih := lex_append a a' x x' (by simpa using h)
    simp only [List.cons_append, List.cons_lt_cons_iff, ih, List.cons.injEq]
    constructor
    · rintro (k | ⟨k1, k | ⟨k2, k⟩⟩)
      · exact .inl (.inl k)
      · exact .inl (.inr ⟨k1, k⟩)
      · exact .inr ⟨⟨k1, k2⟩, k⟩
    · rintro ((k | ⟨k1, k⟩) | ⟨⟨k1, k2⟩, k⟩)
      · exact .inl k
      · exact .inr ⟨k1, .inl k⟩
      · exact .inr ⟨k1, .inr ⟨k2, k⟩⟩

theorem two_lt {m n : Nat} (hm : m < 100) (hn : n < 100) : two m < two n ↔ m < n := by
  simp only [two, List.cons_lt_cons_iff, digit_lt' (show m / 10 < 10 by omega)
    (show n / 10 < 10 by omega), digit_lt' (show m % 10 < 10 by omega) (show n % 10 < 10 by omega),
    digit_inj' (show m / 10 < 10 by omega) (show n / 10 < 10 by omega), List.lt_irrefl, and_false,
    or_false]
  omega

theorem two_inj {m n : Nat} (hm : m < 100) (hn : n < 100) : two m = two n ↔ m = n := by
  simp only [two, List.cons.injEq, and_true,
    digit_inj' (show m / 10 < 10 by omega) (show n / 10 < 10 by omega),
    digit_inj' (show m % 10 < 10 by omega) (show n % 10 < 10 by omega)]
  omega

theorem decimal_four {y : Nat} (h : 1000 ≤ y) (h' : y ≤ 9999) : decimal y y
    = [digit (y / 10 / 10 / 10), digit (y / 10 / 10 % 10), digit (y / 10 % 10), digit (y % 10)] := by
  obtain ⟨k, rfl⟩ : ∃ k, y = k + 4 := ⟨y - 4, by omega⟩
  generalize hz : k + 4 = z at *
  rw [show decimal z z = decimal (k + 4) z from by rw [hz]]
  simp only [decimal]
  rw [if_neg (by omega), if_neg (by omega), if_neg (by omega), if_pos (by omega)]
  rfl

theorem decimal_lt {y z : Nat} (h1 : 1000 ≤ y) (h2 : y ≤ 9999) (h3 : 1000 ≤ z) (h4 : z ≤ 9999) :
    decimal y y < decimal z z ↔ y < z := by
  rw [decimal_four h1 h2, decimal_four h3 h4]
  simp only [List.cons_lt_cons_iff,
    digit_lt' (show y / 10 / 10 / 10 < 10 by omega) (show z / 10 / 10 / 10 < 10 by omega),
    digit_inj' (show y / 10 / 10 / 10 < 10 by omega) (show z / 10 / 10 / 10 < 10 by omega),
    digit_lt' (show y / 10 / 10 % 10 < 10 by omega) (show z / 10 / 10 % 10 < 10 by omega),
    digit_inj' (show y / 10 / 10 % 10 < 10 by omega) (show z / 10 / 10 % 10 < 10 by omega),
    digit_lt' (show y / 10 % 10 < 10 by omega) (show z / 10 % 10 < 10 by omega),
    digit_inj' (show y / 10 % 10 < 10 by omega) (show z / 10 % 10 < 10 by omega),
    digit_lt' (show y % 10 < 10 by omega) (show z % 10 < 10 by omega), List.lt_irrefl, and_false,
    or_false]
  omega

theorem decimal_inj {y z : Nat} (h1 : 1000 ≤ y) (h2 : y ≤ 9999) (h3 : 1000 ≤ z) (h4 : z ≤ 9999) :
    decimal y y = decimal z z ↔ y = z := by
  constructor
  · intro h
    have a := decimal_lt h1 h2 h3 h4
    have b := decimal_lt h3 h4 h1 h2
    rw [h] at a b
    have hz : ¬ decimal z z < decimal z z := List.lt_irrefl _
    have na : ¬ y < z := fun x => hz (a.mpr x)
    have nb : ¬ z < y := fun x => hz (b.mpr x)
    omega
  · rintro rfl; rfl

theorem month_length (m : Nat) : (monthName m).length = 3 := by
  unfold monthName; split <;> rfl

/-- **C64**: for dates with four-digit years the lexicographic order of the date strings is the
chronological order. -/
theorem C64_chronological (d d' : Date) (h : Valid d) (h' : Valid d') :
    dateString d < dateString d' ↔ Earlier d d' := by
  obtain ⟨a1, a2, a3, a4, a5, a6⟩ := h
  obtain ⟨b1, b2, b3, b4, b5, b6⟩ := h'
  unfold dateString Earlier
  simp only [List.append_assoc]
  rw [lex_append _ _ _ _ (by rw [decimal_four a1 a2, decimal_four b1 b2]; rfl),
    decimal_lt a1 a2 b1 b2, decimal_inj a1 a2 b1 b2,
    lex_append ['_'] ['_'] _ _ rfl, lex_append (two d.month) (two d'.month) _ _ rfl,
    two_lt (by omega) (by omega), two_inj (by omega) (by omega),
    lex_append (monthName d.month) (monthName d'.month) _ _
      (by rw [month_length, month_length]),
    lex_append ['_'] ['_'] _ _ rfl, lex_append (two d.day) (two d'.day) _ _ rfl,
    two_lt (by omega) (by omega), two_inj (by omega) (by omega)]
  simp only [List.lt_irrefl, false_or, true_and, and_false, or_false]
  constructor
  · rintro (h | ⟨h, h2 | ⟨h2, h3 | ⟨h3, h4⟩⟩⟩)
    · exact .inl h
    · exact .inr ⟨h, .inl h2⟩
    · rw [h2] at h3; exact absurd h3 (List.lt_irrefl _)
    · exact .inr ⟨h, .inr ⟨h2, h4⟩⟩
  · rintro (h | ⟨h, h2 | ⟨h2, h3⟩⟩)
    · exact .inl h
    · exact .inr ⟨h, .inl h2⟩
    · exact .inr ⟨h, .inr ⟨h2, .inr ⟨by rw [h2], h3⟩⟩⟩

/-- **C64**: different dates have different strings. -/
theorem C64_injective (d d' : Date) (h : Valid d) (h' : Valid d')
    (he : dateString d = dateString d') : d = d' := by
  have a := C64_chronological d d' h h'
  have b := C64_chronological d' d h' h
  rw [he] at a b
  have hn : ¬ dateString d' < dateString d' := List.lt_irrefl _
  have na : ¬ Earlier d d' := fun x => hn (a.mpr x)
  have nb : ¬ Earlier d' d := fun x => hn (b.mpr x)
  unfold Earlier at na nb
  cases d; cases d'
  simp only [Date.mk.injEq] at *
  omega

/-- the number that decimal digits stand for -/
def number (l : List Char) : Nat := l.foldl (fun a c => a * 10 + (c.toNat - '0'.toNat)) 0

/-- the English abbreviations of the months -/
def months : List String := ["Jan", "Feb", "Mar", "Apr", "May", "Jun", "Jul", "Aug", "Sep", "Oct", "Nov", "Dec"]

theorem digit_number : ∀ a : Fin 10, (digit a.1).toNat = 48 + a.1 := by decide
theorem digit_number' {a : Nat} (h : a < 10) : (digit a).toNat = 48 + a := digit_number ⟨a, h⟩

/-- **C64**: a date string is the year in four digits, the month in two digits and by its English abbreviation, and the day in
two digits: `2024_01Jan_22_utc`. -/
theorem C64_format (d : Date) (h : Valid d) :
    ∃ y m n : List Char, ∃ name : String, dateString d = y ++ "_".toList ++ m ++ name.toList ++ "_".toList ++ n ++ "_utc".toList ∧
      y.length = 4 ∧ number y = d.year ∧ m.length = 2 ∧ number m = d.month ∧ n.length = 2 ∧ number n = d.day ∧
      months[d.month - 1]? = some name := by
  obtain ⟨y, m, n⟩ := d
  obtain ⟨h1, h2, h3, h4, h5, h6⟩ := h
  simp only at h1 h2 h3 h4 h5 h6
  have hm : ∃ name : String, months[m - 1]? = some name ∧ monthName m = name.toList := by
    interval_cases m <;> exact ⟨_, rfl, rfl⟩
  obtain ⟨name, n1, n2⟩ := hm
  have two_number : ∀ k, k < 100 → number (two k) = k := by
    intro k hk
    simp only [number, two, List.foldl_cons, List.foldl_nil, digit_number' (show k / 10 < 10 by omega),
      digit_number' (show k % 10 < 10 by omega)]
    have : '0'.toNat = 48 := rfl
    omega
  refine ⟨decimal y y, two m, two n, name, ?_, ?_, ?_, rfl, two_number m (by omega), rfl, two_number n (by omega), n1⟩
  · simp only [dateString, n2]; rfl
  · rw [decimal_four h1 h2]; rfl
  · rw [decimal_four h1 h2]
    simp only [number, List.foldl_cons, List.foldl_nil, digit_number' (show y / 10 / 10 / 10 < 10 by omega),
      digit_number' (show y / 10 / 10 % 10 < 10 by omega), digit_number' (show y / 10 % 10 < 10 by omega),
      digit_number' (show y % 10 < 10 by omega)]
    have : '0'.toNat = 48 := rfl
    omega

/-! ## Moments -/

theorem daysIn_le (y m : Nat) : daysIn y m ≤ 31 := by
  unfold daysIn; split <;> (try split) <;> omega

theorem next_earlier (d : Date) : Earlier d d.next := by
  unfold Date.next Earlier
  split
  · exact .inr ⟨rfl, .inr ⟨rfl, Nat.lt_succ_self _⟩⟩
  · split
    · exact .inr ⟨rfl, .inl (Nat.lt_succ_self _)⟩
    · exact .inl (Nat.lt_succ_self _)

theorem Earlier.trans {a b c : Date} (h : Earlier a b) (h' : Earlier b c) : Earlier a c := by
  unfold Earlier at *; omega

theorem dateOfDay_mono {n m : Nat} (h : n < m) : Earlier (dateOfDay n) (dateOfDay m) := by
  induction m with
  | zero => omega
  | succ m ih =>
    by_cases hn : n = m
    · subst hn; exact next_earlier _
    · exact (ih (by omega)).trans (next_earlier _)

theorem dateOfDay_valid (n : Nat) (h : (dateOfDay n).year ≤ 9999) : Valid (dateOfDay n) := by
  have key : 1970 ≤ (dateOfDay n).year ∧ 1 ≤ (dateOfDay n).month ∧ (dateOfDay n).month ≤ 12 ∧
      1 ≤ (dateOfDay n).day ∧ (dateOfDay n).day ≤ 31 := by
    clear h
    induction n with
    | zero => decide
    | succ n ih =>
      have := daysIn_le (dateOfDay n).year (dateOfDay n).month
      rw [dateOfDay]
      unfold Date.next
      split
      · simp only []; omega
      · split
        · simp only []; omega
        · simp only []; omega
  unfold Valid
  omega

/-- **C64** for moments: until the end of year 9999, the date string at a later moment is never
smaller, it is the same iff the two moments are on the same day, and it is larger otherwise. -/
theorem C64_moments (t t' : Nat) (h : t ≤ t') (hy : (dateOfDay (t' / 86400)).year ≤ 9999) :
    (currentDateString t = currentDateString t' ↔ t / 86400 = t' / 86400) ∧
    (currentDateString t < currentDateString t' ↔ t / 86400 < t' / 86400) := by
  have hle : t / 86400 ≤ t' / 86400 := Nat.div_le_div_right h
  have hy2 : (dateOfDay (t / 86400)).year ≤ 9999 := by
    rcases Nat.lt_or_eq_of_le hle with hlt | he
    · have := dateOfDay_mono hlt
      unfold Earlier at this
      omega
    · rw [he]; exact hy
  have v := dateOfDay_valid _ hy
  have v2 := dateOfDay_valid _ hy2
  unfold currentDateString
  constructor
  · constructor
    · intro he
      have := C64_injective _ _ v2 v he
      rcases Nat.lt_or_eq_of_le hle with hlt | he'
      · have h1 := dateOfDay_mono hlt
        rw [this] at h1
        unfold Earlier at h1
        omega
      · exact he'
    · intro he; rw [he]
  · rw [C64_chronological _ _ v2 v]
    constructor
    · intro he
      rcases Nat.lt_or_eq_of_le hle with hlt | he'
      · exact hlt
      · rw [he'] at he
        unfold Earlier at he
        omega
    · exact dateOfDay_mono

/-- days before a month in a common year -/
def daysBefore : Nat → Nat
  | 1 => 0 | 2 => 31 | 3 => 59 | 4 => 90 | 5 => 120 | 6 => 151 | 7 => 181 | 8 => 212 | 9 => 243 | 10 => 273
  | 11 => 304 | _ => 334

/-- The number of a day of the Gregorian calendar, 0001-01-01 being day 1 (`date.toordinal`): a specification of the
calendar that does not count days one by one. -/
def ordinal (y m d : Nat) : Nat :=
  365 * (y - 1) + (y - 1) / 4 - (y - 1) / 100 + (y - 1) / 400 + daysBefore m +
    (if 2 < m ∧ (4 ∣ y ∧ ¬ 100 ∣ y ∨ 400 ∣ y) then 1 else 0) + d

theorem ordinal_year {k N : Nat} (h : 365 * (k + 1 - 1) + (k + 1 - 1) / 4 - (k + 1 - 1) / 100 + (k + 1 - 1) / 400 +
      daysBefore 12 + (if 2 < 12 ∧ (4 ∣ k + 1 ∧ ¬ 100 ∣ k + 1 ∨ 400 ∣ k + 1) then 1 else 0) + daysIn (k + 1) 12 = N) :
    365 * (k + 1 + 1 - 1) + (k + 1 + 1 - 1) / 4 - (k + 1 + 1 - 1) / 100 + (k + 1 + 1 - 1) / 400 +
      daysBefore 1 + (if 2 < 1 ∧ (4 ∣ k + 1 + 1 ∧ ¬ 100 ∣ k + 1 + 1 ∨ 400 ∣ k + 1 + 1) then 1 else 0) + 1 = N + 1 := by
  have h0 : k / 100 ≤ k / 4 := by omega
  have a : 100 ∣ k + 1 → 4 ∣ k + 1 := fun h => Nat.dvd_trans (by decide) h
  have b : 400 ∣ k + 1 → 100 ∣ k + 1 := fun h => Nat.dvd_trans (by decide) h
  simp only [Nat.add_sub_cancel, daysIn, daysBefore, Nat.succ_div] at h ⊢
  by_cases h4 : 4 ∣ k + 1 <;> by_cases h100 : 100 ∣ k + 1 <;> by_cases h400 : 400 ∣ k + 1 <;>
    simp only [h4, h100, h400] at a b h ⊢ <;> simp at a b h ⊢ <;> omega

/-- **C64**: the date used `n` days after 1970-01-01 (day 719163) is that day's date in the Gregorian calendar: it has
that number, its month is 1 to 12, and its day is at least 1 and not after the next month's beginning. -/
theorem C64_calendar (n : Nat) :
    ordinal (dateOfDay n).year (dateOfDay n).month (dateOfDay n).day = 719163 + n ∧
    1970 ≤ (dateOfDay n).year ∧ 1 ≤ (dateOfDay n).month ∧ (dateOfDay n).month ≤ 12 ∧ 1 ≤ (dateOfDay n).day ∧
    719163 + n < (if (dateOfDay n).month = 12 then ordinal ((dateOfDay n).year + 1) 1 1
      else ordinal (dateOfDay n).year ((dateOfDay n).month + 1) 1) := by
  have key : ordinal (dateOfDay n).year (dateOfDay n).month (dateOfDay n).day = 719163 + n ∧
      1970 ≤ (dateOfDay n).year ∧ 1 ≤ (dateOfDay n).month ∧ (dateOfDay n).month ≤ 12 ∧ 1 ≤ (dateOfDay n).day ∧
      (dateOfDay n).day ≤ daysIn (dateOfDay n).year (dateOfDay n).month := by
    induction n with
    | zero => decide
    | succ n ih =>
      rw [dateOfDay]
      generalize dateOfDay n = d at ih
      obtain ⟨y, m, d⟩ := d
      obtain ⟨h1, h2, h3, h4, h5, h6⟩ := ih
      dsimp only at *
      unfold Date.next
      dsimp only
      split
      · rename_i hlt
        refine ⟨?_, h2, h3, h4, by simp, hlt⟩
        unfold ordinal at *
        simp only []
        omega
      · rename_i hge
        have hd : d = daysIn y m := by omega
        subst hd
        have hl : isLeap y = true ↔ (4 ∣ y ∧ ¬ 100 ∣ y ∨ 400 ∣ y) := by
          simp only [isLeap, Bool.or_eq_true, Bool.and_eq_true, beq_iff_eq, bne_iff_ne]
          omega
        split
        · rename_i hm
          refine ⟨?_, h2, by simp, hm, by simp, ?_⟩
          · unfold ordinal at *
            simp only []
            by_cases hleap : 4 ∣ y ∧ ¬ 100 ∣ y ∨ 400 ∣ y
            · interval_cases m <;> simp only [daysIn, daysBefore, hl.mpr hleap, hleap] at h1 ⊢ <;> simp at h1 ⊢ <;> omega
            · have hn : isLeap y = false := by rw [← Bool.not_eq_true, hl]; exact hleap
              interval_cases m <;> simp only [daysIn, daysBefore, hn, hleap] at h1 ⊢ <;> simp at h1 ⊢ <;> omega
          · simp only []
            interval_cases m <;> simp only [daysIn] <;> (try split) <;> omega
        · have hm : m = 12 := by omega
          subst hm
          refine ⟨?_, by simp; omega, by simp, by simp, by simp, by simp [daysIn]⟩
          unfold ordinal at *
          obtain ⟨k, rfl⟩ : ∃ k, y = k + 1 := ⟨y - 1, by omega⟩
          exact ordinal_year h1
  obtain ⟨h1, h2, h3, h4, h5, h6⟩ := key
  refine ⟨h1, h2, h3, h4, h5, ?_⟩
  rw [← h1]
  generalize dateOfDay n = d at *
  obtain ⟨y, m, d⟩ := d
  dsimp only at *
  have hl : isLeap y = true ↔ (4 ∣ y ∧ ¬ 100 ∣ y ∨ 400 ∣ y) := by
    simp only [isLeap, Bool.or_eq_true, Bool.and_eq_true, beq_iff_eq, bne_iff_ne]
    omega
  split
  · subst_vars
    unfold ordinal
    obtain ⟨k, rfl⟩ : ∃ k, y = k + 1 := ⟨y - 1, by omega⟩
    simp only [daysIn] at h6
    have := @ordinal_year k _ rfl
    simp only [daysIn] at this
    omega
  · unfold ordinal
    by_cases hleap : 4 ∣ y ∧ ¬ 100 ∣ y ∨ 400 ∣ y
    · interval_cases m <;> simp only [daysIn, daysBefore, hl.mpr hleap, hleap] at h6 ⊢ <;> simp at h6 ⊢ <;> omega
    · have hn : isLeap y = false := by rw [← Bool.not_eq_true, hl]; exact hleap
      interval_cases m <;> simp only [daysIn, daysBefore, hn, hleap] at h6 ⊢ <;> simp at h6 ⊢ <;> omega

namespace Ex

example : dateString ⟨2024, 1, 22⟩ = "2024_01Jan_22_utc".toList := by decide +kernel

example : Valid ⟨2024, 1, 22⟩ := by unfold Valid; decide

-- 1972-02-29 12:00:00 UTC and one day later
example : currentDateString 68212800 = "1972_02Feb_29_utc".toList ∧
    currentDateString (68212800 + 86400) = "1972_03Mar_01_utc".toList ∧
    (dateOfDay (68212800 / 86400)).year ≤ 9999 := by decide +kernel

-- strings of years before 1000 do not sort
example : ¬ dateString ⟨999, 1, 1⟩ < dateString ⟨1000, 1, 1⟩ := by decide +kernel

end Ex

end Pyth.Dates
