import Verif.Spec.SourceText
/-! # C55 (indentation removal), C67 (function names) -/
namespace Pyth.Src

theorem splitlinesAux_cons (cur : Txt) (c : Char) (r : Txt) : splitlinesAux cur (c :: r) =
    if isBreak c then
      if c = '\r' ∧ r.head? = some '\n' then cur.reverse :: splitlinesAux [] r.tail
      else cur.reverse :: splitlinesAux [] r
    else splitlinesAux (c :: cur) r := by
  cases r with
  | nil => simp [splitlinesAux]
  | cons d r => simp [splitlinesAux]

theorem splitlinesAux_noBreak : ∀ (l cur t : Txt), NoBreak l →
    splitlinesAux cur (l ++ t) = splitlinesAux (l.reverse ++ cur) t
  | [], _, _, _ => rfl
  | c :: l, cur, t, h => by
    have hc : isBreak c = false := h c (by simp)
    have : NoBreak l := fun x hx => h x (by simp [hx])
    rw [List.cons_append, splitlinesAux_cons, if_neg (by simp [hc]), splitlinesAux_noBreak l _ _ this]
    simp

/-- The line splitter computes exactly the lines. -/
theorem splitlines_of_Lines {t : Txt} {ls : List Txt} (h : Lines t ls) : splitlines t = ls := by
  unfold splitlines
  induction h with
  | none => rfl
  | last l hl hb =>
    have := splitlinesAux_noBreak l [] [] hb
    rw [List.append_nil] at this
    rw [this]; simp [splitlinesAux, hl]
  | crlf l t ls hb _ ih =>
    rw [splitlinesAux_noBreak l [] _ hb]
    rw [splitlinesAux_cons, if_pos (by decide)]
    simp [ih]
  | one l c t ls hb hc hn _ ih =>
    rw [splitlinesAux_noBreak l [] _ hb]
    rw [splitlinesAux_cons, if_pos hc, if_neg hn]
    simp [ih]

theorem exists_Lines_aux : ∀ (n : Nat) (t : Txt), t.length ≤ n → ∃ ls, Lines t ls := by
  intro n
  induction n with
  | zero =>
    intro t h
    have : t = [] := List.length_eq_zero_iff.mp (by omega)
    exact ⟨[], this ▸ .none⟩
  | succ n ih =>
    intro t h
    by_cases hb : NoBreak t
    · by_cases ht : t = []
      · exact ⟨[], ht ▸ .none⟩
      · exact ⟨_, .last t ht hb⟩
    · have hsplit : ∃ l c r, t = l ++ c :: r ∧ NoBreak l ∧ isBreak c = true := by
        clear ih h
        induction t with
        | nil => exact absurd (by intro c hc; cases hc) hb
        | cons a t iht =>
          by_cases ha : isBreak a = true
          · exact ⟨[], a, t, rfl, (by intro c hc; cases hc), ha⟩
          · have : ¬ NoBreak t := by
              intro h'; apply hb
              intro c hc
              rcases List.mem_cons.mp hc with rfl | hc
              · simpa using ha
              · exact h' c hc
            obtain ⟨l, c, r, e, h1, h2⟩ := iht this
            refine ⟨a :: l, c, r, by simp [e], ?_, h2⟩
            intro x hx
            rcases List.mem_cons.mp hx with rfl | hx
            · simpa using ha
            · exact h1 x hx
      obtain ⟨l, c, r, rfl, hl, hc⟩ := hsplit
      by_cases hx : c = '\r' ∧ r.head? = some '\n'
      · obtain ⟨rfl, h2⟩ := hx
        cases r with
        | nil => cases h2
        | cons a r =>
          cases h2
          obtain ⟨ls, hls⟩ := ih r (by simp at h; omega)
          exact ⟨_, .crlf l r ls hl hls⟩
      · obtain ⟨ls, hls⟩ := ih r (by simp at h; omega)
        exact ⟨_, .one l c r ls hl hc hx hls⟩

/-- Every text has lines, and they are unique. -/
theorem exists_Lines (t : Txt) : ∃ ls, Lines t ls := exists_Lines_aux _ t (Nat.le_refl _)

/-- **C55** (lines): the splitter returns `ls` iff `ls` are the lines of the text. -/
theorem C55_splitlines_iff (t : Txt) (ls : List Txt) : splitlines t = ls ↔ Lines t ls := by
  constructor
  · intro h
    obtain ⟨ls', h'⟩ := exists_Lines t
    rw [splitlines_of_Lines h'] at h
    exact h ▸ h'
  · exact splitlines_of_Lines

theorem blank_iff (l : Txt) : blank l = true ↔ Blank l := by
  simp [blank, Blank]

theorem cutAll_ok_iff (pre : Txt) : ∀ (ls out : List Txt),
    cutAll pre ls = .ok out ↔ ls = out.map (pre ++ ·)
  | [], out => by
    cases out <;> simp [cutAll]
  | l :: ls, out => by
    by_cases h : pre.isPrefixOf l = true
    · rw [cutAll, if_pos h]
      obtain ⟨r, rfl⟩ := List.isPrefixOf_iff_prefix.mp h
      cases hc : cutAll pre ls with
      | ok o =>
        have ih := cutAll_ok_iff pre ls
        have e := (ih o).mp hc
        constructor
        · intro h'
          have : (pre ++ r).drop pre.length :: o = out := Except.ok.inj h'
          rw [← this]
          simp [e]
        · intro h'
          cases out with
          | nil => simp at h'
          | cons x out =>
            simp only [List.map_cons, List.cons.injEq, List.append_cancel_left_eq] at h'
            obtain ⟨rfl, h2⟩ := h'
            have := (ih out).mpr h2
            rw [hc] at this
            cases this
            simp
      | error e =>
        constructor
        · intro h'; cases h'
        · intro h'
          cases out with
          | nil => simp at h'
          | cons x out =>
            have := (cutAll_ok_iff pre ls out).mpr (List.cons.inj h').2
            rw [hc] at this; cases this
    · rw [cutAll, if_neg h]
      constructor
      · intro h'; cases h'
      · intro h'
        cases out with
        | nil => simp at h'
        | cons x out =>
          exact absurd (List.isPrefixOf_iff_prefix.mpr ⟨x, (List.cons.inj h').1.symm⟩) h

theorem cutAll_error (pre : Txt) : ∀ (ls : List Txt) (e : Err), cutAll pre ls = .error e →
    e = .assertionError ∧ ∃ l ∈ ls, ¬ pre <+: l
  | [], _, h => by cases h
  | l :: ls, e, h => by
    by_cases hp : pre.isPrefixOf l = true
    · rw [cutAll, if_pos hp] at h
      cases hc : cutAll pre ls with
      | ok o => rw [hc] at h; cases h
      | error e' =>
        rw [hc] at h
        cases h
        obtain ⟨h1, l', h2, h3⟩ := cutAll_error pre ls _ hc
        exact ⟨h1, l', by simp [h2], h3⟩
    · rw [cutAll, if_neg hp] at h
      cases h
      exact ⟨rfl, l, by simp, fun h' => hp (List.isPrefixOf_iff_prefix.mpr h')⟩

theorem dropWhile_ind : ∀ (ind core : Txt), (∀ c ∈ ind, isSpace c = true) →
    (∀ c, core.head? = some c → isSpace c = false) → (ind ++ core).dropWhile isSpace = core
  | [], core, _, h => by
    cases core with
    | nil => rfl
    | cons c core => simp [h c rfl]
  | a :: ind, core, h, h' => by
    simp only [List.cons_append, List.dropWhile_cons, h a (by simp), if_true]
    exact dropWhile_ind ind core (fun c hc => h c (by simp [hc])) h'

/-- The kept lines of a text: its non-blank lines, in order. -/
theorem kept_eq {t : Txt} {ls : List Txt} (h : Lines t ls) :
    (splitlines t).filter (fun l => !blank l) = ls.filter (fun l => decide (¬ Blank l)) := by
  rw [splitlines_of_Lines h]
  congr 1
  funext l
  have := blank_iff l
  by_cases hb : Blank l
  · simp [hb, this.mpr hb]
  · have h2 : blank l = false := by
      cases hx : blank l
      · rfl
      · exact absurd (this.mp hx) hb
    simp [hb, h2]

/-- Every line has one indentation. -/
theorem exists_Indented (l : Txt) : ∃ ind core, Indented ind core l := by
  refine ⟨l.takeWhile isSpace, l.dropWhile isSpace, (List.takeWhile_append_dropWhile).symm, ?_, ?_⟩
  · intro c hc; exact List.all_eq_true.mp (List.all_takeWhile (p := isSpace) (l := l)) c hc
  · intro c hc
    have := List.head?_dropWhile_not isSpace l
    rw [hc] at this
    simpa using this

/-- **C55**: let `ls` be the lines of a text, of which the non-blank ones are `first :: rest`, and
let `ind` be the indentation of `first`. The cleaned lines are `out` iff prepending `ind` to every
line of `out` gives exactly the non-blank lines, in order. -/
theorem C55_clean_iff {t : Txt} {ls : List Txt} (hl : Lines t ls) {first : Txt} {rest : List Txt}
    (hk : ls.filter (fun l => decide (¬ Blank l)) = first :: rest)
    {ind core : Txt} (hi : Indented ind core first) (out : List Txt) :
    cleanLines t = .ok out ↔ out.map (ind ++ ·) = first :: rest := by
  have e : cleanLines t = cutAll ind (first :: rest) := by
    unfold cleanLines
    rw [kept_eq hl, hk]
    have : lstrip first = core := by
      unfold lstrip; rw [hi.1]; exact dropWhile_ind ind core hi.2.1 hi.2.2
    simp only [this]
    congr 1
    rw [hi.1]; simp
  rw [e, cutAll_ok_iff]
  exact eq_comm

/-- **C55**: cleaning fails with an assertion iff some non-blank line does not start with the
first one's indentation. -/
theorem C55_clean_fails_iff {t : Txt} {ls : List Txt} (hl : Lines t ls) {first : Txt}
    {rest : List Txt} (hk : ls.filter (fun l => decide (¬ Blank l)) = first :: rest)
    {ind core : Txt} (hi : Indented ind core first) :
    cleanLines t = .error .assertionError ↔ ∃ l ∈ first :: rest, ¬ ind <+: l := by
  have e : cleanLines t = cutAll ind (first :: rest) := by
    unfold cleanLines
    rw [kept_eq hl, hk]
    have : lstrip first = core := by
      unfold lstrip; rw [hi.1]; exact dropWhile_ind ind core hi.2.1 hi.2.2
    simp only [this]
    congr 1
    rw [hi.1]; simp
  rw [e]
  constructor
  · intro h; exact (cutAll_error _ _ _ h).2
  · rintro ⟨l, hm, hp⟩
    cases hc : cutAll ind (first :: rest) with
    | ok out =>
      have := (cutAll_ok_iff _ _ _).mp hc
      rw [this] at hm
      obtain ⟨x, -, rfl⟩ := List.mem_map.mp hm
      exact absurd ⟨x, rfl⟩ hp
    | error e' => rw [(cutAll_error _ _ _ hc).1]

/-- **C55**: a text with only blank lines raises an IndexError. -/
theorem C55_clean_empty {t : Txt} {ls : List Txt} (hl : Lines t ls) (hk : ∀ l ∈ ls, Blank l) :
    cleanLines t = .error .indexError := by
  unfold cleanLines
  have : ls.filter (fun l => decide (¬ Blank l)) = [] := by
    rw [List.filter_eq_nil_iff]; intro l h; simp [hk l h]
  rw [kept_eq hl, this]

/-- **C55**: no line of the result is blank unless the corresponding source line consisted of
other whitespace; in particular the first line never starts with whitespace. -/
theorem C55_first_line_not_indented {t : Txt} {first : Txt} {rest : List Txt}
    (h : cleanLines t = .ok (first :: rest)) (c : Char) (hc : first.head? = some c) :
    isSpace c = false := by
  obtain ⟨ls, hl⟩ := exists_Lines t
  cases hk : ls.filter (fun l => decide (¬ Blank l)) with
  | nil =>
    have : ∀ l ∈ ls, Blank l := by
      have := List.filter_eq_nil_iff.mp hk
      intro l hm
      have := this l hm
      simpa using this
    rw [C55_clean_empty hl this] at h; cases h
  | cons f r =>
    obtain ⟨ind, core, hi⟩ := exists_Indented f
    have := (C55_clean_iff hl hk hi _).mp h
    simp only [List.map_cons, List.cons.injEq] at this
    have e := this.1.trans hi.1
    rw [List.append_cancel_left_eq] at e
    exact hi.2.2 c (e ▸ hc)

/-! ## Names -/

theorem splitNlAux_noNl : ∀ (l cur t : Txt), '\n' ∉ l →
    splitNlAux cur (l ++ t) = splitNlAux (l.reverse ++ cur) t
  | [], _, _, _ => rfl
  | c :: l, cur, t, h => by
    have hc : c ≠ '\n' := fun e => h (by simp [e])
    rw [List.cons_append, splitNlAux, if_neg hc, splitNlAux_noNl l _ _ (fun h' => h (by simp [h']))]
    simp

/-- Splitting at newlines is the inverse of joining with newlines. -/
theorem splitNl_joinNl : ∀ (ls : List Txt), ls ≠ [] → (∀ l ∈ ls, '\n' ∉ l) →
    splitNl (joinNl ls) = ls
  | [], h, _ => absurd rfl h
  | [l], _, h => by
    have := splitNlAux_noNl l [] [] (h l (by simp))
    rw [List.append_nil] at this
    simp [splitNl, joinNl, this, splitNlAux]
  | l :: m :: ls, _, h => by
    have ih := splitNl_joinNl (m :: ls) (by simp) (fun x hx => h x (List.mem_cons_of_mem _ hx))
    unfold splitNl at ih ⊢
    rw [joinNl, splitNlAux_noNl l [] _ (h l (by simp)), splitNlAux, if_pos rfl, ih]
    simp

theorem lstrip_eq_self {l : Txt} (h : ∀ c, l.head? = some c → isSpace c = false) :
    lstrip l = l := by
  cases l with
  | nil => rfl
  | cons c l => simp [lstrip, h c rfl]

/-- text that neither starts nor ends with whitespace -/
def Trimmed (l : Txt) : Prop :=
  (∀ c, l.head? = some c → isSpace c = false) ∧ (∀ c, l.getLast? = some c → isSpace c = false)

theorem strip_wrap (ws ws' l : Txt) (h : Trimmed l) (h1 : ∀ c ∈ ws, isSpace c = true)
    (h2 : ∀ c ∈ ws', isSpace c = true) (hne : l ≠ []) : strip (ws ++ l ++ ws') = l := by
  unfold strip lstrip
  rw [List.append_assoc, dropWhile_ind ws (l ++ ws') h1]
  · rw [List.reverse_append, dropWhile_ind ws'.reverse l.reverse]
    · simp
    · intro c hc; exact h2 c (by simpa using hc)
    · intro c hc; exact h.2 c (by simpa using hc)
  · intro c hc
    cases l with
    | nil => exact absurd rfl hne
    | cons a l => exact h.1 c (by simpa using hc)

theorem isSpace_d : isSpace 'd' = false := by decide

/-- **C67**: let the lines of the source be `pre ++ defLine :: post`, where no line of `pre`
starts (after whitespace) with `def ` and `defLine` is
`<whitespace>def <spaces>NAME<spaces>(<anything>`, NAME being nonempty, without a parenthesis and
without whitespace at its ends. Then the extracted name is NAME. -/
theorem C67_function_name (pre post : List Txt) (ws sp sp' name tail : Txt)
    (hnl : ∀ l ∈ pre ++ (ws ++ "def ".toList ++ sp ++ name ++ sp' ++ '(' :: tail) :: post,
      '\n' ∉ l)
    (hpre : ∀ l ∈ pre, ¬ "def ".toList <+: strip l)
    (hws : ∀ c ∈ ws, isSpace c = true) (hsp : ∀ c ∈ sp, isSpace c = true)
    (hsp' : ∀ c ∈ sp', isSpace c = true)
    (hne : name ≠ []) (htrim : Trimmed name) (hpar : '(' ∉ name) :
    functionName (joinNl (pre ++ (ws ++ "def ".toList ++ sp ++ name ++ sp' ++ '(' :: tail) :: post))
      = .ok name := by
  unfold functionName
  rw [splitNl_joinNl _ (by simp) hnl]
  clear hnl
  induction pre with
  | cons l pre ih =>
    rw [List.cons_append, nameFromLines]
    have := hpre l (by simp)
    rw [if_neg (fun h => this (List.isPrefixOf_iff_prefix.mp h))]
    exact ih (fun x hx => hpre x (by simp [hx]))
  | nil =>
    rw [List.nil_append, nameFromLines]
    -- the stripped line
    obtain ⟨tail', htail'⟩ : ∃ tail', strip (ws ++ "def ".toList ++ sp ++ name ++ sp' ++ '(' :: tail)
        = "def ".toList ++ sp ++ name ++ sp' ++ '(' :: tail' := by
      -- split the tail into its text and trailing whitespace
      have key : ∀ tl : Txt, ∃ t1 t2, '(' :: tl = '(' :: t1 ++ t2 ∧ (∀ c ∈ t2, isSpace c = true) ∧
          ∀ c, ('(' :: t1).getLast? = some c → isSpace c = false := by
        intro tl
        obtain ⟨ind, core, h1, h2, h3⟩ := exists_Indented tl.reverse
        refine ⟨core.reverse, ind.reverse, ?_, ?_, ?_⟩
        · have := congrArg List.reverse h1
          simp at this
          simp [this]
        · intro c hc; exact h2 c (by simpa using hc)
        · intro c hc
          cases core with
          | nil => simp at hc; subst hc; decide
          | cons a core =>
            have : a = c := by
              rw [List.reverse_cons, ← List.cons_append, List.getLast?_append] at hc
              simpa using hc
            exact h3 c (by simp [this])
      obtain ⟨t1, t2, e, h2, h3⟩ := key tail
      refine ⟨t1, ?_⟩
      rw [e]
      have := strip_wrap ws t2 ("def ".toList ++ sp ++ name ++ sp' ++ '(' :: t1) ⟨?_, ?_⟩ hws h2 ?_
      · rw [← this]; congr 1; simp [List.append_assoc]
      · intro c hc
        simp at hc; subst hc; decide
      · intro c hc
        rw [List.getLast?_append] at hc
        obtain ⟨x, hx⟩ : ∃ x, ('(' :: t1).getLast? = some x := by
          cases hh : ('(' :: t1).getLast? with
          | none => simp at hh
          | some x => exact ⟨x, rfl⟩
        rw [hx] at hc
        simp at hc
        exact h3 c (hc ▸ hx)
      · simp
    simp only [htail']
    rw [if_pos (List.isPrefixOf_iff_prefix.mpr ⟨sp ++ name ++ sp' ++ '(' :: tail', by simp⟩)]
    congr 1
    unfold sliceName
    rw [if_pos (by simp)]
    have hnp : ∀ w : Txt, (∀ c ∈ w, isSpace c = true) → '(' ∉ w := by
      intro w hw hm
      have := hw _ hm
      exact absurd this (by decide)
    have hidx : ("def ".toList ++ sp ++ name ++ sp' ++ '(' :: tail').idxOf '('
        = ("def ".toList ++ sp ++ name ++ sp').length := by
      rw [List.idxOf_append, if_neg]
      · simp
      · simp only [List.mem_append, not_or]
        exact ⟨⟨⟨by decide, hnp _ hsp⟩, hpar⟩, hnp _ hsp'⟩
    rw [hidx, List.take_left']
    · have : List.drop 3 ("def ".toList ++ sp ++ name ++ sp') = (' ' :: sp) ++ name ++ sp' := by
        simp
      rw [this]
      refine strip_wrap _ _ _ htrim ?_ hsp' hne
      intro c hc
      rcases List.mem_cons.mp hc with rfl | hc
      · decide
      · exact hsp c hc
    · rfl

/-- **C67**: a source without a line starting (after whitespace) with `def ` is rejected with a
ValueError, and with such a line it never is. -/
theorem C67_no_name_iff (ls : List Txt) (hne : ls ≠ []) (hnl : ∀ l ∈ ls, '\n' ∉ l) :
    functionName (joinNl ls) = .error .valueError ↔ ∀ l ∈ ls, ¬ "def ".toList <+: strip l := by
  unfold functionName
  rw [splitNl_joinNl _ hne hnl]
  clear hne hnl
  induction ls with
  | nil => simp [nameFromLines]
  | cons l ls ih =>
    rw [nameFromLines]
    by_cases h : "def ".toList.isPrefixOf (strip l) = true
    · simp only [if_pos h]
      constructor
      · intro h'; cases h'
      · intro h'; exact absurd (List.isPrefixOf_iff_prefix.mp h) (h' l (by simp))
    · simp only [if_neg h, ih]
      constructor
      · intro h' x hx
        rcases List.mem_cons.mp hx with rfl | hx
        · exact fun hh => h (List.isPrefixOf_iff_prefix.mpr hh)
        · exact h' x hx
      · intro h' x hx; exact h' x (by simp [hx])

/-- **C55**: the characters that count as whitespace and as line ends are exactly Python's. -/
theorem C55_whitespace_and_line_ends (c : Char) :
    (isSpace c = true ↔ c.toNat ∈ whitespaceCodes) ∧ (isBreak c = true ↔ c.toNat ∈ lineEndCodes) := by
  constructor
  · simp only [isSpace, whitespaceCodes, List.mem_cons, List.not_mem_nil, or_false, Bool.or_eq_true,
      Bool.and_eq_true, decide_eq_true_eq, beq_iff_eq]
    omega
  · simp only [isBreak, lineEndCodes, List.mem_cons, List.not_mem_nil, or_false, Bool.or_eq_true,
      Bool.and_eq_true, decide_eq_true_eq, beq_iff_eq]
    omega

namespace Ex

/-- a decorated function inside another one, with a docstring, a blank line and CRLF ends -/
def text : Txt := "  @dec\r\n  def  my_f (x):\n\n \t \n      return x\r".toList

def textLines : List Txt :=
  ["  @dec".toList, "  def  my_f (x):".toList, [], " \t ".toList, "      return x".toList]

theorem text_lines : Lines text textLines := (C55_splitlines_iff _ _).mp (by decide +kernel)

theorem text_kept : textLines.filter (fun l => decide (¬ Blank l))
    = "  @dec".toList :: ["  def  my_f (x):".toList, "      return x".toList] := by decide +kernel

theorem text_ind : Indented "  ".toList "@dec".toList "  @dec".toList := by
  refine ⟨by decide +kernel, by decide +kernel, ?_⟩
  intro c hc
  have : c = '@' := by simpa using hc.symm
  subst this; decide

-- the hypotheses of `C55_clean_iff` hold of a concrete text, and its lines are as expected
example : cleanLines text = .ok ["@dec".toList, "def  my_f (x):".toList, "    return x".toList] :=
  (C55_clean_iff text_lines text_kept text_ind _).mpr (by decide +kernel)

-- a line indented less than the first one
example : cleanLines "    def f():\n  return 1".toList = .error .assertionError := by decide +kernel

-- the name of the decorated function
example : functionName (joinNl (["@dec".toList] ++ ([] ++ "def ".toList ++ " ".toList ++
    "my_f".toList ++ " ".toList ++ '(' :: "x):".toList) :: ["    return x".toList]))
    = .ok "my_f".toList :=
  C67_function_name _ _ _ _ _ _ _ (by decide +kernel) (by decide +kernel) (by decide +kernel)
    (by decide +kernel) (by decide +kernel) (by decide)
    ⟨by intro c hc; have : c = 'm' := by simpa using hc.symm
        subst this; decide,
     by intro c hc; have : c = 'f' := by simpa using hc.symm
        subst this; decide⟩ (by decide)

end Ex

/-- **C67** is restricted to `def NAME(`: type parameters become part of the name, a definition
whose parenthesis is on another line loses its last character, and `def<TAB>f` is not recognised. -/
theorem C67_other_headers :
    functionName "def f[T](x):\n    return x".toList = .ok "f[T]".toList ∧
    functionName "def my_f\\\n(x):\n    return x".toList = .ok "my_f".toList ∧
    functionName "def my_f \n(x)".toList = .ok "my_".toList ∧
    functionName "def\tf(x):\n    return x".toList = .error .valueError := by
  decide +kernel

end Pyth.Src
