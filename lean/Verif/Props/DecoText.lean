import Verif.Proofs.DecoText
/-!
# C80: a decorator's text gives the decorator back

The augmented source of a pure function contains the decorators of its dependencies and guards as text; another process
reads them back.
-/
namespace Pyth.Deco
open Pyth.Src

theorem quoteOf_isQuote (s : Txt) : IsQuote (quoteOf s) := by
  unfold quoteOf IsQuote; split <;> simp

theorem skipWs_cons {c : Char} (h : isWs c = false) (t : Txt) : skipWs (c :: t) = c :: t := by
  simp [skipWs, List.dropWhile, h]

theorem isQuote_notWs {q : Char} (h : IsQuote q) : isWs q = false := by
  rcases h with rfl | rfl <;> decide

theorem literals_one {n : Nat} {q : Char} (hq : IsQuote q) {t v rest : Txt} (h : literalAfter q t = some (v, rest))
    (hr : ∀ d, (skipWs rest).head? = some d → ¬ IsQuote d) : literals (n + 1) (q :: t) = some (v, skipWs rest) := by
  have hq' : q = '\'' ∨ q = '"' := hq
  simp only [literals, hq', if_true, h]
  cases hs : skipWs rest with
  | nil => rfl
  | cons d r =>
    have := hr d (by simp [hs])
    unfold IsQuote at this
    simp [this]

theorem literals_repr {p : Char → Bool} (n : Nat) (s : Txt) {c : Char} (hc : c = ',' ∨ c = ']') (rest : Txt) :
    literals (n + 1) (reprStr p s ++ c :: rest) = some (s, c :: rest) := by
  have hw : isWs c = false := by rcases hc with rfl | rfl <;> decide
  have hn : ∀ q, IsQuote q → c ≠ q := by
    intro q hq; rcases hc with rfl | rfl <;> rcases hq with rfl | rfl <;> decide
  have hq := quoteOf_isQuote s
  have := literals_one (n := n) hq (literalAfter_repr (p := p) hq s (c :: rest) (by
    intro a ha; simp at ha; rw [← ha]; exact hn _ hq)) (by
    rw [skipWs_cons hw]; intro d hd; simp at hd; rw [← hd]
    intro h; exact hn c h rfl)
  rw [skipWs_cons hw] at this
  simpa [reprStr] using this

theorem reprStr_head (p : Char → Bool) (s : Txt) : ∃ q t, IsQuote q ∧ reprStr p s = q :: t :=
  ⟨quoteOf s, _, quoteOf_isQuote s, rfl⟩

theorem items_step {n : Nat} {t u : Txt} {q : Char} (hq : IsQuote q) (h : skipWs t = q :: u) :
    items (n + 1) t = match literals (q :: u).length (q :: u) with
      | none => none
      | some (v, r) =>
        match skipWs r with
        | ',' :: r' => (items n r').map fun p => (v :: p.1, p.2)
        | ']' :: r' => some ([v], r')
        | _ => none := by
  rw [items, h]
  rcases hq with rfl | rfl <;> rfl

theorem items_repr (p : Char → Bool) : ∀ (l : List Txt) (n : Nat) (t rest : Txt), l.length < n →
    skipWs t = joinComma (l.map (reprStr p)) ++ ']' :: rest → items n t = some (l, rest)
  | [], n + 1, t, rest, _, h => by
    simp only [List.map_nil, joinComma, List.nil_append] at h
    simp [items, h]
  | [s], n + 1, t, rest, _, h => by
    simp only [List.map_cons, List.map_nil, joinComma] at h
    obtain ⟨q, u, hq, hu⟩ := reprStr_head p s
    have hl : literals (skipWs t).length (skipWs t) = some (s, ']' :: rest) := by
      rw [h, show (reprStr p s ++ ']' :: rest).length = ((reprStr p s).length + rest.length) + 1 by simp; omega]
      exact literals_repr _ s (.inr rfl) rest
    have hs : skipWs t = q :: (u ++ ']' :: rest) := by rw [h, hu]; rfl
    rw [items_step hq hs, ← hs, hl]
    simp only
    rw [skipWs_cons (by decide)]
    rfl
  | s :: s' :: l, n + 1, t, rest, hn, h => by
    simp only [List.map_cons, joinComma] at h
    obtain ⟨q, u, hq, hu⟩ := reprStr_head p s
    rw [← List.map_cons] at h
    have h' : skipWs t = reprStr p s ++ ',' :: (' ' :: joinComma ((s' :: l).map (reprStr p)) ++ ']' :: rest) := by
      rw [h]; simp
    have hl : literals (skipWs t).length (skipWs t) =
        some (s, ',' :: (' ' :: joinComma ((s' :: l).map (reprStr p)) ++ ']' :: rest)) := by
      rw [h']
      rw [show (reprStr p s ++ ',' :: (' ' :: joinComma ((s' :: l).map (reprStr p)) ++ ']' :: rest)).length =
        ((reprStr p s).length + (' ' :: joinComma ((s' :: l).map (reprStr p)) ++ ']' :: rest).length) + 1 by simp; omega]
      exact literals_repr _ s (.inl rfl) _
    have ih := items_repr p (s' :: l) n (' ' :: joinComma ((s' :: l).map (reprStr p)) ++ ']' :: rest) rest
      (by simp at hn ⊢; omega) (by
        obtain ⟨q', u', hq', hu'⟩ := reprStr_head p s'
        have : ∃ w, joinComma ((s' :: l).map (reprStr p)) = q' :: w := by
          cases l with
          | nil => simp [joinComma, hu']
          | cons a b => simp [joinComma, hu']
        obtain ⟨w, hw⟩ := this
        rw [hw]
        show skipWs (' ' :: (q' :: (w ++ ']' :: rest))) = _
        rw [show skipWs (' ' :: (q' :: (w ++ ']' :: rest))) = skipWs (q' :: (w ++ ']' :: rest)) by
          simp [skipWs, isWs]]
        exact skipWs_cons (isQuote_notWs hq') _)
    have hs : skipWs t = q :: (u ++ ',' :: (' ' :: joinComma ((s' :: l).map (reprStr p)) ++ ']' :: rest)) := by
      rw [h', hu]; rfl
    rw [items_step hq hs, ← hs, hl]
    simp only
    rw [skipWs_cons (by decide)]
    simp only
    rw [ih]
    rfl

/-- reading the first keyword, `island_name='…'` -/
theorem value_island {isl : Txt} (h : Plain isl) (rest : Txt) (hr : ∀ d, (skipWs rest).head? = some d → ¬ IsQuote d)
    (hr' : ∀ a, rest.head? = some a → a ≠ '\'') : value ('\'' :: (isl ++ '\'' :: rest)) = some (.str isl, skipWs rest) := by
  have := literals_one (n := (isl ++ '\'' :: rest).length) (.inl rfl) (literalAfter_plain h rest hr') hr
  unfold value
  simp only [List.length_cons] at this ⊢
  rw [this]; rfl

theorem ident_island (r : Txt) : ("island_name=".toList ++ r).takeWhile isIdent = "island_name".toList ∧
    ("island_name=".toList ++ r).dropWhile isIdent = '=' :: r := by
  constructor
  · simp [List.takeWhile, show isIdent '_' = true by decide, isIdent]
  · simp [List.dropWhile, isIdent]

theorem ident_guards (r : Txt) : ("guards=".toList ++ r).takeWhile isIdent = "guards".toList ∧
    ("guards=".toList ++ r).dropWhile isIdent = '=' :: r := by
  constructor
  · simp [List.takeWhile, isIdent]
  · simp [List.dropWhile, isIdent]

/-- one step of reading keywords -/
theorem keywords_step {n : Nat} {t t' r : Txt} {c : Char} (h : skipWs t = c :: t') (hc : isIdent c = true)
    (hd : (c :: t').dropWhile isIdent = '=' :: r) :
    keywords (n + 1) t = match value (skipWs r) with
      | none => none
      | some (v, r') =>
        match skipWs r' with
        | ',' :: r'' => (keywords n r'').map fun p => (((c :: t').takeWhile isIdent, v) :: p.1, p.2)
        | ')' :: r'' => some ([((c :: t').takeWhile isIdent, v)], r'')
        | _ => none := by
  have h0 : (c :: t').takeWhile isIdent ≠ [] := by simp [List.takeWhile, hc]
  have hp : c ≠ ')' := by rintro rfl; exact absurd hc (by decide)
  rw [keywords, h]
  split
  · rename_i r' he; simp at he; exact absurd he.1 hp
  · rename_i x he
    rw [if_neg h0, hd, skipWs_cons (by decide)]
    rfl

theorem keywords_island {n : Nat} {isl : Txt} (h : Plain isl) {t rest : Txt}
    (ht : skipWs t = "island_name='".toList ++ isl ++ '\'' :: rest)
    (hr : ∀ d, (skipWs rest).head? = some d → ¬ IsQuote d) (hr' : ∀ a, rest.head? = some a → a ≠ '\'') :
    keywords (n + 1) t = match skipWs (skipWs rest) with
        | ',' :: r'' => (keywords n r'').map fun p => (("island_name".toList, .str isl) :: p.1, p.2)
        | ')' :: r'' => some ([("island_name".toList, .str isl)], r'')
        | _ => none := by
  have hi := ident_island ('\'' :: (isl ++ '\'' :: rest))
  have e : "island_name='".toList ++ isl ++ '\'' :: rest = 'i' :: ("sland_name=".toList ++ '\'' :: (isl ++ '\'' :: rest)) := by
    simp
  have e' : "island_name=".toList ++ '\'' :: (isl ++ '\'' :: rest) =
    'i' :: ("sland_name=".toList ++ '\'' :: (isl ++ '\'' :: rest)) := by simp
  rw [e'] at hi
  rw [keywords_step (ht.trans e) (by decide) hi.2, skipWs_cons (by decide), value_island h rest hr hr', hi.1]

theorem str_par : "(island_name='".toList = '(' :: "island_name='".toList := by decide
theorem str_end : "')".toList = ['\'', ')'] := by decide
theorem str_pure : "@pth.pure(".toList = "@pth.".toList ++ "pure".toList ++ ['('] := by decide

theorem decoText_other (printable : Char → Bool) (k : Kind) (hk : k ≠ .pure) (isl : Txt) (g : Option (List Txt)) (rest : Txt) :
    decoText printable k isl g ++ rest = "@pth.".toList ++ k.text ++ '(' ::
      ("island_name='".toList ++ isl ++ '\'' :: (')' :: rest)) := by
  have : decoText printable k isl g = "@pth.".toList ++ k.text ++ "(island_name='".toList ++ isl ++ "')".toList := by
    cases k with
    | pure => exact absurd rfl hk
    | _ => rfl
  rw [this, str_par, str_end]
  simp only [List.append_assoc, List.cons_append, List.nil_append]

theorem decoText_pure (printable : Char → Bool) (isl : Txt) (g : Option (List Txt)) (rest : Txt) :
    decoText printable .pure isl g ++ rest = "@pth.".toList ++ "pure".toList ++ '(' ::
      ("\n\tisland_name='".toList ++ isl ++ '\'' :: ((match g with
       | some l => "\n\t, guards=".toList ++ reprList printable l
       | none => []) ++ ')' :: rest)) := by
  have : decoText printable .pure isl g = "@pth.pure(".toList ++ "\n\tisland_name='".toList ++ isl ++ ['\''] ++
      (match g with
       | some l => "\n\t, guards=".toList ++ reprList printable l
       | none => []) ++ [')'] := rfl
  rw [this, str_pure]
  simp only [List.append_assoc, List.cons_append, List.nil_append]

/-- C80 (a): for an island with a plain name and any guards, reading a decorator's text gives the decorator back, and
exactly the text after it remains. -/
theorem C80_round_trip_partial (printable : Char → Bool) (kind : Kind) (isl : Txt) (guards : Option (List Txt))
    (h : Plain isl) (hg : kind = .pure ∨ guards = none) (rest : Txt) :
    decode (decoText printable kind isl guards ++ rest) = some (⟨kind, some isl, guards⟩, rest) := by
  have hq : ∀ (c : Char) (t : Txt), isWs c = false → ¬ IsQuote c → ∀ d, (skipWs (c :: t)).head? = some d → ¬ IsQuote d := by
    intro c t h1 h2 d hd; rw [skipWs_cons h1] at hd; simp at hd; rw [← hd]; exact h2
  have hpar : ¬ IsQuote ')' := by unfold IsQuote; decide
  have hcom : ¬ IsQuote ',' := by unfold IsQuote; decide
  have noGuards : ∀ (n : Nat) (t : Txt), skipWs t = "island_name='".toList ++ isl ++ '\'' :: (')' :: rest) →
      keywords (n + 1) t = some ([("island_name".toList, .str isl)], rest) := by
    intro n t ht
    rw [keywords_island h ht (hq _ _ (by decide) hpar) (by simp)]
    rw [skipWs_cons (by decide), skipWs_cons (by decide)]
    rfl
  have go : ∀ (name : Txt) (t : Txt) (kw : List (Txt × Value)), (∀ c ∈ name, isIdent c = true) →
      (∀ n, keywords (n + 2) t = some (kw, rest)) →
      decode ("@pth.".toList ++ name ++ '(' :: t) = (callDeco name kw).map (·, rest) := by
    intro name t kw hn hk
    have h1 : (name ++ '(' :: t).takeWhile isIdent = name := by
      rw [List.takeWhile_append_of_pos hn]; simp [show isIdent '(' = false by decide]
    have h2 : (name ++ '(' :: t).dropWhile isIdent = '(' :: t := by
      rw [List.dropWhile_append_of_pos hn]; simp [show isIdent '(' = false by decide]
    have h3 : readDeco ("@pth.".toList ++ name ++ '(' :: t) = some (name, kw, rest) := by
      unfold readDeco
      rw [if_pos (by rw [List.isPrefixOf_iff_prefix]; exact ⟨name ++ '(' :: t, by simp⟩)]
      have h4 : ("@pth.".toList ++ name ++ '(' :: t).drop 5 = name ++ '(' :: t := by simp
      have h5 : ("@pth.".toList ++ name ++ '(' :: t).length = (name.length + t.length + 4) + 2 := by simp; omega
      simp only [h4, h1, h2, h5, hk]
      rfl
    unfold decode
    rw [h3]
  cases kind with
  | autonomous =>
    rcases hg with hg | rfl
    · cases hg
    have e := decoText_other printable .autonomous (by decide) isl none rest
    rw [show Kind.text .autonomous = "autonomous".toList from rfl] at e
    rw [e, go _ _ [("island_name".toList, .str isl)] (by decide) fun n => noGuards _ _ (by
      rw [show "island_name='".toList ++ isl ++ '\'' :: (')' :: rest) =
        'i' :: ("sland_name='".toList ++ isl ++ '\'' :: (')' :: rest)) by simp]; exact skipWs_cons (by decide) _)]
    rfl
  | strictly =>
    rcases hg with hg | rfl
    · cases hg
    have e := decoText_other printable .strictly (by decide) isl none rest
    rw [show Kind.text .strictly = "strictly_autonomous".toList from rfl] at e
    rw [e, go _ _ [("island_name".toList, .str isl)] (by decide) fun n => noGuards _ _ (by
      rw [show "island_name='".toList ++ isl ++ '\'' :: (')' :: rest) =
        'i' :: ("sland_name='".toList ++ isl ++ '\'' :: (')' :: rest)) by simp]; exact skipWs_cons (by decide) _)]
    rfl
  | pure =>
    have sk : ∀ t : Txt, skipWs ("\n\tisland_name='".toList ++ t) = "island_name='".toList ++ t := by
      intro t; simp [skipWs, List.dropWhile, isWs]
    cases guards with
    | none =>
      have e : decoText printable .pure isl none ++ rest =
          "@pth.".toList ++ "pure".toList ++ '(' :: ("\n\tisland_name='".toList ++ isl ++ '\'' :: (')' :: rest)) :=
        decoText_pure printable isl none rest
      rw [e, go _ _ [("island_name".toList, .str isl)] (by decide) fun n => noGuards _ _ (by
        rw [List.append_assoc, sk]; simp)]
      rfl
    | some l =>
      have e : decoText printable .pure isl (some l) ++ rest =
          "@pth.".toList ++ "pure".toList ++ '(' :: ("\n\tisland_name='".toList ++ isl ++
            '\'' :: ("\n\t, guards=".toList ++ reprList printable l ++ ')' :: rest)) :=
        decoText_pure printable isl (some l) rest
      rw [e, go _ _ [("island_name".toList, .str isl), ("guards".toList, .list l)] (by decide) fun n => ?_]
      · rfl
      have s1 : skipWs ("\n\t, guards=".toList ++ reprList printable l ++ ')' :: rest) =
          ',' :: (" guards=".toList ++ reprList printable l ++ ')' :: rest) := by
        simp [skipWs, List.dropWhile, isWs]
      rw [keywords_island h (rest := "\n\t, guards=".toList ++ reprList printable l ++ ')' :: rest)
        (by rw [List.append_assoc, sk]; simp)
        (by rw [s1]; intro d hd; simp at hd; rw [← hd]; exact hcom)
        (by intro a ha; simp at ha; rw [← ha]; decide)]
      rw [s1, skipWs_cons (by decide)]
      have hi := ident_guards (reprList printable l ++ ')' :: rest)
      have e2 : "guards=".toList ++ (reprList printable l ++ ')' :: rest) =
        'g' :: ("uards=".toList ++ (reprList printable l ++ ')' :: rest)) := by simp
      rw [e2] at hi
      have s2 : skipWs (" guards=".toList ++ reprList printable l ++ ')' :: rest) =
          'g' :: ("uards=".toList ++ (reprList printable l ++ ')' :: rest)) := by
        simp [skipWs, List.dropWhile, isWs]
      have hv : value (reprList printable l ++ ')' :: rest) = some (.list l, ')' :: rest) := by
        unfold reprList value
        simp only [List.cons_append]
        rw [items_repr printable l _ _ (')' :: rest)]
        · rfl
        · have : ∀ l : List Txt, l.length ≤ (joinComma (l.map (reprStr printable))).length := by
            intro l
            induction l with
            | nil => simp
            | cons a l ih =>
              obtain ⟨q, u, _, hu⟩ := reprStr_head printable a
              cases l with
              | nil => simp [joinComma, hu]
              | cons b l =>
                simp only [List.map_cons, joinComma, List.length_append, List.length_cons] at ih ⊢
                rw [hu]; simp; omega
          have := this l
          simp; omega
        · cases l with
          | nil => exact skipWs_cons (by decide) _
          | cons a l =>
            obtain ⟨q, u, hq, hu⟩ := reprStr_head printable a
            have : ∃ w, joinComma ((a :: l).map (reprStr printable)) = q :: w := by
              cases l with
              | nil => simp [joinComma, hu]
              | cons a b => simp [joinComma, hu]
            obtain ⟨w, hw⟩ := this
            rw [hw]
            have := skipWs_cons (isQuote_notWs hq) (w ++ ']' :: (')' :: rest))
            simpa using this
      have hb : skipWs (reprList printable l ++ ')' :: rest) = reprList printable l ++ ')' :: rest := by
        unfold reprList; exact skipWs_cons (by decide) _
      simp only
      rw [keywords_step s2 (by decide) hi.2, hb, hv, hi.1]
      simp only
      rw [skipWs_cons (by decide)]
      rfl

/-! ## Only plain names survive -/

/-- raw texts of literals -/
inductive RawOk (q : Char) : Txt → Prop
  | nil : RawOk q []
  | char {c : Char} {r : Txt} : c ≠ '\\' → c ≠ q → c ≠ '\n' → c ≠ '\r' → c ≠ '\x00' → RawOk q r → RawOk q (c :: r)
  | pair {d : Char} {r : Txt} : d ≠ '\x00' → RawOk q r → RawOk q ('\\' :: d :: r)

theorem scan_raw (q : Char) : ∀ (t raw rest : Txt), scan q t = some (raw, rest) → t = raw ++ q :: rest ∧ RawOk q raw
  | [], raw, rest, h => by simp [scan] at h
  | [c], raw, rest, h => by
    simp only [scan] at h
    split at h
    · rename_i hc
      injection h with h
      injection h with h1 h2
      subst h1 h2 hc
      exact ⟨rfl, .nil⟩
    · cases h
  | c :: d :: r, raw, rest, h => by
    simp only [scan] at h
    split at h
    · rename_i hc
      split at h
      · cases h
      · rename_i hd
        cases hs : scan q r with
        | none => rw [hs] at h; cases h
        | some p =>
          obtain ⟨raw', rest'⟩ := p
          rw [hs] at h
          simp only [Option.map_some, Option.some.injEq, Prod.mk.injEq] at h
          obtain ⟨h1, h2⟩ := h
          obtain ⟨h3, h4⟩ := scan_raw q r raw' rest' hs
          subst h1 h2 hc
          exact ⟨by rw [h3]; rfl, .pair hd h4⟩
    · rename_i hb
      split at h
      · rename_i hc
        simp only [Option.some.injEq, Prod.mk.injEq] at h
        obtain ⟨h1, h2⟩ := h
        subst h1 h2 hc
        exact ⟨rfl, .nil⟩
      · rename_i hq
        split at h
        · cases h
        · rename_i hn
          simp only [not_or] at hn
          cases hs : scan q (d :: r) with
          | none => rw [hs] at h; cases h
          | some p =>
            obtain ⟨raw', rest'⟩ := p
            rw [hs] at h
            simp only [Option.map_some, Option.some.injEq, Prod.mk.injEq] at h
            obtain ⟨h1, h2⟩ := h
            obtain ⟨h3, h4⟩ := scan_raw q (d :: r) raw' rest' hs
            subst h1 h2
            exact ⟨by rw [h3]; rfl, .char hb hq hn.1 hn.2.1 hn.2.2 h4⟩

theorem scan3_length (q : Char) : ∀ (t raw rest : Txt), scan3 q t = some (raw, rest) →
    raw.length + 3 + rest.length ≤ t.length
  | [], raw, rest, h => by simp [scan3] at h
  | [a], raw, rest, h => by simp [scan3] at h
  | [a, b], raw, rest, h => by simp [scan3] at h
  | a :: b :: c :: r, raw, rest, h => by
    rw [scan3] at h
    split at h
    · simp only [Option.some.injEq, Prod.mk.injEq] at h
      obtain ⟨h1, h2⟩ := h
      subst h1 h2
      simp; omega
    · split at h
      · split at h
        · cases h
        · cases hs : scan3 q (c :: r) with
          | none => rw [hs] at h; cases h
          | some p =>
            obtain ⟨raw', rest'⟩ := p
            rw [hs] at h
            simp only [Option.map_some, Option.some.injEq, Prod.mk.injEq] at h
            obtain ⟨h1, h2⟩ := h
            have := scan3_length q (c :: r) raw' rest' hs
            subst h1 h2
            simp at this ⊢; omega
      · split at h
        · cases h
        · cases hs : scan3 q (b :: c :: r) with
          | none => rw [hs] at h; cases h
          | some p =>
            obtain ⟨raw', rest'⟩ := p
            rw [hs] at h
            simp only [Option.map_some, Option.some.injEq, Prod.mk.injEq] at h
            obtain ⟨h1, h2⟩ := h
            have := scan3_length q (b :: c :: r) raw' rest' hs
            subst h1 h2
            simp at this ⊢; omega

theorem octVal_of_mem {d : Char} (h : d ∈ ['0', '1', '2', '3', '4', '5', '6', '7']) : (octVal d).isSome = true := by
  simp only [List.mem_cons, List.not_mem_nil, or_false] at h
  rcases h with rfl | rfl | rfl | rfl | rfl | rfl | rfl | rfl <;> decide

theorem simpleEscape_of_mem {d : Char} (h : d ∈ ['\\', '\'', '"', 'a', 'b', 'f', 'n', 'r', 't', 'v']) :
    (simpleEscape d).isSome = true := by
  simp only [List.mem_cons, List.not_mem_nil, or_false] at h
  rcases h with rfl | rfl | rfl | rfl | rfl | rfl | rfl | rfl | rfl | rfl <;> decide

theorem escapeOf_spec {d : Char} {t out : Txt} {k : Nat} (h : escapeOf d t = some (out, k)) :
    out.length ≤ 1 ∨ (out.length = 2 ∧ k = 0 ∧ (d ∉ escapeChars ∨ d = '\x00')) := by
  unfold escapeOf at h
  split at h
  · injection h with h; injection h with h1 h2; subst h1; simp
  · rename_i hn
    cases hs : simpleEscape d with
    | some e =>
      rw [hs] at h
      injection h with h; injection h with h1 h2; subst h1; simp
    | none =>
      rw [hs] at h
      simp only at h
      have hm : ∀ (w : Nat), (if t.length < w then none else (hexChar (t.take w)).map fun e => ([e], w)) = some (out, k) →
          out.length ≤ 1 := by
        intro w hw
        split at hw
        · cases hw
        · cases hh : hexChar (t.take w) with
          | none => rw [hh] at hw; cases hw
          | some e =>
            rw [hh] at hw
            simp only [Option.map_some, Option.some.injEq, Prod.mk.injEq] at hw
            rw [← hw.1]; simp
      split at h
      · cases h
      · rename_i hN
        split at h
        · exact .inl (hm 2 h)
        · rename_i hx
          split at h
          · exact .inl (hm 4 h)
          · rename_i hu
            split at h
            · exact .inl (hm 8 h)
            · rename_i hU
              cases ho : octVal d with
              | some n =>
                rw [ho] at h
                simp only [Option.some.injEq, Prod.mk.injEq] at h
                rw [← h.1]; simp
              | none =>
                rw [ho] at h
                simp only [Option.some.injEq, Prod.mk.injEq] at h
                refine .inr ⟨by rw [← h.1]; rfl, h.2.symm, ?_⟩
                by_cases hz : d = '\x00'
                · exact .inr hz
                refine .inl fun hmem => ?_
                have hsplit : d ∈ ['\\', '\'', '"', 'a', 'b', 'f', 'n', 'r', 't', 'v'] ∨ d ∈ ['x', 'N', 'u', 'U'] ∨
                    d ∈ ['0', '1', '2', '3', '4', '5', '6', '7'] ∨ d ∈ ['\n', '\r', '\x00'] := by
                  have : escapeChars = ['\\', '\'', '"', 'a', 'b', 'f', 'n', 'r', 't', 'v'] ++ ['x', 'N', 'u', 'U'] ++
                      ['0', '1', '2', '3', '4', '5', '6', '7'] ++ ['\n', '\r', '\x00'] := rfl
                  rw [this] at hmem
                  simp only [List.mem_append] at hmem
                  rcases hmem with ((h | h) | h) | h
                  · exact .inl h
                  · exact .inr (.inl h)
                  · exact .inr (.inr (.inl h))
                  · exact .inr (.inr (.inr h))
                rcases hsplit with hm | hm | hm | hm
                · have := simpleEscape_of_mem hm; rw [hs] at this; cases this
                · simp only [List.mem_cons, List.not_mem_nil, or_false] at hm
                  rcases hm with rfl | rfl | rfl | rfl
                  · exact hx rfl
                  · exact hN rfl
                  · exact hu rfl
                  · exact hU rfl
                · have := octVal_of_mem hm; rw [ho] at this; cases this
                · simp only [List.mem_cons, List.not_mem_nil, or_false] at hm
                  rcases hm with rfl | rfl | rfl
                  · exact hn (.inl rfl)
                  · exact hn (.inr rfl)
                  · exact hz rfl

theorem unescape_length : ∀ (n : Nat) (s v : Txt), s.length ≤ n → unescape s = some v →
    v.length ≤ s.length ∧ (v.length = s.length → RawOk '\'' s → Plain s)
  | _, [], v, _, h => by
    simp only [unescape, unescapeFrom, Option.some.injEq] at h
    subst h; exact ⟨by simp, fun _ _ => .nil⟩
  | 0, c :: s, v, hn, _ => by simp at hn
  | n + 1, c :: s, v, hn, h => by
    by_cases hc : c = '\\'
    · subst hc
      cases s with
      | nil => simp [unescape, unescapeFrom] at h
      | cons d t =>
        rw [unescape_escape] at h
        cases he : escapeOf d t with
        | none => rw [he] at h; cases h
        | some p =>
          obtain ⟨out, k⟩ := p
          rw [he] at h
          simp only [Option.bind_some] at h
          cases hu : unescape (t.drop k) with
          | none => rw [hu] at h; cases h
          | some v' =>
            rw [hu] at h
            simp only [Option.map_some, Option.some.injEq] at h
            have hl : (t.drop k).length ≤ t.length := by simp
            obtain ⟨i1, i2⟩ := unescape_length n (t.drop k) v' (by simp at hn; omega) hu
            subst h
            rcases escapeOf_spec he with h1 | ⟨h1, rfl, h3⟩
            · constructor
              · simp; omega
              · intro h4; simp at h4; omega
            · constructor
              · simp; omega
              · intro h4 hr
                cases hr with
                | char h _ => exact absurd rfl h
                | pair hd hr =>
                  rcases h3 with h3 | h3
                  · exact .backslash d h3 (i2 (by simp at h4 ⊢; omega) hr)
                  · exact absurd h3 hd
    · rw [unescape_cons hc] at h
      cases hu : unescape s with
      | none => rw [hu] at h; cases h
      | some v' =>
        rw [hu] at h
        simp only [consTo, Option.map_some, Option.some.injEq] at h
        obtain ⟨i1, i2⟩ := unescape_length n s v' (by simp at hn; omega) hu
        subst h
        refine ⟨by simp; omega, fun h4 hr => ?_⟩
        cases hr with
        | char h1 h2 h3 h5 h6 hr =>
          exact .char c (by simp [h1, h2, h3, h5, h6]) (i2 (by simpa using h4) hr)
        | pair => exact absurd rfl hc

theorem literalAfter_length {q : Char} {t v rest : Txt} (h : literalAfter q t = some (v, rest)) :
    v.length + 1 + rest.length ≤ t.length ∧ (v.length + 1 + rest.length = t.length →
      ∃ raw, t = raw ++ q :: rest ∧ RawOk q raw ∧ unescape raw = some v ∧ v.length = raw.length) := by
  have one : ((scan q t).bind fun p => (unescape p.1).map (·, p.2)) = some (v, rest) →
      v.length + 1 + rest.length ≤ t.length ∧ (v.length + 1 + rest.length = t.length →
      ∃ raw, t = raw ++ q :: rest ∧ RawOk q raw ∧ unescape raw = some v ∧ v.length = raw.length) := by
    intro h
    cases hs : scan q t with
    | none => rw [hs] at h; cases h
    | some p =>
      obtain ⟨raw, rest'⟩ := p
      rw [hs] at h
      simp only [Option.bind_some] at h
      cases hu : unescape raw with
      | none => rw [hu] at h; cases h
      | some v' =>
        rw [hu] at h
        simp only [Option.map_some, Option.some.injEq, Prod.mk.injEq] at h
        obtain ⟨rfl, rfl⟩ := h
        obtain ⟨h1, h2⟩ := scan_raw q t raw rest' hs
        have h3 := (unescape_length _ raw v' (Nat.le_refl _) hu).1
        have h4 := congrArg List.length h1
        simp only [List.length_append, List.length_cons] at h4
        exact ⟨by omega, fun h5 => ⟨raw, h1, h2, hu, by omega⟩⟩
  unfold literalAfter at h
  split at h
  · rename_i a b r
    split at h
    · cases hs : scan3 q r with
      | none => rw [hs] at h; cases h
      | some p =>
        obtain ⟨raw, rest'⟩ := p
        rw [hs] at h
        simp only [Option.bind_some] at h
        cases hu : unescape raw with
        | none => rw [hu] at h; cases h
        | some v' =>
          rw [hu] at h
          simp only [Option.map_some, Option.some.injEq, Prod.mk.injEq] at h
          obtain ⟨rfl, rfl⟩ := h
          have h1 := scan3_length q r raw rest' hs
          have h3 := (unescape_length _ raw v' (Nat.le_refl _) hu).1
          simp only [List.length_cons]
          exact ⟨by omega, fun h5 => by omega⟩
    · exact one h
  · exact one h

theorem skipWs_length (t : Txt) : (skipWs t).length ≤ t.length :=
  (List.dropWhile_suffix _).length_le

theorem literals_length : ∀ (n : Nat) (t v r : Txt), literals n t = some (v, r) → v.length + 2 + r.length ≤ t.length
  | 0, t, v, r, h => by simp [literals] at h
  | n + 1, [], v, r, h => by simp [literals] at h
  | n + 1, c :: t, v, r, h => by
    rw [literals] at h
    split at h
    · cases hl : literalAfter c t with
      | none => rw [hl] at h; cases h
      | some p =>
        obtain ⟨v1, rest⟩ := p
        rw [hl] at h
        simp only at h
        have h1 := (literalAfter_length hl).1
        have h2 := skipWs_length rest
        cases hs : skipWs rest with
        | nil =>
          rw [hs] at h
          simp only [Option.some.injEq, Prod.mk.injEq] at h
          obtain ⟨rfl, rfl⟩ := h
          simp only [List.length_cons, List.length_nil]; omega
        | cons d r' =>
          rw [hs] at h h2
          simp only at h
          split at h
          · cases hn : literals n (d :: r') with
            | none => rw [hn] at h; cases h
            | some p =>
              obtain ⟨v2, r2⟩ := p
              rw [hn] at h
              simp only [Option.map_some, Option.some.injEq, Prod.mk.injEq] at h
              obtain ⟨rfl, rfl⟩ := h
              have h3 := literals_length n _ _ _ hn
              simp only [List.length_cons, List.length_append] at *; omega
          · simp only [Option.some.injEq, Prod.mk.injEq] at h
            obtain ⟨rfl, rfl⟩ := h
            simp only [List.length_cons] at *; omega
    · cases h

/-- a literal `'isl'` that is read as `isl` and leaves something behind is plain -/
theorem literals_plain {n : Nat} {isl r : Txt} (hr : r ≠ [])
    (h : literals n ('\'' :: (isl ++ ['\'', ')'])) = some (isl, r)) : Plain isl ∧ r = [')'] := by
  cases n with
  | zero => simp [literals] at h
  | succ n =>
    rw [literals, if_pos (.inl rfl)] at h
    cases hl : literalAfter '\'' (isl ++ ['\'', ')']) with
    | none => rw [hl] at h; cases h
    | some p =>
      obtain ⟨v1, rest⟩ := p
      rw [hl] at h
      simp only at h
      obtain ⟨h1, h1'⟩ := literalAfter_length hl
      have h2 := skipWs_length rest
      simp only [List.length_append, List.length_cons, List.length_nil] at h1
      cases hs : skipWs rest with
      | nil =>
        rw [hs] at h
        simp only [Option.some.injEq, Prod.mk.injEq] at h
        exact absurd h.2.symm hr
      | cons d r' =>
        rw [hs] at h h2
        simp only at h
        split at h
        · cases hn : literals n (d :: r') with
          | none => rw [hn] at h; cases h
          | some p =>
            obtain ⟨v2, r2⟩ := p
            rw [hn] at h
            simp only [Option.map_some, Option.some.injEq, Prod.mk.injEq] at h
            obtain ⟨h4, rfl⟩ := h
            have h3 := literals_length n _ _ _ hn
            have := congrArg List.length h4
            simp only [List.length_cons, List.length_append] at *; omega
        · simp only [Option.some.injEq, Prod.mk.injEq] at h
          obtain ⟨rfl, rfl⟩ := h
          simp only [List.length_cons] at h2
          obtain ⟨raw, e1, e2, e3, e4⟩ := h1' (by simp only [List.length_append, List.length_cons, List.length_nil]; omega)
          obtain ⟨e5, e6⟩ := List.append_inj e1 e4
          subst e5
          refine ⟨(unescape_length _ _ _ (Nat.le_refl _) e3).2 rfl e2, ?_⟩
          injection e6 with _ e6
          rw [← e6] at hs
          rw [← hs]; decide

theorem items_length : ∀ (n : Nat) (t : Txt) (l : List Txt) (r : Txt), items n t = some (l, r) → r.length ≤ t.length
  | 0, t, l, r, h => by simp [items] at h
  | n + 1, t, l, r, h => by
    have h0 := skipWs_length t
    rw [items] at h
    split at h
    · rename_i r' hs
      simp only [Option.some.injEq, Prod.mk.injEq] at h
      obtain ⟨_, rfl⟩ := h
      rw [hs] at h0
      simp only [List.length_cons] at h0; omega
    · cases hl : literals (skipWs t).length (skipWs t) with
      | none => rw [hl] at h; cases h
      | some p =>
        obtain ⟨v, r1⟩ := p
        rw [hl] at h
        simp only at h
        have h1 := literals_length _ _ _ _ hl
        have h2 := skipWs_length r1
        split at h
        · rename_i r2 hs
          rw [hs] at h2
          simp only [List.length_cons] at h2
          cases hi : items n r2 with
          | none => rw [hi] at h; cases h
          | some p =>
            obtain ⟨l', r3⟩ := p
            rw [hi] at h
            simp only [Option.map_some, Option.some.injEq, Prod.mk.injEq] at h
            obtain ⟨_, rfl⟩ := h
            have h3 := items_length n r2 l' r3 hi
            omega
        · rename_i r2 hs
          rw [hs] at h2
          simp only [List.length_cons] at h2
          simp only [Option.some.injEq, Prod.mk.injEq] at h
          obtain ⟨_, rfl⟩ := h
          omega
        · cases h

theorem value_length {t r : Txt} {v : Value} (h : value t = some (v, r)) :
    r.length ≤ t.length ∧ ∀ s, v = .str s → s.length + 2 + r.length ≤ t.length := by
  have hd : ∀ t : Txt, (t.dropWhile isIdent).length ≤ t.length := fun t => (List.dropWhile_suffix _).length_le
  have lit : ∀ t : Txt, ((literals t.length t).map fun p => (Value.str p.1, p.2)) = some (v, r) →
      r.length ≤ t.length ∧ ∀ s, v = .str s → s.length + 2 + r.length ≤ t.length := by
    intro t h
    cases hl : literals t.length t with
    | none => rw [hl] at h; cases h
    | some p =>
      obtain ⟨v1, r1⟩ := p
      rw [hl] at h
      simp only [Option.map_some, Option.some.injEq, Prod.mk.injEq] at h
      obtain ⟨rfl, rfl⟩ := h
      have := literals_length _ _ _ _ hl
      exact ⟨by omega, fun s hs => by injection hs with hs; subst hs; exact this⟩
  unfold value at h
  split at h
  · rename_i r0
    cases hi : items ('[' :: r0).length r0 with
    | none => rw [hi] at h; cases h
    | some p =>
      obtain ⟨l, r1⟩ := p
      rw [hi] at h
      simp only [Option.map_some, Option.some.injEq, Prod.mk.injEq] at h
      obtain ⟨rfl, rfl⟩ := h
      have := items_length _ _ _ _ hi
      exact ⟨by simp only [List.length_cons]; omega, fun s hs => by cases hs⟩
  · exact lit _ h
  · exact lit _ h
  · split at h
    · simp only [Option.some.injEq, Prod.mk.injEq] at h
      obtain ⟨rfl, rfl⟩ := h
      exact ⟨hd _, fun s hs => by cases hs⟩
    · split at h
      · simp only [Option.some.injEq, Prod.mk.injEq] at h
        obtain ⟨rfl, rfl⟩ := h
        exact ⟨hd _, fun s hs => by cases hs⟩
      · split at h
        · simp only [Option.some.injEq, Prod.mk.injEq] at h
          obtain ⟨rfl, rfl⟩ := h
          exact ⟨hd _, fun s hs => by cases hs⟩
        · cases h

theorem keywords_length : ∀ (n : Nat) (t : Txt) (kw : List (Txt × Value)) (r : Txt), keywords n t = some (kw, r) →
    r.length < t.length ∧ ∀ k s, (k, Value.str s) ∈ kw → s.length + 2 < t.length
  | 0, t, kw, r, h => by simp [keywords] at h
  | n + 1, t, kw, r, h => by
    have h0 := skipWs_length t
    rw [keywords] at h
    split at h
    · rename_i r' hs
      simp only [Option.some.injEq, Prod.mk.injEq] at h
      obtain ⟨rfl, rfl⟩ := h
      rw [hs] at h0
      simp only [List.length_cons] at h0
      exact ⟨by omega, by simp⟩
    · split at h
      · cases h
      · have h1 : ((skipWs t).dropWhile isIdent).length ≤ (skipWs t).length := (List.dropWhile_suffix _).length_le
        have h2 := skipWs_length ((skipWs t).dropWhile isIdent)
        split at h
        · rename_i r0 hs
          rw [hs] at h2
          simp only [List.length_cons] at h2
          have h3 := skipWs_length r0
          cases hv : value (skipWs r0) with
          | none => rw [hv] at h; cases h
          | some p =>
            obtain ⟨v, r1⟩ := p
            rw [hv] at h
            simp only at h
            obtain ⟨h4, h5⟩ := value_length hv
            have h6 := skipWs_length r1
            split at h
            · rename_i r2 hs2
              rw [hs2] at h6
              simp only [List.length_cons] at h6
              cases hk : keywords n r2 with
              | none => rw [hk] at h; cases h
              | some p =>
                obtain ⟨kw', r3⟩ := p
                rw [hk] at h
                simp only [Option.map_some, Option.some.injEq, Prod.mk.injEq] at h
                obtain ⟨rfl, rfl⟩ := h
                obtain ⟨i1, i2⟩ := keywords_length n r2 kw' r3 hk
                refine ⟨by omega, fun k s hm => ?_⟩
                rcases List.mem_cons.1 hm with hm | hm
                · injection hm with _ hm
                  have := h5 s hm.symm
                  omega
                · have := i2 k s hm
                  omega
            · rename_i r2 hs2
              rw [hs2] at h6
              simp only [List.length_cons] at h6
              simp only [Option.some.injEq, Prod.mk.injEq] at h
              obtain ⟨rfl, rfl⟩ := h
              refine ⟨by omega, fun k s hm => ?_⟩
              rcases List.mem_singleton.1 hm with hm
              injection hm with _ hm
              have := h5 s hm.symm
              omega
            · cases h
        · cases h

theorem get_mem {kw : List (Txt × Value)} {k : Txt} {v : Value} (h : get kw k = some v) : (k, v) ∈ kw := by
  unfold get at h
  have : ∀ l : List (Txt × Value), l.lookup k = some v → (k, v) ∈ l := by
    intro l
    induction l with
    | nil => intro h; simp at h
    | cons p l ih =>
      intro h
      obtain ⟨a, b⟩ := p
      rw [List.lookup_cons] at h
      cases hb : (k == a) with
      | true =>
        rw [hb] at h
        simp only [Option.some.injEq] at h
        have : k = a := by simpa using hb
        subst this; subst h; simp
      | false => rw [hb] at h; exact List.mem_cons_of_mem _ (ih h)
  have := this _ h
  simpa using this

/-- the arguments of a decorator printed without guards: if they are read as this island, its name is plain -/
theorem keywords_plain {n : Nat} {isl t : Txt} {kw : List (Txt × Value)}
    (ht : skipWs t = "island_name='".toList ++ isl ++ ['\'', ')']) (h : keywords n t = some (kw, []))
    (hi : get kw "island_name".toList = some (.str isl)) : Plain isl := by
  cases n with
  | zero => simp [keywords] at h
  | succ n =>
    have hid := ident_island ('\'' :: (isl ++ ['\'', ')']))
    have e' : "island_name=".toList ++ '\'' :: (isl ++ ['\'', ')']) =
      'i' :: ("sland_name=".toList ++ '\'' :: (isl ++ ['\'', ')'])) := by simp
    have e : "island_name='".toList ++ isl ++ ['\'', ')'] = 'i' :: ("sland_name=".toList ++ '\'' :: (isl ++ ['\'', ')'])) := by
      simp
    rw [e'] at hid
    rw [keywords_step (ht.trans e) (by decide) hid.2, skipWs_cons (by decide), hid.1] at h
    cases hv : value ('\'' :: (isl ++ ['\'', ')'])) with
    | none => rw [hv] at h; cases h
    | some p =>
      obtain ⟨v, r1⟩ := p
      rw [hv] at h
      simp only at h
      obtain ⟨h4, h5⟩ := value_length hv
      simp only [List.length_append, List.length_cons, List.length_nil] at h4 h5
      have h6 := skipWs_length r1
      have hvl : ∃ w, v = .str w ∧ literals ('\'' :: (isl ++ ['\'', ')'])).length ('\'' :: (isl ++ ['\'', ')'])) = some (w, r1) := by
        unfold value at hv
        simp only at hv
        cases hl : literals ('\'' :: (isl ++ ['\'', ')'])).length ('\'' :: (isl ++ ['\'', ')'])) with
        | none => rw [hl] at hv; cases hv
        | some p =>
          rw [hl] at hv
          simp only [Option.map_some, Option.some.injEq, Prod.mk.injEq] at hv
          exact ⟨p.1, hv.1.symm, by rw [← hv.2]⟩
      obtain ⟨w, rfl, hl⟩ := hvl
      have h7 := h5 w rfl
      split at h
      · rename_i r2 hs2
        rw [hs2] at h6
        simp only [List.length_cons] at h6
        cases hk : keywords n r2 with
        | none => rw [hk] at h; cases h
        | some p =>
          obtain ⟨kw', r3⟩ := p
          rw [hk] at h
          simp only [Option.map_some, Option.some.injEq, Prod.mk.injEq] at h
          obtain ⟨rfl, rfl⟩ := h
          obtain ⟨i1, i2⟩ := keywords_length n r2 kw' _ hk
          rcases List.mem_cons.1 (get_mem hi) with hm | hm
          · injection hm with _ hm
            injection hm with hm
            subst hm
            simp only [List.length_nil] at i1
            omega
          · have := i2 _ _ hm
            omega
      · rename_i r2 hs2
        simp only [Option.some.injEq, Prod.mk.injEq] at h
        obtain ⟨rfl, rfl⟩ := h
        rcases List.mem_singleton.1 (get_mem hi) with hm
        injection hm with _ hm
        injection hm with hm
        subst hm
        exact (literals_plain (by rintro rfl; simp [skipWs] at hs2) hl).1
      · cases h

theorem callDeco_island {name : Txt} {kw : List (Txt × Value)} {c : Call} {s : Txt} (h : callDeco name kw = some c)
    (hc : c.island = some s) : get kw "island_name".toList = some (.str s) := by
  have key : islandArg kw = some (some s) := by
    have done : ∀ (f : Option Txt → Call), (∀ i, (f i).island = i) → (islandArg kw).map f = some c →
        islandArg kw = some (some s) := by
      intro f hf h
      cases hi : islandArg kw with
      | none => rw [hi] at h; cases h
      | some i => rw [hi] at h; injection h with h; rw [← h, hf] at hc; rw [hc]
    unfold callDeco at h
    split at h
    · split at h
      · exact done _ (fun _ => rfl) h
      · cases h
    · split at h
      · split at h
        · exact done _ (fun _ => rfl) h
        · cases h
      · split at h
        · split at h
          · cases hi : islandArg kw with
            | none => rw [hi] at h; cases h
            | some i =>
              rw [hi] at h
              simp only [Option.bind_some] at h
              cases hg : guardsArg kw with
              | none => rw [hg] at h; cases h
              | some g => rw [hg] at h; injection h with h; rw [← h] at hc; exact congrArg _ hc
          · cases h
        · cases h
  unfold islandArg at key
  split at key
  · injection key with key; cases key
  · injection key with key; cases key
  · rename_i s' hg
    injection key with key; injection key with key; rw [hg, key]
  · cases key

/-- C80 (b): the text of a decorator without guards is read back as the same decorator exactly if the island's name is
plain. For every other name it is refused or gives another island or other arguments. -/
theorem C80_round_trip_iff (printable : Char → Bool) (kind : Kind) (isl : Txt) :
    decode (decoText printable kind isl none) = some (⟨kind, some isl, none⟩, []) ↔ Plain isl := by
  constructor
  · intro h
    have main : ∀ (name t : Txt), (∀ c ∈ name, isIdent c = true) →
        decode ("@pth.".toList ++ name ++ '(' :: t) = some (⟨kind, some isl, none⟩, []) →
        skipWs t = "island_name='".toList ++ isl ++ ['\'', ')'] → Plain isl := by
      intro name t hn h ht
      have h1 : (name ++ '(' :: t).takeWhile isIdent = name := by
        rw [List.takeWhile_append_of_pos hn]; simp [show isIdent '(' = false by decide]
      have h2 : (name ++ '(' :: t).dropWhile isIdent = '(' :: t := by
        rw [List.dropWhile_append_of_pos hn]; simp [show isIdent '(' = false by decide]
      have h4 : ("@pth.".toList ++ name ++ '(' :: t).drop 5 = name ++ '(' :: t := by simp
      unfold decode readDeco at h
      rw [if_pos (by rw [List.isPrefixOf_iff_prefix]; exact ⟨name ++ '(' :: t, by simp⟩)] at h
      simp only [h4, h1, h2] at h
      cases hk : keywords ("@pth.".toList ++ name ++ '(' :: t).length t with
      | none => rw [hk] at h; cases h
      | some p =>
        obtain ⟨kw, r⟩ := p
        rw [hk] at h
        simp only [Option.map_some] at h
        cases hc : callDeco name kw with
        | none => rw [hc] at h; cases h
        | some c =>
          rw [hc] at h
          simp only [Option.map_some, Option.some.injEq, Prod.mk.injEq] at h
          obtain ⟨rfl, rfl⟩ := h
          exact keywords_plain ht hk (callDeco_island hc rfl)
    have sk : ∀ t : Txt, skipWs ("island_name='".toList ++ t) = "island_name='".toList ++ t := by
      intro t; simp [skipWs, List.dropWhile, isWs]
    have skp : ∀ t : Txt, skipWs ("\n\tisland_name='".toList ++ t) = "island_name='".toList ++ t := by
      intro t; simp [skipWs, List.dropWhile, isWs]
    by_cases hk : kind = .pure
    · subst hk
      have e := decoText_pure printable isl none []
      rw [List.append_nil] at e
      rw [e] at h
      exact main _ _ (by decide) h (by rw [List.append_assoc, skp, List.append_assoc]; rfl)
    · have e := decoText_other printable kind hk isl none []
      rw [List.append_nil] at e
      rw [e] at h
      exact main _ _ (by cases kind <;> decide) h (by rw [List.append_assoc, sk])
  · intro h
    have := C80_round_trip_partial printable kind isl none h (.inr rfl) []
    rwa [List.append_nil] at this

/-- C80 (c): an argument `strictly_autonomous` makes `autonomous` strict exactly if it is a true value of Python, that is
not None, not False, not the empty text and not the empty list. -/
theorem C80_strictly_argument (v : Value) (isl : Txt) :
    callDeco "autonomous".toList [("island_name".toList, .str isl), ("strictly_autonomous".toList, v)] =
      some ⟨if v = .none ∨ v = .bool false ∨ v = .str [] ∨ v = .list [] then .autonomous else .strictly, some isl, none⟩ := by
  have hall : [("island_name".toList, Value.str isl), ("strictly_autonomous".toList, v)].all
      (fun p => p.1 == "island_name".toList || p.1 == "strictly_autonomous".toList) = true := by
    simp only [List.all_cons, List.all_nil]; decide
  have hi : islandArg [("island_name".toList, Value.str isl), ("strictly_autonomous".toList, v)] = some (some isl) := rfl
  have hs : Pyth.Deco.get [("island_name".toList, Value.str isl), ("strictly_autonomous".toList, v)]
      "strictly_autonomous".toList = some v := rfl
  unfold callDeco
  rw [if_pos rfl, if_pos hall, hi, hs]
  cases v with
  | none => rfl
  | bool b => cases b <;> rfl
  | str s => cases s <;> simp [truthy]
  | list l => cases l <;> simp [truthy]

end Pyth.Deco

namespace Pyth.Deco.Ex
open Pyth.Src

/-- what a text is read as, with strings for display -/
def shown (t : Txt) : Option (Kind × Option String × Option (List String) × String) :=
  (decode t).map fun p => (p.1.kind, p.1.island.map String.ofList, p.1.guards.map (·.map String.ofList), String.ofList p.2)

/-- the hypotheses of (a) are met by a name with spaces and a backslash, with guards of which one has quotes -/
example : Plain "my isl\\d".toList ∧
    shown (decoText (fun _ => true) .pure "my isl\\d".toList (some ["g1".toList, "it's \"x\"\n".toList]) ++ "\ndef f(): ...".toList) =
      some (.pure, some "my isl\\d", some ["g1", "it's \"x\"\n"], "\ndef f(): ...") := by
  refine ⟨?_, by decide +kernel⟩
  repeat' first
    | exact Plain.nil
    | refine Plain.char _ (by decide) ?_
    | refine Plain.backslash _ (by decide) ?_

/-- C80 is false for other names: a quote in the island's name makes the text unreadable; an escape or two quotes give
another island; and a name can bring its own arguments -/
theorem C80_names_with_escapes_counterexample :
    shown (decoText (fun _ => true) .autonomous "it's".toList none) = none ∧
    shown (decoText (fun _ => true) .autonomous "c:\\temp".toList none) = some (.autonomous, some "c:\temp", none, "") ∧
    shown (decoText (fun _ => true) .autonomous "a' 'b".toList none) = some (.autonomous, some "ab", none, "") ∧
    shown (decoText (fun _ => true) .autonomous "a',strictly_autonomous='yes".toList none) =
      some (.strictly, some "a", none, "") := by
  refine ⟨?_, ?_, ?_, ?_⟩ <;> decide +kernel

end Pyth.Deco.Ex
