import Verif.Proofs.NormalizerCrash
import Verif.Props.SourceText
/-! # C53 (what normalization ignores), C54 (idempotence), C70 (string literals) -/
namespace Pyth.Src

/-- `Reads parse t m`: the source text `t` can be cleaned, its function name extracted, and the
cleaned text parses to the module `m`. -/
def Reads (parse : Parser) (t : Txt) (m : List T) : Prop :=
  ∃ c name, clean t = .ok c ∧ functionName c = .ok name ∧ parse c = some m

/-- The printer distinguishes the trees `k` and `k'`. -/
def PrintsApart (print : Printer) (k k' : List T) : Prop := print k = print k' → k = k'

theorem normalize_eq (parse : Parser) (print : Printer) (known : List String) (drop : Bool)
    {t : Txt} {m : List T} (h : Reads parse t m) :
    normalize parse print known drop t = (normModule known drop m).bind (unparse print) := by
  obtain ⟨c, name, h1, h2, h3⟩ := h
  unfold normalize
  rw [h1]
  show (do let _ ← functionName c; _) = _
  rw [h2]
  show (match parse c with | none => _ | some m => _) = _
  rw [h3]
  rfl

/-- A successfully normalized text reads as some module. -/
theorem reads_of_normalize {parse : Parser} {print : Printer} {known : List String} {drop : Bool}
    {t s : Txt} (h : normalize parse print known drop t = .ok s) : ∃ m, Reads parse t m := by
  unfold normalize at h
  cases h1 : clean t with
  | error e => rw [h1] at h; cases h
  | ok c =>
    rw [h1] at h
    cases h2 : functionName c with
    | error e =>
      replace h : (do let _ ← functionName c; _) = _ := h
      rw [h2] at h; cases h
    | ok n =>
      cases h3 : parse c with
      | none =>
        replace h : (do let _ ← functionName c; _) = _ := h
        rw [h2] at h
        replace h : (match parse c with | none => _ | some m => _) = _ := h
        rw [h3] at h; cases h
      | some m => exact ⟨m, c, n, h1, h2, h3⟩

/-- **C53**: two pieces of code normalize to the same tree iff they are the same apart from
annotations and docstrings. -/
theorem C53_trees (t u : T) : norm t = norm u ↔ Alike t u := norm_iff t u

/-- **C53**: normalization of a parsed module succeeds iff it starts with a regular function with
at most one decorator (which has to be a call of a Pythagoras decorator if decorators are to be
dropped), and printing succeeds iff no annotated variable is left. -/
theorem C53_success_iff (parse : Parser) (print : Printer) (known : List String) (drop : Bool)
    (t : Txt) (m : List T) (h : Reads parse t m) :
    (∃ s, normalize parse print known drop t = .ok s) ↔
      Acceptable known drop m ∧ ¬ HasAnnAssignL (if drop then undecorated m else m) := by
  rw [normalize_eq parse print known drop h]
  constructor
  · rintro ⟨s, hs⟩
    cases hm : normModule known drop m with
    | error e => rw [hm] at hs; cases hs
    | ok k =>
      rw [hm] at hs
      obtain ⟨ha, hk⟩ := (normModule_ok_iff _ _ _ _).mp hm
      refine ⟨ha, ?_⟩
      intro hh
      replace hs : unparse print k = .ok s := hs
      unfold unparse at hs
      rw [hk, (crashesL_norm _).mpr hh] at hs
      cases hs
  · rintro ⟨ha, hn⟩
    refine ⟨print (normL (if drop then undecorated m else m)), ?_⟩
    rw [(normModule_ok_iff _ _ _ _).mpr ⟨ha, rfl⟩]
    show unparse print _ = _
    unfold unparse
    rw [if_neg]
    intro hc; exact hn ((crashesL_norm _).mp hc)

theorem normalize_ok {parse : Parser} {print : Printer} {known : List String} {drop : Bool}
    {t s : Txt} {m : List T} (h : Reads parse t m)
    (hs : normalize parse print known drop t = .ok s) :
    Acceptable known drop m ∧ s = print (normL (if drop then undecorated m else m)) ∧
      crashesL (normL (if drop then undecorated m else m)) = false := by
  rw [normalize_eq parse print known drop h] at hs
  cases hm : normModule known drop m with
  | error e => rw [hm] at hs; cases hs
  | ok k =>
    rw [hm] at hs
    obtain ⟨ha, hk⟩ := (normModule_ok_iff _ _ _ _).mp hm
    replace hs : unparse print k = .ok s := hs
    unfold unparse at hs
    rw [← hk]
    split at hs
    · cases hs
    · rename_i hc
      cases hs
      exact ⟨ha, rfl, by simpa using hc⟩

/-- **C53**: if two sources normalize (decorators being dropped) and their modules are the same
apart from annotations, docstrings and the decorator of the function, the normalized sources are
the same. -/
theorem C53_same_normal_form (parse : Parser) (print : Printer) (known : List String)
    (t t' s s' : Txt) (m m' : List T) (h : Reads parse t m) (h' : Reads parse t' m')
    (hs : normalize parse print known true t = .ok s)
    (hs' : normalize parse print known true t' = .ok s')
    (ha : AlikeL (undecorated m) (undecorated m')) : s = s' := by
  obtain ⟨-, e, -⟩ := normalize_ok h hs
  obtain ⟨-, e', -⟩ := normalize_ok h' hs'
  rw [e, e']
  simp only [if_true]
  rw [(normL_iff _ _).mpr ha]

/-- **C53**, converse: if printing distinguishes the normalized trees, sources with the same normalized
source have modules that are the same apart from annotations, docstrings and the decorator. -/
theorem C53_rest_preserved (parse : Parser) (print : Printer)
    (known : List String) (t t' s : Txt) (m m' : List T) (h : Reads parse t m)
    (h' : Reads parse t' m')
    (hinj : PrintsApart print (normL (undecorated m)) (normL (undecorated m')))
    (hs : normalize parse print known true t = .ok s)
    (hs' : normalize parse print known true t' = .ok s) :
    AlikeL (undecorated m) (undecorated m') := by
  obtain ⟨-, e, -⟩ := normalize_ok h hs
  obtain ⟨-, e', -⟩ := normalize_ok h' hs'
  exact (normL_iff _ _).mp (hinj (e.symm.trans e'))

/-- **C53**, when decorators are kept: the sources agree iff the modules are alike, decorator
included. -/
theorem C53_keeping_decorators (parse : Parser) (print : Printer)
    (known : List String) (t t' s s' : Txt) (m m' : List T)
    (h : Reads parse t m) (h' : Reads parse t' m') (hinj : PrintsApart print (normL m) (normL m'))
    (hs : normalize parse print known false t = .ok s)
    (hs' : normalize parse print known false t' = .ok s') :
    s = s' ↔ AlikeL m m' := by
  obtain ⟨-, e, -⟩ := normalize_ok h hs
  obtain ⟨-, e', -⟩ := normalize_ok h' hs'
  rw [e, e']
  simp only [Bool.false_eq_true, if_false]
  rw [← normL_iff]
  exact ⟨fun h => hinj h, fun h => congrArg print h⟩

/-- **C70**: an unindented source text without blank lines (lines separated by newlines) reaches
the parser unchanged. -/
theorem C70_text_kept_partial (first : Txt) (rest : List Txt)
    (hb : ∀ l ∈ first :: rest, NoBreak l) (hne : ∀ l ∈ first :: rest, ¬ Blank l)
    (hi : ∀ c, first.head? = some c → isSpace c = false) :
    clean (joinNl (first :: rest)) = .ok (joinNl (first :: rest)) := by
  have hl : ∀ ls : List Txt, (∀ l ∈ ls, NoBreak l) → (∀ l ∈ ls, ¬ Blank l) →
      Lines (joinNl ls) ls := by
    intro ls
    induction ls with
    | nil => intro _ _; exact .none
    | cons l ls ih =>
      intro h1 h2
      cases ls with
      | nil =>
        refine .last l ?_ (h1 l (by simp))
        intro e; exact h2 l (by simp) (by rw [e]; intro c hc; cases hc)
      | cons m ms =>
        exact .one l '\n' _ _ (h1 l (by simp)) (by decide) (by rintro ⟨h, -⟩; cases h)
          (ih (fun x hx => h1 x (by simp [hx])) (fun x hx => h2 x (by simp [hx])))
  have hk : (first :: rest).filter (fun l => decide (¬ Blank l)) = first :: rest := by
    rw [List.filter_eq_self]; intro l hm; simpa using hne l hm
  have := (C55_clean_iff (hl _ hb hne) hk (ind := []) (core := first)
    ⟨rfl, (by intro c hc; cases hc), hi⟩ (first :: rest)).mpr (by simp)
  unfold clean
  rw [this]

/-- **C70** does not hold for every text: blank lines are removed before parsing, also inside
multi-line string literals. Functions that return different strings have the same normalized
source, whatever the parser and the printer do. -/
theorem C70_blank_lines_in_literals_counterexample (parse : Parser) (print : Printer)
    (known : List String) (drop : Bool) :
    normalize parse print known drop "def f():\n    return '''a\n\nb'''".toList
      = normalize parse print known drop "def f():\n    return '''a\nb'''".toList := by
  have e : clean "def f():\n    return '''a\n\nb'''".toList
      = clean "def f():\n    return '''a\nb'''".toList := by decide +kernel
  unfold normalize
  rw [e]

/-- More generally, inserting blank lines anywhere changes nothing. -/
theorem C70_blank_lines_ignored (parse : Parser) (print : Printer) (known : List String)
    (drop : Bool) (t t' : Txt) (ls ls' : List Txt) (h : Lines t ls) (h' : Lines t' ls')
    (he : ls.filter (fun l => decide (¬ Blank l)) = ls'.filter (fun l => decide (¬ Blank l))) :
    normalize parse print known drop t = normalize parse print known drop t' := by
  have e : clean t = clean t' := by
    unfold clean cleanLines
    rw [kept_eq h, kept_eq h', he]
  unfold normalize
  rw [e]

/-- **C54**: normalizing a normalized tree again changes nothing iff no function or class body in
it starts with two string expressions. -/
theorem C54_idempotent_iff (t : T) : norm (norm t) = norm t ↔ Settled t := norm_norm_iff t

theorem undecorated_normL (m : List T) : normL (undecorated m) = undecorated (normL m) := by
  cases m with
  | nil => rfl
  | cons x xs => cases x <;> simp [undecorated, normL, norm]

theorem acceptable_norm {known : List String} {drop : Bool} {m : List T}
    (h : Acceptable known drop m) :
    Acceptable known drop (normL (if drop then undecorated m else m)) := by
  obtain ⟨n, pre, body, decos, r, rest, rfl, hd⟩ := h
  cases drop with
  | true =>
    simp only [if_true, undecorated, normL, norm]
    exact ⟨n, _, _, [], _, _, rfl, .inl rfl⟩
  | false =>
    simp only [Bool.false_eq_true, if_false, normL, norm]
    refine ⟨n, _, _, _, _, _, rfl, ?_⟩
    rcases hd with rfl | ⟨d, rfl, -⟩
    · exact .inl (by simp [normL])
    · exact .inr ⟨norm d, by simp [normL], by intro h; cases h⟩

/-- **C54** for sources: let `t` normalize to `s`, where the source `s` reads back as the tree it
was printed from and the printer distinguishes it from its own normalization. Normalizing `s` succeeds and gives `s` again
iff no function or class body of `t` (annotations and the dropped decorator apart) starts with two
string expressions. -/
theorem C54_source_idempotent_iff (parse : Parser) (print : Printer)
    (known : List String) (drop : Bool) (t s : Txt) (m : List T) (h : Reads parse t m)
    (hinj : PrintsApart print (normL (normL (if drop then undecorated m else m)))
      (normL (if drop then undecorated m else m)))
    (hs : normalize parse print known drop t = .ok s)
    (hr : Reads parse s (normL (if drop then undecorated m else m))) :
    normalize parse print known drop s = .ok s ↔
      SettledL (if drop then undecorated m else m) := by
  obtain ⟨ha, e, hc⟩ := normalize_ok h hs
  rw [normalize_eq parse print known drop hr,
    (normModule_ok_iff _ _ _ _).mpr ⟨acceptable_norm ha, rfl⟩]
  have e2 : (if drop then undecorated (normL (if drop then undecorated m else m))
      else normL (if drop then undecorated m else m))
      = normL (if drop then undecorated m else m) := by
    cases drop with
    | false => rfl
    | true =>
      simp only [if_true]
      obtain ⟨n, pre, body, decos, r, rest, rfl, hd⟩ := ha
      simp [undecorated, normL, norm]
  rw [e2, ← normL_norm_iff]
  clear e2
  generalize (if drop then undecorated m else m) = m2 at *
  show unparse print _ = .ok s ↔ _
  constructor
  · intro hu
    unfold unparse at hu
    split at hu
    · cases hu
    · have := Except.ok.inj hu
      rw [e] at this
      exact hinj this
  · intro hu
    rw [hu, unparse, hc, e]
    rfl

/-- **C54** is not unconditional: a function whose body starts with two string expressions loses
one of them each time. -/
theorem C54_two_strings :
    let f := T.fn false "f" [] [.strExpr "doc", .strExpr "more", .node "Return" []] [] none
    norm f = T.fn false "f" [] [.strExpr "more", .node "Return" []] [] none ∧
    norm (norm f) = T.fn false "f" [] [.node "Return" []] [] none := by
  simp [norm, normL, normBody, T.isStr]

/-- **C54**: a function with an annotated variable cannot be normalized at all (AttributeError),
whatever else it does. -/
theorem C54_annotated_variables (parse : Parser) (print : Printer)
    (known : List String) (drop : Bool) (t : Txt) (m : List T) (h : Reads parse t m)
    (ha : Acceptable known drop m) (hv : HasAnnAssignL (if drop then undecorated m else m)) :
    normalize parse print known drop t = .error .attributeError := by
  rw [normalize_eq parse print known drop h, (normModule_ok_iff _ _ _ _).mpr ⟨ha, rfl⟩]
  show unparse print _ = _
  unfold unparse
  rw [(crashesL_norm _).mpr hv]
  rfl

/-- **C54**: a decorator written without parentheses (`@pth.pure`) raises AttributeError when
decorators are dropped; an unknown one, or two decorators, an AssertionError. -/
theorem C54_decorator_failures (parse : Parser) (print : Printer) (known : List String) (t : Txt)
    (n : String) (pre body decos rest : List T) (r : Option T)
    (h : Reads parse t (.fn false n pre body decos r :: rest)) :
    (∀ v a, decos = [.attr v a] →
      normalize parse print known true t = .error .attributeError) ∧
    (∀ i, decos = [.name i] → normalize parse print known true t = .error .attributeError) ∧
    (∀ f as, decos = [.call f as] → ¬ KnownDecorator known (.call f as) →
      normalize parse print known true t = .error .assertionError) ∧
    (∀ d d' ds drop, decos = d :: d' :: ds →
      normalize parse print known drop t = .error .assertionError) := by
  refine ⟨?_, ?_, ?_, ?_⟩
  · rintro v a rfl
    rw [normalize_eq parse print known true h]; rfl
  · rintro i rfl
    rw [normalize_eq parse print known true h]; rfl
  · rintro f as rfl hk
    rw [normalize_eq parse print known true h]
    have : checkDecorator known (.call f as) = .error .assertionError := by
      cases hd : checkDecorator known (.call f as) with
      | ok u => exact absurd ((checkDecorator_ok_iff _ _).mp hd) hk
      | error e =>
        unfold checkDecorator at hd
        split at hd
        · split at hd <;> cases hd; rfl
        · split at hd <;> cases hd; rfl
        · cases hd; rfl
        · rename_i h1 h2 h3
          exact absurd rfl (h3 _ _)
    simp only [normModule, this, if_true]
    rfl
  · rintro d d' ds drop rfl
    rw [normalize_eq parse print known drop h]; rfl

namespace Ex

/-- `@pth.pure() def f(x: int) -> int: 'doc'; return x` -/
def f1 : T := .fn false "f" [.arg "x" (some (.name "int"))]
  [.strExpr "doc", .node "Return" [.name "x"]] [.call (.attr (.name "pth") "pure") []]
  (some (.name "int"))
/-- `def f(x): return x` -/
def f2 : T := .fn false "f" [.arg "x" none] [.node "Return" [.name "x"]] [] none

def t1 : Txt := "@pth.pure()\ndef f(x:int)->int:\n    'doc'\n    return x".toList
def t2 : Txt := "def f(x):\n    return x".toList

/-- a parser and printer that know these texts -/
def parse (t : Txt) : Option (List T) := if t = t1 then some [f1] else if t = t2 then some [f2] else none
def print (_ : List T) : Txt := t2

theorem reads1 : Reads parse t1 [f1] :=
  ⟨t1, "f".toList, by decide +kernel, by decide +kernel, by
    unfold parse; rw [if_pos rfl]⟩
theorem reads2 : Reads parse t2 [f2] :=
  ⟨t2, "f".toList, by decide +kernel, by decide +kernel, by
    unfold parse; rw [if_neg (by decide +kernel), if_pos rfl]⟩

theorem acceptable1 : Acceptable allDecorators true [f1] :=
  ⟨"f", _, _, _, _, _, rfl, .inr ⟨_, rfl, fun _ => .attr _ _ _ (by decide)⟩⟩
theorem acceptable2 : Acceptable allDecorators true [f2] :=
  ⟨"f", _, _, _, _, _, rfl, .inl rfl⟩

theorem noAnn1 : ¬ HasAnnAssignL (undecorated [f1]) := by
  rw [← crashesL_norm]
  simp [undecorated, f1, normL, norm, normBody, crashesL, crashes, crashesO, T.isStr]

theorem alike : AlikeL (undecorated [f1]) (undecorated [f2]) := by
  rw [← normL_iff]
  simp [undecorated, f1, f2, normL, norm, normBody, T.isStr]

-- the hypotheses of `C53_same_normal_form` are met by the decorated, annotated, documented
-- function and the bare one
example : ∃ s, normalize parse print allDecorators true t1 = .ok s :=
  (C53_success_iff _ _ _ _ _ _ reads1).mpr ⟨acceptable1, noAnn1⟩

example : normalize parse print allDecorators true t1 = .ok t2 := by
  rw [normalize_eq _ _ _ _ reads1, (normModule_ok_iff _ _ _ _).mpr ⟨acceptable1, rfl⟩]
  show unparse print _ = _
  unfold unparse
  rw [if_neg]
  · rfl
  · intro h; exact noAnn1 ((crashesL_norm _).mp h)

-- normalizing the normal form (which reads back as itself) changes nothing
example : normalize parse print allDecorators true t2 = .ok t2 := by
  have e : normL [f2] = [f2] := by simp [f2, normL, norm, normBody, T.isStr]
  have hn : ¬ HasAnnAssignL (undecorated [f2]) := by
    rw [← crashesL_norm]
    simp [undecorated, f2, normL, norm, normBody, crashesL, crashes, crashesO, T.isStr]
  obtain ⟨s, hs⟩ := (C53_success_iff parse print allDecorators true t2 _ reads2).mpr
    ⟨acceptable2, hn⟩
  have hs2 : s = t2 := (normalize_ok reads2 hs).2.1
  subst hs2
  refine (C54_source_idempotent_iff parse print allDecorators true t2 t2 [f2] reads2 ?_ hs ?_).mpr ?_
  · intro _
    simp [undecorated, f2, normL, norm, normBody, T.isStr]
  · have : normL (if true then undecorated [f2] else [f2]) = [f2] := e
    rw [this]; exact reads2
  · rw [← normL_norm_iff]; simp [undecorated, f2, normL, norm, normBody, T.isStr]

-- and a function that differs in something else is not alike
example : ¬ Alike f2 (.fn false "f" [.arg "x" none] [.node "Return" [.name "y"]] [] none) := by
  rw [← norm_iff]; simp [f2, norm, normL, normBody, T.isStr]

-- a settled function
example : Settled f1 := by
  rw [← norm_norm_iff]; simp [f1, norm, normL, normBody, T.isStr]

end Ex

end Pyth.Src
