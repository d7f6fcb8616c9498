import Verif.Spec.Ordinarity
import Verif.Props.Normalizer
/-! # C87: exactly the ordinary functions are accepted -/
namespace Pyth.Src

theorem require_ok {b : Bool} {u : Unit} : require b = .ok u ↔ b = true := by
  unfold require; split <;> simp_all

/-- what `assert_ordinarity` checks -/
theorem assertOrdinarity_ok (x : Thing) : assertOrdinarity x = .ok () ↔
    x.isFunction = true ∧ x.hasClosure = false ∧ x.name ≠ some "<lambda>" ∧ x.varPositional = some false ∧ x.isCoroutine = false := by
  have hc : x.isFunction = true → x.callable = true := by cases x <;> simp [Thing.isFunction, Thing.callable]
  unfold assertOrdinarity require acceptsUnlimitedPositionalArgs
  cases h1 : x.callable with
  | false =>
    have : x.isFunction = false := by
      cases h : x.isFunction with
      | false => rfl
      | true => rw [hc h] at h1; cases h1
    simp [this, bind, Except.bind]
  | true =>
    cases h2 : x.isFunction <;> cases h3 : x.hasClosure <;> by_cases h4 : x.name = some "<lambda>" <;>
      rcases h5 : x.varPositional with _ | (_ | _) <;> cases h6 : x.isCoroutine <;> simp [h4, bind, Except.bind]

theorem normalizeText_eq (parse : Parser) (print : Printer) (known : List String) (drop : Bool) {t : Txt} {m : List T}
    (h : Parses parse t m) : normalizeText parse print known drop t = (normModule known drop m).bind (unparse print) := by
  obtain ⟨c, h1, h2⟩ := h
  unfold normalizeText
  rw [h1]
  show (match parse c with | none => _ | some m => _) = _
  rw [h2]
  rfl

theorem normalizeText_ok (parse : Parser) (print : Printer) (known : List String) {t s : Txt} {m : List T} (h : Parses parse t m) :
    normalizeText parse print known true t = .ok s ↔ Acceptable known true m ∧ ¬ HasAnnAssignL (undecorated m) ∧ s = print (normL (undecorated m)) := by
  rw [normalizeText_eq parse print known true h]
  constructor
  · intro hs
    cases hm : normModule known true m with
    | error e => rw [hm] at hs; cases hs
    | ok k =>
      rw [hm] at hs
      obtain ⟨ha, hk⟩ := (normModule_ok_iff _ _ _ _).mp hm
      simp only [if_true] at hk
      replace hs : unparse print k = .ok s := hs
      unfold unparse at hs
      subst hk
      split at hs
      · cases hs
      · rename_i hc
        injection hs with hs
        exact ⟨ha, fun h => hc ((crashesL_norm _).mpr h), hs.symm⟩
  · rintro ⟨ha, hn, rfl⟩
    rw [(normModule_ok_iff _ _ _ _).mpr ⟨ha, rfl⟩]
    show unparse print _ = _
    unfold unparse
    simp only [if_true]
    rw [if_neg]
    exact fun h => hn ((crashesL_norm _).mp h)

theorem normalizeThing_ok (parse : Parser) (print : Printer) (known : List String) (x : Thing) (s : Txt) :
    normalizeThing parse print known true x = .ok s ↔ assertOrdinarity x = .ok () ∧ ∃ t, x.source = some t ∧ normalizeText parse print known true t = .ok s := by
  unfold normalizeThing
  cases h : assertOrdinarity x with
  | error e => simp [bind, Except.bind]
  | ok u =>
    cases hs : x.source with
    | none => simp [bind, Except.bind]
    | some t => simp [bind, Except.bind]

/-- C87: a function object whose source is available is accepted by the decorators exactly if it is an ordinary function; what is
kept is its definition without decorator, docstring and annotations. -/
theorem C87_accepted_iff_partial (parse : Parser) (print : Printer) (known : List String) (c : Code) (m : List T) (h : DefinedBy parse c m) (s : Txt) :
    normalizeThing parse print known true (.code c) = .ok s ↔ OrdinaryDef known c m ∧ s = print (normL (undecorated m)) := by
  obtain ⟨⟨t, ht, hp⟩, hd⟩ := h
  rw [normalizeThing_ok, assertOrdinarity_ok]
  simp only [Thing.isFunction, Thing.hasClosure, Thing.name, Thing.varPositional, Thing.isCoroutine, Thing.source]
  constructor
  · rintro ⟨⟨_, h1, h2, h3, h4⟩, t', ht', hn⟩
    rw [ht] at ht'; injection ht' with ht'; subst ht'
    obtain ⟨ha, hna, rfl⟩ := (normalizeText_ok parse print known hp).mp hn
    have hl : c.isLambda = false := by
      cases h : c.isLambda with
      | false => rfl
      | true => rw [h] at h2; simp at h2
    obtain ⟨_, pre, body, decos, ret, rfl⟩ := hd hl
    obtain ⟨n, pre', body', decos', r, rest, he, hdec⟩ := ha
    injection he with he _
    injection he with e1 e2 e3 e4 e5 e6
    refine ⟨⟨hl, e1, by simpa using h3, h1, ?_, hna⟩, rfl⟩
    intro pre'' body'' decos'' ret'' he''
    injection he'' with he'' _
    injection he'' with f1 f2 f3 f4 f5 f6
    rw [← f5, e5]
    rcases hdec with h | ⟨d, h, hk⟩
    · exact .inl h
    · exact .inr ⟨d, h, hk rfl⟩
  · rintro ⟨⟨h1, h2, h3, h4, h5, h6⟩, rfl⟩
    obtain ⟨hname, pre, body, decos, ret, rfl⟩ := hd h1
    refine ⟨⟨trivial, h4, ?_, by rw [h3], by rw [h2]; rfl⟩, t, ht, ?_⟩
    · rw [h1]
      simpa using hname
    · rw [normalizeText_ok parse print known hp]
      refine ⟨⟨c.name, pre, body, decos, ret, [], by rw [h2], ?_⟩, h6, rfl⟩
      rcases h5 pre body decos ret rfl with h | ⟨d, h, hk⟩
      · exact .inl h
      · exact .inr ⟨d, h, fun _ => hk⟩

/-- C87: everything that is not a function object – bound methods, class methods, classes, built-in functions, partial functions,
instances with `__call__`, data – is refused. -/
theorem C87_others_refused (parse : Parser) (print : Printer) (known : List String) :
    (∀ f, normalizeThing parse print known true (.method f) = .error .assertionError) ∧
    (∀ f, normalizeThing parse print known true (.partialOf f) = .error .assertionError) ∧
    (∀ n v, normalizeThing parse print known true (.builtin n v) = .error .assertionError) ∧
    (∀ n v t, normalizeThing parse print known true (.cls n v t) = .error .assertionError) ∧
    (∀ v, normalizeThing parse print known true (.instance_ v) = .error .assertionError) ∧
    normalizeThing parse print known true .data = .error .assertionError := by
  refine ⟨fun _ => rfl, fun _ => rfl, fun _ _ => rfl, fun _ _ _ => rfl, fun _ => rfl, rfl⟩

/-- C87: a function whose source is not available is refused. -/
theorem C87_no_source_refused (parse : Parser) (print : Printer) (known : List String) (x : Thing) (h : x.source = none) :
    ∃ e, normalizeThing parse print known true x = .error e := by
  cases hn : normalizeThing parse print known true x with
  | error e => exact ⟨e, rfl⟩
  | ok s =>
    obtain ⟨_, t, ht, _⟩ := (normalizeThing_ok parse print known x s).mp hn
    rw [h] at ht; cases ht

theorem source_innermost (x : Thing) : x.source = x.innermost.source := by
  induction x with
  | wraps w f _ ih => simpa [Thing.source, Thing.innermost] using ih
  | _ => rfl

theorem varPositional_innermost (x : Thing) : x.varPositional = x.innermost.varPositional := by
  induction x with
  | wraps w f _ ih => simpa [Thing.varPositional, Thing.innermost] using ih
  | _ => rfl

theorem isFunction_outermost (x : Thing) : x.isFunction = true ↔ ∃ c, x.outermost = .code c := by
  induction x with
  | wraps w f ih _ => simpa [Thing.isFunction, Thing.outermost] using ih
  | code c => simp [Thing.isFunction, Thing.outermost]
  | _ => simp [Thing.isFunction, Thing.outermost]

theorem hasClosure_outermost {x : Thing} {c : Code} (h : x.outermost = .code c) : x.hasClosure = c.captures := by
  induction x with
  | wraps w f ih _ => simpa [Thing.hasClosure] using ih (by simpa [Thing.outermost] using h)
  | code d => cases h; rfl
  | _ => cases h

theorem isCoroutine_outermost {x : Thing} {c : Code} (h : x.outermost = .code c) : x.isCoroutine = (c.async && !c.yields) := by
  induction x with
  | wraps w f ih _ => simpa [Thing.isCoroutine] using ih (by simpa [Thing.outermost] using h)
  | code d => cases h; rfl
  | _ => cases h

/-- C87, for all objects, whatever wrappers they are made of: accepted are exactly those where the object that is called is a function
object without closure that is no coroutine function, whose name is not that of a lambda, where the innermost wrapped object takes
no `*args`, and the source of the innermost wrapped object can be normalised; what is kept is that source. -/
theorem C87_objects_iff (parse : Parser) (print : Printer) (known : List String) (x : Thing) (s : Txt) :
    normalizeThing parse print known true x = .ok s ↔
      (∃ c, x.outermost = .code c ∧ c.captures = false ∧ (c.async = true → c.yields = true)) ∧ x.name ≠ some "<lambda>" ∧
      x.innermost.varPositional = some false ∧
      ∃ t, x.innermost.source = some t ∧ normalizeText parse print known true t = .ok s := by
  rw [normalizeThing_ok, assertOrdinarity_ok, isFunction_outermost, ← varPositional_innermost, ← source_innermost]
  constructor
  · rintro ⟨⟨⟨c, hc⟩, h1, h2, h3, h4⟩, h5⟩
    rw [hasClosure_outermost hc] at h1
    rw [isCoroutine_outermost hc] at h4
    exact ⟨⟨c, hc, h1, fun ha => by simpa [ha] using h4⟩, h2, h3, h5⟩
  · rintro ⟨⟨c, hc, h1, h4⟩, h2, h3, h5⟩
    refine ⟨⟨⟨c, hc⟩, by rw [hasClosure_outermost hc, h1], h2, h3, ?_⟩, h5⟩
    rw [isCoroutine_outermost hc]
    cases ha : c.async with
    | false => rfl
    | true => simp [h4 ha]

/-- C87, counterexample: `@safe()` and `@pth.safe()` cannot be used as decorators: the names of the decorators that the normaliser
accepts do not contain it, so that every function decorated in this way is refused. -/
theorem C87_safe_counterexample (parse : Parser) (print : Printer) (c : Code) (pre body : List T) (ret : Option T) (args : List T)
    (f : T) (hf : f = .name "safe" ∨ f = .attr (.name "pth") "safe")
    (h : DefinedBy parse c [.fn c.async c.name pre body [.call f args] ret]) :
    ∃ e, normalizeThing parse print allDecorators true (.code c) = .error e := by
  cases hn : normalizeThing parse print allDecorators true (.code c) with
  | error e => exact ⟨e, rfl⟩
  | ok s =>
    have ho := ((C87_accepted_iff_partial parse print allDecorators c _ h s).mp hn).1
    rcases ho.decorator pre body [.call f args] ret rfl with h | ⟨d, h, hk⟩
    · cases h
    · injection h with h _
      subst h
      rcases hf with rfl | rfl
      · cases hk with | name _ _ hi => simp [allDecorators] at hi
      · cases hk with | attr _ _ _ hi => simp [allDecorators] at hi

/-- C87, counterexample: a function made by `functools.wraps` is not judged by its own code: the text that is kept is that of the
innermost wrapped function, and its parameters are those that are checked.  So any two wrappers of `f` that are accepted are
taken for the same function – for `f` itself –, whatever they do. -/
theorem C87_wrappers_counterexample (parse : Parser) (print : Printer) (known : List String) (w w' f : Thing) (s s' : Txt)
    (h : normalizeThing parse print known true (.wraps w f) = .ok s) (h' : normalizeThing parse print known true (.wraps w' f) = .ok s') :
    s = s' ∧ ∃ t, f.innermost.source = some t ∧ normalizeText parse print known true t = .ok s := by
  obtain ⟨_, t, ht, hn⟩ := (normalizeThing_ok parse print known _ s).mp h
  obtain ⟨_, t', ht', hn'⟩ := (normalizeThing_ok parse print known _ s').mp h'
  simp only [Thing.source] at ht ht'
  rw [ht] at ht'; injection ht' with ht'; subst ht'
  rw [hn] at hn'; injection hn' with hn'
  exact ⟨hn', t, by rw [← source_innermost, ht], hn⟩

/-- C87, counterexample: a wrapper that takes `*args`, and has a body of its own, is accepted (as the function it wraps), if it
captures nothing. -/
theorem C87_wrapper_with_varargs_counterexample (parse : Parser) (print : Printer) (known : List String) (w c : Code) (m : List T)
    (h : DefinedBy parse c m) (ho : OrdinaryDef known c m) (hw : w.captures = false) (ha : w.async = false) :
    normalizeThing parse print known true (.wraps (.code w) (.code c)) = .ok (print (normL (undecorated m))) := by
  obtain ⟨⟨h1, h2, h3, h4, h5⟩, t, ht, hn⟩ := (normalizeThing_ok parse print known _ _).mp ((C87_accepted_iff_partial parse print known c m h _).mpr ⟨ho, rfl⟩) |>.imp_left (assertOrdinarity_ok _).mp
  rw [normalizeThing_ok, assertOrdinarity_ok]
  refine ⟨⟨rfl, hw, ?_, h4, ?_⟩, t, ht, hn⟩
  · simpa [Thing.name] using h3
  · simp [Thing.isCoroutine, ha]

/-- C87, counterexample: a source *text* is not checked for ordinariness: the text of any function with `*args` that is otherwise
ordinary is accepted. -/
theorem C87_text_with_varargs_counterexample (parse : Parser) (print : Printer) (known : List String) (c : Code) (m : List T) (t : Txt)
    (h : DefinedBy parse c m) (hv : c.vararg = true) (ho : OrdinaryDef known { c with vararg := false } m) (_ht : c.text = some t)
    (hr : Reads parse t m) :
    (∃ e, normalizeThing parse print known true (.code c) = .error e) ∧ ∃ s, normalize parse print known true t = .ok s := by
  constructor
  · cases hn : normalizeThing parse print known true (.code c) with
    | error e => exact ⟨e, rfl⟩
    | ok s =>
      have := ((C87_accepted_iff_partial parse print known c m h s).mp hn).1.noVararg
      rw [hv] at this; cases this
  · obtain ⟨_, pre, body, decos, ret, hm⟩ := h.2 ho.noLambda
    have has : c.async = false := ho.noAsync
    refine (C53_success_iff parse print known true t m hr).mpr ⟨⟨c.name, pre, body, decos, ret, [], by rw [hm, has], ?_⟩, ho.noAnnotated⟩
    rcases ho.decorator pre body decos ret hm with h | ⟨d, h, hk⟩
    · exact .inl h
    · exact .inr ⟨d, h, fun _ => hk⟩

/-! ## Concrete cases -/

section examples

/-- `def f(x):` / `    return x`, indented as in another function's body -/
def exText : Txt := "  def f(x):\n    return x".toList
def exTree : List T := [.fn false "f" [.arg "x" none] [.node "Return" [.name "x"]] [] none]
/-- a parser that knows this text only -/
def exParse : Parser := fun t => if t = "def f(x):\n  return x".toList then some exTree else none
def exPrint : Printer := fun _ => "def f(x):\n    return x".toList

theorem exParses : Parses exParse exText exTree := ⟨"def f(x):\n  return x".toList, by decide +kernel, if_pos rfl⟩

theorem exDefined : DefinedBy exParse { name := "f", text := some exText } exTree :=
  ⟨⟨exText, rfl, exParses⟩, fun _ => ⟨by decide, _, _, _, _, rfl⟩⟩

theorem exOrdinary : OrdinaryDef allDecorators { name := "f", text := some exText } exTree where
  noLambda := rfl
  noAsync := rfl
  noVararg := rfl
  noClosure := rfl
  decorator := fun pre body decos ret h => by
    injection h with h _
    injection h with _ _ _ _ h _
    exact .inl h.symm
  noAnnotated := fun h => by
    have := (crashesL_norm _).mpr h
    revert this
    simp [undecorated, exTree, normL, norm, normBody, T.isStr, crashesL, crashes, crashesO]

example : normalizeThing exParse exPrint allDecorators true (.code { name := "f", text := some exText }) = .ok (exPrint []) :=
  (C87_accepted_iff_partial _ _ _ _ _ exDefined _).mpr ⟨exOrdinary, rfl⟩

-- the same function with `*args`, as a closure, as a lambda, asynchronous: refused
example : ∀ c ∈ [({ name := "f", vararg := true, text := some exText } : Code), { name := "f", captures := true, text := some exText },
    { name := "f", isLambda := true, text := some exText }, { name := "f", async := true, text := some exText }],
    normalizeThing exParse exPrint allDecorators true (.code c) = .error .assertionError := by
  intro c hc
  simp only [List.mem_cons, List.not_mem_nil, or_false] at hc
  rcases hc with rfl | rfl | rfl | rfl <;> rfl

-- a wrapper with `*args` around it: accepted as `f`
example : normalizeThing exParse exPrint allDecorators true (.wraps (.code { name := "w", vararg := true, text := none }) (.code { name := "f", text := some exText }))
    = .ok (exPrint []) := C87_wrapper_with_varargs_counterexample _ _ _ _ _ _ exDefined exOrdinary rfl rfl

-- a function decorated with `@safe()`
example : DefinedBy (fun _ => some [.fn false "f" [] [.node "Pass" []] [.call (.name "safe") []] none])
    { name := "f", text := some "@safe()\ndef f(): pass".toList }
    [.fn false "f" [] [.node "Pass" []] [.call (.name "safe") []] none] :=
  ⟨⟨_, rfl, "@safe()\ndef f(): pass".toList, by decide +kernel, rfl⟩, fun _ => ⟨by decide, _, _, _, _, rfl⟩⟩

-- the hypotheses about source texts
example : Reads exParse exText exTree := ⟨"def f(x):\n  return x".toList, "f".toList, by decide +kernel, by decide +kernel, if_pos rfl⟩

end examples

end Pyth.Src
