import Verif.Model.ExecText
import Verif.Props.SourceText
/-!
# C79: what a call executes

A call of a function executes the function's own source in which only the name in the header is changed, so that the
function's name still means the decorated function, also inside its own body.
-/
namespace Pyth.Src

/-- `old` occurs in `s` between `pre` and `post`, and nowhere further left -/
def Leftmost (old s pre post : Txt) : Prop :=
  s = pre ++ old ++ post ∧ ∀ p q, s = p ++ old ++ q → pre.length ≤ p.length

theorem replaceFirst_found {old : Txt} (ho : old ≠ []) (new : Txt) : ∀ (pre post : Txt),
    Leftmost old (pre ++ old ++ post) pre post → replaceFirst old new (pre ++ old ++ post) = pre ++ new ++ post
  | [], post, _ => by
    cases old with
    | nil => exact absurd rfl ho
    | cons c r =>
      simp only [List.nil_append, List.cons_append, replaceFirst]
      rw [if_pos (by rw [List.isPrefixOf_iff_prefix]; exact ⟨post, by simp⟩)]
      simp
  | c :: pre, post, h => by
    simp only [List.cons_append, replaceFirst]
    rw [if_neg]
    · rw [replaceFirst_found ho new pre post]
      refine ⟨rfl, fun p q hpq => ?_⟩
      have := h.2 (c :: p) q (by simp only [List.cons_append]; rw [hpq])
      simpa using this
    · intro hp
      rw [List.isPrefixOf_iff_prefix] at hp
      obtain ⟨q, hq⟩ := hp
      have := h.2 [] q (by simp only [List.nil_append, List.cons_append]; exact hq.symm)
      simp at this

theorem replaceFirst_absent {old : Txt} (new : Txt) : ∀ (s : Txt), (∀ p q, s ≠ p ++ old ++ q) →
    replaceFirst old new s = s
  | [], _ => rfl
  | c :: r, h => by
    rw [replaceFirst, if_neg, replaceFirst_absent new r]
    · intro p q hpq; exact h (c :: p) q (by rw [hpq]; simp)
    · intro hp
      rw [List.isPrefixOf_iff_prefix] at hp
      obtain ⟨q, hq⟩ := hp
      exact h [] q (by simpa using hq.symm)

theorem exists_leftmost (old : Txt) : ∀ (s : Txt), (∃ p q, s = p ++ old ++ q) → ∃ pre post, Leftmost old s pre post
  | [], h => by
    obtain ⟨p, q, h⟩ := h
    exact ⟨p, q, h, fun p' q' h' => by
      have := congrArg List.length h; simp at this; omega⟩
  | c :: r, h => by
    by_cases hp : old <+: (c :: r)
    · obtain ⟨q, hq⟩ := hp
      exact ⟨[], q, by simpa using hq.symm, fun _ _ _ => Nat.zero_le _⟩
    · have key : ∀ p q, c :: r = p ++ old ++ q → ∃ p', p = c :: p' ∧ r = p' ++ old ++ q := by
        intro p q h
        cases p with
        | nil => exact absurd ⟨q, by simpa using h.symm⟩ hp
        | cons d p' => simp only [List.cons_append, List.cons.injEq] at h; exact ⟨p', by rw [h.1], h.2⟩
      obtain ⟨p, q, h⟩ := h
      obtain ⟨p', _, h'⟩ := key p q h
      obtain ⟨pre, post, h1, h2⟩ := exists_leftmost old r ⟨p', q, h'⟩
      refine ⟨c :: pre, post, by rw [h1]; simp, fun a b hab => ?_⟩
      obtain ⟨a', rfl, h3⟩ := key a b hab
      have := h2 a' b h3
      simpa using this

/-- C79 (a): `text.replace(old, new, 1)` replaces the leftmost occurrence, and changes nothing if there is none. -/
theorem C79_replace_iff {old : Txt} (ho : old ≠ []) (new s out : Txt) :
    replaceFirst old new s = out ↔
      (∃ pre post, Leftmost old s pre post ∧ out = pre ++ new ++ post) ∨ ((∀ p q, s ≠ p ++ old ++ q) ∧ out = s) := by
  by_cases hex : ∃ p q, s = p ++ old ++ q
  · obtain ⟨pre, post, hl⟩ := exists_leftmost old s hex
    have hs := hl.1
    have hr : replaceFirst old new s = pre ++ new ++ post := by
      rw [hs] at hl ⊢
      exact replaceFirst_found ho new pre post hl
    constructor
    · intro h; exact .inl ⟨pre, post, hl, by rw [← h, hr]⟩
    · rintro (⟨pre', post', hl', rfl⟩ | ⟨h, _⟩)
      · have hlen : pre.length = pre'.length :=
          Nat.le_antisymm (hl.2 _ _ hl'.1) (hl'.2 _ _ hl.1)
        have he : pre ++ (old ++ post) = pre' ++ (old ++ post') := by
          rw [← List.append_assoc, ← List.append_assoc, ← hs, ← hl'.1]
        obtain ⟨h1, h2⟩ := List.append_inj he hlen
        rw [hr, h1, List.append_cancel_left h2]
      · exact absurd hs (h _ _)
  · have hno : ∀ p q, s ≠ p ++ old ++ q := fun p q h => hex ⟨p, q, h⟩
    constructor
    · intro h; exact .inr ⟨hno, by rw [← h, replaceFirst_absent new s hno]⟩
    · rintro (⟨pre, post, hl, _⟩ | ⟨_, h⟩)
      · exact absurd hl.1 (hno _ _)
      · rw [h, replaceFirst_absent new s hno]

/-- C79 (b): the executed text of `def name(rest` is `def tmp(rest` followed by the call: nothing but the name in the
header changes, even where the name occurs again. -/
theorem C79_only_the_header (name hash rest : Txt) :
    (execOf name hash ("def ".toList ++ name ++ "(".toList ++ rest)).text =
      "def tmp_func_".toList ++ name ++ hash ++ "(".toList ++ rest ++
      "\n\nresult".toList ++ name ++ hash ++ " = tmp_func_".toList ++ name ++ hash ++
      "(**kwargs_".toList ++ name ++ hash ++ ")".toList := by
  have h : "def ".toList ++ name ++ "(".toList ++ rest = "def".toList ++ (" ".toList ++ name ++ "(".toList) ++ rest := by
    simp
  have hl : Leftmost (" ".toList ++ name ++ "(".toList) ("def".toList ++ (" ".toList ++ name ++ "(".toList) ++ rest)
      "def".toList rest := by
    refine ⟨rfl, fun p q hpq => ?_⟩
    match p with
    | [] => simp at hpq
    | [_] => simp at hpq
    | [_, _] => simp at hpq
    | _ :: _ :: _ :: _ => simp
  simp only [execOf]
  rw [h, replaceFirst_found (by simp) _ _ _ hl]
  simp

/-- C79 (c): the names of the arguments, of the result and of the function defined by the executed text are different
from each other and from the function's own name, from `self`, from `pth` and from all names that do not end in the
source's signature. -/
theorem C79_fresh_names (name hash src : Txt) (hh : hash ≠ []) :
    let e := execOf name hash src
    e.kwargs ≠ e.result ∧ e.kwargs ≠ e.tmp ∧ e.result ≠ e.tmp ∧
    ∀ x ∈ [e.kwargs, e.result, e.tmp], x ≠ name ∧ x ≠ "self".toList ∧ x ≠ "pth".toList ∧ hash <:+ x := by
  refine ⟨by simp [execOf], by simp [execOf], by simp [execOf], ?_⟩
  intro x hx
  have hl : ∀ k : Txt, k ++ name ++ hash ≠ name := by
    intro k h
    have := congrArg List.length h
    have h0 : hash.length ≠ 0 := by simpa using hh
    simp at this; omega
  simp only [execOf, List.mem_cons, List.not_mem_nil, or_false] at hx
  rcases hx with rfl | rfl | rfl
  all_goals exact ⟨hl _, by simp, by simp, ⟨_, rfl⟩⟩

/-- C79 (d): for signatures of the same length, functions share one of these names (or the file name shown in
tracebacks) only if they have the same name and the same signature. -/
theorem C79_names_injective (name name' hash hash' src src' : Txt) (hl : hash.length = hash'.length) :
    let e := execOf name hash src
    let e' := execOf name' hash' src'
    (e.tmp = e'.tmp ∨ e.kwargs = e'.kwargs ∨ e.result = e'.result ∨ e.file = e'.file) ↔ (name = name' ∧ hash = hash') := by
  have key : ∀ k : Txt, k ++ name ++ hash = k ++ name' ++ hash' → name = name' ∧ hash = hash' := by
    intro k h
    rw [List.append_assoc, List.append_assoc] at h
    have h := List.append_cancel_left h
    have := List.append_inj' h hl
    exact this
  simp only [execOf]
  constructor
  · rintro (h | h | h | h)
    · exact key _ h
    · exact key _ h
    · exact key _ h
    · have h := List.append_cancel_right h
      obtain ⟨h1, h2⟩ := List.append_inj' h hl
      exact ⟨List.append_cancel_right h1, h2⟩
  · rintro ⟨rfl, rfl⟩; exact .inl rfl

theorem lookup_define {α : Type} : ∀ (more : List (Txt × Txt)) (g : Globals α) (ss : List Top),
    execAll g (more.map (fun d => .define d.1 d.2) ++ ss) =
      execAll ((more.map fun d => (d.1, Val.plain d.2)).reverse ++ g) ss
  | [], g, ss => rfl
  | d :: more, g, ss => by
    simp only [List.map_cons, List.cons_append, execAll, execTop]
    rw [lookup_define more]
    simp

theorem lookup_append_none {α : Type} (x : Txt) : ∀ (l g : Globals α), (∀ p ∈ l, p.1 ≠ x) → (l ++ g).lookup x = g.lookup x
  | [], _, _ => rfl
  | p :: l, g, h => by
    have h1 : (x == p.1) = false := by
      have := h p (by simp)
      simpa using fun e : x = p.1 => this e.symm
    rw [List.cons_append, List.lookup_cons, h1, lookup_append_none x l g fun q hq => h q (by simp [hq])]

theorem more_none {α : Type} {more : List (Txt × Txt)} {x : Txt} (h : ∀ d ∈ more, d.1 ≠ x) :
    ∀ p ∈ (more.map fun d => (d.1, (Val.plain d.2 : Val α))).reverse, p.1 ≠ x := by
  intro p hp
  simp only [List.mem_reverse, List.mem_map] at hp
  obtain ⟨d, hd, rfl⟩ := hp
  exact h d hd

/-- C79 (e): a call runs the function's own body with the call's arguments and returns its result; while it runs (and
afterwards), the function's name means the decorated function, so a recursive call goes through the decorator; and
every name that the source does not define at its top level means what it meant before.  This needs that the source
does not define the function's name a second time, nor a name that ends in the source's own signature. -/
theorem C79_recursion_through_decorator {α : Type} (avail : Globals α) (name hash src body : Txt)
    (more : List (Txt × Txt)) (args : α) (hh : hash ≠ []) (h1 : ∀ d ∈ more, d.1 ≠ name) (h2 : ∀ d ∈ more, ¬ hash <:+ d.1) :
    ∃ g, runText avail name (execOf name hash src) body more args = some (g, .resultOf body args) ∧
      g.lookup name = some .decorated ∧
      ∀ x, ¬ hash <:+ x → (∀ d ∈ more, d.1 ≠ x) → x ≠ name → g.lookup x = avail.lookup x := by
  obtain ⟨n1, n2, n3, n4⟩ := C79_fresh_names name hash src hh
  generalize he : execOf name hash src = e at *
  have hk := n4 e.kwargs (by simp)
  have hr := n4 e.result (by simp)
  have ht := n4 e.tmp (by simp)
  have fr : ∀ x : Txt, hash <:+ x → ∀ p ∈ (more.map fun d => (d.1, (Val.plain d.2 : Val α))).reverse, p.1 ≠ x :=
    fun x hx => more_none fun d hd hdx => h2 d hd (hdx ▸ hx)
  have ltmp : List.lookup e.tmp ((more.map fun d => (d.1, (Val.plain d.2 : Val α))).reverse ++
      (e.tmp, .plain body) :: (e.kwargs, .arguments args) :: (name, .decorated) :: avail) = some (.plain body) := by
    rw [lookup_append_none _ _ _ (fr _ ht.2.2.2)]; simp
  have lk : List.lookup e.kwargs ((more.map fun d => (d.1, (Val.plain d.2 : Val α))).reverse ++
      (e.tmp, .plain body) :: (e.kwargs, .arguments args) :: (name, .decorated) :: avail) = some (.arguments args) := by
    rw [lookup_append_none _ _ _ (fr _ hk.2.2.2), List.lookup_cons, beq_eq_false_iff_ne.2 n2]; simp
  refine ⟨(e.result, .resultOf body args) :: ((more.map fun d => (d.1, (Val.plain d.2 : Val α))).reverse ++
      (e.tmp, .plain body) :: (e.kwargs, .arguments args) :: (name, .decorated) :: avail), ?_, ?_, ?_⟩
  · unfold runText program
    simp only [List.cons_append, execAll, execTop]
    rw [lookup_define]
    simp only [execAll, execTop, ltmp, lk]
    simp
  · rw [List.lookup_cons, beq_eq_false_iff_ne.2 (Ne.symm hr.1)]
    simp only
    rw [lookup_append_none _ _ _ (more_none h1), List.lookup_cons, beq_eq_false_iff_ne.2 (Ne.symm ht.1)]
    simp only
    rw [List.lookup_cons, beq_eq_false_iff_ne.2 (Ne.symm hk.1)]
    simp
  · intro x hx hm hn
    have ne : ∀ y, hash <:+ y → (x == y) = false := fun y hy => beq_eq_false_iff_ne.2 fun h => hx (h ▸ hy)
    rw [List.lookup_cons, ne _ hr.2.2.2]
    simp only
    rw [lookup_append_none _ _ _ (more_none hm), List.lookup_cons, ne _ ht.2.2.2]
    simp only
    rw [List.lookup_cons, ne _ hk.2.2.2]
    simp only
    rw [List.lookup_cons, beq_eq_false_iff_ne.2 hn]

theorem lookup_defined {α : Type} (x : Txt) (more : List (Txt × Txt)) (g : Globals α) (h : ∃ d ∈ more, d.1 = x) :
    ∃ b, ((more.map fun d => (d.1, (Val.plain d.2 : Val α))).reverse ++ g).lookup x = some (.plain b) := by
  have key : ∀ (l : Globals α), (∀ p ∈ l, ∃ b, p.2 = .plain b) → (∃ p ∈ l, p.1 = x) →
      ∃ b, (l ++ g).lookup x = some (.plain b) := by
    intro l
    induction l with
    | nil => exact fun _ ⟨_, h, _⟩ => (nomatch h)
    | cons p l ih =>
      intro h1 h2
      rw [List.cons_append, List.lookup_cons]
      cases hx : x == p.1 with
      | true => obtain ⟨b, hb⟩ := h1 p (by simp); exact ⟨b, by rw [hb]⟩
      | false =>
        refine ih (fun q hq => h1 q (by simp [hq])) ?_
        obtain ⟨q, hq, hqx⟩ := h2
        rcases List.mem_cons.1 hq with rfl | hq
        · rw [← hqx] at hx; simp at hx
        · exact ⟨q, hq, hqx⟩
  refine key _ (fun p hp => ?_) ?_
  · simp only [List.mem_reverse, List.mem_map] at hp
    obtain ⟨d, _, rfl⟩ := hp
    exact ⟨_, rfl⟩
  · obtain ⟨d, hd, rfl⟩ := h
    exact ⟨(d.1, .plain d.2), by simp only [List.mem_reverse, List.mem_map]; exact ⟨d, hd, rfl⟩, rfl⟩

/-- C79 (e'): a source which defines the very name under which the arguments are passed never gets a result: the call
fails, and nothing that was there before under the result's name is returned instead. -/
theorem C79_no_stale_result {α : Type} (avail : Globals α) (name hash src body : Txt) (more : List (Txt × Txt)) (args : α)
    (h : ∃ d ∈ more, d.1 = "kwargs_".toList ++ name ++ hash) :
    runText avail name (execOf name hash src) body more args = none := by
  have hk : (execOf name hash src).kwargs = "kwargs_".toList ++ name ++ hash := rfl
  generalize he : execOf name hash src = e at *
  rw [← hk] at h
  unfold runText program
  simp only [List.cons_append, execAll, execTop]
  rw [lookup_define]
  obtain ⟨b, hb⟩ := lookup_defined e.kwargs more
    ((e.tmp, .plain body) :: (e.kwargs, .arguments args) :: (name, .decorated) :: avail) h
  simp only [execAll, execTop, hb]
  cases List.lookup e.tmp ((more.map fun d => (d.1, (Val.plain d.2 : Val α))).reverse ++
    (e.tmp, .plain body) :: (e.kwargs, .arguments args) :: (name, .decorated) :: avail) with
  | none => rfl
  | some v => cases v <;> rfl

/-- the hypothesis is met, and something is there before under the result's name -/
example : runText [("resultfh".toList, Val.resultOf [] 7)] "f".toList (execOf "f".toList "h".toList []) "body".toList
    [("kwargs_fh".toList, "other".toList)] 3 = none :=
  C79_no_stale_result _ _ _ _ _ _ _ ⟨_, List.mem_singleton.2 rfl, by decide⟩

theorem joinNl_head (a l : Txt) (post : List Txt) : joinNl ((a ++ l) :: post) = a ++ joinNl (l :: post) := by
  cases post <;> simp [joinNl]

/-- C79 (f): a function registered from its normalized source `def NAME(…` gets the names built from NAME, and its
executed text is the source with only the header's name replaced, followed by the call. -/
theorem C79_registration (hash : Txt → Txt) (name tail : Txt) (post : List Txt)
    (hnl : ∀ l ∈ ("def ".toList ++ name ++ '(' :: tail) :: post, '\n' ∉ l)
    (hne : name ≠ []) (htrim : Trimmed name) (hpar : '(' ∉ name) :
    let src := joinNl (("def ".toList ++ name ++ '(' :: tail) :: post)
    ∃ e, register hash src = .ok e ∧
      e.tmp = "tmp_func_".toList ++ name ++ hash src ∧ e.kwargs = "kwargs_".toList ++ name ++ hash src ∧
      e.result = "result".toList ++ name ++ hash src ∧ e.file = name ++ "_".toList ++ hash src ++ ".py".toList ∧
      e.text = joinNl (("def ".toList ++ e.tmp ++ '(' :: tail) :: post) ++
        "\n\n".toList ++ e.result ++ " = ".toList ++ e.tmp ++ "(**".toList ++ e.kwargs ++ ")".toList := by
  have hn := C67_function_name [] post [] [] [] name tail (by simpa using hnl) (by simp) (by simp) (by simp) (by simp)
    hne htrim hpar
  intro src
  have hs : src = "def ".toList ++ name ++ "(".toList ++ joinNl (tail :: post) := by
    have := joinNl_head ("def ".toList ++ name ++ "(".toList) tail post
    simpa [src] using this
  have hn' : functionName src = .ok name := by simpa [src] using hn
  refine ⟨execOf name (hash src) src, by rw [register, hn'], rfl, rfl, rfl, rfl, ?_⟩
  have ht := C79_only_the_header name (hash src) (joinNl (tail :: post))
  rw [← hs] at ht
  have hj := joinNl_head ("def ".toList ++ (execOf name (hash src) src).tmp ++ "(".toList) tail post
  have e1 : ("def ".toList ++ (execOf name (hash src) src).tmp ++ '(' :: tail) =
    ("def ".toList ++ (execOf name (hash src) src).tmp ++ "(".toList) ++ tail := by simp
  rw [ht, e1, hj]
  simp [execOf]

end Pyth.Src

namespace Pyth.Src.ExecEx
open Pyth.Src

/-- a recursive function whose source mentions its own name again, also in a string -/
def fact : Txt := "def fact(n):\n    print(' fact(')\n    return n * fact(n=n - 1) if n else 1".toList
/-- a stand-in for the signature -/
def sig : Txt → Txt := fun _ => "abc123".toList

/-- the executed text of the recursive function: the calls inside the body keep the name `fact` -/
theorem fact_text : (register sig fact).map (fun e => String.ofList e.text) = .ok
    "def tmp_func_factabc123(n):\n    print(' fact(')\n    return n * fact(n=n - 1) if n else 1\n\nresultfactabc123 = tmp_func_factabc123(**kwargs_factabc123)" := by
  decide +kernel

/-- the hypotheses of (e) are met by a source with a helper function after the function itself -/
example : ∃ g, runText [("print".toList, .other 0)] "fact".toList (execOf "fact".toList "abc123".toList fact) "B".toList
    [("helper".toList, "H".toList)] (5 : Nat) = some (g, .resultOf "B".toList 5) ∧
    g.lookup "fact".toList = some .decorated ∧ g.lookup "print".toList = some (.other 0) ∧
    g.lookup "helper".toList = some (.plain "H".toList) := by
  refine ⟨_, rfl, ?_, ?_, ?_⟩ <;> decide +kernel

/-- a second definition of the same name in the source: the function's name then means the plain second definition -/
theorem C79_second_definition_counterexample :
    (runText [] "f".toList (execOf "f".toList "abc123".toList "def f(x): ...".toList) "B".toList
      [("f".toList, "C".toList)] (5 : Nat)).map (fun r => r.1.lookup "f".toList) = some (some (.plain "C".toList)) := by
  decide +kernel

/-- a function with type parameters: the name taken from the source includes them, and neither the function defined by
the executed text nor its result variable has a name that is an identifier -/
theorem C79_type_parameters_counterexample :
    (register sig "def f[T](x):\n    return x".toList).map (fun e => String.ofList e.text) = .ok
      "def tmp_func_f[T]abc123(x):\n    return x\n\nresultf[T]abc123 = tmp_func_f[T]abc123(**kwargs_f[T]abc123)" := by
  decide +kernel

end Pyth.Src.ExecEx
