import Verif.Proofs.Analyzer
/-!
# Names analysis: C42, C43, C44, C46

`analyze f = some r`: the analysis of the function definition `f` ends with the sets `r`.  Reported as
external are `r.uncl` (used names), `r.glob` and `r.nonl` (declared global / nonlocal).
-/
set_option linter.unusedVariables false
namespace Pyth.Analyzer

/-- a function definition -/
def IsDef (f : Node) : Prop := ∃ name args va kw ch, f = .funcDef name args va kw ch

/-- C42: every name that the function uses from outside — in its own code, or in nested functions at any depth,
without being bound in any of the scopes around the use — is reported. -/
theorem C42_external_names_reported {f : Node} (hf : IsDef f) {r : St} (h : analyze f = some r) (x : String)
    (hx : Needs x f) : x ∈ r.uncl := by
  obtain ⟨name, args, va, kw, ch, rfl⟩ := hf
  simp only [Needs] at hx
  exact (analyze_spec x name args va kw ch r h).2 ⟨hx.1, firstAny_use x ch hx.2.1 hx.2.2⟩

/-- C42: in particular every name that is used somewhere in the function and bound nowhere in it. -/
theorem C42_unbound_names_reported {f : Node} (hf : IsDef f) {r : St} (h : analyze f = some r) (x : String)
    (hu : Loads x f) (hb : ¬ BoundDeep x f) : x ∈ r.uncl :=
  C42_external_names_reported hf h x (needs_of_loads x f hb hu)

/-- C42: every name declared global anywhere in the function is reported. -/
theorem C42_globals_reported {f : Node} (hf : IsDef f) {r : St} (h : analyze f = some r) (x : String) (hx : Declares true x f) :
    x ∈ r.glob := by
  obtain ⟨name, args, va, kw, ch, rfl⟩ := hf
  have := src_visitAll ch 0 _ r (by simpa [analyze, visit] using h)
  exact (this.glob x).2 (.inr hx)

/-- C43: a name reported as used occurs as a loaded name. -/
theorem C43_used_names_occur {f : Node} (hf : IsDef f) {r : St} (h : analyze f = some r) (x : String) (hx : x ∈ r.uncl) :
    Loads x f := by
  obtain ⟨name, args, va, kw, ch, rfl⟩ := hf
  exact loadsAny_of_first x ch ((analyze_spec x name args va kw ch r h).1 hx).2

/-- C43: a name reported as global or nonlocal is declared so. -/
theorem C43_declared_names_occur {f : Node} (hf : IsDef f) {r : St} (h : analyze f = some r) (x : String) :
    (x ∈ r.glob ↔ Declares true x f) ∧ (x ∈ r.nonl → Declares false x f) := by
  obtain ⟨name, args, va, kw, ch, rfl⟩ := hf
  have := src_visitAll ch 0 _ r (by simpa [analyze, visit] using h)
  constructor
  · exact (this.glob x).trans ⟨fun a => a.elim (fun b => (by simp [enterDef] at b)) id, .inr⟩
  · intro hx
    exact (this.nonl x hx).elim (fun b => (by simp [enterDef] at b)) id

/-- C43: the reported packages are exactly those named in import statements (the first component in
`import a.b`, the last one in `from a.b import c`). -/
theorem C43_packages {f : Node} (hf : IsDef f) {r : St} (h : analyze f = some r) (p : String) :
    p ∈ r.packages ↔ Imports p f := by
  obtain ⟨name, args, va, kw, ch, rfl⟩ := hf
  have := src_visitAll ch 0 _ r (by simpa [analyze, visit] using h)
  exact (this.packages p).trans ⟨fun a => a.elim (fun b => (by simp [enterDef] at b)) id, .inr⟩

/-- the analysis fails only for functions with an import like `from . import x` -/
theorem C43_analysis_ends {f : Node} (hf : IsDef f) : (∃ r, analyze f = some r) ↔ ¬ Relative f := by
  obtain ⟨name, args, va, kw, ch, rfl⟩ := hf
  have := visitAll_total ch 0 (enterDef args va kw {})
  have e : analyze (.funcDef name args va kw ch) = visitAll ch 1 (enterDef args va kw {}) := by simp [analyze, visit]
  simp only [Relative]
  rw [← this, e]
  cases visitAll ch (0 + 1) (enterDef args va kw {}) <;> simp

theorem firstAny_append (x : String) (a b : List Node) : firstAny x (a ++ b) = (firstAny x a).or (firstAny x b) := by
  induction a with
  | nil => simp [firstAny]
  | cons n a ih => simp only [List.cons_append, firstAny, ih, Option.or_assoc]

mutual
theorem first_binds (x : String) (n : Node) (h : Binds x n) : first x n ≠ none := by
  cases n with
  | name y c =>
    simp only [Binds] at h
    obtain ⟨rfl, rfl⟩ := h
    simp [first]
  | funcDef f args va kw ch =>
    simp only [Binds] at h
    simp only [first]
    split <;> simp [h]
  | tryS hs ch =>
    simp only [Binds] at h
    simp only [first]
    split
    · simp
    · rename_i hn
      exact firstAny_binds x ch (h.resolve_left hn)
  | comprehension t rest =>
    simp only [Binds] at h
    simp only [first]
    split
    · simp
    · rename_i hn
      rcases h.resolve_left hn with a | a
      · have := first_binds x t a
        cases hf : first x t with
        | none => exact absurd hf this
        | some m => simp
      · have := firstAny_binds x rest a
        cases hf : first x t with
        | none => simpa using this
        | some m => simp
  | tuple elts => exact firstAny_binds x elts h
  | listComp elts gens =>
    simp only [Binds] at h
    simp only [first]
    rcases h with a | a
    · have := firstAny_binds x elts a
      cases hf : firstAny x gens with
      | none => simpa using this
      | some m => simp
    · have := firstAny_binds x gens a
      cases hf : firstAny x gens with
      | none => exact absurd hf this
      | some m => simp
  | importS names => simp only [Binds] at h; simp only [first]; rw [if_pos h]; simp
  | importFrom m names => simp only [Binds] at h; simp only [first]; rw [if_pos h]; simp
  | nonlocalS names => simp only [Binds] at h; simp only [first]; rw [if_pos h]; simp
  | globalS names => simp only [Binds] at h; simp only [first]; rw [if_pos h]; simp
  | yieldE ch => exact firstAny_binds x ch h
  | other c i ch => exact firstAny_binds x ch h
theorem firstAny_binds (x : String) (ns : List Node) (h : BindsAny x ns) : firstAny x ns ≠ none := by
  cases ns with
  | nil => exact h.elim
  | cons n ns =>
    simp only [firstAny]
    rcases h with a | a
    · have := first_binds x n a
      cases hf : first x n with
      | none => exact absurd hf this
      | some m => simp
    · have := firstAny_binds x ns a
      cases hf : first x n with
      | none => simpa using this
      | some m => simp
end

/-- C44: a name that is a parameter, or is bound by the first part of a function (which does not use it), is not
reported, however it is used in the rest: in the function itself or in nested functions at any depth. -/
theorem C44_bound_names_not_reported (name : String) (args : List String) (va kw : Option String) (pre post : List Node) {r : St}
    (h : analyze (.funcDef name args va kw (pre ++ post)) = some r) (x : String)
    (hx : x ∈ plainParams args va kw ∨ (BindsAny x pre ∧ ¬ LoadsAny x pre)) : x ∉ r.uncl := by
  intro hu
  obtain ⟨h1, h2⟩ := (analyze_spec x _ _ _ _ _ r h).1 hu
  rcases hx with a | ⟨a, b⟩
  · exact h1 a
  · rw [firstAny_append] at h2
    have h3 := firstAny_binds x pre a
    cases hf : firstAny x pre with
    | none => exact h3 hf
    | some m =>
      rw [hf] at h2
      cases m with
      | use => exact b (loadsAny_of_first x pre hf)
      | bind => cases h2

/-- C44: a name that a nested function `g` needs, and that the enclosing function does not bind, is reported. -/
theorem C44_unbound_closure_reported (name : String) (args : List String) (va kw : Option String) (pre post : List Node) (g : Node) {r : St}
    (h : analyze (.funcDef name args va kw (pre ++ g :: post)) = some r) (x : String) (hg : Needs x g)
    (hp : x ∉ plainParams args va kw) (hb : ¬ BindsAny x (pre ++ g :: post)) : x ∈ r.uncl := by
  refine C42_external_names_reported ⟨_, _, _, _, _, rfl⟩ h x ⟨hp, hb, ?_⟩
  have : ∀ l : List Node, NeedsAny x (l ++ g :: post) := by
    intro l
    induction l with
    | nil => exact .inl hg
    | cons n l ih => exact .inr ih
  exact this pre

/-- C46 (exact): a name is reported as used if and only if it is not a parameter (plain, `*args` or `**kwargs`) and
its first mention, in reading order, is a use. -/
theorem C46_reported_iff_partial (name : String) (args : List String) (va kw : Option String) (ch : List Node) {r : St}
    (h : analyze (.funcDef name args va kw ch) = some r) (x : String) :
    x ∈ r.uncl ↔ x ∉ plainParams args va kw ∧ firstAny x ch = some .use :=
  analyze_spec x name args va kw ch r h

/-- C46 (what holds): if all names used in a function are parameters of the plain kinds or are bound before use in
reading order, then no used name is reported; without `global` declarations nothing is. -/
theorem C46_nothing_reported_partial (name : String) (args : List String) (va kw : Option String) (ch : List Node) {r : St}
    (h : analyze (.funcDef name args va kw ch) = some r)
    (hx : ∀ x, LoadsAny x ch → x ∈ plainParams args va kw ∨ firstAny x ch = some .bind) (hg : ∀ x, ¬ DeclaresAny true x ch) :
    r.uncl = [] ∧ r.glob = [] := by
  constructor
  · rw [List.eq_nil_iff_forall_not_mem]
    intro x hu
    obtain ⟨h1, h2⟩ := (analyze_spec x _ _ _ _ _ r h).1 hu
    rcases hx x (loadsAny_of_first x ch h2) with a | a
    · exact h1 a
    · rw [h2] at a; cases a
  · rw [List.eq_nil_iff_forall_not_mem]
    intro x hu
    exact hg x (((C43_declared_names_occur ⟨_, _, _, _, _, rfl⟩ h x).1).1 hu)

namespace Ex

/-- `x` loaded / stored -/
def ld (x : String) : Node := .name x .load
def st (x : String) : Node := .name x .store
/-- `x = v`, an expression made of `l`, `return v` -/
def assign (x : String) (v : Node) : Node := .other "Assign" none [st x, v]
def expr (l : List Node) : Node := .other "Expr" none l
def ret (v : Node) : Node := .other "Return" none [v]
/-- the `arguments` node with plain arguments -/
def arguments (l : List String) : Node := .other "arguments" none (l.map fun a => .other "arg" (some a) [])

/-- `def f(n): t = n + z;  def g(k): return t + k + y;  return [g(i) for i in h(n)]` -/
def f1 : Node := .funcDef "f" ["n"] none none [arguments ["n"],
  assign "t" (expr [ld "n", ld "z"]),
  .funcDef "g" ["k"] none none [arguments ["k"], ret (expr [ld "t", ld "k", ld "y"])],
  ret (.listComp [expr [ld "g", ld "i"]] [.comprehension (st "i") [expr [ld "h", ld "n"]]])]

/-- the external names are `z`, `y` and `h` -/
example : (analyze f1).map (·.uncl) = some ["z", "y", "h"] := by decide +kernel
example : Needs "y" f1 ∧ ¬ Needs "t" f1 ∧ ¬ Needs "i" f1 := by
  simp [Needs, f1, NeedsAny, Binds, BindsAny, plainParams, arguments, assign, expr, ret, ld, st, loopVars, varName]
example : first "i" f1 = none ∧ first "z" f1 = some .use := by decide +kernel

/-- `def f(n):  a = n;  for i in range(n): a = a + i;  return a` -/
def loopBody : List Node := [arguments ["n"], assign "a" (ld "n"),
  .comprehension (st "i") [expr [ld "range", ld "n"], assign "a" (expr [ld "a", ld "i"])], ret (ld "a")]

/-- the hypothesis of C44 holds for `a`: bound by the first two parts, which do not use it -/
example : BindsAny "a" (loopBody.take 2) ∧ ¬ LoadsAny "a" (loopBody.take 2) := by
  simp [loopBody, BindsAny, LoadsAny, Binds, Loads, arguments, assign, ld, st]

/-- `def f(n):  a = n;  return a` meets the hypotheses of `C46_nothing_reported_partial` -/
example : ∀ x, LoadsAny x [arguments ["n"], assign "a" (ld "n"), ret (ld "a")] →
    x ∈ plainParams ["n"] none none ∨ firstAny x [arguments ["n"], assign "a" (ld "n"), ret (ld "a")] = some .bind := by
  intro x hx
  simp [LoadsAny, Loads, arguments, assign, ld, st, ret] at hx
  rcases hx with rfl | rfl
  · left; decide
  · right; decide +kernel

end Ex

/-! C46 fails for these functions, which use only their own parameters and variables, or imported names: -/
open Ex

/-- keyword-only (and positional-only) parameters: `def f(*, k): return k` -/
theorem C46_keyword_only_counterexample :
    (analyze (.funcDef "f" [] none none [.other "arguments" none [.other "arg" (some "k") []], ret (ld "k")])).map (·.uncl) = some ["k"] := by
  decide +kernel

/-- parameters of a lambda: `def f(): return lambda v: v` -/
theorem C46_lambda_counterexample :
    (analyze (.funcDef "f" [] none none [arguments [], ret (.other "Lambda" none [.other "arguments" none [.other "arg" (some "v") []], ld "v"])])).map
      (·.uncl) = some ["v"] := by decide +kernel

/-- a nested function that calls itself: `def f(n):  def g(k): return g(k);  return g(n)` -/
theorem C46_nested_recursion_counterexample :
    (analyze (.funcDef "f" ["n"] none none [arguments ["n"],
      .funcDef "g" ["k"] none none [arguments ["k"], ret (expr [ld "g", ld "k"])], ret (expr [ld "g", ld "n"])])).map (·.uncl) = some ["g"] := by
  decide +kernel

/-- a dotted import: `def f():  import os.path;  return os.path` -/
theorem C46_dotted_import_counterexample :
    (analyze (.funcDef "f" [] none none [arguments [], .importS [⟨"os.path", none⟩], ret (.other "Attribute" (some "path") [ld "os"])])).map
      (·.uncl) = some ["os"] := by decide +kernel

/-- a nested class: `def f():  class C: pass;  return C` -/
theorem C46_class_counterexample :
    (analyze (.funcDef "f" [] none none [arguments [], .other "ClassDef" (some "C") [.other "Pass" none []], ret (ld "C")])).map (·.uncl) =
      some ["C"] := by decide +kernel

/-- pattern matching: `def f(v):  match v: case y: return y` -/
theorem C46_match_counterexample :
    (analyze (.funcDef "f" ["v"] none none [arguments ["v"], .other "Match" none [ld "v", .other "match_case" none [.other "MatchAs" (some "y") [],
      ret (ld "y")]]])).map (·.uncl) = some ["y"] := by decide +kernel

/-- mutually recursive nested functions, or any use of a variable in a nested function that is assigned later:
`def f():  def g(): return t;  t = 1;  return g()` -/
theorem C46_later_binding_counterexample :
    (analyze (.funcDef "f" [] none none [arguments [], .funcDef "g" [] none none [arguments [], ret (ld "t")],
      assign "t" (.other "Constant" none []), ret (expr [ld "g"])])).map (·.uncl) = some ["t"] := by decide +kernel

/-- `from . import x` crashes the analysis -/
theorem C46_relative_import_counterexample :
    analyze (.funcDef "f" [] none none [arguments [], .importFrom none [⟨"x", none⟩]]) = none := by decide +kernel

end Pyth.Analyzer
