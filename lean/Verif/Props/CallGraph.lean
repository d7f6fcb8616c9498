import Verif.Proofs.CallGraph
/-!
# Properties C40, C41: dependency maps

`iter` is the (arbitrary) order in which Python iterates over sets.
-/
set_option linter.unusedSectionVars false
namespace Pyth.CallGraph
variable {N : Type} [DecidableEq N]

/-- **C40** The shallow map exists for every list of functions (no KeyError), its keys are exactly the
names of the given functions, each once, and it relates `f` to `g` iff `g` is the name of a given
function and `g = f` or the source of `f` refers to `g`. -/
theorem C40_direct_dependencies (iter : List N → List N) (hi : ∀ l, (iter l).Perm l)
    (fns : List (Fn N)) :
    ∃ d, shallow iter fns = some d ∧ (d.map (·.1)).Nodup ∧
      (∀ k, k ∈ d.map (·.1) ↔ ∃ h ∈ fns, h.name = k) ∧
      ∀ f ∈ d.map (·.1), ∃ s, dget d f = some s ∧ s.Nodup ∧ ∀ g, g ∈ s ↔ Direct fns f g :=
  shallow_ok iter hi fns

/-- **C40** the map depends neither on the order nor on repetitions in the list, nor on the order in
which sets are iterated (given that equal names mean equal functions) -/
theorem C40_order_independent (iter iter' : List N → List N) (hi : ∀ l, (iter l).Perm l)
    (hi' : ∀ l, (iter' l).Perm l) (fns fns' : List (Fn N)) (hsame : ∀ x, x ∈ fns ↔ x ∈ fns')
    (hfun : ∀ x ∈ fns, ∀ y ∈ fns, x.name = y.name → x = y) :
    ∃ d d', shallow iter fns = some d ∧ shallow iter' fns' = some d' ∧
      (∀ k, k ∈ d.map (·.1) ↔ k ∈ d'.map (·.1)) ∧
      ∀ f s s', dget d f = some s → dget d' f = some s' → ∀ g, g ∈ s ↔ g ∈ s' := by
  obtain ⟨d, h1, h2, h3, h4⟩ := shallow_ok iter hi fns
  obtain ⟨d', h1', h2', h3', h4'⟩ := shallow_ok iter' hi' fns'
  refine ⟨d, d', h1, h1', ?_, ?_⟩
  · intro k; rw [h3, h3']; simp only [hsame]
  · intro f s s' hs hs' g
    have hf := (dget_isSome d f).1 (by simp [hs])
    have hf' := (dget_isSome d' f).1 (by simp [hs'])
    obtain ⟨t, q1, _, q2⟩ := h4 f hf
    obtain ⟨t', q1', _, q2'⟩ := h4' f hf'
    rw [hs] at q1; injection q1 with q1; subst q1
    rw [hs'] at q1'; injection q1' with q1'; subst q1'
    rw [q2, q2']
    have key : ∀ (a b : List (Fn N)), (∀ x, x ∈ a ↔ x ∈ b) →
        (∀ x ∈ a, ∀ y ∈ a, x.name = y.name → x = y) → Direct a f g → Direct b f g := by
      rintro a b hab hfn ⟨⟨x, hx, hxg⟩, pre, fn, post, e1, e2, e3, e4⟩
      have hfa : fn ∈ a := by rw [e1]; simp
      obtain ⟨pre', fn', post', k1, k2, k3⟩ := exists_last b f ⟨fn, (hab fn).1 hfa, e2⟩
      have hfb : fn' ∈ b := by rw [k1]; simp
      have := hfn fn hfa fn' ((hab fn').2 hfb) (e2.trans k2.symm)
      subst this
      exact ⟨⟨x, (hab x).1 hx, hxg⟩, pre', fn, post', k1, k2, k3, e4⟩
    constructor
    · exact key fns fns' hsame hfun
    · exact key fns' fns (fun x => (hsame x).symm)
        (fun x hx y hy => hfun x ((hsame x).2 hx) y ((hsame y).2 hy))

/-- **C41** The deep map always terminates (as many passes as there are functions are enough, for
every name), is a map to duplicate-free sets and relates `f` to `g` iff `g` is reachable from `f`; cyclic references included. -/
theorem C41_full_dependencies_are_reachability (iter : List N → List N)
    (hi : ∀ l, (iter l).Perm l) (fns : List (Fn N)) (fuel : Nat) (hfu : fns.length ≤ fuel) :
    ∃ d, deep iter fuel fns = some (some d) ∧ (d.map (·.1)).Nodup ∧
      (∀ k, k ∈ d.map (·.1) ↔ ∃ h ∈ fns, h.name = k) ∧
      ∀ f ∈ d.map (·.1), ∃ s, dget d f = some s ∧ s.Nodup ∧ ∀ g, g ∈ s ↔ Reaches (Direct fns) f g :=
  deep_ok iter hi fns fuel hfu

/-! Non-vacuity: a cyclic graph, reverse iteration order, a reference to an unknown name. -/
example : shallow List.reverse [⟨1, [2, 9]⟩, ⟨2, [3]⟩, ⟨3, [2]⟩, ⟨4, [1]⟩] =
    some [(1, [1, 2]), (2, [2, 3]), (3, [3, 2]), (4, [4, 1])] := by decide
example : deep List.reverse 4 [⟨1, [2, 9]⟩, ⟨2, [3]⟩, ⟨3, [2]⟩, ⟨4, [1]⟩] =
    some (some [(1, [1, 2, 3]), (2, [2, 3]), (3, [3, 2]), (4, [4, 1, 2, 3])]) := by decide
example : ∀ l : List Nat, (List.reverse l).Perm l := fun l => List.reverse_perm l

end Pyth.CallGraph
