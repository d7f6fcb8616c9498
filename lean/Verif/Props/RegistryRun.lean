import Verif.Proofs.RegistrySole
import Verif.Props.Registry
/-!
# Registered functions can be executed: C50
-/
set_option linter.unusedVariables false
namespace Pyth.Registry
open Pyth.Analyzer

/-- the analysis of the function finds that it needs `x` from outside -/
def NeedsFound (s : Src) (x : String) : Prop := ∃ a, analyze (definition s) = some a ∧ x ∈ a.glob ++ a.uncl

theorem available_of {E : Env} {s : Src} {x : String} (h : Provided E s x) : x ∈ available E s.name := by
  simp only [Provided, List.mem_cons, List.not_mem_nil, or_false] at h
  simp only [available, primaryDecorators, List.mem_append, List.mem_cons, List.not_mem_nil, or_false]
  tauto

/-- C50 (partial): in a history without unpickling, if a function has one function object only, no function of the
island is named like a builtin or a name of the library, and (unless the function was executed before) the names it
needs are there — in the island only if it is not, or no longer, marked as strictly autonomous —, then executing it
gets to running its body.  Missing: functions with several objects, and functions that were executed once before their
dependencies were declared; the claim is false for them. -/
theorem C50_single_handles_can_be_executed_partial {E : Env} (hE : E.Ok) {ops : List Op} (hplain : ∀ op ∈ ops, op.plain = true)
    {i : Nat} {o : Obj} (ho : (run E {} ops).objs[i]? = some o)
    (hsole : ∀ (m : Nat) (q : Obj), (run E {} ops).objs[m]? = some q → q.portal = o.portal → q.island = o.island →
      q.src.name = o.src.name → m = i)
    (hres : ∀ x r, (run E {} ops).at ⟨o.portal, o.island, x⟩ = some r → ¬ Reserved E x)
    (hneed : o.full = false → ∀ x, NeedsFound o.src x → Provided E o.src x ∨
      o.strict = false ∧ ∃ g, (run E {} ops).at ⟨o.portal, o.island, x⟩ = some g) :
    (start E (run E {} ops) i).2 = true := by
  have hp := run_prims_plain (E := E) Wf.empty ops hplain
  have hI := prims_inv hE (Inv.empty E) hp
  have hs : Sole (run E {} ops) i o := ⟨ho, fun m q hq hk => hsole m q hq (by simpa [Obj.key] using congrArg Key.portal hk)
    (by simpa [Obj.key] using congrArg Key.island hk) (by simpa [Obj.key] using congrArg Key.name hk)⟩
  have hok := prims_sole hE (Inv.empty E) hp (fun i o h => by have := h.1; simp at this) i o hs
  have hg : GuardsOk (run E {} ops) := prims_guards Wf.empty hp (fun i o h => by simp at h)
  obtain ⟨r, q1, q2, _⟩ := hI.wf.handle i o ho
  obtain ⟨j, _, _, _, _, k5⟩ := hI.wf.of_at q1
  rw [q2] at k5
  obtain ⟨a, ha, _⟩ := acceptable_analyzes k5
  refine start_sole hE hI hs hok hg ha ?_ hres
  intro hf
  have hneed := hneed hf
  apply List.eq_nil_iff_forall_not_mem.2
  intro x hx
  have hreq : x ∈ required E o.src a := by
    unfold stillRequired at hx
    split at hx
    · exact hx
    · simp only [minus, List.mem_filter] at hx; exact hx.1
  have hreq' := hreq
  simp only [required, minus, List.mem_filter] at hreq'
  rcases hneed x ⟨a, ha, hreq'.1⟩ with h | ⟨h1, g, h2⟩
  · simp [available_of h] at hreq'
  · unfold stillRequired at hx
    rw [h1] at hx
    simp only [Bool.false_eq_true, if_false, minus, List.mem_filter] at hx
    have := hI.wf.mem_names.2 ⟨g, h2⟩
    simp [this] at hx

end Pyth.Registry

namespace Pyth.Registry.Ex
open Pyth.Analyzer

/-- the hypotheses hold of `f`, which is pure, has the guard `g`, and uses `h` -/
def ops50 : List Op := [strictly (fn "g" ["print"]), aut (fn "h" ["g"]), pur (fn "f" ["h", "len"]) (some [.name "g"]), .start 0]
example : (start E (run E {} ops50) 2).2 = true := by
  refine C50_single_handles_can_be_executed_partial E_ok (i := 2)
    (o := { cls := .pure, portal := 0, island := "I", src := fn "f" ["h", "len"], strict := false, guards := some ["g"] })
    (by decide) (by decide +kernel) ?_ ?_ ?_
  · intro m q h1 h2 h3 h4
    have e : (run E {} ops50).objs.length = 3 := by decide +kernel
    have e0 : (run E {} ops50).objs[0]?.map (·.src.name) = some "g" := by decide +kernel
    have e1 : (run E {} ops50).objs[1]?.map (·.src.name) = some "h" := by decide +kernel
    have hm : m < 3 := by
      rw [List.getElem?_eq_some_iff] at h1
      obtain ⟨h, _⟩ := h1
      omega
    have n0 : m ≠ 0 := by
      rintro rfl
      rw [h1] at e0; simp [h4, fn] at e0
    have n1 : m ≠ 1 := by
      rintro rfl
      rw [h1] at e1; simp [h4, fn] at e1
    omega
  · intro x r hr
    have hk : (run E {} ops50).known.map (fun e => e.1.name) = ["g", "h", "f"] := by decide +kernel
    have hx : x ∈ (run E {} ops50).known.map (fun e => e.1.name) := by
      simp only [Reg.at, Option.bind_eq_some_iff] at hr
      obtain ⟨j, h1, _⟩ := hr
      exact List.mem_map.2 ⟨_, lookup_mem _ h1, rfl⟩
    rw [hk] at hx
    simp only [List.mem_cons, List.not_mem_nil, or_false] at hx
    rcases hx with rfl | rfl | rfl <;> simp [Reserved, E, allDecorators]
  · rintro _ x ⟨a, ha, hx⟩
    have : (analyze (definition (fn "f" ["h", "len"]))).map (fun a => a.glob ++ a.uncl) = some ["h", "len"] := by decide +kernel
    rw [ha] at this
    simp only [Option.map_some, Option.some.injEq] at this
    rw [this] at hx
    simp only [List.mem_cons, List.not_mem_nil, or_false] at hx
    rcases hx with rfl | rfl
    · exact .inr ⟨rfl, ⟨_, (Option.eq_some_of_isSome (by decide +kernel))⟩⟩
    · exact .inl (.inl (by decide))

/-- C50 is false of the code: of two objects of a pure function, created before it is executed for the first time, the
second can be executed only if the first is not executed before. -/
theorem C50_second_pure_object_counterexample :
    (start E (run E {} [pur (fn "f" []), pur (fn "f" [])]) 0).2 = true ∧
    (start E (run E {} [pur (fn "f" []), pur (fn "f" []), .start 0]) 1).2 = false := by
  decide +kernel

/-- C50 is false of the code: if the second object of an autonomous function is executed first, the first object can
no longer be executed. -/
theorem C50_second_autonomous_object_counterexample :
    (start E (run E {} [aut (fn "f" []), aut (fn "f" [])]) 1).2 = true ∧
    (start E (run E {} [aut (fn "f" []), aut (fn "f" []), .start 1]) 0).2 = false := by
  decide +kernel

/-- C50 is false of the code: a function that was executed before its dependency was declared, and failed, fails ever
after, although the same function works if it was not executed too early. -/
theorem C50_too_early_counterexample :
    (start E (run E {} [aut (fn "f" ["g"]), .start 0, aut (fn "g" [])]) 0).2 = false ∧
    (start E (run E {} [aut (fn "f" ["g"]), aut (fn "g" [])]) 0).2 = true := by
  decide +kernel

end Pyth.Registry.Ex
