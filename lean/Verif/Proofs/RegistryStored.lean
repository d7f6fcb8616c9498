import Verif.Proofs.RegistryRestore
import Verif.Props.RegistryRun
/-! # Executing a registered autonomous function for the first time -/
set_option linter.unusedVariables false
set_option linter.unusedSimpArgs false
namespace Pyth.Registry
open Pyth.Analyzer

theorem stillRequired_nil_iff {E : Env} {R : Reg} (w : Wf R) {o : Obj} {a : St} (ha : analyze o.src.node = some a) :
    stillRequired E R o a = [] ↔ ∀ x, NeedsFound o.src x → Provided E o.src x ∨
      o.strict = false ∧ ∃ g, R.at ⟨o.portal, o.island, x⟩ = some g := by
  constructor
  · intro h x hx
    obtain ⟨a', ha', hx⟩ := hx
    rw [show definition o.src = o.src.node from rfl, ha] at ha'; injection ha' with ha'; subst ha'
    by_cases hv : x ∈ available E o.src.name
    · exact .inl (mem_available hv)
    have hreq : x ∈ required E o.src a := by
      simp only [required, minus, List.mem_filter]
      exact ⟨hx, by simpa using hv⟩
    right
    cases hs : o.strict with
    | true =>
      unfold stillRequired at h
      rw [hs, if_pos rfl] at h
      rw [h] at hreq; cases hreq
    | false =>
      refine ⟨rfl, w.mem_names.1 ?_⟩
      unfold stillRequired at h
      rw [hs, if_neg (by simp)] at h
      by_contra hn
      have : x ∈ minus (required E o.src a) (R.islandNames o.portal o.island) := by
        simp only [minus, List.mem_filter]
        exact ⟨hreq, by simpa using hn⟩
      rw [h] at this; cases this
  · intro h
    apply List.eq_nil_iff_forall_not_mem.2
    intro x hx
    have hreq : x ∈ required E o.src a := by
      unfold stillRequired at hx
      split at hx
      · exact hx
      · simp only [minus, List.mem_filter] at hx; exact hx.1
    have hreq' := hreq
    simp only [required, minus, List.mem_filter] at hreq'
    rcases h x ⟨a, ha, hreq'.1⟩ with h | ⟨h1, g, h2⟩
    · simp [available_of h] at hreq'
    · unfold stillRequired at hx
      rw [h1] at hx
      simp only [Bool.false_eq_true, if_false, minus, List.mem_filter] at hx
      have := w.mem_names.2 ⟨g, h2⟩
      simp [this] at hx

/-- the first execution of an autonomous function that is registered under its name -/
theorem start_first_iff {E : Env} (hE : E.Ok) {R : Reg} (hI : Inv E R) {j : Nat} {o : Obj} (ho : R.objs[j]? = some o)
    (k1 : R.known.lookup o.key = some j) (hc : o.cls = .autonomous) (hf : o.full = false)
    (hres : ∀ x r, R.at ⟨o.portal, o.island, x⟩ = some r → ¬ Reserved E x) :
    (start E R j).2 = true ↔ ∀ x, NeedsFound o.src x → Provided E o.src x ∨
      o.strict = false ∧ ∃ g, R.at ⟨o.portal, o.island, x⟩ = some g := by
  have w := hI.wf
  have q1 : R.at o.key = some o := by simp [Reg.at, k1, ho]
  obtain ⟨_, _, _, k3, k4, k5⟩ := w.of_at q1
  obtain ⟨a, ha, _⟩ := acceptable_analyzes k5
  rw [← stillRequired_nil_iff w ha]
  have c : Ctx R j j o o := ⟨ho, k1, ho, rfl, hf⟩
  obtain ⟨d, d1, d2, d3, d4, hfin⟩ := finish_eq hE w c ha
  have hne : d ≠ [] := fun h => by
    have := (d3 o.src.name).2 (.refl _)
    rw [h] at this; cases this
  have hcomp : complete E R j = finish E R j j o := by
    have h1 : completeAutonomous E R j = finish E R j j o := by
      unfold completeAutonomous
      rw [ho]
      dsimp only
      rw [hf]
      have hisl : (o.portal, o.island) ∈ R.islands := k4
      simp only [Bool.false_eq_true, if_false, hisl, if_true]
      rw [k1]; dsimp only
      rw [ho]; dsimp only
      simp [hf]
    unfold complete
    rw [ho]; dsimp only
    rw [hf, hc]
    simp only [Bool.false_eq_true, if_false]
    exact h1
  by_cases hst : stillRequired E R o a = []
  swap
  · rw [if_neg hst] at hfin
    refine ⟨fun h => ?_, fun h => absurd h hst⟩
    unfold start at h
    rw [hcomp, hfin] at h
    cases h
  refine ⟨fun _ => hst, fun _ => ?_⟩
  rw [if_pos hst, if_pos hc] at hfin
  have hone : strictAfter E R o a = true → d.length = 1 := fun h =>
    one_dependency k5 ha (strictAfter_required hst h) ⟨o, q1, rfl⟩ hres d1 ((d3 _).2 (.refl _)) (fun x hx => (d3 x).1 hx)
  have hin : ∀ x ∈ d, ∃ q, R.at ⟨o.portal, o.island, x⟩ = some q := by
    intro x hx
    have hx := (d3 x).1 hx
    have : ∀ u v, CallGraph.Reaches (Link R o.portal o.island) u v → u = o.src.name → ∃ q, R.at ⟨o.portal, o.island, v⟩ = some q := by
      intro u v h
      have gen : (∃ q, R.at ⟨o.portal, o.island, u⟩ = some q) → ∃ q, R.at ⟨o.portal, o.island, v⟩ = some q := by
        induction h with
        | refl => exact id
        | step h _ ih => exact fun _ => ih h.1
      rintro rfl
      exact gen ⟨o, q1⟩
    exact this _ _ hx rfl
  have hoc := get_compile ho
  have hget : (recordDeps (flipStrict E (compile R j) j o a) j j d).objs[j]? =
      some { o with compiled := true, strict := strictAfter E R o a, deps := some d } := by
    unfold recordDeps
    rw [get_modify2, get_flip E _ j o a j hoc, hoc]
    simp only [Option.map_some, if_true]
    rfl
  have hknown : (recordDeps (flipStrict E (compile R j) j o a) j j d).known = R.known := by
    unfold recordDeps flipStrict compile
    split <;> rfl
  have hw1 := compile_ok w j
  have hw2 := flip_ok (E := E) hw1.1 j o a
  have hw := recordDeps_ok hw2.1 j j d
  have hext : Ext R (recordDeps (flipStrict E (compile R j) j o a) j j d) := (hw1.2.trans hw2.2).trans hw.2
  generalize hQ : recordDeps (flipStrict E (compile R j) j o a) j j d = Q at *
  set o1 : Obj := { o with compiled := true, strict := strictAfter E R o a, deps := some d } with ho1
  have hg' : (markFull Q j j).objs[j]? = some { o1 with full := true } := by
    unfold markFull
    rw [get_modify2, hget]; simp
  unfold start
  rw [hcomp, hfin]; dsimp only
  rw [hg']
  refine runnable_of (o := { o1 with full := true }) (r := { o1 with full := true }) rfl ?_ rfl hne d2 hone ?_
  · unfold Reg.at
    rw [show (markFull Q j j).known = Q.known from rfl, hknown]
    show (R.known.lookup o.key).bind _ = _
    rw [k1]; exact hg'
  · intro x hx
    obtain ⟨q, hq⟩ := hin x hx
    obtain ⟨q', hq', _⟩ := (hext.trans (markFull_ok hw.1 j j).2).at hq
    exact ⟨q', hq'⟩

end Pyth.Registry
