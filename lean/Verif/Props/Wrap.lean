import Verif.Proofs.Wrap
import Verif.Props.RegistryRun
/-!
# C86: decorating function objects again
-/
set_option linter.unusedSectionVars false
set_option linter.unusedVariables false
set_option linter.unusedSimpArgs false
namespace Pyth.Registry
open Pyth.Analyzer

/-! ## Ordinary and safe -/

/-- C86: any function object – ordinary, safe, autonomous or pure – can be made into an ordinary or a safe one, with the same
source, that can be executed; the only exception is an object marked as completed that was never compiled itself. -/
theorem C86_ordinary_of_any_partial (safe : Bool) :
    (∀ g : Plain, ((∃ f, asPlain safe (.plain g) = some f) ↔ (g.full = true → g.compiled = true)) ∧
      ∀ f, asPlain safe (.plain g) = some f → f.safe = safe ∧ f.src = g.src ∧ f.full = g.full ∧ f.start.2 = true) ∧
    ∀ o : Obj, ((∃ f, asPlain safe (.fn o) = some f) ↔ (o.full = true → o.compiled = true)) ∧
      ∀ f, asPlain safe (.fn o) = some f → f.safe = safe ∧ f.src = o.src ∧ f.full = o.full ∧ f.start.2 = true := by
  refine ⟨fun g => ?_, fun o => ?_⟩
  · cases h1 : g.full <;> cases h2 : g.compiled <;>
      simp [asPlain, Given.full, Given.compiled, Given.src, Plain.start, Plain.complete, h1, h2]
  · cases h1 : o.full <;> cases h2 : o.compiled <;>
      simp [asPlain, Given.full, Given.compiled, Given.src, Plain.start, Plain.complete, h1, h2]

/-! ## Pure over pure -/

/-- what distinguishes the objects of two registries is at most whether the last one is compiled, and its recorded
dependencies and strictness -/
theorem begin_parallel (R : Reg) (o q : Obj) (h1 : o.cls = .pure) (h2 : q.cls = .pure) (h3 : o.portal = q.portal) (h4 : o.island = q.island)
    (h5 : o.src = q.src) (h6 : o.guards = q.guards) :
    (begin R o).2 = (begin R q).2 ∧ (begin R o).1.known = (begin R q).1.known ∧ (begin R o).1.islands = (begin R q).1.islands := by
  have hk : o.key = q.key := by simp [Obj.key, h3, h4, h5]
  have hd : o.deco = q.deco := by simp [Obj.deco, h1, h2, h4, h6]
  unfold begin
  dsimp only
  rw [h3, h4]
  have e1 : ({ o with full := false } : Obj).key = q.key := hk
  have e2 : ({ q with full := false } : Obj).key = q.key := rfl
  have e3 : ({ o with full := false } : Obj).deco = q.deco := hd
  have e4 : ({ q with full := false } : Obj).deco = q.deco := rfl
  simp only [h3, h4] at e1 e3
  rw [e1, e2]
  cases hr : (addIsland R q.portal q.island).at q.key with
  | none =>
    dsimp only
    rw [h5]
    split
    · simp [Reg.alloc]
    · simp
  | some r =>
    dsimp only
    rw [e3, e4, h5, h1, h2]
    cases hrf : r.full <;> cases hrc : r.compiled <;> simp only [update, hrf, hrc] <;> split <;> simp [Reg.alloc]

/-- C86: decorating a pure function object as a pure function (in any portal, on its island) succeeds exactly if decorating
its source does, registers the same names, and gives the new object the same handle – unless the object is marked as completed
but was never compiled itself, when it raises an exception and changes nothing. -/
theorem C86_pure_of_pure_partial (R : Reg) (p : Nat) (gs : Option (List GuardArg)) (o : Obj) (hc : o.cls = .pure) :
    ((o.full = true → o.compiled = true) →
      (asPure R p o.island gs (.fn o)).2 = (decorate R { cls := .pure, portal := p, island := o.island, src := o.src, guards := gs }).2 ∧
      (asPure R p o.island gs (.fn o)).1.known = (decorate R { cls := .pure, portal := p, island := o.island, src := o.src, guards := gs }).1.known ∧
      (asPure R p o.island gs (.fn o)).1.islands = (decorate R { cls := .pure, portal := p, island := o.island, src := o.src, guards := gs }).1.islands) ∧
    (o.full = true ∧ o.compiled = false → asPure R p o.island gs (.fn o) = (R, none)) ∧
    ∀ isl, isl ≠ o.island → asPure R p isl gs (.fn o) = (R, none) := by
  refine ⟨fun h => ?_, fun h => ?_, fun isl h => ?_⟩
  · obtain ⟨o', hu⟩ := (update_isSome (o := { cls := .pure, portal := p, island := o.island, src := o.src, strict := false })).2 h
    have hu' := hu
    unfold update at hu'
    split at hu'
    · cases hu'
    · injection hu' with hu'
      simp only [asPure, hc, hu, if_pos, decorate]
      cases hg : preprocessGuards R p o.island gs with
      | none => simp
      | some g =>
        dsimp only
        apply begin_parallel <;> subst hu' <;> rfl
  · simp [asPure, hc, update, h.1, h.2]
  · simp only [asPure, hc]
    split
    · rfl
    · simp [h]

/-- C86: in the function's own portal the two are the same operation. -/
theorem C86_pure_of_pure_same_portal_partial {E : Env} (hE : E.Ok) {R : Reg} (hR : Reachable E R) {i : Nat} {o : Obj} (ho : R.objs[i]? = some o)
    (hc : o.cls = .pure) (hx : o.full = true → o.compiled = true) (gs : Option (List GuardArg)) :
    asPure R o.portal o.island gs (.fn o) = decorate R { cls := .pure, portal := o.portal, island := o.island, src := o.src, guards := gs } := by
  have hI := reachable_inv hE hR
  obtain ⟨r, h1, h2, h3, h4⟩ := hI.wf.handle i o ho
  have hf : o.full = true → r.full = true := by
    intro hf
    obtain ⟨r', q1, q2⟩ := hI.full i o ho hf
    rw [h1] at q1; injection q1 with q1; subst q1; exact q2
  obtain ⟨o', hu⟩ := (update_isSome (o := { cls := .pure, portal := o.portal, island := o.island, src := o.src, strict := false })).2 hx
  have hu' := hu
  unfold update at hu'
  split at hu'
  · cases hu'
  · injection hu' with hu'
    simp only [asPure, hc, hu, if_pos, decorate]
    cases hg : preprocessGuards R o.portal o.island gs with
    | none => simp
    | some g =>
      dsimp only
      rw [begin_at_some hI.wf { o' with guards := g, aug := none } (r := r) (by subst hu'; exact h1),
        begin_at_some hI.wf { cls := .pure, portal := o.portal, island := o.island, src := o.src, strict := false, guards := g } (r := r) h1]
      subst hu'
      have hd : Obj.deco { cls := .pure, portal := o.portal, island := o.island, src := o.src, strict := false, guards := g } = .pure o.island g := rfl
      rw [hd]
      simp only [Obj.deco]
      cases hrf : r.full with
      | true => cases hrc : r.compiled <;> simp only [update, hrf, hrc] <;> simp
      | false =>
        have : o.full = false := by
          cases h : o.full with
          | false => rfl
          | true => rw [hf h] at hrf; cases hrf
        simp only [update, hrf, this]
        simp

/-! ## Autonomous over autonomous -/

/-- C86: decorating an autonomous function object as an autonomous function, in its portal and on its island, makes another
object of the same function: same source, same strictness (whatever was asked for); no name is registered, and every object
of the session still has the source registered under its name. -/
theorem C86_autonomous_of_autonomous_partial {E : Env} (hE : E.Ok) {R : Reg} (hR : Reachable E R) {i : Nat} {o : Obj} (ho : R.objs[i]? = some o)
    (hc : o.cls = .autonomous) (hx : o.full = true → o.compiled = true) :
    ∃ R' o', asAutonomous R o.portal o.island (.fn o) = (R', some R.objs.length) ∧ R'.objs[R.objs.length]? = some o' ∧
      o'.src = o.src ∧ o'.strict = o.strict ∧ R'.known = R.known ∧ R'.islands = R.islands ∧
      ∀ (j : Nat) (q : Obj), R'.objs[j]? = some q → ∃ r, R'.at q.key = some r ∧ r.src = q.src ∧ r.cls = q.cls := by
  obtain ⟨o', hu⟩ := (update_isSome (o := { cls := .autonomous, portal := o.portal, island := o.island, src := o.src, strict := false })).2 hx
  have hI := reachable_inv hE hR
  have hu' := hu
  unfold update at hu'
  split at hu'
  · cases hu'
  · injection hu' with hu'
    obtain ⟨r, h1, h2, h3, h4⟩ := hI.wf.handle i o ho
    refine ⟨(R.alloc { o' with guards := none, aug := none }).1, { o' with guards := none, aug := none }, ?_, ?_, ?_, ?_, rfl, rfl, ?_⟩
    · simp only [asAutonomous, hu, if_pos]; rfl
    · rw [getElem?_alloc, if_pos rfl]
    · subst hu'; rfl
    · subst hu'; rfl
    · intro j q hq
      rw [at_alloc hI.wf]
      rw [getElem?_alloc] at hq
      split at hq
      · injection hq with hq
        subst hq; subst hu'
        exact ⟨r, h1, h2, h3.trans hc⟩
      · obtain ⟨r', q1, q2, q3, _⟩ := hI.wf.handle j q hq
        exact ⟨r', q1, q2, q3⟩

/-- the object made by `asAutonomous` -/
def copyOf (p : Nat) (o : Obj) : Obj where
  cls := .autonomous
  portal := p
  island := o.island
  src := o.src
  strict := o.strict
  full := o.full
  compiled := o.full && o.compiled
  deps := if o.full then o.deps else none

theorem asAutonomous_eq (R : Reg) (p : Nat) (o : Obj) (hx : o.full = true → o.compiled = true) :
    asAutonomous R p o.island (.fn o) = R.alloc (copyOf p o) := by
  cases h1 : o.full <;> cases h2 : o.compiled
  · simp [asAutonomous, update, copyOf, h1, h2]
  · simp [asAutonomous, update, copyOf, h1, h2]
  · exact absurd (hx h1) (by simp [h2])
  · simp [asAutonomous, update, copyOf, h1, h2]

/-- C86: the new object is executed – up to the start of the body – exactly when the old one would have been. -/
theorem C86_copy_runs_like_original_partial {E : Env} (hE : E.Ok) {R : Reg} (hR : Reachable E R) {i : Nat} {o : Obj} (ho : R.objs[i]? = some o)
    (hc : o.cls = .autonomous) {R' : Reg} {j : Nat} (h : asAutonomous R o.portal o.island (.fn o) = (R', some j)) :
    (start E R' j).2 = true ↔ (start E R i).2 = true := by
  have hx : o.full = true → o.compiled = true := by
    intro h1
    cases h2 : o.compiled with
    | true => rfl
    | false => simp [asAutonomous, update, h1, h2] at h
  have hI := reachable_inv hE hR
  rw [asAutonomous_eq R _ o hx] at h
  generalize hq : copyOf o.portal o = q at h
  have hR' : R' = (R.alloc q).1 := (congrArg Prod.fst h).symm
  have hj : j = R.objs.length := by
    have := congrArg Prod.snd h
    simp only [Reg.alloc, Option.some.injEq] at this
    exact this.symm
  subst hR'; subst hj
  obtain ⟨r, h1, h2, h3, h4⟩ := hI.wf.handle i o ho
  obtain ⟨k, k1, k2, k3, k4, k5⟩ := hI.wf.of_at h1
  have hqk : q.key = o.key := by subst hq; rfl
  have hqp : q.portal = o.portal ∧ q.island = o.island ∧ q.src = o.src ∧ q.strict = o.strict ∧ q.full = o.full ∧ q.cls = .autonomous := by
    subst hq; exact ⟨rfl, rfl, rfl, rfl, rfl, rfl⟩
  have hri : r.island = o.island := by simpa [Obj.key] using congrArg Key.island k3
  have hat : ∀ key, (R.alloc q).1.at key = R.at key := at_alloc hI.wf q
  cases hf : o.full with
  | true =>
    have c1 : complete E R i = (R, true) := by unfold complete; rw [ho]; simp [hf]
    have c2 : complete E (R.alloc q).1 R.objs.length = ((R.alloc q).1, true) := by
      unfold complete; rw [get_at_length]; simp [hqp.2.2.2.2.1, hf]
    unfold start
    rw [c1, c2]
    dsimp only
    rw [ho, get_at_length]
    dsimp only
    rw [runnable_iff h1, runnable_iff (by rw [hqk, hat]; exact h1), hqp.1, hqp.2.1, hqp.2.2.2.1]
    simp only [hat]
    have : q.compiled = o.compiled := by subst hq; simp [copyOf, hf]
    rw [this]
  | false =>
    have c1 : Ctx R i k o r := ⟨ho, k1, k2, h2.symm, hf⟩
    have c2 : Ctx (R.alloc q).1 R.objs.length k q r :=
      ⟨get_at_length R q, by rw [hqk]; exact k1, get_alloc_old q k2, hqp.2.2.1.trans h2.symm, hqp.2.2.2.2.1.trans hf⟩
    have i1 : (o.portal, o.island) ∈ R.islands := k4
    have i2 : (q.portal, q.island) ∈ (R.alloc q).1.islands := by rw [hqp.1, hqp.2.1]; exact i1
    cases hrf : r.full with
    | true =>
      rw [start_refresh c1 hrf i1 hc hri, start_refresh c2 hrf i2 hqp.2.2.2.2.2 (hri.trans hqp.2.1.symm), hqp.1, hqp.2.1]
      simp only [hat]
    | false =>
      obtain ⟨a, ha, _⟩ := acceptable_analyzes k5
      rw [h2] at ha
      obtain ⟨d, hd⟩ := (explore_spec hE hI.wf o.portal o.island o.src.name).2 ⟨r, h1⟩
      have hne : d ≠ [] := by
        have := (((explore_spec hE hI.wf o.portal o.island o.src.name).1 d hd).2.2 o.src.name).2 (.refl _)
        rintro rfl
        simp at this
      rw [(start_first c1 hrf i1 hc ha hd hne).1,
        (start_first c2 hrf i2 hqp.2.2.2.2.2 (by rw [hqp.2.2.1]; exact ha) (by rw [hqp.1, hqp.2.1, hqp.2.2.1, explore_alloc hI.wf]; exact hd) hne).1]
      have e1 : stillRequired E (R.alloc q).1 q a = stillRequired E R o a := by
        unfold stillRequired
        rw [hqp.1, hqp.2.1, hqp.2.2.1, hqp.2.2.2.1]
        rfl
      have e2 : strictAfter E (R.alloc q).1 q a = strictAfter E R o a := by
        unfold strictAfter
        rw [e1, hqp.2.2.1, hqp.2.2.2.1]
      rw [e1, e2, hqp.1, hqp.2.1]
      simp only [hat]

/-! ## What does not work -/

/-- C86, counterexamples: stacking `autonomous` or `pure` over `ordinary` or `safe`, or `pure` over `autonomous`, always
raises an exception and changes nothing. -/
theorem C86_stacking_counterexample (R : Reg) (p : Nat) (isl : String) (gs : Option (List GuardArg)) :
    (∀ f : Plain, asAutonomous R p isl (.plain f) = (R, none)) ∧ (∀ f : Plain, asPure R p isl gs (.plain f) = (R, none)) ∧
    ∀ o : Obj, o.cls = .autonomous → asPure R p isl gs (.fn o) = (R, none) := by
  refine ⟨fun _ => rfl, fun _ => rfl, fun o h => ?_⟩
  simp [asPure, h]

/-- C86, counterexample: an autonomous (or pure) function decorated as an autonomous one in a portal that does not know its
name is accepted, but not registered, and cannot be executed there. -/
theorem C86_other_portal_counterexample {E : Env} (hE : E.Ok) {R : Reg} (hR : Reachable E R) {i : Nat} {o : Obj} (ho : R.objs[i]? = some o)
    (hx : o.full = true → o.compiled = true) {p : Nat} (hp : R.at ⟨p, o.island, o.src.name⟩ = none) :
    ∃ R' j, asAutonomous R p o.island (.fn o) = (R', some j) ∧ R'.at ⟨p, o.island, o.src.name⟩ = none ∧ (start E R' j).2 = false := by
  have hI := reachable_inv hE hR
  refine ⟨_, _, asAutonomous_eq R p o hx, ?_, ?_⟩
  · exact (at_alloc hI.wf _ _).trans hp
  · generalize hq : copyOf p o = q
    have hqk : q.key = ⟨p, o.island, o.src.name⟩ := by subst hq; rfl
    have hl : R.known.lookup ⟨p, o.island, o.src.name⟩ = none := by
      cases h : R.known.lookup ⟨p, o.island, o.src.name⟩ with
      | none => rfl
      | some k =>
        obtain ⟨r, _, h2, _⟩ := hI.wf.at_of_lookup h
        rw [hp] at h2; cases h2
    have hqf : q.full = o.full ∧ q.cls = .autonomous := by subst hq; exact ⟨rfl, rfl⟩
    show (start E (R.alloc q).1 R.objs.length).2 = false
    unfold start
    cases hf : o.full with
    | true =>
      have c2 : complete E (R.alloc q).1 R.objs.length = ((R.alloc q).1, true) := by
        unfold complete; rw [get_at_length]; simp [hqf.1, hf]
      rw [c2]
      dsimp only
      rw [get_at_length]
      dsimp only
      unfold runnable dependencies
      rw [hqk, at_alloc hI.wf, hp]
      simp
    | false =>
      have c2 : complete E (R.alloc q).1 R.objs.length = ((R.alloc q).1, false) := by
        unfold complete; rw [get_at_length]
        dsimp only
        rw [hqf.1, hf, hqf.2]
        simp only [Bool.false_eq_true, if_false]
        unfold completeAutonomous
        rw [get_at_length]
        dsimp only
        rw [hqf.1, hf, hqk]
        simp only [Bool.false_eq_true, if_false]
        split
        · rw [show (R.alloc q).1.known = R.known from rfl, hl]
        · rfl
      rw [c2]

/-- C86, counterexample: if a pure function that was never executed is decorated as an autonomous one, in its own portal, and that
object is executed, the pure function is marked as completed although it has neither compiled code nor an augmented source:
from then on it can neither be executed nor pickled (nor, therefore, addressed or called). -/
theorem C86_spoiled_pure_function_counterexample {E : Env} (hE : E.Ok) {R : Reg} (hR : Reachable E R) {i : Nat} {o : Obj} (ho : R.objs[i]? = some o)
    (hc : o.cls = .pure) (hreg : R.at ⟨o.portal, o.island, o.src.name⟩ = some o) (hsole : R.known.lookup ⟨o.portal, o.island, o.src.name⟩ = some i)
    (hf : o.full = false) (hcm : o.compiled = false) (hau : o.aug = none) {R' R'' : Reg} {j : Nat}
    (h : asAutonomous R o.portal o.island (.fn o) = (R', some j)) (hs : start E R' j = (R'', true)) :
    (start E R'' i).2 = false ∧ pickle E R'' i = (R'', none) := by
  have hI := reachable_inv hE hR
  rw [asAutonomous_eq R _ o (by simp [hf])] at h
  generalize hq : copyOf o.portal o = q at h
  have hR' : R' = (R.alloc q).1 := (congrArg Prod.fst h).symm
  have hj : j = R.objs.length := by
    have := congrArg Prod.snd h
    simp only [Reg.alloc, Option.some.injEq] at this
    exact this.symm
  subst hR'; subst hj
  obtain ⟨k, k1, k2, k3, k4, k5⟩ := hI.wf.of_at hreg
  rw [hsole] at k1; injection k1 with k1; subst k1
  have hqk : q.key = o.key := by subst hq; rfl
  have hqp : q.portal = o.portal ∧ q.island = o.island ∧ q.src = o.src ∧ q.full = false ∧ q.cls = .autonomous := by
    subst hq; exact ⟨rfl, rfl, rfl, hf, rfl⟩
  have c2 : Ctx (R.alloc q).1 R.objs.length i q o :=
    ⟨get_at_length R q, by rw [hqk]; exact hsole, get_alloc_old q ho, hqp.2.2.1, hqp.2.2.2.1⟩
  have i2 : (q.portal, q.island) ∈ (R.alloc q).1.islands := by rw [hqp.1, hqp.2.1]; exact k4
  obtain ⟨a, ha, _⟩ := acceptable_analyzes k5
  obtain ⟨d, hd⟩ := (explore_spec hE hI.wf o.portal o.island o.src.name).2 ⟨o, hreg⟩
  have hne : d ≠ [] := by
    have := (((explore_spec hE hI.wf o.portal o.island o.src.name).1 d hd).2.2 o.src.name).2 (.refl _)
    rintro rfl
    simp at this
  obtain ⟨s1, s2⟩ := start_first c2 hf i2 hqp.2.2.2.2 (by rw [hqp.2.2.1]; exact ha) (by rw [hqp.1, hqp.2.1, hqp.2.2.1, explore_alloc hI.wf]; exact hd) hne
  have hR2 : R'' = firstReg E (R.alloc q).1 R.objs.length i q a d := by
    have := s2 (s1.1 (by rw [hs])).1
    rw [hs] at this
    exact this
  have hlt := lt_of_get ho
  have hget : R''.objs[i]? = some { o with deps := some d, full := true } := by
    rw [hR2, firstReg_get (get_at_length R q), get_alloc_old q ho]
    simp only [Option.map_some, Option.some.injEq]
    rw [if_neg (by omega), if_pos trivial]
  have hcomp : complete E R'' i = (R'', true) := by unfold complete; rw [hget]; simp
  have hat : R''.at o.key = some { o with deps := some d, full := true } := by
    unfold Reg.at
    rw [hR2, firstReg_known, ← hR2]
    show (R.known.lookup o.key).bind _ = _
    rw [show R.known.lookup o.key = some i from hsole]
    exact hget
  constructor
  · unfold start
    rw [hcomp]
    dsimp only
    rw [hget]
    dsimp only
    unfold runnable
    simp [hcm]
  · unfold pickle
    rw [hget]
    dsimp only
    rw [hc]
    dsimp only
    rw [hcomp]
    dsimp only
    rw [hget]
    dsimp only
    rw [show ({ o with deps := some d, full := true } : Obj).key = o.key from rfl, hat]
    dsimp only
    rw [hau]

/-! ## Concrete cases -/

section examples
open Ex

/-- a session: `@autonomous` g, `@autonomous` f (which calls g), `@pure` h, all on island "I" of portal 0; f is executed -/
def wrapOps : List Op := [aut (fn "g" []), aut (fn "f" ["g"]), pur (fn "h" []), .start 1]
def wrapReg : Reg := run E {} wrapOps
theorem wrapReg_reachable : Reachable E wrapReg := ⟨_, rfl⟩

/-- the objects of f and h -/
def wrapF : Obj := { cls := .autonomous, portal := 0, island := "I", src := fn "f" ["g"], strict := false, full := true, compiled := true, deps := some ["f", "g"] }
def wrapH : Obj := { cls := .pure, portal := 0, island := "I", src := fn "h" [], strict := false }

example : wrapReg.objs[1]? = some wrapF := by decide +kernel
example : wrapReg.objs[2]? = some wrapH := by decide +kernel
-- the copies of f and g can be executed
example : (start E (asAutonomous wrapReg 0 "I" (.fn wrapF)).1 3).2 = true := by decide +kernel
-- `pure` over the pure function h
example : (asPure wrapReg 0 "I" none (.fn wrapH)).2 = some 3 := by decide +kernel
-- `ordinary` over the autonomous function f
example : asPlain false (.fn wrapF) = some { safe := false, src := fn "f" ["g"], full := true, compiled := true } := by decide +kernel
-- f in portal 1
example : wrapReg.at ⟨1, "I", "f"⟩ = none := by decide +kernel
-- the hypotheses about the spoiled pure function
example : wrapReg.at ⟨0, "I", "h"⟩ = some wrapH ∧ wrapReg.known.lookup ⟨0, "I", "h"⟩ = some 2 := by
  refine ⟨by decide +kernel, by decide +kernel⟩
example : (asAutonomous wrapReg 0 "I" (.fn wrapH)).2 = some 3 ∧ (start E (asAutonomous wrapReg 0 "I" (.fn wrapH)).1 3).2 = true := by
  refine ⟨by decide +kernel, by decide +kernel⟩
-- without the detour over `autonomous` the pure function can be executed and pickled
example : (start E wrapReg 2).2 = true ∧ (pickle E wrapReg 2).2 ≠ none := by
  refine ⟨by decide +kernel, by decide +kernel⟩

end examples

end Pyth.Registry
