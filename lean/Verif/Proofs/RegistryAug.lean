import Verif.Proofs.RegistryInv
/-! # What completing a registration does, exactly -/
set_option linter.unusedSectionVars false
set_option linter.unusedVariables false
set_option linter.unusedSimpArgs false
namespace Pyth.Registry
open Pyth.Analyzer

/-- the registry after the first part of completing object `i` -/
def compile (R : Reg) (i : Nat) : Reg := R.modify i fun o => { o with compiled := true }

theorem finish_eq {E : Env} (hE : E.Ok) {R : Reg} (w : Wf R) {i j : Nat} {o r : Obj} (c : Ctx R i j o r) {a : St}
    (ha : analyze o.src.node = some a) :
    ∃ d, d.Nodup ∧ sort d = d ∧ (∀ x, x ∈ d ↔ CallGraph.Reaches (Link R o.portal o.island) o.src.name x) ∧
      exploreDeps E R o.portal o.island o.src.name = some d ∧
      finish E R i j o = (if stillRequired E R o a = [] then
        (if o.cls = .autonomous then markFull (recordDeps (flipStrict E (compile R i) i o a) i j d) i j
          else recordDeps (flipStrict E (compile R i) i o a) i j d, true)
        else (flipStrict E (compile R i) i o a, false)) := by
  have hat : R.at ⟨o.portal, o.island, o.src.name⟩ = some r := c.at
  obtain ⟨d, hd⟩ := (explore_spec hE w o.portal o.island o.src.name).2 ⟨r, hat⟩
  obtain ⟨h1, h2, h3⟩ := (explore_spec hE w o.portal o.island o.src.name).1 d hd
  refine ⟨d, h1, h2, h3, hd, ?_⟩
  have hne : d ≠ [] := by
    have := (h3 o.src.name).2 (.refl _)
    rintro rfl
    simp at this
  unfold finish
  dsimp only
  rw [ha]
  dsimp only
  rw [exploreDeps_flip, exploreDeps_modify (hf := by intros; rfl), show o.name = o.src.name from rfl, hd]
  dsimp only
  rw [if_neg hne]
  unfold compile
  split
  · split <;> split <;> first | rfl | contradiction
  · split
    · contradiction
    · rfl

theorem entryOf_modify (R : Reg) (i : Nat) (f : Obj → Obj)
    (hf : ∀ o, R.objs[i]? = some o → (f o).src = o.src ∧ (f o).deco = o.deco) (p : Nat) (isl name : String) :
    entryOf (R.modify i f) p isl name = entryOf R p isl name := by
  unfold entryOf
  rw [at_modify]
  split
  · rename_i h
    simp only [Reg.at, h, Option.bind_some]
    cases ho : R.objs[i]? with
    | none => rfl
    | some o => simp [(hf o ho).1, (hf o ho).2]
  · rfl

theorem deco_pure {o : Obj} (h : o.cls = .pure) : o.deco = .pure o.island o.guards := by simp [Obj.deco, h]

theorem deco_of_cls {o o' : Obj} (h1 : o'.cls = o.cls) (h2 : o'.island = o.island) (h3 : o'.guards = o.guards)
    (h4 : o'.strict = o.strict) : o'.deco = o.deco := by simp [Obj.deco, h1, h2, h3, h4]

theorem entryOf_recordDeps (R : Reg) (i j : Nat) (d : List String) (p : Nat) (isl name : String) :
    entryOf (recordDeps R i j d) p isl name = entryOf R p isl name := by
  unfold recordDeps
  rw [entryOf_modify _ _ _ (by intros; exact ⟨rfl, rfl⟩), entryOf_modify _ _ _ (by intros; exact ⟨rfl, rfl⟩)]

theorem entryOf_compile (R : Reg) (i : Nat) (p : Nat) (isl name : String) :
    entryOf (compile R i) p isl name = entryOf R p isl name := entryOf_modify _ _ _ (by intros; exact ⟨rfl, rfl⟩) _ _ _

theorem entryOf_flip {E : Env} {R : Reg} {i : Nat} {o : Obj} (ho : R.objs[i]? = some o) (hc : o.cls = .pure) (q : Obj) (a : St) (p : Nat)
    (isl name : String) : entryOf (flipStrict E R i q a) p isl name = entryOf R p isl name := by
  unfold flipStrict
  split
  · refine entryOf_modify _ _ _ ?_ _ _ _
    intro o' ho'
    refine ⟨rfl, ?_⟩
    rw [ho] at ho'; injection ho' with ho'; subst ho'
    simp [Obj.deco, hc]
  · rfl

/-- the strictness of an object after its completion -/
def strictAfter (E : Env) (R : Reg) (o : Obj) (a : St) : Bool :=
  o.strict || decide ((stillRequired E R o a).length = (required E o.src a).length)

theorem get_flip (E : Env) (R : Reg) (i : Nat) (o : Obj) (a : St) (m : Nat) (ho : R.objs[i]? = some { o with compiled := true }) :
    (flipStrict E R i o a).objs[m]? = (R.objs[m]?).map fun q => if i = m then { q with strict := strictAfter E R o a } else q := by
  unfold flipStrict strictAfter
  split
  · rename_i h
    rw [get_modify]
    cases hm : R.objs[m]? with
    | none => rfl
    | some q =>
      simp only [Option.map_some, h.1, h.2, Bool.false_or, decide_true]
      split <;> rfl
  · rename_i h
    cases hm : R.objs[m]? with
    | none => rfl
    | some q =>
      simp only [Option.map_some, Option.some.injEq]
      split
      · rename_i e
        subst e
        rw [ho] at hm; injection hm with hm; subst hm
        cases hs : o.strict with
        | true => simp [hs]
        | false =>
          have : ¬ (stillRequired E R o a).length = (required E o.src a).length := fun h' => h ⟨hs, h'⟩
          simp [this]
      · rfl

theorem get_compile {R : Reg} {i : Nat} {o : Obj} (ho : R.objs[i]? = some o) : (compile R i).objs[i]? = some { o with compiled := true } := by
  unfold compile; rw [get_modify, ho]; simp

/-- Completing a pure function that no handle has completed: the augmented source is determined by the sources and
decorators in the island. -/
theorem completePure_first {E : Env} (hE : E.Ok) {R : Reg} (hI : Inv E R) {i : Nat} {o r : Obj} (ho : R.objs[i]? = some o)
    (hc : o.cls = .pure) (hr : R.at o.key = some r) (hrf : r.full = false) {R' : Reg} (h : complete E R i = (R', true)) :
    ∃ d es, d.Nodup ∧ sort d = d ∧ (∀ x, x ∈ d ↔ CallGraph.Reaches (Link R o.portal o.island) o.src.name x) ∧
      (sort (o.guards.getD [] ++ d)).mapM (entryOf R o.portal o.island) = some es ∧
      (∃ r', R'.at o.key = some r' ∧ r'.aug = some es ∧ r'.full = true ∧ r'.deps = some d) ∧
      (∃ o', R'.objs[i]? = some o' ∧ o'.full = true ∧ o'.compiled = true ∧ Same o o' ∧
        ∃ a, analyze o.src.node = some a ∧ o'.strict = strictAfter E R o a ∧ stillRequired E R o a = []) := by
  have hof : o.full = false := by
    cases hf : o.full with
    | false => rfl
    | true =>
      obtain ⟨r', q1, q2⟩ := hI.full i o ho hf
      rw [hr] at q1; injection q1 with q1; subst q1
      rw [hrf] at q2; cases q2
  obtain ⟨j, k1, k2, k3, k4, k5⟩ := hI.wf.of_at hr
  obtain ⟨r', q1, q2, q3, q4⟩ := hI.wf.handle i o ho
  rw [hr] at q1; injection q1 with q1; subst q1
  have c : Ctx R i j o r := ⟨ho, k1, k2, q2.symm, hof⟩
  obtain ⟨a, ha, _⟩ := acceptable_analyzes k5
  rw [q2] at ha
  obtain ⟨d, d1, d2, d3, d4, hfin⟩ := finish_eq hE hI.wf c ha
  have hcomp : completeAutonomous E R i = finish E R i j o := by
    unfold completeAutonomous
    rw [ho]
    dsimp only
    rw [hof]
    have hisl : (o.portal, o.island) ∈ R.islands := k4
    simp only [Bool.false_eq_true, if_false, hisl, if_true]
    rw [k1]; dsimp only
    rw [k2]; dsimp only
    rw [if_pos q2.symm, hrf]
    simp
  unfold complete at h
  rw [ho] at h
  dsimp only at h
  rw [hof, hc] at h
  simp only [Bool.false_eq_true, if_false] at h
  unfold completePure at h
  rw [hcomp, hfin] at h
  by_cases hst : stillRequired E R o a = []
  swap
  · rw [if_neg hst] at h; cases h
  rw [if_pos hst] at h
  simp only [hc, reduceCtorEq, if_false] at h
  have hoc := get_compile ho
  have hg : ∀ m : Nat, (recordDeps (flipStrict E (compile R i) i o a) i j d).objs[m]? = (R.objs[m]?).map fun q =>
      (if i = m then fun q : Obj => { q with deps := some d } else id) ((if j = m then fun q : Obj => { q with deps := some d } else id)
        (if i = m then { ((if i = m then fun o : Obj => { o with compiled := true } else id) q) with strict := strictAfter E (compile R i) o a }
          else (if i = m then fun o : Obj => { o with compiled := true } else id) q)) := by
    intro m
    unfold recordDeps
    rw [get_modify2, get_flip E _ i o a m hoc]
    unfold compile
    rw [get_modify]
    simp only [Option.map_map]
    rfl
  have hoi := hg i
  rw [ho] at hoi
  simp only [Option.map_some, if_true] at hoi
  have hsa : strictAfter E (compile R i) o a = strictAfter E R o a := rfl
  rw [hsa] at hoi
  generalize hQ : recordDeps (flipStrict E (compile R i) i o a) i j d = Q at *
  have hknown : Q.known = R.known := by
    rw [← hQ]
    unfold recordDeps flipStrict compile
    split <;> rfl
  set o1 : Obj := (if j = i then fun q : Obj => { q with deps := some d } else id) { o with compiled := true, strict := strictAfter E R o a } with ho1
  have s1 : Same o o1 := by rw [ho1]; split <;> exact ⟨rfl, rfl, rfl, rfl, rfl⟩
  have s2 : Same o { o1 with deps := some d } := s1.trans ⟨rfl, rfl, rfl, rfl, rfl⟩
  have hoi' : Q.objs[i]? = some { o1 with deps := some d } := by rw [hoi]
  have hrj := hg j
  rw [k2] at hrj
  have hrj' : ∃ r1, Q.objs[j]? = some r1 ∧ r1.deps = some d := by
    rw [hrj]
    refine ⟨_, rfl, ?_⟩
    simp only [if_true]
    split <;> rfl
  obtain ⟨r1, hr1, hr1d⟩ := hrj'
  rw [hoi'] at h
  dsimp only at h
  have hk : ({ o1 with deps := some d } : Obj).key = o.key := s2.key
  rw [hk, hknown, k1] at h
  dsimp only at h
  rw [hr1] at h
  dsimp only at h
  split at h
  · cases h
  · rename_i es haug
    have hent : entryOf Q o.portal o.island = entryOf R o.portal o.island := by
      funext n
      rw [← hQ, entryOf_recordDeps, entryOf_flip hoc hc, entryOf_compile]
    have hes : (sort (o.guards.getD [] ++ d)).mapM (entryOf R o.portal o.island) = some es := by
      unfold augment at haug
      split at haug
      · cases haug
      · rename_i d' hd'
        obtain ⟨r', d0, e1, e2, e3, e4, e5⟩ := dependencies_spec hd'
        rw [hk] at e1
        have : R.known.lookup o.key = some j := k1
        simp only [Reg.at, hknown, this, Option.bind_some, hr1, Option.some.injEq] at e1
        subst e1
        rw [hr1d] at e2; injection e2 with e2; subst e2
        rw [e3, d2] at haug
        have s3 := s2.guards
        have s4 := s2.portal
        have s5 := s2.island
        rw [s3, s4, s5, hent] at haug
        exact haug
    refine ⟨d, es, d1, d2, d3, hes, ?_⟩
    unfold storeAug at h
    split at h
    · injection h with h _
      subst h
      have hm : ∀ m : Nat, (markFull ((Q.modify j fun o => { o with aug := some es }).modify i fun o => { o with aug := some es }) i j).objs[m]? =
          (Q.objs[m]?).map fun q => (if j = m then fun o : Obj => { o with full := true } else id) ((if i = m then fun o : Obj => { o with full := true } else id)
            ((if i = m then fun o : Obj => { o with aug := some es } else id) ((if j = m then fun o : Obj => { o with aug := some es } else id) q))) := by
        intro m
        unfold markFull
        rw [get_modify2, get_modify2, Option.map_map]; rfl
      refine ⟨?_, ?_⟩
      · have hl : (markFull ((Q.modify j fun o => { o with aug := some es }).modify i fun o => { o with aug := some es }) i j).known.lookup o.key = some j := by
          show Q.known.lookup o.key = some j
          rw [hknown]; exact k1
        have := hm j
        rw [hr1] at this
        simp only [Option.map_some, if_true] at this
        refine ⟨_, (by unfold Reg.at; rw [hl]; exact this), ?_, ?_, ?_⟩
        · by_cases e : i = j <;> simp [e]
        · rfl
        · by_cases e : i = j <;> simp [e, hr1d]
      · have := hm i
        rw [hoi'] at this
        simp only [Option.map_some, if_true] at this
        refine ⟨_, this, ?_, ?_, ?_, a, ha, ?_, hst⟩
        · by_cases e : j = i <;> simp [e]
        · by_cases e : j = i <;> simp [e, ho1]
        · by_cases e : j = i <;> simp only [e, if_true, if_false, id] <;> exact ⟨s1.1, s1.2, s1.3, s1.4, s1.5⟩
        · by_cases e : j = i <;> simp [e, ho1]
    · cases h

end Pyth.Registry
