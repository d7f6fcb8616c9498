import Verif.Model.Wrap
import Verif.Proofs.RegistrySole
/-! # Executing a function object for the first time, exactly -/
set_option linter.unusedSectionVars false
set_option linter.unusedVariables false
set_option linter.unusedSimpArgs false
namespace Pyth.Registry
open Pyth.Analyzer

/-- the registry after the first completion of the function of the autonomous object `i` -/
def firstReg (E : Env) (R : Reg) (i k : Nat) (o : Obj) (a : St) (d : List String) : Reg :=
  markFull (recordDeps (flipStrict E (compile R i) i o a) i k d) i k

theorem firstReg_known (E : Env) (R : Reg) (i k : Nat) (o : Obj) (a : St) (d : List String) : (firstReg E R i k o a d).known = R.known := by
  unfold firstReg markFull recordDeps flipStrict compile
  split <;> rfl

theorem firstReg_get {E : Env} {R : Reg} {i k : Nat} {o : Obj} (ho : R.objs[i]? = some o) (a : St) (d : List String) (m : Nat) :
    (firstReg E R i k o a d).objs[m]? = (R.objs[m]?).map fun q =>
      if i = m then { q with compiled := true, strict := strictAfter E R o a, deps := some d, full := true }
      else if k = m then { q with deps := some d, full := true } else q := by
  have hoc := get_compile ho
  unfold firstReg markFull recordDeps
  rw [get_modify2, get_modify2, get_flip E _ i o a m hoc]
  unfold compile
  rw [get_modify]
  cases hm : R.objs[m]? with
  | none => rfl
  | some q =>
    simp only [Option.map_some, Option.some.injEq]
    have hst : strictAfter E (R.modify i fun o => { o with compiled := true }) o a = strictAfter E R o a := by
      unfold strictAfter stillRequired
      rw [islandNames_modify]
    by_cases e1 : i = m <;> by_cases e2 : k = m <;> simp [e1, e2, hst]
    · subst e1; exact hst
    · subst e1; exact hst

theorem firstReg_at {E : Env} {R : Reg} {i k : Nat} {o : Obj} (ho : R.objs[i]? = some o) (a : St) (d : List String) (key : Key) :
    ((firstReg E R i k o a d).at key).isSome = (R.at key).isSome := by
  unfold Reg.at
  rw [firstReg_known]
  cases h : R.known.lookup key with
  | none => rfl
  | some j => simp [firstReg_get ho]

theorem start_first {E : Env} {R : Reg} {i k : Nat} {o r : Obj} {a : St} {d : List String} (c : Ctx R i k o r) (hrf : r.full = false)
    (hisl : (o.portal, o.island) ∈ R.islands) (hc : o.cls = .autonomous) (ha : analyze o.src.node = some a)
    (hd : exploreDeps E R o.portal o.island o.src.name = some d) (hne : d ≠ []) :
    ((start E R i).2 = true ↔ stillRequired E R o a = [] ∧ (strictAfter E R o a = true → d.length = 1) ∧
      ∀ x ∈ d, (R.at ⟨o.portal, o.island, x⟩).isSome = true) ∧
    (stillRequired E R o a = [] → (start E R i).1 = firstReg E R i k o a d) := by
  have hfin : finish E R i k o = if stillRequired E R o a = [] then (firstReg E R i k o a d, true) else (flipStrict E (compile R i) i o a, false) := by
    unfold finish
    dsimp only
    rw [ha]
    dsimp only
    rw [exploreDeps_flip, exploreDeps_modify (hf := by intros; rfl), show o.name = o.src.name from rfl, hd]
    dsimp only
    rw [if_neg hne, if_pos hc]
    have : stillRequired E (R.modify i fun o => { o with compiled := true }) o a = stillRequired E R o a := by
      unfold stillRequired; rw [islandNames_modify]
    rw [this]
    rfl
  have hcomp : complete E R i = finish E R i k o := by
    unfold complete
    rw [c.obj]; dsimp only
    rw [c.part, hc]
    simp only [Bool.false_eq_true, if_false]
    unfold completeAutonomous
    rw [c.obj]; dsimp only
    rw [c.part, if_pos hisl, c.look]; dsimp only
    rw [c.reg]; dsimp only
    rw [if_pos c.src, hrf]
    simp
  unfold start
  rw [hcomp, hfin]
  by_cases hs : stillRequired E R o a = []
  · rw [if_pos hs]
    dsimp only
    have hget := firstReg_get (E := E) (k := k) c.obj a d i
    rw [c.obj] at hget
    simp only [Option.map_some, if_true] at hget
    rw [hget]
    refine ⟨?_, fun _ => rfl⟩
    dsimp only
    generalize ho2 : ({ o with compiled := true, strict := strictAfter E R o a, deps := some d, full := true } : Obj) = o2
    have hk : o2.key = o.key := by subst ho2; rfl
    have hreg : ∃ r', (firstReg E R i k o a d).at o2.key = some r' ∧ r'.deps = some d := by
      unfold Reg.at
      rw [firstReg_known, hk, c.look]
      simp only [Option.bind_some, firstReg_get c.obj]
      rw [c.reg]
      refine ⟨_, rfl, ?_⟩
      by_cases e : i = k <;> simp [e]
    obtain ⟨r', q1, q2⟩ := hreg
    have hp : o2.portal = o.portal ∧ o2.island = o.island ∧ o2.compiled = true ∧ o2.strict = strictAfter E R o a := by
      subst ho2; exact ⟨rfl, rfl, rfl, rfl⟩
    unfold runnable dependencies
    rw [q1]; dsimp only
    rw [q2]; dsimp only
    rw [hp.1, hp.2.1, hp.2.2.1, hp.2.2.2, if_neg hne]
    have hall : ((sort d).all fun x => ((firstReg E R i k o a d).at ⟨o.portal, o.island, x⟩).isSome) = true ↔
        ∀ x ∈ d, (R.at ⟨o.portal, o.island, x⟩).isSome = true := by
      simp only [List.all_eq_true, firstReg_at c.obj, mem_sort]
    by_cases hb : strictAfter E R o a = true ∧ d.length ≠ 1
    · rw [if_pos hb]
      simp only [Bool.true_and, Bool.false_eq_true, false_iff]
      rintro ⟨_, h, _⟩
      exact hb.2 (h hb.1)
    · rw [if_neg hb]
      simp only [Bool.true_and]
      rw [hall]
      constructor
      · intro h
        refine ⟨hs, fun h1 => ?_, h⟩
        by_contra h2
        exact hb ⟨h1, h2⟩
      · exact fun h => h.2.2
  · rw [if_neg hs]
    simp [hs]

theorem explore_alloc {R : Reg} (w : Wf R) (q : Obj) (E : Env) (p : Nat) (isl name : String) :
    exploreDeps E (R.alloc q).1 p isl name = exploreDeps E R p isl name := by
  have : (R.alloc q).1.islandObjs p isl = R.islandObjs p isl := by
    unfold Reg.islandObjs
    show R.known.filterMap _ = R.known.filterMap _
    refine List.filterMap_congr fun e he => ?_
    split
    · obtain ⟨r, h1, _⟩ := w.valid e.1 e.2 he
      have hlt : e.2 < R.objs.length := by
        rcases Nat.lt_or_ge e.2 R.objs.length with h | h
        · exact h
        · rw [List.getElem?_eq_none h] at h1; cases h1
      rw [getElem?_alloc, if_neg (by omega)]
    · rfl
  unfold exploreDeps
  rw [this]

theorem get_at_length (R : Reg) (q : Obj) : (R.alloc q).1.objs[R.objs.length]? = some q := by rw [getElem?_alloc, if_pos rfl]

theorem lt_of_get {l : List Obj} {i : Nat} {o : Obj} (h : l[i]? = some o) : i < l.length := by
  rcases Nat.lt_or_ge i l.length with h' | h'
  · exact h'
  · rw [List.getElem?_eq_none h'] at h; cases h

theorem get_alloc_old {R : Reg} (q : Obj) {i : Nat} {o : Obj} (h : R.objs[i]? = some o) : (R.alloc q).1.objs[i]? = some o := by
  have := lt_of_get h
  rw [getElem?_alloc, if_neg (by omega), h]

/-- whether the body of a completed function is run, in terms of the registered object `r` -/
theorem runnable_iff {R : Reg} {o r : Obj} (hr : R.at o.key = some r) :
    runnable R o = true ↔ o.compiled = true ∧ ∃ d, r.deps = some d ∧ d ≠ [] ∧ (o.strict = true → d.length = 1) ∧
      ∀ x ∈ d, (R.at ⟨o.portal, o.island, x⟩).isSome = true := by
  unfold runnable dependencies
  rw [hr]; dsimp only
  cases hd : r.deps with
  | none => simp
  | some d =>
    dsimp only
    by_cases hne : d = []
    · simp [hne]
    · rw [if_neg hne]
      by_cases hb : o.strict = true ∧ d.length ≠ 1
      · rw [if_pos hb]
        simp only [Bool.and_false, Bool.false_eq_true, false_iff]
        rintro ⟨_, d', h1, h2, h3, _⟩
        injection h1 with h1; subst h1
        exact hb.2 (h3 hb.1)
      · rw [if_neg hb]
        simp only [Bool.and_eq_true, List.all_eq_true, mem_sort]
        constructor
        · rintro ⟨h1, h2⟩
          refine ⟨h1, d, rfl, hne, fun h3 => ?_, h2⟩
          by_contra h4
          exact hb ⟨h3, h4⟩
        · rintro ⟨h1, d', h2, h3, h4, h5⟩
          injection h2 with h2; subst h2
          exact ⟨h1, h5⟩

/-- an object refreshed from the registered object of its name, which is completed -/
theorem start_refresh {E : Env} {R : Reg} {i k : Nat} {o r : Obj} (c : Ctx R i k o r) (hrf : r.full = true) (hisl : (o.portal, o.island) ∈ R.islands)
    (hc : o.cls = .autonomous) (hk : r.island = o.island) :
    (start E R i).2 = true ↔ r.compiled = true ∧ ∃ d, r.deps = some d ∧ d ≠ [] ∧ (r.strict = true → d.length = 1) ∧
      ∀ x ∈ d, (R.at ⟨o.portal, o.island, x⟩).isSome = true := by
  have hik : i ≠ k := by
    rintro rfl
    have h1 := c.obj
    rw [c.reg] at h1; injection h1 with h1
    have h2 := c.part
    rw [← h1, hrf] at h2; cases h2
  have hcomp : complete E R i = match update o r with
      | none => (R, false)
      | some o' => (R.modify i fun _ => o', true) := by
    unfold complete
    rw [c.obj]; dsimp only
    rw [c.part, hc]
    simp only [Bool.false_eq_true, if_false]
    unfold completeAutonomous
    rw [c.obj]; dsimp only
    rw [c.part, if_pos hisl, c.look]; dsimp only
    rw [c.reg]; dsimp only
    rw [if_pos c.src, hrf]
    simp only [if_true, hc, Bool.false_eq_true, if_false]
    cases update o r <;> rfl
  unfold start
  rw [hcomp]
  cases hrc : r.compiled with
  | false => simp [update, hrf, hrc]
  | true =>
    obtain ⟨o2, hu⟩ : ∃ o2, update o r = some o2 := by unfold update; simp [hrc]
    have hu' := hu
    unfold update at hu'
    rw [hrc] at hu'
    simp only [Bool.not_true, Bool.and_false, Bool.false_eq_true, if_false, Option.some.injEq] at hu'
    rw [hu]
    dsimp only
    rw [get_modify, c.obj]
    simp only [if_true, Option.map_some]
    have hat : ∀ key : Key, ((R.modify i fun _ => o2).at key).isSome = (R.at key).isSome := by
      intro key
      unfold Reg.at
      rw [known_modify]
      cases h : R.known.lookup key with
      | none => rfl
      | some j => simp [get_modify]
    have f1 : o2.key = o.key := by subst hu'; simp [Obj.key, hk, c.src]
    have f2 : o2.portal = o.portal ∧ o2.island = o.island ∧ o2.compiled = true ∧ o2.strict = r.strict := by
      subst hu'; simp [hk, hrf]
    have hreg : (R.modify i fun _ => o2).at o2.key = some r := by
      unfold Reg.at
      rw [known_modify, f1, c.look]
      simp [get_modify, hik, c.reg]
    rw [runnable_iff hreg, f2.1, f2.2.1, f2.2.2.1, f2.2.2.2]
    simp only [hat]

end Pyth.Registry
