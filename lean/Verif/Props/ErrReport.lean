import Verif.Model.ErrReport
import Verif.Props.Registry
import Verif.Proofs.RegistrySole
import Verif.Spec.Registry
import Verif.Examples.Registry
/-!
# C78: callers get the exception that occurred
-/
set_option linter.unusedSectionVars false
set_option linter.unusedVariables false
set_option linter.unusedSimpArgs false
namespace Pyth.Registry
open Pyth.Analyzer

/-! ## A fully registered object never changes -/

theorem get_modify_ne {R : Reg} {i m : Nat} (h : i ≠ m) (f : Obj → Obj) : (R.modify i f).objs[m]? = R.objs[m]? := by
  rw [getElem?_modify']; simp [h]

theorem alloc_old {R : Reg} {m : Nat} {o q : Obj} (h : R.objs[m]? = some o) : (R.alloc q).1.objs[m]? = some o := by
  have hlt := (List.getElem?_eq_some_iff.1 h).1
  show (R.objs ++ [q])[m]? = some o
  rw [List.getElem?_append_left hlt]; exact h

theorem prim_frozen {E : Env} {b : Bool} {R R' : Reg} (hI : Inv E R) (hp : Prim E b R R') {m : Nat} {o : Obj}
    (ho : R.objs[m]? = some o) (hf : o.full = true) : R'.objs[m]? = some o := by
  have ne : ∀ {i : Nat} {q : Obj}, R.objs[i]? = some q → q.full = false → i ≠ m := by
    rintro i q h1 h2 rfl
    rw [ho] at h1; injection h1 with h1; subst h1; rw [hf] at h2; cases h2
  cases hp with
  | island p isl => unfold addIsland; split <;> exact ho
  | handle => exact alloc_old ho
  | register o' hr hi ha hf hgd => exact alloc_old (R := { R with known := _ }) ho
  | compile i j o' r c hr => rw [get_modify_ne (ne c.obj c.part)]; exact ho
  | flip i j o' r a c => rw [get_modify_ne (ne c.obj c.part)]; exact ho
  | record i j o' r a d c hr =>
    have h1 := ne c.obj c.part
    have h2 := ne c.reg hr
    unfold markFull recordDeps
    split
    · rw [get_modify_ne h2, get_modify_ne h1, get_modify_ne h1, get_modify_ne h2]; exact ho
    · rw [get_modify_ne h1, get_modify_ne h2]; exact ho
  | refresh i j o' r o'' c => rw [get_modify_ne (ne c.obj c.part)]; exact ho
  | store i j o' r es c hc he ha hm =>
    have h1 := ne c.obj c.part
    unfold markFull
    by_cases h2 : j = m
    · subst h2
      have hr := c.reg
      rw [ho] at hr; injection hr with hr; subst hr
      obtain ⟨d, _, h4⟩ := hI.done_at c.look ho hf
      obtain ⟨r', k1, _, k3, _⟩ := hI.wf.handle i o' c.obj
      have k4 := c.at
      rw [k4] at k1; injection k1 with k1; subst k1
      obtain ⟨es', h5, _⟩ := h4 (k3.trans hc)
      have h6 : o.aug = some es := by
        rcases ha with h | h
        · rw [h] at h5; cases h5
        · exact h
      rw [getElem?_modify']
      simp only [if_true]
      rw [get_modify_ne h1, get_modify_ne h1, getElem?_modify']
      simp only [if_true, ho, Option.map_some]
      congr 1
      cases o; cases h6; cases hf; rfl
    · rw [get_modify_ne h2, get_modify_ne h1, get_modify_ne h1, get_modify_ne h2]; exact ho
  | adopt k j r es hl hr hf' => rw [get_modify_ne (ne hr hf')]; exact ho

theorem prims_frozen {E : Env} {b : Bool} (hE : E.Ok) {R R' : Reg} (hI : Inv E R) (hp : Prims E b R R') {m : Nat} {o : Obj}
    (ho : R.objs[m]? = some o) (hf : o.full = true) : R'.objs[m]? = some o ∧ Inv E R' := by
  induction hp with
  | refl => exact ⟨ho, hI⟩
  | tail _ h ih => exact ⟨prim_frozen ih.2 h ih.1 hf, prim_inv hE ih.2 h⟩

/-! ## What is there when the registration is complete, and only then -/

/-- an autonomous function that knows its dependencies is complete; a complete pure function has an augmented source -/
def LocalOk (o : Obj) : Prop :=
  (o.cls = .autonomous → o.deps.isSome = true → o.full = true) ∧ (o.cls = .pure → o.full = true → o.aug.isSome = true)

def AllLocal (R : Reg) : Prop := ∀ (i : Nat) (o : Obj), R.objs[i]? = some o → LocalOk o

theorem AllLocal.alloc {R : Reg} (h : AllLocal R) {o : Obj} (ho : LocalOk o) : AllLocal (R.alloc o).1 := by
  intro i q hq
  rw [getElem?_alloc] at hq
  split at hq
  · injection hq with hq; subst hq; exact ho
  · exact h i q hq

theorem AllLocal.modify {R : Reg} (h : AllLocal R) (i : Nat) (f : Obj → Obj) (hf : ∀ o, R.objs[i]? = some o → LocalOk o → LocalOk (f o)) :
    AllLocal (R.modify i f) := by
  intro m q hq
  rw [getElem?_modify'] at hq
  split at hq
  · rename_i e
    subst e
    rw [Option.map_eq_some_iff] at hq
    obtain ⟨o, h1, h2⟩ := hq
    subst h2
    exact hf o h1 (h _ o h1)
  · exact h m q hq

theorem update_local {E : Env} {R : Reg} (hI : Inv E R) (hL : AllLocal R) {o r o' : Obj} (hr : R.at o.key = some r)
    (hc : o.cls = r.cls) (hd : r.full = false → o.deps = none) (hp : o.full = false) (hu : update o r = some o') : LocalOk o' := by
  unfold update at hu
  split at hu
  · cases hu
  · injection hu with hu
    subst hu
    obtain ⟨j, _, h2, _⟩ := hI.wf.of_at hr
    have hl := hL j r h2
    refine ⟨fun h1 h3 => ?_, fun h1 h3 => ?_⟩
    · dsimp only at h1 h3 ⊢
      cases hrf : r.full with
      | true => simp
      | false => rw [hrf] at h3; simp [hd hrf] at h3
    · dsimp only at h1 h3 ⊢
      rw [hp, Bool.false_or] at h3
      exact hl.2 (hc ▸ h1) h3

theorem prim_local {E : Env} {b : Bool} {R R' : Reg} (hI : Inv E R) (hL : AllLocal R) (hp : Prim E b R R') : AllLocal R' := by
  cases hp with
  | island p isl => unfold addIsland; split <;> exact hL
  | handle o r o' hr hs hd hc hf hu => exact hL.alloc (update_local hI hL hr hc (fun _ => hf.deps) hf.full hu)
  | register o hr hi ha hf =>
    refine AllLocal.alloc (R := { R with known := _ }) hL ⟨fun _ h => ?_, fun _ h => ?_⟩
    · rw [hf.deps] at h; cases h
    · rw [hf.full] at h; cases h
  | compile i j o r c hr => exact hL.modify _ _ fun o _ h => h
  | flip i j o r a c => exact hL.modify _ _ fun o _ h => h
  | record i j o r a d c hr hm ha hs hq hd hne =>
    have hcls : r.cls = o.cls := by
      obtain ⟨r', k1, _, k3, _⟩ := hI.wf.handle i o c.obj
      rw [c.at] at k1; injection k1 with k1; subst k1; exact k3
    have ho := hL i o c.obj
    have hr' := hL j r c.reg
    have hobj : ∀ m q, R.objs[m]? = some q → m = i ∨ m = j → q.cls = o.cls := by
      rintro m q h1 (rfl | rfl)
      · have := c.obj; rw [h1] at this; injection this with this; rw [this]
      · have := c.reg; rw [h1] at this; injection this with this; rw [this, hcls]
    by_cases hc : o.cls = .autonomous
    · rw [if_pos hc]
      intro m q hq
      unfold markFull recordDeps at hq
      rw [get_modify2, get_modify2, Option.map_map] at hq
      rw [Option.map_eq_some_iff] at hq
      obtain ⟨q0, h1, h2⟩ := hq
      subst h2
      have h0 := hL m q0 h1
      have hb := hobj m q0 h1
      by_cases e1 : i = m <;> by_cases e2 : j = m <;>
        simp only [e1, e2, if_true, if_false, Function.comp, id, LocalOk, true_and] <;>
        simp_all [LocalOk]
    · rw [if_neg hc]
      intro m q hq
      unfold recordDeps at hq
      rw [get_modify2, Option.map_eq_some_iff] at hq
      obtain ⟨q0, h1, h2⟩ := hq
      subst h2
      have h0 := hL m q0 h1
      have hb := hobj m q0 h1
      by_cases e1 : i = m <;> by_cases e2 : j = m <;>
        simp only [e1, e2, if_true, if_false, id, LocalOk] <;>
        simp_all [LocalOk]
  | refresh i j o r o' c hr hc hu =>
    have hcls : r.cls = o.cls := by
      obtain ⟨r', k1, _, k3, _⟩ := hI.wf.handle i o c.obj
      rw [c.at] at k1; injection k1 with k1; subst k1; exact k3
    have hl := update_local hI hL c.at hcls.symm (fun h => by rw [hr] at h; cases h) c.part hu
    exact hL.modify _ _ fun _ _ _ => hl
  | store i j o r es c hc he ha hm =>
    intro m q hq
    unfold markFull at hq
    rw [get_modify2, get_modify2, Option.map_map, Option.map_eq_some_iff] at hq
    obtain ⟨q0, h1, h2⟩ := hq
    subst h2
    have h0 := hL m q0 h1
    by_cases e1 : i = m <;> by_cases e2 : j = m <;>
      simp only [e1, e2, if_true, if_false, Function.comp, id, LocalOk] <;>
      simp_all [LocalOk]
  | adopt k j r es hl hr hf hc hb =>
    refine hL.modify _ _ fun o _ h => ⟨h.1, fun _ _ => rfl⟩

theorem prims_local {E : Env} {b : Bool} (hE : E.Ok) {R R' : Reg} (hI : Inv E R) (hL : AllLocal R) (hp : Prims E b R R') : AllLocal R' := by
  induction hp with
  | refl => exact hL
  | tail h1 h ih => exact prim_local (prims_inv hE hI h1) ih h

theorem reachable_local {E : Env} (hE : E.Ok) {R : Reg} (h : Reachable E R) : AllLocal R := by
  obtain ⟨ops, rfl⟩ := h
  exact prims_local hE (Inv.empty E) (fun i o h => by simp at h) (run_prims Wf.empty ops)

/-! ## C78 -/

theorem callStart_running {E : Env} {R R1 : Reg} {i : Nat} (h : callStart E R i = (R1, none)) :
    complete E R i = (R1, true) ∧ ∃ o, R1.objs[i]? = some o ∧ runnable R1 o = true := by
  unfold callStart at h
  cases ho : R.objs[i]? with
  | none => rw [ho] at h; cases h
  | some o =>
    rw [ho] at h
    simp only at h
    rcases hc : complete E R i with ⟨R', b⟩
    rw [hc] at h
    cases b with
    | false => simp only at h; split at h <;> cases h
    | true =>
      simp only at h
      cases ho' : R'.objs[i]? with
      | none => rw [ho'] at h; cases h
      | some o' =>
        rw [ho'] at h
        simp only at h
        split at h
        · rename_i hr
          injection h with h _; subst h
          exact ⟨rfl, o', ho', hr⟩
        · cases h

/-- C78: once the body of a function runs, every exception it raises reaches the caller, whatever happened in between
(in this process: further functions defined, executed, pickled and restored). -/
theorem C78_body_exception {E : Env} (hE : E.Ok) {R R1 : Reg} (hR : Reachable E R) {i : Nat} (h : callStart E R i = (R1, none))
    (ops : List Op) : bodyRaises (run E R1 ops) i = .body := by
  have hI := reachable_inv hE hR
  obtain ⟨hc, o, ho, hrun⟩ := callStart_running h
  have hp := complete_prims (E := E) (b := true) hI.wf i
  rw [hc] at hp
  have hI1 := prims_inv hE hI hp
  have hL1 := prims_local hE hI (reachable_local hE hR) hp
  obtain ⟨o', ho', hfull⟩ := complete_full hc hI.wf
  rw [ho] at ho'; injection ho' with ho'; subst ho'
  have hp2 := run_prims (E := E) hI1.wf ops
  obtain ⟨ho2, hI2⟩ := prims_frozen hE hI1 hp2 ho hfull
  have hext := (prims_wf hI1.wf hp2).2
  obtain ⟨n, r, hl, hr, hrf⟩ := hI1.full_at ho hfull
  have hr2 := (prims_frozen hE hI1 hp2 hr hrf).1
  have hl2 := hext.lookup hl
  have hat1 : R1.at o.key = some r := by simp [Reg.at, hl, hr]
  have hat2 : (run E R1 ops).at o.key = some r := by simp [Reg.at, hl2, hr2]
  have hdep : dependencies (run E R1 ops) o = dependencies R1 o := by unfold dependencies; rw [hat1, hat2]
  have hrun2 : runnable (run E R1 ops) o = true := by
    unfold runnable at hrun ⊢
    rw [hdep]
    cases hd : dependencies R1 o with
    | none => rw [hd] at hrun; simp at hrun
    | some d =>
      rw [hd] at hrun
      simp only [Bool.and_eq_true, List.all_eq_true] at hrun ⊢
      refine ⟨hrun.1, fun x hx => ?_⟩
      obtain ⟨q, hq⟩ := Option.isSome_iff_exists.1 (hrun.2 x hx)
      obtain ⟨q', hq', _⟩ := hext.at hq
      rw [hq']; rfl
  have hextra : extraOk (run E R1 ops) o = true := by
    unfold extraOk
    rw [hrun2]
    cases hcls : o.cls with
    | autonomous => rfl
    | pure => simpa using (hL1 i o ho).2 hcls hfull
  unfold bodyRaises reportOf report
  rw [ho2]
  simp [hextra]

/-- C78: the caller of a pure function gets the exception that stopped its registration. -/
theorem C78_pure_reason {E : Env} {R R1 : Reg} {i : Nat} {o : Obj} (ho : R.objs[i]? = some o) (hc : o.cls = .pure)
    (h : complete E R i = (R1, false)) : callStart E R i = (R1, some .reason) := by
  unfold callStart
  rw [ho]; simp only; rw [h]; simp only; rw [hc]

theorem dependencies_none_of {R : Reg} {o r : Obj} (h : R.at o.key = some r) (hd : r.deps = none) : dependencies R o = none := by
  unfold dependencies; rw [h]; simp only; rw [hd]

/-- C78 is false for autonomous functions: if the registration of an autonomous function that was never completed fails (for
example, because the function uses a name that is not available), the caller never gets the reason, but an
exception about a missing attribute. -/
theorem C78_reason_hidden_counterexample {E : Env} (hE : E.Ok) {R R1 : Reg} (hR : Reachable E R) {i : Nat} {o r : Obj}
    (ho : R.objs[i]? = some o) (hc : o.cls = .autonomous) (hr : R.at ⟨o.portal, o.island, o.src.name⟩ = some r) (hrf : r.full = false)
    (h : complete E R i = (R1, false)) : callStart E R i = (R1, some .reporting) := by
  have hI := reachable_inv hE hR
  have hL := reachable_local hE hR
  have hr : R.at o.key = some r := hr
  obtain ⟨j, hj, hrj, _⟩ := hI.wf.of_at hr
  obtain ⟨r0, k1, k2, k3, _⟩ := hI.wf.handle i o ho
  rw [hr] at k1; injection k1 with k1; subst k1
  have hof : o.full = false := by
    cases hf : o.full with
    | false => rfl
    | true =>
      obtain ⟨r', q1, q2⟩ := hI.full i o ho hf
      rw [hr] at q1; injection q1 with q1; subst q1
      rw [hrf] at q2; cases q2
  have hdeps : r.deps = none := by
    cases hd : r.deps with
    | none => rfl
    | some d =>
      have := (hL j r hrj).1 (k3.trans hc) (by rw [hd]; rfl)
      rw [hrf] at this; cases this
  have hisl : (o.portal, o.island) ∈ R.islands := by
    obtain ⟨j', q1, _, _, q4, _⟩ := hI.wf.of_at hr
    exact q4
  -- all modifications of a failing attempt keep keys and dependencies
  have mod : ∀ (Q : Reg) (f : Obj → Obj), (∀ o, (f o).key = o.key ∧ (f o).deps = o.deps) →
      (∃ o1 r1, Q.objs[i]? = some o1 ∧ Q.at o1.key = some r1 ∧ r1.deps = none) →
      ∃ o1 r1, (Q.modify i f).objs[i]? = some o1 ∧ (Q.modify i f).at o1.key = some r1 ∧ r1.deps = none := by
    rintro Q f hf ⟨o1, r1, q1, q2, q3⟩
    refine ⟨f o1, ?_⟩
    simp only [Reg.at, Option.bind_eq_some_iff] at q2
    obtain ⟨n, q4, q5⟩ := q2
    by_cases e : i = n
    · subst e
      rw [q1] at q5; injection q5 with q5; subst q5
      refine ⟨f o1, by rw [getElem?_modify', q1]; simp, ?_, by rw [(hf o1).2]; exact q3⟩
      rw [(hf o1).1]
      show (Q.known.lookup o1.key).bind _ = _
      rw [q4]
      show (Q.modify i f).objs[i]? = _
      rw [getElem?_modify', q1]; simp
    · refine ⟨r1, by rw [getElem?_modify', q1]; simp, ?_, q3⟩
      rw [(hf o1).1]
      show (Q.known.lookup o1.key).bind _ = _
      rw [q4]
      show (Q.modify i f).objs[n]? = _
      rw [get_modify_ne e]; exact q5
  have h0 : ∃ o1 r1, R.objs[i]? = some o1 ∧ R.at o1.key = some r1 ∧ r1.deps = none := ⟨o, r, ho, hr, hdeps⟩
  have key : ∃ o1 r1, R1.objs[i]? = some o1 ∧ R1.at o1.key = some r1 ∧ r1.deps = none := by
    unfold complete at h
    rw [ho] at h
    simp only [hof, Bool.false_eq_true, if_false, hc] at h
    unfold completeAutonomous at h
    rw [ho] at h
    simp only [hof, Bool.false_eq_true, if_false, if_pos hisl, hj, hrj, k2, if_true, hrf] at h
    unfold finish at h
    simp only at h
    have h1 := mod R (fun o => { o with compiled := true }) (fun _ => ⟨rfl, rfl⟩) h0
    have h2 : ∀ a, ∃ o1 r1, (flipStrict E (R.modify i fun o => { o with compiled := true }) i o a).objs[i]? = some o1 ∧
        (flipStrict E (R.modify i fun o => { o with compiled := true }) i o a).at o1.key = some r1 ∧ r1.deps = none := by
      intro a
      unfold flipStrict
      split
      · exact mod _ (fun o => { o with strict := true }) (fun _ => ⟨rfl, rfl⟩) h1
      · exact h1
    split at h
    · injection h with h _; subst h; exact h1
    · split at h
      · split at h
        · injection h with h _; subst h; exact h2 _
        · split at h
          · injection h with h _; subst h; exact h2 _
          · cases h
      · injection h with h _; subst h; exact h2 _
  obtain ⟨o1, r1, q1, q2, q3⟩ := key
  unfold callStart
  rw [ho]
  simp only
  rw [h]
  simp only [hc]
  unfold reportOf report extraOk runnable
  rw [q1]
  simp [dependencies_none_of q2 q3]

end Pyth.Registry

namespace Pyth.Registry.Ex

/-- C78, concrete cases: a function using an unknown name, and a recursive one -/
example : (callStart E (run E {} [aut (fn "f" ["g"])]) 0).2 = some .reporting ∧
    (callStart E (run E {} [pur (fn "f" ["g"])]) 0).2 = some .reason ∧
    (callStart E (run E {} [aut (fn "f" ["f"])]) 0).2 = none ∧
    bodyRaises (run E (callStart E (run E {} [aut (fn "f" ["f"])]) 0).1 [pur (fn "h" ["f"]), .start 1]) 0 = .body := by
  decide +kernel

end Pyth.Registry.Ex
