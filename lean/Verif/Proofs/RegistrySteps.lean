import Verif.Proofs.Registry
import Mathlib.Logic.Relation
/-! # The elementary changes of the registry: every operation is a sequence of them -/
set_option linter.unusedSectionVars false
set_option linter.unusedVariables false
set_option linter.unusedSimpArgs false
namespace Pyth.Registry
open Pyth.Analyzer

/-- object `i` is `o`, not fully registered, and the registered object of its name is `r`, number `j` -/
structure Ctx (R : Reg) (i j : Nat) (o r : Obj) : Prop where
  obj : R.objs[i]? = some o
  look : R.known.lookup o.key = some j
  reg : R.objs[j]? = some r
  src : o.src = r.src
  part : o.full = false

theorem Ctx.at {R : Reg} {i j : Nat} {o r : Obj} (c : Ctx R i j o r) : R.at o.key = some r := by
  simp [Reg.at, c.look, c.reg]

/-- a new object -/
structure Fresh (o : Obj) : Prop where
  full : o.full = false
  compiled : o.compiled = false
  deps : o.deps = none
  aug : o.aug = none

/-- `b`: whether pickled functions are restored -/
inductive Prim (E : Env) (b : Bool) : Reg → Reg → Prop
  | island (R : Reg) (p : Nat) (isl : String) : Prim E b R (addIsland R p isl)
  | handle (R : Reg) (o r o' : Obj) (hr : R.at o.key = some r) (hs : o.src = r.src) (hd : o.deco = r.deco) (hc : o.cls = r.cls)
      (hf : Fresh o) (hu : update o r = some o') : Prim E b R (R.alloc o').1
  | register (R : Reg) (o : Obj) (hr : R.at o.key = none) (hi : (o.portal, o.island) ∈ R.islands) (ha : acceptable o.src = true)
      (hf : Fresh o) (hgd : b = false → (∀ g ∈ o.guards.getD [], g ∈ R.islandNames o.portal o.island) ∧ sort (o.guards.getD []) = o.guards.getD []) :
      Prim E b R (Reg.alloc { R with known := R.known ++ [(o.key, R.objs.length)] } o).1
  | compile (R : Reg) (i j : Nat) (o r : Obj) (c : Ctx R i j o r) (hr : r.full = false) :
      Prim E b R (R.modify i fun o => { o with compiled := true })
  | flip (R : Reg) (i j : Nat) (o r : Obj) (a : St) (c : Ctx R i j o r) (hr : r.full = false) (hm : o.compiled = true)
      (ha : analyze o.src.node = some a) (hs : o.strict = false)
      (hl : (minus (required E o.src a) (R.islandNames o.portal o.island)).length = (required E o.src a).length) :
      Prim E b R (R.modify i fun o => { o with strict := true })
  | record (R : Reg) (i j : Nat) (o r : Obj) (a : St) (d : List String) (c : Ctx R i j o r) (hr : r.full = false)
      (hm : o.compiled = true) (ha : analyze o.src.node = some a) (hs : o.strict = true → required E o.src a = [])
      (hq : minus (required E o.src a) (R.islandNames o.portal o.island) = [])
      (hd : exploreDeps E R o.portal o.island o.name = some d) (hne : d ≠ []) :
      Prim E b R (if o.cls = .autonomous then markFull (recordDeps R i j d) i j else recordDeps R i j d)
  | refresh (R : Reg) (i j : Nat) (o r o' : Obj) (c : Ctx R i j o r) (hr : r.full = true) (hc : o.cls = .autonomous)
      (hu : update o r = some o') : Prim E b R (R.modify i fun _ => o')
  | store (R : Reg) (i j : Nat) (o r : Obj) (es : List Entry) (c : Ctx R i j o r) (hc : o.cls = .pure)
      (he : augment R o = some es) (ha : r.aug = none ∨ r.aug = some es) (hm : o.compiled = true ∨ r.full = true)
      (hx : r.full = true ∨ ∃ d, r.deps = some d ∧ exploreDeps E R o.portal o.island o.src.name = some d) :
      Prim E b R (markFull ((R.modify j fun o => { o with aug := some es }).modify i fun o => { o with aug := some es }) i j)
  | adopt (R : Reg) (k : Key) (j : Nat) (r : Obj) (es : List Entry) (hl : R.known.lookup k = some j) (hr : R.objs[j]? = some r)
      (hf : r.full = false) (hc : r.cls = .pure) (hb : b = true) :
      Prim E b R (R.modify j fun o => { o with aug := some es })

theorem update_same {o r o' : Obj} (hs : o.src = r.src) (hi : o.island = r.island) (hg : o.guards = r.guards)
    (hu : update o r = some o') : Same o o' := by
  unfold update at hu
  split at hu
  · cases hu
  · injection hu with hu; subst hu
    exact ⟨rfl, rfl, hi.symm, hs.symm, hg.symm⟩

theorem modify2_ok {R : Reg} (w : Wf R) (i j : Nat) (f g : Obj → Obj) (hf : Keeps f) (hg : Keeps g) :
    Wf ((R.modify i f).modify j g) ∧ Ext R ((R.modify i f).modify j g) := by
  have h1 := modify_ok w i f (fun o _ => hf o)
  have h2 := modify_ok h1.1 j g (fun o _ => hg o)
  exact ⟨h2.1, h1.2.trans h2.2⟩

theorem recordDeps_ok {R : Reg} (w : Wf R) (i j : Nat) (d : List String) : Wf (recordDeps R i j d) ∧ Ext R (recordDeps R i j d) :=
  modify2_ok w _ _ _ _ (fun o => ⟨rfl, rfl, rfl, rfl, rfl⟩) (fun o => ⟨rfl, rfl, rfl, rfl, rfl⟩)
theorem markFull_ok {R : Reg} (w : Wf R) (i j : Nat) : Wf (markFull R i j) ∧ Ext R (markFull R i j) :=
  modify2_ok w _ _ _ _ (fun o => ⟨rfl, rfl, rfl, rfl, rfl⟩) (fun o => ⟨rfl, rfl, rfl, rfl, rfl⟩)

theorem deco_guards {o r : Obj} (hc : o.cls = r.cls) (hd : o.deco = r.deco) : o.cls = .pure → o.guards = r.guards := by
  intro h
  simp only [Obj.deco, ← hc, h] at hd
  injection hd

theorem deco_strict {o r : Obj} (hc : o.cls = r.cls) (hd : o.deco = r.deco) : o.cls = .autonomous → o.strict = r.strict := by
  intro h
  simp only [Obj.deco, ← hc, h] at hd
  cases h1 : o.strict <;> cases h2 : r.strict <;> simp [h1, h2] at hd ⊢

theorem prim_wf {E : Env} {b : Bool} {R R' : Reg} (w : Wf R) (h : Prim E b R R') : Wf R' ∧ Ext R R' := by
  cases h with
  | island p isl => have := addIsland_ok w p isl; exact ⟨this.1, this.2.1⟩
  | handle o r o' hr hs hd hc hf hu =>
    obtain ⟨j, h1, h2, h3, h4, h5⟩ := w.of_at hr
    have hi : r.island = o.island := by simpa [Obj.key] using congrArg Key.island h3
    have e : o'.src = r.src ∧ o'.cls = o.cls ∧ o'.key = o.key ∧ o'.guards = r.guards := by
      unfold update at hu
      split at hu
      · cases hu
      · injection hu with hu; subst hu
        exact ⟨rfl, rfl, by simp [Obj.key, hs, hi], rfl⟩
    exact alloc_handle_ok w o' r (e.2.2.1 ▸ hr) e.1.symm (e.2.1.trans hc).symm e.2.2.2.symm
  | register o hr hi ha hf => exact alloc_new_ok w o hr hi ha
  | compile i j o r c hr => exact modify_ok w _ _ fun o _ => ⟨rfl, rfl, rfl, rfl, rfl⟩
  | flip i j o r a c hr hm ha hs hl => exact modify_ok w _ _ fun o _ => ⟨rfl, rfl, rfl, rfl, rfl⟩
  | record i j o r a d c hr hm ha hs hq hd hne =>
    have h1 := recordDeps_ok w i j d
    split
    · have h2 := markFull_ok h1.1 i j
      exact ⟨h2.1, h1.2.trans h2.2⟩
    · exact h1
  | refresh i j o r o' c hr hc hu =>
    refine modify_ok w _ _ ?_
    intro p hp
    rw [c.obj] at hp; injection hp with hp; subst hp
    obtain ⟨r', q1, q2, q3, q4⟩ := w.handle i o c.obj
    rw [c.at] at q1; injection q1 with q1; subst q1
    obtain ⟨j', h1, h2, h3, h4, h5⟩ := w.of_at c.at
    have hi : r.island = o.island := by simpa [Obj.key] using congrArg Key.island h3
    exact update_same q2.symm hi.symm q4.symm hu
  | store i j o r es c hc he ha hm =>
    have h1 := modify2_ok w j i (fun o => { o with aug := some es }) (fun o => { o with aug := some es })
      (fun o => ⟨rfl, rfl, rfl, rfl, rfl⟩) (fun o => ⟨rfl, rfl, rfl, rfl, rfl⟩)
    have h2 := markFull_ok h1.1 i j
    exact ⟨h2.1, h1.2.trans h2.2⟩
  | adopt k j r es hl hr hf hc hb => exact modify_ok w _ _ fun o _ => ⟨rfl, rfl, rfl, rfl, rfl⟩

abbrev Prims (E : Env) (b : Bool) := Relation.ReflTransGen (Prim E b)

theorem prims_wf {E : Env} {b : Bool} {R R' : Reg} (w : Wf R) (h : Prims E b R R') : Wf R' ∧ Ext R R' := by
  induction h with
  | refl => exact ⟨w, Ext.refl R⟩
  | tail _ h ih =>
    have := prim_wf ih.1 h
    exact ⟨this.1, ih.2.trans this.2⟩

/-! ## Every operation is a sequence of elementary changes -/

theorem addIsland_at (R : Reg) (p : Nat) (isl : String) (k : Key) : (addIsland R p isl).at k = R.at k := by
  unfold addIsland; split <;> rfl

theorem begin_prims {E : Env} {b : Bool} {R : Reg} (w : Wf R) (o : Obj) (hf : Fresh o)
    (hgd : b = false → (∀ g ∈ o.guards.getD [], g ∈ R.islandNames o.portal o.island) ∧ sort (o.guards.getD []) = o.guards.getD []) : Prims E b R (begin R o).1 := by
  have e : ({ o with full := false } : Obj) = o := by cases o; cases hf; simp_all
  unfold begin
  rw [e]
  have hisl : Prims E b R (addIsland R o.portal o.island) := .single (.island R _ _)
  have hw := addIsland_ok w o.portal o.island
  dsimp only
  split
  · rename_i r hr
    split
    · rename_i h
      split
      · exact hisl
      · rename_i o' hu
        exact hisl.tail (.handle _ o r o' hr h.1 h.2.1 h.2.2 hf hu)
    · exact hisl
  · rename_i hr
    split
    · rename_i ha
      refine hisl.tail (.register _ o hr hw.2.2.1 ha hf ?_)
      intro hb
      refine ⟨?_, (hgd hb).2⟩
      intro g hg
      have := (hgd hb).1 g hg
      rw [mem_islandNames] at this ⊢
      rw [hw.2.2.2.1]; exact this
    · exact hisl

theorem preprocessGuards_names {R : Reg} (w : Wf R) {p : Nat} {isl : String} {gs : Option (List GuardArg)} {g : Option (List String)}
    (h : preprocessGuards R p isl gs = some g) : ∀ x ∈ g.getD [], x ∈ R.islandNames p isl := by
  cases gs with
  | none => simp only [preprocessGuards, Option.some.injEq] at h; subst h; simp
  | some l =>
    simp only [preprocessGuards] at h
    split at h
    · split at h
      · cases h
      · rename_i ns hns
        injection h with h; subst h
        intro x hx
        simp only [Option.getD_some, sort, List.mem_insertionSort] at hx
        clear * - hns hx w
        induction l generalizing ns with
        | nil => simp at hns; subst hns; simp at hx
        | cons a l ih =>
          simp only [List.mapM_cons, Option.bind_eq_bind, Option.bind_eq_some_iff, Option.pure_def, Option.some.injEq] at hns
          obtain ⟨b, h1, bs, h2, rfl⟩ := hns
          rcases List.mem_cons.1 hx with rfl | hx
          · cases a with
            | obj i =>
              simp only [guardName] at h1
              split at h1
              · cases h1
              · rename_i q hq
                split at h1
                · rename_i hc
                  injection h1 with h1; subst h1
                  obtain ⟨r, q1, _⟩ := w.handle i q hq
                  rw [w.mem_names]
                  obtain ⟨_, rfl, rfl⟩ := hc
                  exact ⟨r, q1⟩
                · cases h1
            | name s =>
              simp only [guardName] at h1
              split at h1
              · rename_i hs; injection h1 with h1; subst h1; exact hs
              · cases h1
          · exact ih _ h2 hx
    · cases h

theorem preprocessGuards_sorted {R : Reg} {p : Nat} {isl : String} {gs : Option (List GuardArg)} {g : Option (List String)}
    (h : preprocessGuards R p isl gs = some g) : sort (g.getD []) = g.getD [] := by
  cases gs with
  | none => simp only [preprocessGuards, Option.some.injEq] at h; subst h; rfl
  | some l =>
    simp only [preprocessGuards] at h
    split at h
    · split at h
      · cases h
      · injection h with h; subst h
        exact List.Pairwise.insertionSort_eq (List.pairwise_insertionSort (fun a b : String => a ≤ b) _)
    · cases h

theorem decorate_prims {E : Env} {b : Bool} {R : Reg} (w : Wf R) (d : Decl) : Prims E b R (decorate R d).1 := by
  unfold decorate
  split
  · exact begin_prims w _ ⟨rfl, rfl, rfl, rfl⟩ (fun _ => ⟨by simp, rfl⟩)
  · split
    · exact .refl
    · rename_i gs hgs
      exact begin_prims w _ ⟨rfl, rfl, rfl, rfl⟩ (fun _ => ⟨preprocessGuards_names w hgs, preprocessGuards_sorted hgs⟩)

theorem minus_length_eq {a b : List String} (h : (minus a b).length = a.length) : minus a b = a := by
  unfold minus at *
  exact List.filter_eq_self.2 (List.length_filter_eq_length_iff.1 h)

theorem compiled_obj {R : Reg} {i j : Nat} {o r : Obj} (c : Ctx R i j o r) :
    ∃ r', Ctx (R.modify i fun o => { o with compiled := true }) i j { o with compiled := true } r' ∧ r'.full = r.full ∧ r'.src = r.src := by
  have ho : (R.modify i fun o => { o with compiled := true }).objs[i]? = some { o with compiled := true } := by
    rw [getElem?_modify', c.obj]; simp
  by_cases e : i = j
  · subst e
    have hro : r = o := by
      have h1 := c.obj; have h2 := c.reg
      rw [h1] at h2; injection h2 with h2; exact h2.symm
    subst hro
    exact ⟨{ r with compiled := true }, ⟨ho, c.look, ho, rfl, c.part⟩, rfl, rfl⟩
  · exact ⟨r, ⟨ho, c.look, by rw [getElem?_modify', c.reg]; simp [e], c.src, c.part⟩, rfl, rfl⟩

theorem strict_obj {R : Reg} {i j : Nat} {o r : Obj} (c : Ctx R i j o r) :
    ∃ r', Ctx (R.modify i fun o => { o with strict := true }) i j { o with strict := true } r' ∧ r'.full = r.full ∧ r'.src = r.src := by
  have ho : (R.modify i fun o => { o with strict := true }).objs[i]? = some { o with strict := true } := by
    rw [getElem?_modify', c.obj]; simp
  by_cases e : i = j
  · subst e
    have hro : r = o := by
      have h1 := c.obj; have h2 := c.reg
      rw [h1] at h2; injection h2 with h2; exact h2.symm
    subst hro
    exact ⟨{ r with strict := true }, ⟨ho, c.look, ho, rfl, c.part⟩, rfl, rfl⟩
  · exact ⟨r, ⟨ho, c.look, by rw [getElem?_modify', c.reg]; simp [e], c.src, c.part⟩, rfl, rfl⟩

theorem finish_prims {E : Env} {b : Bool} {R : Reg} {i j : Nat} {o r : Obj} (c : Ctx R i j o r) (hr : r.full = false) :
    Prims E b R (finish E R i j o).1 := by
  obtain ⟨r1, c1, hr1, hs1⟩ := compiled_obj c
  rw [hr] at hr1
  have p1 : Prims E b R (R.modify i fun o => { o with compiled := true }) := .single (.compile R i j o r c hr)
  unfold finish
  dsimp only
  split
  · exact p1
  · rename_i a ha
    generalize hR1 : (R.modify i fun o => { o with compiled := true }) = R1 at *
    have ht : ∀ x : Obj, stillRequired E R1 { o with compiled := true } a = stillRequired E R1 o a := fun _ => rfl
    have pf : ∃ R2 o2 r2, flipStrict E R1 i o a = R2 ∧ Prims E b R R2 ∧ Ctx R2 i j o2 r2 ∧ r2.full = false ∧ o2.compiled = true ∧
        o2.src = o.src ∧ o2.portal = o.portal ∧ o2.island = o.island ∧ o2.cls = o.cls ∧
        R2.islandNames o.portal o.island = R1.islandNames o.portal o.island ∧
        (stillRequired E R1 o a = [] → (o2.strict = true → required E o.src a = []) ∧
          minus (required E o.src a) (R1.islandNames o.portal o.island) = []) := by
      unfold flipStrict
      split
      · rename_i h
        have hst : stillRequired E R1 o a = minus (required E o.src a) (R1.islandNames o.portal o.island) := by
          simp [stillRequired, h.1]
        obtain ⟨r2, c2, q1, q2⟩ := strict_obj c1
        refine ⟨_, { o with compiled := true, strict := true }, r2, rfl, p1.tail (.flip R1 i j _ r1 a c1 hr1 rfl ha h.1 ?_), c2,
          q1.trans hr1, rfl, rfl, rfl, rfl, rfl, rfl, ?_⟩
        · rw [hst] at h; exact h.2
        · intro he
          have h2 := h.2
          rw [hst] at h2 he
          have := minus_length_eq h2
          exact ⟨fun _ => this ▸ he, he⟩
      · rename_i h
        refine ⟨R1, { o with compiled := true }, r1, rfl, p1, c1, hr1, rfl, rfl, rfl, rfl, rfl, rfl, ?_⟩
        intro he
        cases hs : o.strict with
        | true =>
          have : required E o.src a = [] := by simpa [stillRequired, hs] using he
          exact ⟨fun _ => this, by rw [this]; rfl⟩
        | false =>
          have : minus (required E o.src a) (R1.islandNames o.portal o.island) = [] := by simpa [stillRequired, hs] using he
          refine ⟨fun h => ?_, this⟩
          simp [hs] at h
    obtain ⟨R2, o2, r2, e2, p2, c2, hr2, hm2, h1, h2, h3, h4, h5, h6⟩ := pf
    rw [e2]
    split
    · rename_i he
      split
      · exact p2
      · rename_i d hd
        split
        · exact p2
        · rename_i hne
          have hp := Prim.record (E := E) (b := b) R2 i j o2 r2 a d c2 hr2 hm2 (h1 ▸ ha) (by rw [h1]; exact (h6 he).1)
            (by rw [h1, h2, h3, h5]; exact (h6 he).2)
            (by rw [h2, h3]; simpa [Obj.name, h1] using hd) hne
          rw [h4] at hp
          split
          · rename_i hc
            rw [if_pos hc] at hp
            exact p2.tail hp
          · rename_i hc
            rw [if_neg hc] at hp
            exact p2.tail hp
    · exact p2

theorem completeAutonomous_prims {E : Env} {b : Bool} {R : Reg} (i : Nat) : Prims E b R (completeAutonomous E R i).1 := by
  unfold completeAutonomous
  split
  · exact .refl
  · rename_i o ho
    split
    · exact .refl
    · rename_i hf
      have hf : o.full = false := by simpa using hf
      split
      · split
        · exact .refl
        · rename_i j hj
          split
          · exact .refl
          · rename_i r hr
            split
            · rename_i hs
              have c : Ctx R i j o r := ⟨ho, hj, hr, hs, hf⟩
              split
              · rename_i hrf
                split
                · rename_i hc
                  split
                  · exact .refl
                  · rename_i o' hu
                    exact .single (.refresh R i j o r o' c hrf hc hu)
                · exact .refl
              · rename_i hrf
                exact finish_prims c (by simpa using hrf)
            · exact .refl
      · exact .refl

/-! ### Completing a pure function -/

/-- object `i` has mark `b` -/
def HasFull (R : Reg) (i : Nat) (b : Bool) : Prop := ∃ o, R.objs[i]? = some o ∧ o.full = b

theorem HasFull.modify {R : Reg} {i : Nat} {b : Bool} (h : HasFull R i b) (k : Nat) (f : Obj → Obj) (hf : ∀ o, (f o).full = o.full) :
    HasFull (R.modify k f) i b := by
  obtain ⟨o, h1, h2⟩ := h
  unfold HasFull
  rw [getElem?_modify', h1]
  by_cases e : k = i
  · exact ⟨f o, by simp [e], by rw [hf, h2]⟩
  · exact ⟨o, by simp [e], h2⟩

theorem finish_hasFull {E : Env} {R : Reg} {i j k : Nat} {o : Obj} {b : Bool} (hc : o.cls = .pure) (h : HasFull R k b) :
    HasFull (finish E R i j o).1 k b := by
  have h1 : HasFull (R.modify i fun o => { o with compiled := true }) k b := h.modify _ _ fun _ => rfl
  have h2 : ∀ a, HasFull (flipStrict E (R.modify i fun o => { o with compiled := true }) i o a) k b := by
    intro a
    unfold flipStrict
    split
    · exact h1.modify _ _ fun _ => rfl
    · exact h1
  unfold finish
  dsimp only
  split
  · exact h1
  · split
    · split
      · exact h2 _
      · split
        · exact h2 _
        · simp only [hc, reduceCtorEq, if_false]
          unfold recordDeps
          refine HasFull.modify (HasFull.modify (h2 _) _ _ ?_) _ _ ?_ <;> exact fun _ => rfl
    · exact h2 _

theorem completeAutonomous_hasFull {E : Env} {R : Reg} {i k : Nat} {b : Bool} {o : Obj} (ho : R.objs[i]? = some o)
    (hc : o.cls = .pure) (h : HasFull R k b) : HasFull (completeAutonomous E R i).1 k b := by
  unfold completeAutonomous
  rw [ho]
  dsimp only
  split
  · exact h
  · split
    · split
      · exact h
      · split
        · exact h
        · split
          · split
            · simp only [hc, reduceCtorEq, if_false]
              exact h
            · exact finish_hasFull hc h
          · exact h
    · exact h

theorem mapM_map' {α β γ : Type} (f : β → Option γ) (g : α → β) (l : List α) : l.mapM (fun a => f (g a)) = (l.map g).mapM f := by
  induction l with
  | nil => simp
  | cons a l ih => simp [List.mapM_cons, ih]

theorem islandSrcs_modify (R : Reg) (i : Nat) (f : Obj → Obj) (hf : ∀ o, (f o).src = o.src) (p : Nat) (isl : String) :
    ((R.modify i f).islandObjs p isl).map (·.src) = (R.islandObjs p isl).map (·.src) := by
  simp only [Reg.islandObjs, List.map_filterMap, known_modify]
  congr 1
  funext e
  split
  · rw [getElem?_modify']
    split
    · cases R.objs[e.2]? with
      | none => rfl
      | some o => simp [hf]
    · rfl
  · rfl

theorem exploreDeps_modify (E : Env) (R : Reg) (i : Nat) (f : Obj → Obj) (hf : ∀ o, (f o).src = o.src) (p : Nat) (isl name : String) :
    exploreDeps E (R.modify i f) p isl name = exploreDeps E R p isl name := by
  unfold exploreDeps
  rw [mapM_map' fnOf Obj.src, mapM_map' fnOf Obj.src, islandSrcs_modify R i f hf]

theorem exploreDeps_flip (E : Env) (R : Reg) (i : Nat) (o : Obj) (a : St) (p : Nat) (isl name : String) :
    exploreDeps E (flipStrict E R i o a) p isl name = exploreDeps E R p isl name := by
  unfold flipStrict
  split
  · exact exploreDeps_modify _ _ _ _ (by intros; rfl) _ _ _
  · rfl

theorem finish_compiles {E : Env} {R R' : Reg} {i j : Nat} {o : Obj} (ho : R.objs[i]? = some o) (h : finish E R i j o = (R', true)) :
    ∃ o', R'.objs[i]? = some o' ∧ o'.compiled = true := by
  have mod : ∀ (Q : Reg) (m : Nat) (f : Obj → Obj), (∀ o, (f o).compiled = o.compiled) → (∃ o', Q.objs[i]? = some o' ∧ o'.compiled = true) →
      ∃ o', (Q.modify m f).objs[i]? = some o' ∧ o'.compiled = true := by
    rintro Q m f hf ⟨o', h1, h2⟩
    rw [getElem?_modify', h1]
    by_cases e : m = i
    · exact ⟨f o', by simp [e], by rw [hf]; exact h2⟩
    · exact ⟨o', by simp [e], h2⟩
  have h1 : ∃ o', (R.modify i fun o => { o with compiled := true }).objs[i]? = some o' ∧ o'.compiled = true := by
    rw [getElem?_modify', ho]; exact ⟨{ o with compiled := true }, by simp, rfl⟩
  have h2 : ∀ a, ∃ o', (flipStrict E (R.modify i fun o => { o with compiled := true }) i o a).objs[i]? = some o' ∧ o'.compiled = true := by
    intro a
    unfold flipStrict
    split
    · exact mod _ _ _ (fun _ => rfl) h1
    · exact h1
  unfold finish at h
  dsimp only at h
  split at h
  · cases h
  · split at h
    · split at h
      · cases h
      · split at h
        · cases h
        · split at h
          · injection h with h _; subst h
            unfold markFull recordDeps
            refine mod _ _ _ ?_ (mod _ _ _ ?_ (mod _ _ _ ?_ (mod _ _ _ ?_ (h2 _)))) <;> exact fun _ => rfl
          · injection h with h _; subst h
            unfold recordDeps
            refine mod _ _ _ ?_ (mod _ _ _ ?_ (h2 _)) <;> exact fun _ => rfl
    · cases h

theorem completeAutonomous_compiles {E : Env} {R R' : Reg} {i : Nat} {o : Obj} (ho : R.objs[i]? = some o) (hf : o.full = false)
    (h : completeAutonomous E R i = (R', true)) (hc : o.cls = .pure) :
    (∃ o', R'.objs[i]? = some o' ∧ o'.compiled = true) ∨ ∃ j r, R' = R ∧ R.known.lookup o.key = some j ∧ R.objs[j]? = some r ∧ r.full = true := by
  unfold completeAutonomous at h
  rw [ho] at h
  dsimp only at h
  simp only [hf, Bool.false_eq_true, if_false] at h
  split at h
  · split at h
    · cases h
    · rename_i j hj
      split at h
      · cases h
      · rename_i r hr
        split at h
        · split at h
          · rename_i hrf
            rw [if_neg (by simp [hc])] at h
            injection h with h _
            exact .inr ⟨j, r, h.symm, hj, hr, hrf⟩
          · exact .inl (finish_compiles ho h)
        · cases h
  · cases h

theorem finish_explores {E : Env} {R R' : Reg} {i j : Nat} {o r : Obj} (hr : R.objs[j]? = some r) (hc : o.cls = .pure)
    (h : finish E R i j o = (R', true)) :
    ∃ r' d, R'.objs[j]? = some r' ∧ r'.deps = some d ∧ exploreDeps E R' o.portal o.island o.src.name = some d := by
  have mod : ∀ (Q : Reg) (m : Nat) (f : Obj → Obj), (∃ r', Q.objs[j]? = some r') → ∃ r', (Q.modify m f).objs[j]? = some r' := by
    rintro Q m f ⟨r', h1⟩
    rw [getElem?_modify', h1]
    by_cases e : m = j
    · exact ⟨f r', by simp [e]⟩
    · exact ⟨r', by simp [e]⟩
  have h1 := mod R i (fun o => { o with compiled := true }) ⟨r, hr⟩
  have h2 : ∀ a, ∃ r', (flipStrict E (R.modify i fun o => { o with compiled := true }) i o a).objs[j]? = some r' := by
    intro a
    unfold flipStrict
    split
    · exact mod _ _ _ h1
    · exact h1
  unfold finish at h
  dsimp only at h
  split at h
  · cases h
  · rename_i a ha
    split at h
    · split at h
      · cases h
      · rename_i d hd
        split at h
        · cases h
        · rw [if_neg (by simp [hc])] at h
          injection h with h _; subst h
          obtain ⟨r', hr'⟩ := h2 a
          unfold recordDeps
          refine ⟨{ r' with deps := some d }, d, ?_, rfl, ?_⟩
          · rw [getElem?_modify', getElem?_modify', hr']
            by_cases e : i = j <;> simp [e]
          · rw [exploreDeps_modify _ _ _ _ (by intros; rfl), exploreDeps_modify _ _ _ _ (by intros; rfl)]; exact hd
    · cases h

theorem completeAutonomous_explores {E : Env} {R R' : Reg} {i : Nat} {o : Obj} (ho : R.objs[i]? = some o) (hf : o.full = false)
    (h : completeAutonomous E R i = (R', true)) (hc : o.cls = .pure) :
    ∃ j r', R.known.lookup o.key = some j ∧ R'.objs[j]? = some r' ∧
      (r'.full = true ∨ ∃ d, r'.deps = some d ∧ exploreDeps E R' o.portal o.island o.src.name = some d) := by
  unfold completeAutonomous at h
  rw [ho] at h
  dsimp only at h
  simp only [hf, Bool.false_eq_true, if_false] at h
  split at h
  · split at h
    · cases h
    · rename_i j hj
      split at h
      · cases h
      · rename_i r hr
        split at h
        · split at h
          · rename_i hrf
            rw [if_neg (by simp [hc])] at h
            injection h with h _
            subst h
            exact ⟨j, r, hj, hr, .inl hrf⟩
          · obtain ⟨r', d, h1, h2, h3⟩ := finish_explores hr hc h
            exact ⟨j, r', hj, h1, .inr ⟨d, h2, h3⟩⟩
        · cases h
  · cases h

theorem completePure_prims {E : Env} {b : Bool} {R : Reg} (w : Wf R) (i : Nat) (o : Obj) (ho : R.objs[i]? = some o) (hf : o.full = false)
    (hc : o.cls = .pure) : Prims E b R (completePure E R i).1 := by
  have p := completeAutonomous_prims (E := E) (b := b) (R := R) i
  have hw := prims_wf w p
  obtain ⟨o1, ho1, hs1⟩ := hw.2.objs i o ho
  obtain ⟨o2, ho2, hf2⟩ := completeAutonomous_hasFull (E := E) ho hc ⟨o, ho, hf⟩
  rw [ho1] at ho2; injection ho2 with ho2; subst ho2
  unfold completePure
  split
  · rename_i R' e
    rw [e] at p; exact p
  · rename_i R' e
    rw [e] at p hw ho1
    dsimp only at p hw ho1
    rw [ho1]
    dsimp only
    split
    · exact p
    · rename_i es he
      split
      · exact p
      · rename_i j hj
        split
        · exact p
        · rename_i r hr
          unfold storeAug
          split
          · rename_i ha
            obtain ⟨r', q1, q2, q3, q4⟩ := hw.1.handle i o1 ho1
            have : R'.at o1.key = some r := by simp [Reg.at, hj, hr]
            rw [this] at q1; injection q1 with q1; subst q1
            have hm : o1.compiled = true ∨ r.full = true := by
              rcases completeAutonomous_compiles ho hf e hc with ⟨o', k1, k2⟩ | ⟨j', r', rfl, k2, k3, k4⟩
              · rw [ho1] at k1; injection k1 with k1; subst k1; exact .inl k2
              · rw [hs1.key, k2] at hj; injection hj with hj; subst hj
                rw [k3] at hr; injection hr with hr; subst hr; exact .inr k4
            have hx : r.full = true ∨ ∃ d, r.deps = some d ∧ exploreDeps E R' o1.portal o1.island o1.src.name = some d := by
              obtain ⟨j', r', k1, k2, k3⟩ := completeAutonomous_explores ho hf e hc
              have k1' := hw.2.lookup k1
              rw [← hs1.key, hj] at k1'; injection k1' with k1'; subst k1'
              rw [hr] at k2; injection k2 with k2; subst k2
              rw [hs1.portal, hs1.island, hs1.src]; exact k3
            exact p.tail (.store R' i j o1 r es ⟨ho1, hj, hr, q2.symm, hf2⟩ (hs1.cls.trans hc) he ha hm hx)
          · exact p

theorem complete_prims {E : Env} {b : Bool} {R : Reg} (w : Wf R) (i : Nat) : Prims E b R (complete E R i).1 := by
  unfold complete
  split
  · exact .refl
  · rename_i o ho
    split
    · exact .refl
    · rename_i hf
      split
      · exact completeAutonomous_prims i
      · rename_i hc
        exact completePure_prims w i o ho (by simpa using hf) hc

theorem start_fst (E : Env) (R : Reg) (i : Nat) : (start E R i).1 = (complete E R i).1 := by
  unfold start
  split
  · rename_i R' e; rw [e]
  · rename_i R' e; rw [e]
    dsimp only
    split <;> rfl

theorem pickle_fst (E : Env) (R : Reg) (i : Nat) : (pickle E R i).1 = R ∨ (pickle E R i).1 = (complete E R i).1 := by
  unfold pickle
  split
  · exact .inl rfl
  · split
    · exact .inl rfl
    · right
      split
      · rename_i e; rw [e]
      · rename_i e; rw [e]
        dsimp only
        split
        · rfl
        · split
          · rfl
          · split <;> rfl

theorem process_prims {E : Env} {b : Bool} (p : Nat) (es : List Entry) {R : Reg} (w : Wf R) : Prims E b R (process p es R).1 := by
  induction es generalizing R with
  | nil => exact .refl
  | cons e es ih =>
    have h1 := decorate_prims (E := E) (b := b) w (e.decl p)
    unfold process
    split
    · rename_i h; rw [h] at h1; exact h1
    · rename_i h; rw [h] at h1
      exact h1.trans (ih (prims_wf w h1).1)

theorem adopt_prims {E : Env} (p : Nat) (es : List Entry) {R : Reg} (w : Wf R) (i : Nat) (o : Obj) (ho : R.objs[i]? = some o)
    (hc : o.cls = .pure) : Prims E true R (adopt p R o es).1 := by
  unfold adopt
  split
  · exact .refl
  · rename_i j hj
    split
    · exact .refl
    · rename_i r hr
      split
      · exact .refl
      · rename_i hf
        obtain ⟨r', q1, q2, q3, q4⟩ := w.handle i o ho
        have : R.at o.key = some r := by simp [Reg.at, hj, hr]
        rw [this] at q1; injection q1 with q1; subst q1
        have h1 : Prims E true R (R.modify j fun o => { o with aug := some es }) :=
          .single (.adopt R o.key j r es hj hr (by simpa using hf) (q3.trans hc) rfl)
        exact h1.trans (process_prims p es (prims_wf w h1).1)

theorem begin_obj {R : Reg} {o : Obj} {R' : Reg} {i : Nat} (h : begin R o = (R', some i)) : ∃ o', R'.objs[i]? = some o' ∧ o'.cls = o.cls ∧ o'.portal = o.portal := by
  unfold begin at h
  dsimp only at h
  split at h
  · split at h
    · split at h
      · cases h
      · rename_i o' hu
        simp only [Reg.alloc, Prod.mk.injEq, Option.some.injEq] at h
        obtain ⟨rfl, rfl⟩ := h
        refine ⟨o', by simp, ?_⟩
        unfold update at hu
        split at hu
        · cases hu
        · injection hu with hu; subst hu; exact ⟨rfl, rfl⟩
    · cases h
  · split at h
    · simp only [Reg.alloc, Prod.mk.injEq, Option.some.injEq] at h
      obtain ⟨rfl, rfl⟩ := h
      exact ⟨{ o with full := false }, by simp, rfl, rfl⟩
    · cases h

theorem restore_prims {E : Env} {R : Reg} (w : Wf R) (p : Nat) (s : Pickled) : Prims E true R (restore E R p s).1 := by
  cases s with
  | autonomous isl s strict => exact begin_prims w _ ⟨rfl, rfl, rfl, rfl⟩ (fun _ => ⟨by simp, rfl⟩)
  | pure isl s strict gs es =>
    have h1 := begin_prims (E := E) (b := true) w ({ cls := .pure, portal := p, island := isl, src := s, strict := strict, guards := gs } : Obj) ⟨rfl, rfl, rfl, rfl⟩ (by simp)
    simp only [restore]
    split
    · rename_i e; rw [e] at h1; exact h1
    · rename_i R1 i e
      obtain ⟨o', q1, q2, q3⟩ := begin_obj e
      rw [e] at h1
      have w1 := (prims_wf w h1).1
      dsimp only at h1 w1
      split
      · exact h1
      · rename_i o ho
        rw [q1] at ho; injection ho with ho; subst ho
        have h2 := h1.trans (adopt_prims (E := E) p es w1 i o' q1 q2)
        split
        · rename_i e2; rw [e2] at h2; exact h2
        · rename_i R2 e2
          rw [e2] at h2
          have w2 := (prims_wf w h2).1
          have h3 := h2.trans (complete_prims (E := E) (b := true) w2 i)
          dsimp only at h3
          split
          · rename_i e3; rw [e3] at h3; exact h3
          · rename_i e3; rw [e3] at h3; exact h3

theorem step_prims {E : Env} {R : Reg} (w : Wf R) (op : Op) : Prims E true R (step E R op) := by
  cases op with
  | decorate d => exact decorate_prims w d
  | start i => simp only [step, start_fst]; exact complete_prims w i
  | pickle i =>
    simp only [step]
    rcases pickle_fst E R i with h | h
    · rw [h]
    · rw [h]; exact complete_prims w i
  | restore p s => exact restore_prims w p s

theorem run_prims {E : Env} {R : Reg} (w : Wf R) (ops : List Op) : Prims E true R (run E R ops) := by
  induction ops generalizing R with
  | nil => exact .refl
  | cons op ops ih =>
    have h := step_prims (E := E) w op
    exact h.trans (ih (prims_wf w h).1)

/-- operations other than restoring pickled functions -/
def Op.plain : Op → Bool
  | .restore _ _ => false
  | _ => true

theorem step_prims_plain {E : Env} {R : Reg} (w : Wf R) (op : Op) (h : op.plain = true) : Prims E false R (step E R op) := by
  cases op with
  | decorate d => exact decorate_prims w d
  | start i => simp only [step, start_fst]; exact complete_prims w i
  | pickle i =>
    simp only [step]
    rcases pickle_fst E R i with h | h
    · rw [h]
    · rw [h]; exact complete_prims w i
  | restore p s => cases h

theorem run_prims_plain {E : Env} {R : Reg} (w : Wf R) (ops : List Op) (h : ∀ op ∈ ops, op.plain = true) : Prims E false R (run E R ops) := by
  induction ops generalizing R with
  | nil => exact .refl
  | cons op ops ih =>
    have h1 := step_prims_plain (E := E) w op (h op (by simp))
    exact h1.trans (ih (prims_wf w h1).1 (fun o ho => h o (by simp [ho])))

theorem run_append (E : Env) (R : Reg) (a b : List Op) : run E R (a ++ b) = run E (run E R a) b := by
  simp [run]

end Pyth.Registry
