import Verif.Proofs.RegistryAug
/-! # Functions with a single function object -/
set_option linter.unusedSectionVars false
set_option linter.unusedVariables false
set_option linter.unusedSimpArgs false
namespace Pyth.Registry
open Pyth.Analyzer

/-- object `i` is the only function object of its function -/
def Sole (R : Reg) (i : Nat) (o : Obj) : Prop :=
  R.objs[i]? = some o ∧ ∀ (m : Nat) (q : Obj), R.objs[m]? = some q → q.key = o.key → m = i

/-- what holds of such an object -/
structure SoleOk (E : Env) (b : Bool) (o : Obj) : Prop where
  full : o.full = true → o.compiled = true
  strict : o.strict = true → o.deps ≠ none → ∀ a, analyze o.src.node = some a → required E o.src a = []
  aug : b = false → o.full = false → o.aug = none

def GuardsOk (R : Reg) : Prop := ∀ (i : Nat) (o : Obj), R.objs[i]? = some o → ∀ g ∈ o.guards.getD [], g ∈ R.islandNames o.portal o.island

theorem Sole.ctx {R : Reg} {i j : Nat} {o r : Obj} (w : Wf R) (c : Ctx R i j o r) (h : Sole R i o) : j = i ∧ r = o := by
  have hk := w.lookup_key c.look c.reg
  have e := h.2 j r c.reg hk
  subst e
  have := c.obj
  rw [c.reg] at this; injection this with this; subst this
  exact ⟨rfl, rfl⟩

theorem Sole.ctx' {R : Reg} {i j : Nat} {o r : Obj} (w : Wf R) (c : Ctx R i j o r) (h : Sole R j r) : j = i ∧ r = o := by
  have hk := w.lookup_key c.look c.reg
  have e := h.2 i o c.obj hk.symm
  subst e
  have := c.obj
  rw [c.reg] at this; injection this with this; subst this
  exact ⟨rfl, rfl⟩

/-- changes of existing objects -/
theorem sole_change {E : Env} {b : Bool} {R R' : Reg} (h : ∀ i o, Sole R i o → SoleOk E b o) (g : Nat → Obj → Obj)
    (hg : ∀ m : Nat, R'.objs[m]? = (R.objs[m]?).map (g m)) (hs : ∀ (m : Nat) (o : Obj), R.objs[m]? = some o → (g m o).key = o.key)
    (hok : ∀ (m : Nat) (o : Obj), Sole R m o → SoleOk E b o → SoleOk E b (g m o)) : ∀ i o, Sole R' i o → SoleOk E b o := by
  rintro i o' ⟨h1, h2⟩
  rw [hg] at h1
  rw [Option.map_eq_some_iff] at h1
  obtain ⟨o, ho, rfl⟩ := h1
  have : Sole R i o := by
    refine ⟨ho, fun m q hq hk => ?_⟩
    exact h2 m (g m q) (by rw [hg, hq]; rfl) (by rw [hs m q hq, hs i o ho, hk])
  exact hok i o this (h i o this)

theorem sole_modify {E : Env} {b : Bool} {R : Reg} (h : ∀ i o, Sole R i o → SoleOk E b o) (i : Nat) (f : Obj → Obj)
    (hs : ∀ (o : Obj), R.objs[i]? = some o → (f o).key = o.key)
    (hok : ∀ (o : Obj), Sole R i o → SoleOk E b o → SoleOk E b (f o)) : ∀ m o, Sole (R.modify i f) m o → SoleOk E b o := by
  refine sole_change h (fun m => if i = m then f else id) (fun m => get_modify R i f m) ?_ ?_
  · intro m o ho
    split
    · rename_i e; subst e; exact hs o ho
    · rfl
  · intro m o h1 h2
    split
    · rename_i e; subst e; exact hok o h1 h2
    · exact h2

theorem prim_sole {E : Env} {b : Bool} {R R' : Reg} (hI : Inv E R) (hp : Prim E b R R') (h : ∀ i o, Sole R i o → SoleOk E b o) :
    ∀ i o, Sole R' i o → SoleOk E b o := by
  have w := hI.wf
  have old : ∀ (x : Obj) (Q : Reg), (∀ m : Nat, Q.objs[m]? = if m = R.objs.length then some x else R.objs[m]?) → ∀ (i : Nat) (o : Obj), i ≠ R.objs.length →
      Sole Q i o → SoleOk E b o := by
    rintro x Q hQ i o hi ⟨h1, h2⟩
    rw [hQ, if_neg hi] at h1
    refine h i o ⟨h1, fun m q hq hk => h2 m q ?_ hk⟩
    rw [hQ, if_neg, hq]
    rintro rfl
    rw [List.getElem?_eq_none (Nat.le_refl _)] at hq; cases hq
  cases hp with
  | island p isl =>
    have hi := addIsland_ok w p isl
    intro i o ho
    unfold Sole at ho
    rw [hi.2.2.2.2] at ho
    exact h i o ho
  | handle o r o' hr hs hd hc hf hu =>
    intro i q hq
    by_cases e : i = R.objs.length
    · exfalso
      have h1 := hq.1
      rw [getElem?_alloc, if_pos e] at h1
      injection h1 with h1; subst h1
      obtain ⟨j, q1, q2, q3, _⟩ := w.of_at hr
      have hlt : j < R.objs.length := by rw [List.getElem?_eq_some_iff] at q2; exact q2.1
      have hk : r.key = o'.key := by
        have hp : r.portal = o.portal := by simpa [Obj.key] using congrArg Key.portal q3
        unfold update at hu
        split at hu
        · cases hu
        · injection hu with hu; subst hu
          simp [Obj.key, hp]
      have := hq.2 j r (by rw [getElem?_alloc, if_neg (by omega)]; exact q2) hk
      omega
    · exact old o' _ (fun m => getElem?_alloc R o' m) i q e hq
  | register o hr hi ha hf hgd =>
    intro i q hq
    by_cases e : i = R.objs.length
    · have h1 := hq.1
      rw [getElem?_alloc, if_pos e] at h1
      injection h1 with h1; subst h1
      exact ⟨fun h => (by rw [hf.full] at h; cases h), fun _ h => absurd hf.deps h, fun _ _ => hf.aug⟩
    · exact old o _ (fun m => getElem?_alloc _ o m) i q e hq
  | compile i j o r c hr =>
    exact sole_modify h i _ (by intros; rfl) (by intro o h1 h2; exact ⟨fun _ => rfl, h2.strict, h2.aug⟩)
  | flip i j o r a c hr hm ha hs hl =>
    refine sole_modify h i _ (by intros; rfl) ?_
    intro q h1 h2
    have := h1.1
    rw [c.obj] at this; injection this with this; subst this
    refine ⟨h2.full, fun _ hd a' ha' => ?_, h2.aug⟩
    dsimp only at ha' hd
    rw [ha] at ha'; injection ha' with ha'; subst ha'
    obtain ⟨d, hd⟩ := Option.ne_none_iff_exists'.1 hd
    have hg := hI.deps i o d c.obj hd
    have e := minus_length_eq hl
    apply List.eq_nil_iff_forall_not_mem.2
    intro x hx
    have hx' := hx
    rw [← e] at hx'
    simp only [minus, List.mem_filter] at hx'
    simp only [required, minus, List.mem_filter] at hx
    rcases hg.covers a ha x hx.1 with h | h
    · simp [h] at hx
    · have := w.mem_names.2 (hg.names x h)
      simp [this] at hx'
  | record i j o r a d c hr hm ha hs hq hd hne =>
    have key : ∀ m q, Sole R m q → SoleOk E b q → m = i ∨ m = j → m = i ∧ q = o ∧ j = i := by
      rintro m q h1 h2 (rfl | rfl)
      · have := h1.1
        rw [c.obj] at this; injection this with this; subst this
        exact ⟨rfl, rfl, (Sole.ctx w c h1).1⟩
      · have := h1.1
        rw [c.reg] at this; injection this with this; subst this
        obtain ⟨e1, e2⟩ := Sole.ctx' w c h1
        exact ⟨e1, e2, e1⟩
    split
    · refine sole_change h (fun m o => (if j = m then fun o : Obj => { o with full := true } else id) ((if i = m then fun o : Obj => { o with full := true } else id)
          ((if i = m then fun o : Obj => { o with deps := some d } else id) ((if j = m then fun o : Obj => { o with deps := some d } else id) o)))) ?_ ?_ ?_
      · intro m
        unfold markFull recordDeps
        rw [get_modify2, get_modify2, Option.map_map]; rfl
      · intro m o ho
        by_cases e1 : i = m <;> by_cases e2 : j = m <;> simp only [e1, e2, if_true, if_false] <;> rfl
      · intro m q h1 h2
        by_cases e : m = i ∨ m = j
        · obtain ⟨rfl, rfl, rfl⟩ := key m q h1 h2 e
          simp only [if_true]
          refine ⟨fun _ => hm, fun hst _ a' ha' => ?_, fun _ hf => by cases hf⟩
          dsimp only at ha' hst
          rw [ha] at ha'; injection ha' with ha'; subst ha'
          exact hs hst
        · rw [not_or] at e
          have e1 : ¬ i = m := fun h => e.1 h.symm
          have e2 : ¬ j = m := fun h => e.2 h.symm
          simp only [e1, e2, if_false, id]
          exact h2
    · refine sole_change h (fun m o => 
          ((if i = m then fun o : Obj => { o with deps := some d } else id) ((if j = m then fun o : Obj => { o with deps := some d } else id) o))) ?_ ?_ ?_
      · intro m
        unfold recordDeps
        rw [get_modify2]
      · intro m o ho
        by_cases e1 : i = m <;> by_cases e2 : j = m <;> simp only [e1, e2, if_true, if_false] <;> rfl
      · intro m q h1 h2
        by_cases e : m = i ∨ m = j
        · obtain ⟨rfl, rfl, rfl⟩ := key m q h1 h2 e
          simp only [if_true]
          refine ⟨fun _ => hm, fun hst _ a' ha' => ?_, h2.aug⟩
          dsimp only at ha' hst
          rw [ha] at ha'; injection ha' with ha'; subst ha'
          exact hs hst
        · rw [not_or] at e
          have e1 : ¬ i = m := fun h => e.1 h.symm
          have e2 : ¬ j = m := fun h => e.2 h.symm
          simp only [e1, e2, if_false, id]
          exact h2
  | refresh i j o r o' c hr hc hu =>
    have hkey : o'.key = o.key := by
      have hk := w.lookup_key c.look c.reg
      have hp : r.portal = o.portal := by simpa [Obj.key] using congrArg Key.portal hk
      unfold update at hu
      split at hu
      · cases hu
      · injection hu with hu; subst hu
        rw [← hk]
        simp [Obj.key, hp]
    refine sole_modify h i _ ?_ ?_
    · intro q hq
      rw [c.obj] at hq; injection hq with hq; subst hq; exact hkey
    · intro q h1 h2
      have := h1.1
      rw [c.obj] at this; injection this with this; subst this
      obtain ⟨_, rfl⟩ := Sole.ctx w c h1
      rw [c.part] at hr; cases hr
  | store i j o r es c hc he ha hm =>
    have key : ∀ m q, Sole R m q → SoleOk E b q → m = i ∨ m = j → m = i ∧ q = o ∧ j = i ∧ r = o := by
      rintro m q h1 h2 (rfl | rfl)
      · have := h1.1
        rw [c.obj] at this; injection this with this; subst this
        exact ⟨rfl, rfl, (Sole.ctx w c h1).1, (Sole.ctx w c h1).2⟩
      · have := h1.1
        rw [c.reg] at this; injection this with this; subst this
        obtain ⟨e1, e2⟩ := Sole.ctx' w c h1
        exact ⟨e1, e2, e1, e2⟩
    refine sole_change h (fun m o => (if j = m then fun o : Obj => { o with full := true } else id) ((if i = m then fun o : Obj => { o with full := true } else id)
        ((if i = m then fun o : Obj => { o with aug := some es } else id) ((if j = m then fun o : Obj => { o with aug := some es } else id) o)))) ?_ ?_ ?_
    · intro m
      unfold markFull
      rw [get_modify2, get_modify2, Option.map_map]; rfl
    · intro m o ho
      by_cases e1 : i = m <;> by_cases e2 : j = m <;> simp only [e1, e2, if_true, if_false] <;> rfl
    · intro m q h1 h2
      by_cases e : m = i ∨ m = j
      · obtain ⟨rfl, rfl, rfl, rfl⟩ := key m q h1 h2 e
        simp only [if_true]
        refine ⟨fun _ => ?_, h2.strict, fun _ hf => by cases hf⟩
        rcases hm with hm | hm
        · exact hm
        · have := c.part
          rw [hm] at this; cases this
      · rw [not_or] at e
        have e1 : ¬ i = m := fun h => e.1 h.symm
        have e2 : ¬ j = m := fun h => e.2 h.symm
        simp only [e1, e2, if_false, id]
        exact h2
  | adopt k j r es hl hr hf hc hb =>
    exact sole_modify h j _ (by intros; rfl) (by intro o h1 h2; exact ⟨h2.full, h2.strict, fun h => by rw [hb] at h; cases h⟩)

theorem prims_sole {E : Env} {b : Bool} (hE : E.Ok) {R R' : Reg} (hI : Inv E R) (hp : Prims E b R R') (h : ∀ i o, Sole R i o → SoleOk E b o) :
    ∀ i o, Sole R' i o → SoleOk E b o := by
  induction hp with
  | refl => exact h
  | tail h1 h2 ih => exact prim_sole (prims_inv hE hI h1) h2 ih

/-- guards are registered functions, if nothing is restored -/
theorem prim_guards {E : Env} {R R' : Reg} (w : Wf R) (hp : Prim E false R R') (h : GuardsOk R) : GuardsOk R' := by
  have he := (prim_wf w hp).2
  have mod : ∀ (i : Nat) (f : Obj → Obj) (Q : Reg), (∀ o : Obj, (f o).portal = o.portal ∧ (f o).island = o.island ∧ (f o).guards = o.guards) →
      GuardsOk Q → GuardsOk (Q.modify i f) := by
    intro i f Q hf hQ m q hq g hg
    rw [get_modify, Option.map_eq_some_iff] at hq
    obtain ⟨o, ho, rfl⟩ := hq
    by_cases e : i = m
    · simp only [e, if_true] at hg ⊢
      rw [(hf o).2.2] at hg
      rw [(hf o).1, (hf o).2.1]
      exact hQ m o ho g hg
    · simp only [e, if_false] at hg ⊢
      exact hQ m o ho g hg
  cases hp with
  | island p isl =>
    have hi := addIsland_ok w p isl
    intro i o ho g hg
    rw [hi.2.2.2.2] at ho
    exact he.islandNames (h i o ho g hg)
  | handle o r o' hr hs hd hc hf hu =>
    intro i q hq g hg
    rw [getElem?_alloc] at hq
    split at hq
    · injection hq with hq; subst hq
      obtain ⟨j, q1, q2, q3, _⟩ := w.of_at hr
      have hp : r.portal = o.portal := by simpa [Obj.key] using congrArg Key.portal q3
      have hi : r.island = o.island := by simpa [Obj.key] using congrArg Key.island q3
      unfold update at hu
      split at hu
      · cases hu
      · injection hu with hu; subst hu
        have := h j r q2 g hg
        rw [hp] at this
        exact he.islandNames this
    · exact he.islandNames (h i q hq g hg)
  | register o hr hi ha hf hgd =>
    intro i q hq g hg
    rw [getElem?_alloc] at hq
    split at hq
    · injection hq with hq; subst hq
      exact he.islandNames ((hgd rfl).1 g hg)
    · exact he.islandNames (h i q hq g hg)
  | compile i j o r c hr => exact mod _ _ _ (by intro o; exact ⟨rfl, rfl, rfl⟩) h
  | flip i j o r a c hr hm ha hs hl => exact mod _ _ _ (by intro o; exact ⟨rfl, rfl, rfl⟩) h
  | record i j o r a d c hr hm ha hs hq hd hne =>
    have h1 : GuardsOk (recordDeps R i j d) := mod _ _ _ (by intro o; exact ⟨rfl, rfl, rfl⟩) (mod _ _ _ (by intro o; exact ⟨rfl, rfl, rfl⟩) h)
    split
    · exact mod _ _ _ (by intro o; exact ⟨rfl, rfl, rfl⟩) (mod _ _ _ (by intro o; exact ⟨rfl, rfl, rfl⟩) h1)
    · exact h1
  | refresh i j o r o' c hr hc hu =>
    intro m q hq g hg
    rw [get_modify, Option.map_eq_some_iff] at hq
    obtain ⟨q', hq', rfl⟩ := hq
    by_cases e : i = m
    · simp only [e, if_true] at hg ⊢
      have hk := w.lookup_key c.look c.reg
      have hp : r.portal = o.portal := by simpa [Obj.key] using congrArg Key.portal hk
      unfold update at hu
      split at hu
      · cases hu
      · injection hu with hu; subst hu
        have := h j r c.reg g hg
        rw [hp] at this
        exact he.islandNames this
    · simp only [e, if_false] at hg ⊢
      exact he.islandNames (h m q' hq' g hg)
  | store i j o r es c hc he ha hm =>
    exact mod _ _ _ (by intro o; exact ⟨rfl, rfl, rfl⟩) (mod _ _ _ (by intro o; exact ⟨rfl, rfl, rfl⟩)
      (mod _ _ _ (by intro o; exact ⟨rfl, rfl, rfl⟩) (mod _ _ _ (by intro o; exact ⟨rfl, rfl, rfl⟩) h)))
  | adopt k j r es hl hr hf hc hb => cases hb

theorem prims_guards {E : Env} {R R' : Reg} (w : Wf R) (hp : Prims E false R R') (h : GuardsOk R) : GuardsOk R' := by
  induction hp with
  | refl => exact h
  | tail h1 h2 ih => exact prim_guards (prims_wf w h1).1 h2 ih

/-- guards are listed alphabetically, if nothing is restored -/
def GuardsSorted (R : Reg) : Prop := ∀ (i : Nat) (o : Obj), R.objs[i]? = some o → sort (o.guards.getD []) = o.guards.getD []

theorem prim_sorted {E : Env} {R R' : Reg} (w : Wf R) (hp : Prim E false R R') (h : GuardsSorted R) : GuardsSorted R' := by
  have he := (prim_wf w hp).2
  have old : ∀ (i : Nat) (q : Obj), R'.objs[i]? = some q → i < R.objs.length → sort (q.guards.getD []) = q.guards.getD [] := by
    intro i q hq hi
    obtain ⟨q', h1, h2⟩ := he.objs i _ (List.getElem?_eq_getElem hi)
    rw [hq] at h1; injection h1 with h1; subst h1
    rw [h2.guards]
    exact h i _ (List.getElem?_eq_getElem hi)
  have len : R'.objs.length = R.objs.length → GuardsSorted R' := by
    intro hl i q hq
    refine old i q hq ?_
    rw [← hl]
    exact (List.getElem?_eq_some_iff.1 hq).1
  cases hp with
  | island p isl => exact len (by unfold addIsland; split <;> rfl)
  | handle o r o' hr hs hd hc hf hu =>
    intro i q hq
    by_cases hi : i < R.objs.length
    · exact old i q hq hi
    rw [getElem?_alloc] at hq
    split at hq
    · injection hq with hq; subst hq
      obtain ⟨j, q1, q2, q3, _⟩ := w.of_at hr
      unfold update at hu
      split at hu
      · cases hu
      · injection hu with hu; subst hu
        exact h j r q2
    · exact absurd (List.getElem?_eq_some_iff.1 hq).1 hi
  | register o hr hi ha hf hgd =>
    intro i q hq
    by_cases hi : i < R.objs.length
    · exact old i q hq hi
    rw [getElem?_alloc] at hq
    split at hq
    · injection hq with hq; subst hq
      exact (hgd rfl).2
    · exact absurd (List.getElem?_eq_some_iff.1 hq).1 hi
  | compile i j o r c hr => exact len (by simp [Reg.modify])
  | flip i j o r a c hr hm ha hs hl => exact len (by simp [Reg.modify])
  | record i j o r a d c hr hm ha hs hq hd hne => exact len (by split <;> simp [Reg.modify, markFull, recordDeps])
  | refresh i j o r o' c hr hc hu => exact len (by simp [Reg.modify])
  | store i j o r es c hc he ha hm => exact len (by simp [Reg.modify, markFull])
  | adopt k j r es hl hr hf hc hb => cases hb

theorem prims_sorted {E : Env} {R R' : Reg} (w : Wf R) (hp : Prims E false R R') (h : GuardsSorted R) : GuardsSorted R' := by
  induction hp with
  | refl => exact h
  | tail h1 h2 ih => exact prim_sorted (prims_wf w h1).1 h2 ih

/-! ## Executing such an object -/

/-- names that the functions of an island should not have -/
def Reserved (E : Env) (x : String) : Prop := x ∈ E.builtins ∨ x ∈ allDecorators ∨ x = "pth" ∨ x = "self"

theorem required_refers {E : Env} {s : Src} (hacc : acceptable s = true) {a : St} (ha : analyze s.node = some a) (hq : required E s a = [])
    {x : String} (hx : Refers s x) : x = s.name ∨ Reserved E x := by
  obtain ⟨a', ha', hn, _⟩ := acceptable_analyzes hacc
  rw [ha] at ha'; injection ha' with ha'; subst ha'
  obtain ⟨a', ha', hx⟩ := hx
  rw [show definition s = s.node from rfl, ha] at ha'; injection ha' with ha'; subst ha'
  have h1 : x ∈ a.glob ++ a.uncl ∨ x ∈ a.nonl := by
    simp only [List.mem_append] at hx ⊢
    tauto
  rcases h1 with h1 | h1
  · have : x ∈ available E s.name := by
      by_contra hc
      have : x ∈ required E s a := by
        simp only [required, minus, List.mem_filter]
        exact ⟨h1, by simpa using hc⟩
      rw [hq] at this; cases this
    simp only [available, primaryDecorators, List.mem_append, List.mem_cons, List.not_mem_nil, or_false] at this
    simp only [Reserved, allDecorators, List.mem_cons, List.not_mem_nil, or_false]
    tauto
  · right; right; left
    by_contra hc
    have : x ∈ minus a.nonl allDecorators := by
      simp only [minus, List.mem_filter]
      exact ⟨h1, by simpa using hc⟩
    rw [hn] at this; cases this

theorem one_dependency {E : Env} {R : Reg} {p : Nat} {isl : String} {s : Src} (hacc : acceptable s = true) {a : St}
    (ha : analyze s.node = some a) (hq : required E s a = []) (hreg : ∃ r, R.at ⟨p, isl, s.name⟩ = some r ∧ r.src = s)
    (hres : ∀ x r, R.at ⟨p, isl, x⟩ = some r → ¬ Reserved E x) {d : List String} (hn : d.Nodup) (hself : s.name ∈ d)
    (hd : ∀ x ∈ d, CallGraph.Reaches (Link R p isl) s.name x) : d.length = 1 := by
  obtain ⟨r, hr, hrs⟩ := hreg
  have h1 : ∀ b, Link R p isl s.name b → b = s.name := by
    rintro b ⟨⟨q, hq'⟩, q', hq2, hb⟩
    rcases hb with hb | hb
    · exact hb
    · rw [hr] at hq2; injection hq2 with hq2; subst hq2
      rw [hrs] at hb
      rcases required_refers hacc ha hq hb with h | h
      · exact h
      · exact absurd h (hres b q hq')
  have h2 : ∀ x y, CallGraph.Reaches (Link R p isl) x y → x = s.name → y = s.name := by
    intro x y h
    induction h with
    | refl => exact id
    | step h _ ih => rintro rfl; exact ih (h1 _ h)
  have h3 : ∀ x ∈ d, x = s.name := fun x hx => h2 _ _ (hd x hx) rfl
  match d, hn, hself, h3 with
  | [x], _, _, _ => rfl
  | x :: y :: t, hn, _, h3 =>
    have e1 := h3 x (by simp)
    have e2 := h3 y (by simp)
    simp only [List.nodup_cons, List.mem_cons, not_or] at hn
    exact absurd (e1.trans e2.symm) hn.1.1

theorem strictAfter_required {E : Env} {R : Reg} {o : Obj} {a : St} (h : stillRequired E R o a = []) (hs : strictAfter E R o a = true) :
    required E o.src a = [] := by
  unfold strictAfter at hs
  cases ho : o.strict with
  | true => simpa [stillRequired, ho] using h
  | false =>
    rw [ho, h] at hs
    simp only [Bool.false_or, decide_eq_true_eq, List.length_nil] at hs
    exact List.eq_nil_of_length_eq_zero hs.symm

theorem dependencies_eq {R : Reg} {o r : Obj} {d : List String} (hr : R.at o.key = some r) (hd : r.deps = some d) (hne : d ≠ [])
    (hs : sort d = d) (hone : o.strict = true → d.length = 1) : dependencies R o = some d := by
  unfold dependencies
  rw [hr]; dsimp only
  rw [hd]; dsimp only
  rw [if_neg hne, if_neg, hs]
  rintro ⟨h1, h2⟩
  exact h2 (hone h1)

theorem runnable_of {R : Reg} {o r : Obj} {d : List String} (hc : o.compiled = true) (hr : R.at o.key = some r) (hd : r.deps = some d)
    (hne : d ≠ []) (hs : sort d = d) (hone : o.strict = true → d.length = 1)
    (hin : ∀ x ∈ d, ∃ q, R.at ⟨o.portal, o.island, x⟩ = some q) : runnable R o = true := by
  unfold runnable
  rw [hc, dependencies_eq hr hd hne hs hone]
  simp only [Bool.true_and, List.all_eq_true]
  intro x hx
  obtain ⟨q, hq⟩ := hin x hx
  rw [hq]; rfl

theorem mapM_isSome {α β : Type} (f : α → Option β) (l : List α) (h : ∀ x ∈ l, ∃ y, f x = some y) : ∃ r, l.mapM f = some r := by
  induction l with
  | nil => exact ⟨[], by simp⟩
  | cons a l ih =>
    obtain ⟨y, hy⟩ := h a (by simp)
    obtain ⟨r, hr⟩ := ih (fun x hx => h x (by simp [hx]))
    exact ⟨y :: r, by simp [List.mapM_cons, hy, hr]⟩

theorem compile_ok {R : Reg} (w : Wf R) (i : Nat) : Wf (compile R i) ∧ Ext R (compile R i) :=
  modify_ok w i (fun o => { o with compiled := true }) fun o _ => ⟨rfl, rfl, rfl, rfl, rfl⟩

theorem flip_ok {E : Env} {R : Reg} (w : Wf R) (i : Nat) (o : Obj) (a : St) : Wf (flipStrict E R i o a) ∧ Ext R (flipStrict E R i o a) := by
  unfold flipStrict
  split
  · exact modify_ok w i (fun o => { o with strict := true }) fun o _ => ⟨rfl, rfl, rfl, rfl, rfl⟩
  · exact ⟨w, Ext.refl R⟩

theorem start_sole {E : Env} (hE : E.Ok) {R : Reg} (hI : Inv E R) {i : Nat} {o : Obj} (hs : Sole R i o) (hok : SoleOk E false o)
    (hg : GuardsOk R) {a : St} (ha : analyze o.src.node = some a) (hq : o.full = false → stillRequired E R o a = [])
    (hres : ∀ x r, R.at ⟨o.portal, o.island, x⟩ = some r → ¬ Reserved E x) : (start E R i).2 = true := by
  have ho := hs.1
  have w := hI.wf
  obtain ⟨r, q1, q2, q3, q4⟩ := w.handle i o ho
  obtain ⟨j, k1, k2, k3, k4, k5⟩ := w.of_at q1
  have e := hs.2 j r k2 k3
  subst e
  rw [ho] at k2; injection k2 with k2; subst k2
  cases hf : o.full with
  | true =>
    have hc : complete E R j = (R, true) := by unfold complete; rw [ho]; simp [hf]
    obtain ⟨d, hd, _⟩ := hI.done _ o q1 hf
    have hgood := hI.deps j o d ho hd
    unfold start
    rw [hc]; dsimp only
    rw [ho]
    refine runnable_of (hok.full hf) q1 hd (fun h => by have := hgood.self; rw [h] at this; cases this) hgood.sorted ?_ hgood.names
    intro hst
    exact one_dependency k5 ha (hok.strict hst (by rw [hd]; simp) a ha) ⟨o, q1, rfl⟩ hres hgood.nodup hgood.self
      (fun x hx => reaches_mono (fun _ _ h => h.1) (hgood.reach x hx))
  | false =>
    have c : Ctx R j j o o := ⟨ho, k1, ho, rfl, hf⟩
    obtain ⟨d, d1, d2, d3, d4, hfin⟩ := finish_eq hE w c ha
    have hst := hq hf
    have hne : d ≠ [] := fun h => by
      have := (d3 o.src.name).2 (.refl _)
      rw [h] at this; cases this
    have hone : strictAfter E R o a = true → d.length = 1 := fun h =>
      one_dependency k5 ha (strictAfter_required hst h) ⟨o, q1, rfl⟩ hres d1 ((d3 _).2 (.refl _)) (fun x hx => (d3 x).1 hx)
    have hin : ∀ x ∈ d, ∃ q, R.at ⟨o.portal, o.island, x⟩ = some q := by
      intro x hx
      have hx := (d3 x).1 hx
      have : ∀ u v, CallGraph.Reaches (Link R o.portal o.island) u v → u = o.src.name → ∃ q, R.at ⟨o.portal, o.island, v⟩ = some q := by
        intro u v h
        have gen : (∃ q, R.at ⟨o.portal, o.island, u⟩ = some q) → ∃ q, R.at ⟨o.portal, o.island, v⟩ = some q := by
          induction h with
          | refl => exact id
          | step h _ ih => exact fun _ => ih h.1
        rintro rfl
        exact gen ⟨o, q1⟩
      exact this _ _ hx rfl
    have hcomp : completeAutonomous E R j = finish E R j j o := by
      unfold completeAutonomous
      rw [ho]
      dsimp only
      rw [hf]
      have hisl : (o.portal, o.island) ∈ R.islands := k4
      simp only [Bool.false_eq_true, if_false, hisl, if_true]
      rw [k1]; dsimp only
      rw [ho]; dsimp only
      simp [hf]
    rw [if_pos hst] at hfin
    have hoc := get_compile ho
    have hget : (recordDeps (flipStrict E (compile R j) j o a) j j d).objs[j]? =
        some { o with compiled := true, strict := strictAfter E R o a, deps := some d } := by
      unfold recordDeps
      rw [get_modify2, get_flip E _ j o a j hoc, hoc]
      simp only [Option.map_some, if_true]
      rfl
    have hknown : (recordDeps (flipStrict E (compile R j) j o a) j j d).known = R.known := by
      unfold recordDeps flipStrict compile
      split <;> rfl
    have hw1 := compile_ok w j
    have hw2 := flip_ok (E := E) hw1.1 j o a
    have hw := recordDeps_ok hw2.1 j j d
    have hext : Ext R (recordDeps (flipStrict E (compile R j) j o a) j j d) := (hw1.2.trans hw2.2).trans hw.2
    generalize hQ : recordDeps (flipStrict E (compile R j) j o a) j j d = Q at *
    set o1 : Obj := { o with compiled := true, strict := strictAfter E R o a, deps := some d } with ho1
    have hk1 : o1.key = o.key := rfl
    have hat1 : Q.at o1.key = some o1 := by
      unfold Reg.at
      rw [hk1, hknown, k1]
      exact hget
    -- the final registry keeps everything
    have final : ∀ (Q' : Reg) (o2 : Obj), Q'.objs[j]? = some o2 → Q'.known = R.known → Ext R Q' → o2.key = o.key → o2.portal = o.portal → o2.island = o.island →
        o2.compiled = true → o2.deps = some d → o2.strict = strictAfter E R o a → runnable Q' o2 = true := by
      intro Q' o2 p1 p2 p3 p4 pp pi p5 p6 p7
      refine runnable_of p5 (r := o2) ?_ p6 hne d2 (by rw [p7]; exact hone) ?_
      · unfold Reg.at
        rw [p4, p2, k1]; exact p1
      · intro x hx
        obtain ⟨q, hq⟩ := hin x hx
        obtain ⟨q', hq', _⟩ := p3.at hq
        rw [pp, pi]; exact ⟨q', hq'⟩
    cases hc : o.cls with
    | autonomous =>
      rw [if_pos hc] at hfin
      have hcc : complete E R j = (markFull Q j j, true) := by
        unfold complete
        rw [ho]; dsimp only
        rw [hf, hc]
        simp only [Bool.false_eq_true, if_false]
        rw [hcomp, hfin]
      have hg' : (markFull Q j j).objs[j]? = some { o1 with full := true } := by
        unfold markFull
        rw [get_modify2, hget]; simp
      unfold start
      rw [hcc]; dsimp only
      rw [hg']
      exact final _ _ hg' (by unfold markFull; exact hknown) (hext.trans (markFull_ok hw.1 j j).2) rfl rfl rfl rfl rfl rfl
    | pure =>
      rw [if_neg (by rw [hc]; simp)] at hfin
      have hdep : dependencies Q o1 = some d := dependencies_eq hat1 rfl hne d2 hone
      obtain ⟨es, hes⟩ : ∃ es, augment Q o1 = some es := by
        unfold augment
        rw [hdep]
        apply mapM_isSome
        intro x hx
        rw [mem_sort, List.mem_append] at hx
        have : ∃ q, R.at ⟨o.portal, o.island, x⟩ = some q := by
          rcases hx with hx | hx
          · exact w.mem_names.1 (hg j o ho x hx)
          · exact hin x hx
        obtain ⟨q, hq⟩ := this
        obtain ⟨q', hq', _⟩ := hext.at hq
        unfold entryOf
        exact ⟨_, by rw [show Q.at ⟨o1.portal, o1.island, x⟩ = some q' from hq']; rfl⟩
      have hcc : complete E R j = (markFull ((Q.modify j fun o => { o with aug := some es }).modify j fun o => { o with aug := some es }) j j, true) := by
        unfold complete
        rw [ho]; dsimp only
        rw [hf, hc]
        simp only [Bool.false_eq_true, if_false]
        unfold completePure
        rw [hcomp, hfin]; dsimp only
        rw [hget]; dsimp only
        rw [hes]; dsimp only
        rw [hk1, hknown, k1]; dsimp only
        rw [hget]; dsimp only
        unfold storeAug
        rw [if_pos (.inl (hok.aug rfl hf))]
      have hg' : (markFull ((Q.modify j fun o => { o with aug := some es }).modify j fun o => { o with aug := some es }) j j).objs[j]? =
          some { o1 with full := true, aug := some es } := by
        unfold markFull
        rw [get_modify2, get_modify2, hget]; simp
      have hw2 := modify2_ok hw.1 j j (fun o => { o with aug := some es }) (fun o => { o with aug := some es })
        (fun o => ⟨rfl, rfl, rfl, rfl, rfl⟩) (fun o => ⟨rfl, rfl, rfl, rfl, rfl⟩)
      unfold start
      rw [hcc]; dsimp only
      rw [hg']
      exact final _ _ hg' (by unfold markFull; exact hknown) ((hext.trans hw2.2).trans (markFull_ok hw2.1 j j).2) rfl rfl rfl rfl rfl rfl

end Pyth.Registry
