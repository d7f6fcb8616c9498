import Verif.Model.ValueAddr
import Verif.Proofs.World
import Verif.Proofs.FirstEntry
/-! Helper lemmas for value addresses. -/
set_option linter.unusedSectionVars false
set_option linter.unusedVariables false
set_option linter.unusedSimpArgs false
namespace Pyth.ValueAddr
open Pyth.World Pyth.Portal

variable {A V E α β : Type} [DecidableEq A] [DecidableEq V]

/-! ### growth -/

/-- nothing stored is lost or changed; address objects keep their identity, text, portal, and do not
lose cached attributes -/
structure Grow (s s' : World A V E) : Prop where
  store : ∀ p a v, (s.store p).data a = some v → (s'.store p).data a = some v
  heap : ∀ (i : Nat) (o : AddrObj A V), s.heap[i]? = some o → ∃ o' : AddrObj A V, s'.heap[i]? = some o' ∧ o'.chain = o.chain ∧
    o'.portal = o.portal ∧ (o.value.isSome → o'.value.isSome) ∧ (o.ready = true → o'.ready = true)

theorem growFree : CtxFree (Grow : World A V E → World A V E → Prop) where
  refl s := ⟨fun _ _ _ h => h, fun i o h => ⟨o, h, rfl, rfl, id, id⟩⟩
  trans h h' := ⟨fun p a v x => h'.store p a v (h.store p a v x), fun i o x => by
    obtain ⟨o1, a1, b1, c1, d1, e1⟩ := h.heap i o x
    obtain ⟨o2, a2, b2, c2, d2, e2⟩ := h'.heap i o1 a1
    exact ⟨o2, a2, b2.trans b1, c2.trans c1, fun y => d2 (d1 y), fun y => e2 (e1 y)⟩⟩
  frame s _ _ _ _ _ := ⟨fun _ _ _ h => h, fun i o h => ⟨o, h, rfl, rfl, id, id⟩⟩

theorem setItem_grow (o : FirstEntry.Op A V) (d : FirstEntry.Dict A V) (k : A) (v : V)
    (h : d.data k = some v) : (FirstEntry.setItem o d).2.data k = some v := by
  rcases FirstEntry.setItem_data_any o d k with e | ⟨e, _, _⟩
  · rw [e, h]
  · rw [h] at e; cases e

theorem storeSet_run (p : PortalId) (a : A) (v : V) (s : World A V E) :
    ∃ d n, (storeSet p a v s).2 = { s with
        nd := s.nd + 1, nextExc := n, store := fun q => if q = p then d else s.store q } ∧
      d.data = (fun k => ((s.store p).data k).or (if k = a then some v else none)) ∧
      d.pCheck = (s.store p).pCheck ∧
      (((s.store p).data a = none ∨ (s.store p).data a = some v) →
        (storeSet p a v s).1 = .ok ()) := by
  unfold storeSet
  simp only
  have hd := FirstEntry.setItem_data ⟨a, v, s.draws s.nd, .none, .none⟩ (s.store p) (.inl rfl)
  have hok : ((s.store p).data a = none ∨ (s.store p).data a = some v) →
      (FirstEntry.setItem ⟨a, v, s.draws s.nd, .none, .none⟩ (s.store p)).1 = .ok () := by
    rintro (h | h)
    · simp [FirstEntry.setItem, FirstEntry.storeFirst, FirstEntry.attempt, h, FirstEntry.update,
        FirstEntry.check]
    · simp only [FirstEntry.setItem, FirstEntry.storeFirst, FirstEntry.attempt, h,
        FirstEntry.check]
      split
      · split
        · split <;> simp
        · rfl
      · rfl
  have hp : (FirstEntry.setItem ⟨a, v, s.draws s.nd, .none, .none⟩ (s.store p)).2.pCheck =
      (s.store p).pCheck := by
    unfold FirstEntry.setItem
    simp only
    split
    · rfl
    · split
      · rfl
      · rw [FirstEntry.check_p]
  cases hs : FirstEntry.setItem ⟨a, v, s.draws s.nd, .none, .none⟩ (s.store p) with
  | mk r d =>
    rw [hs] at hd hok hp
    cases r with
    | ok u => exact ⟨d, s.nextExc, rfl, hd, hp, fun _ => rfl⟩
    | error e =>
      refine ⟨d, s.nextExc + 1, rfl, hd, hp, fun h => ?_⟩
      have := hok h
      cases this

theorem Resp.storeSetGrow (p : PortalId) (a : A) (v : V) :
    Resp Grow (storeSet p a v : M A V E Unit) := by
  intro s
  obtain ⟨d, n, h1, h2, _⟩ := storeSet_run p a v s
  rw [h1]
  refine ⟨?_, fun i o h => ⟨o, h, rfl, rfl, id, id⟩⟩
  intro q k w h
  simp only
  split
  · rename_i e; subst e; rw [h2]; simp [h]
  · exact h

theorem Resp.allocGrow (o : AddrObj A V) : Resp Grow (alloc o : M A V E Nat) := by
  intro s
  refine ⟨fun _ _ _ h => h, fun i o' h => ⟨o', ?_, rfl, rfl, id, id⟩⟩
  have : i < s.heap.length := by
    rcases Nat.lt_or_ge i s.heap.length with h' | h'
    · exact h'
    · rw [List.getElem?_eq_none h'] at h; cases h
  simp only [alloc]
  rw [List.getElem?_append_left this]; exact h

theorem Resp.updGrow (i : Nat) (f : AddrObj A V → AddrObj A V) (h1 : ∀ o, (f o).chain = o.chain)
    (h2 : ∀ o, (f o).portal = o.portal) (h3 : ∀ o, o.value.isSome → (f o).value.isSome)
    (h4 : ∀ o, o.ready = true → (f o).ready = true) :
    Resp Grow (updObj i f : M A V E Unit) := by
  intro s
  refine ⟨fun _ _ _ h => h, fun j o h => ?_⟩
  simp only [updObj, List.getElem?_modify]
  by_cases hij : i = j
  · subst hij
    exact ⟨f o, by simp [h], h1 o, h2 o, h3 o, h4 o⟩
  · exact ⟨o, by simp [hij, h], rfl, rfl, id, id⟩

theorem Resp.valGrow (i : Nat) (r : V) :
    Resp Grow (updObj i (fun x => { x with value := some r }) : M A V E Unit) :=
  Resp.updGrow i _ (fun _ => rfl) (fun _ => rfl) (fun _ _ => rfl) (fun _ h => h)
theorem Resp.readyGrow (i : Nat) :
    Resp Grow (updObj i (fun x => { x with ready := true }) : M A V E Unit) :=
  Resp.updGrow i _ (fun _ => rfl) (fun _ => rfl) (fun _ h => h) (fun _ _ => rfl)
theorem Resp.bothGrow (i : Nat) (r : V) :
    Resp Grow (updObj i (fun x => { x with value := some r, ready := true }) : M A V E Unit) :=
  Resp.updGrow i _ (fun _ => rfl) (fun _ => rfl) (fun _ _ => rfl) (fun _ _ => rfl)

/-- the body of the `try` in the loop -/
def getTry (i : Nat) (o : AddrObj A V) (q : PortalId) : M A V E V := do
  let r ← withP q (storeGet q o.chain)
  withOpt o.portal (fun p => storeSet p o.chain r)
  updObj i (fun x => { x with value := some r })
  pure r

theorem getLoop_cons (i : Nat) (o : AddrObj A V) (q : PortalId) (qs : List PortalId) (s : World A V E) :
    getLoop i o (q :: qs) s = match getTry i o q s with
      | (.ok r, s') => (.ok r, s')
      | (.error _, s') => getLoop i o qs s' := rfl

section rules
variable {R : World A V E → World A V E → Prop} (h : CtxFree R)
  (hset : ∀ p a v, Resp R (storeSet p a v : M A V E Unit))
  (hval : ∀ i r, Resp R (updObj i (fun x => { x with value := some r }) : M A V E Unit))
  (hready : ∀ i, Resp R (updObj i (fun x => { x with ready := true }) : M A V E Unit))
  (hboth : ∀ i r, Resp R (updObj i (fun x => { x with value := some r, ready := true }) : M A V E Unit))
  (halloc : ∀ o, Resp R (alloc o : M A V E Nat))
include h hset hval

theorem resp_getTry (i : Nat) (o : AddrObj A V) (q : PortalId) : Resp R (getTry i o q) :=
  Resp.bind h.toPreOrd (Resp.withP h q (Resp.storeGet h q _)) fun r =>
    Resp.bind h.toPreOrd (Resp.withOpt h _ fun p => hset p _ _) fun _ =>
      Resp.bind h.toPreOrd (hval i r) fun _ => Resp.pure h.toPreOrd r

theorem resp_getLoop (i : Nat) (o : AddrObj A V) (qs : List PortalId) :
    Resp R (getLoop i o qs) := by
  induction qs with
  | nil => exact Resp.raiseNew h _
  | cons q qs ih =>
    intro s
    rw [getLoop_cons]
    have h1 := resp_getTry h hset hval i o q s
    cases hg : getTry i o q s with
    | mk r s' =>
      rw [hg] at h1
      cases r with
      | ok a => exact h1
      | error e => exact h.trans h1 (ih s')

theorem resp_get (i : Nat) : Resp R (get i) := by
  refine Resp.bind h.toPreOrd (Resp.readObj h i) fun o => ?_
  cases o.value with
  | some v => exact Resp.pure h.toPreOrd v
  | none =>
    refine Resp.tryE h ?_ fun _ => ?_
    · refine Resp.bind h.toPreOrd (Resp.readObj h i) fun o => ?_
      cases o.value with
      | some v => exact Resp.pure h.toPreOrd v
      | none =>
        exact Resp.withOpt h _ fun p => Resp.bind h.toPreOrd (Resp.storeGet h p _) fun r =>
          Resp.bind h.toPreOrd (hval i r) fun _ => Resp.pure h.toPreOrd r
    · exact Resp.bind h.toPreOrd (Resp.readObj h i) fun o =>
        Resp.bind h.toPreOrd (Resp.get h.toPreOrd) fun s => resp_getLoop h hset hval i o _

include hready

theorem resp_readyLoop (i : Nat) (o : AddrObj A V) (qs : List PortalId) :
    Resp R (readyLoop i o qs : M A V E Bool) := by
  induction qs with
  | nil => exact Resp.pure h.toPreOrd _
  | cons q qs ih =>
    refine Resp.bind h.toPreOrd (Resp.withP h q ?_) fun f => Resp.ite (Resp.pure h.toPreOrd _) ih
    refine Resp.bind h.toPreOrd (Resp.storeHas h q _) fun b => Resp.ite ?_ (Resp.pure h.toPreOrd _)
    exact Resp.bind h.toPreOrd (Resp.storeGet h q _) fun d =>
      Resp.bind h.toPreOrd (Resp.withOpt h _ fun p => hset p _ _) fun _ =>
        Resp.bind h.toPreOrd (hready i) fun _ => Resp.pure h.toPreOrd _

theorem resp_ready (i : Nat) : Resp R (ready i : M A V E Bool) := by
  refine Resp.bind h.toPreOrd (Resp.readObj h i) fun o => Resp.ite (Resp.pure h.toPreOrd _) ?_
  refine Resp.bind h.toPreOrd (Resp.needPortal h _) fun p => ?_
  refine Resp.bind h.toPreOrd (Resp.storeHas h p _) fun b => Resp.ite ?_ ?_
  · exact Resp.bind h.toPreOrd (hready i) fun _ => Resp.pure h.toPreOrd _
  · refine Resp.bind h.toPreOrd (Resp.get h.toPreOrd) fun s => ?_
    refine Resp.bind h.toPreOrd (resp_readyLoop h hset hval hready i o _) fun r =>
      Resp.ite ?_ (Resp.pure h.toPreOrd _)
    exact Resp.bind h.toPreOrd (hready i) fun _ => Resp.pure h.toPreOrd _

include halloc

theorem resp_fromStrings (a : A) (p : Option PortalId) (c : Bool) :
    Resp R (fromStrings a p c : M A V E Nat) := by
  refine Resp.bind h.toPreOrd (Resp.bestPortal h p) fun q => ?_
  refine Resp.bind h.toPreOrd (halloc _) fun i => Resp.ite ?_ (Resp.pure h.toPreOrd _)
  exact Resp.bind h.toPreOrd (resp_ready h hset hval hready i) fun r =>
    Resp.ite (Resp.pure h.toPreOrd _) (Resp.raiseNew h _)

theorem resp_copy (i : Nat) : Resp R (copy i : M A V E Nat) :=
  Resp.bind h.toPreOrd (Resp.readObj h i) fun o =>
    resp_fromStrings h hset hval hready halloc _ _ _

theorem resp_unpickle (i : Nat) : Resp R (unpickle i : M A V E Nat) :=
  Resp.bind h.toPreOrd (Resp.readObj h i) fun o =>
    Resp.bind h.toPreOrd (Resp.get h.toPreOrd) fun s => halloc _

theorem resp_conv (j : Nat) (p : Option PortalId) : Resp R (conv j p : M A V E Nat) := by
  refine Resp.bind h.toPreOrd (Resp.bestPortal h p) fun q => ?_
  refine Resp.withP h q (Resp.bind h.toPreOrd (Resp.readObj h j) fun d => ?_)
  refine Resp.bind h.toPreOrd (halloc _) fun i => Resp.bind h.toPreOrd (Resp.storeHas h q _) fun b => ?_
  refine Resp.ite ?_ ?_
  · exact Resp.bind h.toPreOrd (resp_get h hset hval j) fun v =>
      Resp.bind h.toPreOrd (hset q _ _) fun _ =>
        Resp.bind h.toPreOrd (hready i) fun _ => Resp.pure h.toPreOrd _
  · exact Resp.bind h.toPreOrd (hready i) fun _ => Resp.pure h.toPreOrd _

include hboth

theorem resp_new (addrOf : V → A) (v : V) (p : Option PortalId) :
    Resp R (new addrOf v p : M A V E Nat) := by
  refine Resp.bind h.toPreOrd (Resp.bestPortal h p) fun q => ?_
  refine Resp.bind h.toPreOrd (Resp.withP h q (Resp.pure h.toPreOrd _)) fun _ => ?_
  refine Resp.bind h.toPreOrd (halloc _) fun i => ?_
  refine Resp.bind h.toPreOrd (Resp.withP h q (hset q _ _)) fun _ => ?_
  exact Resp.bind h.toPreOrd (hboth i v) fun _ => Resp.pure h.toPreOrd _

end rules

theorem grow_get (i : Nat) : Resp Grow (get i : M A V E V) :=
  resp_get growFree Resp.storeSetGrow Resp.valGrow i
theorem grow_ready (i : Nat) : Resp Grow (ready i : M A V E Bool) :=
  resp_ready growFree Resp.storeSetGrow Resp.valGrow Resp.readyGrow i

theorem grow_step (addrOf : V → A) (w : World A V E) (op : Op V A) : Grow w (op.step addrOf w) := by
  cases op with
  | new v p =>
    exact resp_new growFree Resp.storeSetGrow Resp.valGrow Resp.readyGrow Resp.bothGrow
      Resp.allocGrow addrOf v p w
  | conv i p =>
    exact resp_conv growFree Resp.storeSetGrow Resp.valGrow Resp.readyGrow Resp.allocGrow i p w
  | fromStrings a p c =>
    exact resp_fromStrings growFree Resp.storeSetGrow Resp.valGrow Resp.readyGrow Resp.allocGrow a p c w
  | copy i => exact resp_copy growFree Resp.storeSetGrow Resp.valGrow Resp.readyGrow Resp.allocGrow i w
  | unpickle i =>
    exact resp_unpickle growFree Resp.storeSetGrow Resp.valGrow Resp.readyGrow Resp.allocGrow i w
  | get i => exact grow_get i w
  | ready i => exact grow_ready i w
  | newPortal p => exact growFree.frame w _ w.handling w.nextExc w.marked w.crashes
  | enter p => exact Resp.enterP growFree p w
  | exit p => exact Resp.exitP growFree p w
  | beginExcept k => exact growFree.frame w w.sys _ _ w.marked w.crashes
  | endExcept => exact growFree.frame w w.sys _ w.nextExc w.marked w.crashes
  | foreign p v => exact Resp.storeSetGrow p _ v w

theorem grow_run (addrOf : V → A) (ops : List (Op V A)) (w : World A V E) :
    Grow w (run addrOf w ops) := by
  induction ops generalizing w with
  | nil => exact growFree.refl w
  | cons op ops ih => exact growFree.trans (grow_step addrOf w op) (ih _)

/-! ### context -/

theorem keeps_getTry (i : Nat) (o : AddrObj A V) (q : PortalId) :
    Keeps (getTry i o q : M A V E V) :=
  Keeps.bind (Keeps.withP q (Keeps.storeGet q _)) fun r =>
    Keeps.bind (Keeps.withOpt _ fun p => Keeps.storeSet p _ _) fun _ =>
      Keeps.bind (Keeps.updObj i _) fun _ => Keeps.pure r

theorem keeps_getLoop (i : Nat) (o : AddrObj A V) (qs : List PortalId) :
    Keeps (getLoop i o qs : M A V E V) := by
  induction qs with
  | nil => exact Keeps.raiseNew _
  | cons q qs ih =>
    intro s hs
    rw [getLoop_cons]
    have h1 := keeps_getTry i o q s hs
    cases hg : getTry i o q s with
    | mk r s' =>
      rw [hg] at h1
      cases r with
      | ok a => exact h1
      | error e => exact h1.trans (ih s' (h1.ok hs))

theorem keeps_getFromCurrent (i : Nat) : Keeps (getFromCurrent i : M A V E V) := by
  refine Keeps.bind (Keeps.readObj i) fun o => ?_
  cases o.value with
  | some v => exact Keeps.pure v
  | none =>
    exact Keeps.withOpt _ fun p => Keeps.bind (Keeps.storeGet p _) fun r =>
      Keeps.bind (Keeps.updObj i _) fun _ => Keeps.pure r

theorem keeps_getFromNoncurrent (i : Nat) : Keeps (getFromNoncurrent i : M A V E V) :=
  Keeps.bind (Keeps.readObj i) fun o => Keeps.bind Keeps.get fun s => keeps_getLoop i o _

theorem keeps_get (i : Nat) : Keeps (get i : M A V E V) := by
  refine Keeps.bind (Keeps.readObj i) fun o => ?_
  cases o.value with
  | some v => exact Keeps.pure v
  | none => exact Keeps.tryE (keeps_getFromCurrent i) fun _ => keeps_getFromNoncurrent i

/-- the body of the `with` block in the loop -/
def readyTry (i : Nat) (o : AddrObj A V) (q : PortalId) : M A V E Bool := do
  let h ← storeHas q o.chain
  if h then do
    let data ← storeGet q o.chain
    withOpt o.portal (fun p => storeSet p o.chain data)
    updObj i (fun x => { x with ready := true })
    pure true
  else pure false

theorem keeps_readyTry (i : Nat) (o : AddrObj A V) (q : PortalId) :
    Keeps (readyTry i o q : M A V E Bool) := by
  refine Keeps.bind (Keeps.storeHas q _) fun b => Keeps.ite ?_ (Keeps.pure _)
  exact Keeps.bind (Keeps.storeGet q _) fun d =>
    Keeps.bind (Keeps.withOpt _ fun p => Keeps.storeSet p _ _) fun _ =>
      Keeps.bind (Keeps.updObj i _) fun _ => Keeps.pure _

theorem keeps_readyLoop (i : Nat) (o : AddrObj A V) (qs : List PortalId) :
    Keeps (readyLoop i o qs : M A V E Bool) := by
  induction qs with
  | nil => exact Keeps.pure _
  | cons q qs ih =>
    exact Keeps.bind (Keeps.withP q (keeps_readyTry i o q)) fun f => Keeps.ite (Keeps.pure _) ih

theorem keeps_ready (i : Nat) : Keeps (ready i : M A V E Bool) := by
  refine Keeps.bind (Keeps.readObj i) fun o => Keeps.ite (Keeps.pure _) ?_
  refine Keeps.bind (Keeps.needPortal _) fun p => ?_
  refine Keeps.bind (Keeps.storeHas p _) fun b => Keeps.ite ?_ ?_
  · exact Keeps.bind (Keeps.updObj i _) fun _ => Keeps.pure _
  · refine Keeps.bind Keeps.get fun s => ?_
    refine Keeps.bind (keeps_readyLoop i o _) fun r => Keeps.ite ?_ (Keeps.pure _)
    exact Keeps.bind (Keeps.updObj i _) fun _ => Keeps.pure _

theorem keeps_fromStrings (a : A) (p : Option PortalId) (c : Bool) :
    Keeps (fromStrings a p c : M A V E Nat) := by
  refine Keeps.bind (Keeps.bestPortal p) fun q => ?_
  refine Keeps.bind (Keeps.alloc _) fun i => Keeps.ite ?_ (Keeps.pure _)
  exact Keeps.bind (keeps_ready i) fun r => Keeps.ite (Keeps.pure _) (Keeps.raiseNew _)

theorem keeps_copy (i : Nat) : Keeps (copy i : M A V E Nat) :=
  Keeps.bind (Keeps.readObj i) fun o => keeps_fromStrings _ _ _

theorem keeps_unpickle (i : Nat) : Keeps (unpickle i : M A V E Nat) :=
  Keeps.bind (Keeps.readObj i) fun o => Keeps.bind Keeps.get fun s => Keeps.alloc _

/-- the body of the `with` block of the address conversion -/
def convBody (j : Nat) (q : PortalId) : M A V E Nat := do
  let d ← readObj j
  let i ← alloc { chain := d.chain, portal := some q }
  let h ← storeHas q d.chain
  if (some q ≠ d.portal) ∧ h = false then do
    let data ← get j
    storeSet q d.chain data
    updObj i (fun x => { x with ready := true })
    pure i
  else do
    updObj i (fun x => { x with ready := true })
    pure i

theorem keeps_convBody (j : Nat) (q : PortalId) : Keeps (convBody j q : M A V E Nat) := by
  refine Keeps.bind (Keeps.readObj j) fun d => ?_
  refine Keeps.bind (Keeps.alloc _) fun i => Keeps.bind (Keeps.storeHas q _) fun b => ?_
  refine Keeps.ite ?_ ?_
  · exact Keeps.bind (keeps_get j) fun v => Keeps.bind (Keeps.storeSet q _ _) fun _ =>
      Keeps.bind (Keeps.updObj i _) fun _ => Keeps.pure _
  · exact Keeps.bind (Keeps.updObj i _) fun _ => Keeps.pure _

theorem keeps_conv (j : Nat) (p : Option PortalId) : Keeps (conv j p : M A V E Nat) :=
  Keeps.bind (Keeps.bestPortal p) fun q => Keeps.withP q (keeps_convBody j q)

theorem keeps_new (addrOf : V → A) (v : V) (p : Option PortalId) :
    Keeps (new addrOf v p : M A V E Nat) := by
  refine Keeps.bind (Keeps.bestPortal p) fun q => ?_
  refine Keeps.bind (Keeps.withP q (Keeps.pure _)) fun _ => ?_
  refine Keeps.bind (Keeps.alloc _) fun i => ?_
  refine Keeps.bind (Keeps.withP q (Keeps.storeSet q _ _)) fun _ => ?_
  exact Keeps.bind (Keeps.updObj i _) fun _ => Keeps.pure _

theorem ok_step (addrOf : V → A) (w : World A V E) (op : Op V A) (h : Ok w) :
    Ok (op.step addrOf w) := by
  cases op with
  | new v p => exact (keeps_new addrOf v p w h).ok h
  | conv i p => exact (keeps_conv i p w h).ok h
  | fromStrings a p c => exact (keeps_fromStrings a p c w h).ok h
  | copy i => exact (keeps_copy i w h).ok h
  | unpickle i => exact (keeps_unpickle i w h).ok h
  | get i => exact (keeps_get i w h).ok h
  | ready i => exact (keeps_ready i w h).ok h
  | newPortal p =>
    simp only [Op.step, Ok, register]
    split <;> exact h
  | enter p => exact (inside_ok p w h).1
  | exit p =>
    simp only [Op.step, exitP]
    have hl := logger_sys w
    rw [hl.1]
    rcases exit_spec w.sys p h with ⟨rest, hrest, s', hs', hr', hall, hexp⟩ | ⟨h1, h2⟩ | ⟨q, st', h1, h2, h3⟩
    · rw [hs']; exact hr'
    · rw [h2]; simp only [World.raiseNew, Ok, hl.1]; exact h
    · rw [h3]; simp only [World.raiseNew, Ok, hl.1]; exact h
  | beginExcept k => exact h
  | endExcept => exact h
  | foreign p v => exact (Keeps.storeSet p _ v w h).ok h

theorem ok_run (addrOf : V → A) (ops : List (Op V A)) (w : World A V E) (h : Ok w) :
    Ok (run addrOf w ops) := by
  induction ops generalizing w with
  | nil => exact h
  | cons op ops ih => exact ih _ (ok_step addrOf w op h)

/-! ### integrity -/

/-- every stored or cached value is kept under its own address -/
def Integ (addrOf : V → A) (s : World A V E) : Prop :=
  (∀ p a v, (s.store p).data a = some v → addrOf v = a) ∧
  ∀ (i : Nat) (o : AddrObj A V), s.heap[i]? = some o → ∀ v, o.value = some v → addrOf v = o.chain

/-- object `i` exists and has this text -/
def Has (i : Nat) (c : A) (s : World A V E) : Prop := ∃ o, s.heap[i]? = some o ∧ o.chain = c

theorem Has.grow {i : Nat} {c : A} {s s' : World A V E} (h : Has i c s) (hg : Grow s s') :
    Has i c s' := by
  obtain ⟨o, h1, h2⟩ := h
  obtain ⟨o', h3, h4, _⟩ := hg.heap i o h1
  exact ⟨o', h3, h4.trans h2⟩

/-- invariant preservation together with a property of the result -/
def Tri (I : World A V E → Prop) (m : M A V E α) (Q : α → Prop) : Prop :=
  ∀ s, I s → I (m s).2 ∧ ∀ a, (m s).1 = .ok a → Q a

theorem Tri.bind {I : World A V E → Prop} {m : M A V E α} {k : α → M A V E β} {Q : α → Prop}
    {Q' : β → Prop} (hm : Tri I m Q) (hk : ∀ a, Q a → Tri I (k a) Q') : Tri I (m >>= k) Q' := by
  intro s hs
  have h1 := hm s hs
  rw [PyM.run_bind]
  cases hms : m s with
  | mk r s' =>
    rw [hms] at h1
    cases r with
    | ok a => exact hk a (h1.2 a rfl) s' h1.1
    | error e => exact ⟨h1.1, fun a h => by cases h⟩

theorem Tri.pure {I : World A V E → Prop} {Q : α → Prop} {a : α} (h : Q a) :
    Tri I (Pure.pure a : M A V E α) Q :=
  fun s hs => ⟨hs, fun b hb => by injection hb with hb; subst hb; exact h⟩

theorem Tri.raiseNew {I : World A V E → Prop} {Q : α → Prop} (hI : CtxFree (fun s s' => I s → I s'))
    (k : Kind) : Tri I (raiseNew k : M A V E α) Q :=
  fun s hs => ⟨Resp.raiseNew (α := α) hI k s hs, fun a h => by cases h⟩

theorem Tri.withP {I : World A V E → Prop} {m : M A V E α} {Q : α → Prop}
    (hI : CtxFree (fun s s' => I s → I s')) (p : PortalId) (hm : Tri I m Q) :
    Tri I (withP p m) Q := by
  intro s hs
  refine ⟨Resp.withP hI p (fun s h => (hm s h).1) s hs, ?_⟩
  intro a
  have h1 := Resp.enterP hI p s hs
  unfold World.withP
  cases hen : World.enterP p s with
  | mk r s' =>
    rw [hen] at h1
    cases r with
    | error e => intro h; cases h
    | ok _ =>
      have h2 := hm s' h1
      simp only
      cases hms : m s' with
      | mk r s2 =>
        rw [hms] at h2
        cases r with
        | ok b =>
          simp only
          cases hex : World.exitP p s2 with
          | mk r s3 =>
            cases r with
            | ok _ => exact h2.2 a
            | error e => intro h; cases h
        | error e =>
          simp only
          cases hex : World.handlingE e (World.exitP p) s2 with
          | mk r s3 => cases r <;> (intro h; cases h)

theorem Tri.withOpt {I : World A V E → Prop} {m : PortalId → M A V E α} {Q : α → Prop}
    (hI : CtxFree (fun s s' => I s → I s')) (p : Option PortalId) (hm : ∀ q, Tri I (m q) Q) :
    Tri I (withOpt p m) Q := by
  cases p with
  | none => exact Tri.raiseNew hI _
  | some q => exact Tri.withP hI q (hm q)

theorem Tri.handlingE {I : World A V E → Prop} {m : M A V E α} {Q : α → Prop}
    (hI : CtxFree (fun s s' => I s → I s')) (e : Exc) (hm : Tri I m Q) :
    Tri I (handlingE e m) Q := by
  intro s hs
  refine ⟨Resp.handlingE hI e (fun s h => (hm s h).1) s hs, ?_⟩
  intro a
  have h1 := hm { s with handling := e :: s.handling }
    (hI.frame s s.sys _ s.nextExc s.marked s.crashes hs)
  unfold World.handlingE
  cases hms : m { s with handling := e :: s.handling } with
  | mk r s' => rw [hms] at h1; exact h1.2 a

theorem Tri.tryE {I : World A V E → Prop} {m : M A V E α} {k : Exc → M A V E α} {Q : α → Prop}
    (hI : CtxFree (fun s s' => I s → I s')) (hm : Tri I m Q) (hk : ∀ e, Tri I (k e) Q) :
    Tri I (tryE m k) Q := by
  intro s hs
  have h1 := hm s hs
  unfold World.tryE
  cases hms : m s with
  | mk r s' =>
    rw [hms] at h1
    cases r with
    | ok a => exact h1
    | error e => exact Tri.handlingE hI e (hk e) s' h1.1

/-- the invariant used below -/
def Inv (addrOf : V → A) (i : Nat) (c : A) (s : World A V E) : Prop := Integ addrOf s ∧ Has i c s

theorem invFree (addrOf : V → A) (i : Nat) (c : A) :
    CtxFree (fun s s' : World A V E => Inv addrOf i c s → Inv addrOf i c s') where
  refl _ h := h
  trans h h' x := h' (h x)
  frame _ _ _ _ _ _ h := h

theorem integFree (addrOf : V → A) :
    CtxFree (fun s s' : World A V E => Integ addrOf s → Integ addrOf s') where
  refl _ h := h
  trans h h' x := h' (h x)
  frame _ _ _ _ _ _ h := h

theorem integ_storeSet (addrOf : V → A) (p : PortalId) (a : A) (v : V) (hv : addrOf v = a)
    (s : World A V E) (h : Integ addrOf s) : Integ addrOf (storeSet p a v s).2 := by
  obtain ⟨d, n, h1, h2, _⟩ := storeSet_run p a v s
  rw [h1]
  refine ⟨?_, h.2⟩
  intro q k w
  simp only
  split
  · rw [h2]
    simp only
    cases hk : (s.store p).data k with
    | some x =>
      simp only [Option.some_or]
      intro e; injection e with e; subst e
      exact h.1 p k x hk
    | none =>
      simp only [Option.none_or]
      split
      · intro e; injection e with e; subst e; rename_i ek; rw [ek]; exact hv
      · intro e; cases e
  · exact h.1 q k w

theorem tri_storeGet (addrOf : V → A) (i : Nat) (c : A) (p : PortalId) (a : A) :
    Tri (Inv addrOf i c) (storeGet p a : M A V E V) (fun v => addrOf v = a) := by
  intro s hs
  unfold storeGet
  cases h : (s.store p).data a with
  | some v =>
    exact ⟨hs, fun w e => by injection e with e; subst e; exact hs.1.1 p a v h⟩
  | none => exact ⟨Resp.raiseNew (α := V) (invFree addrOf i c) _ s hs, fun w e => by cases e⟩

theorem tri_storeSet (addrOf : V → A) (i : Nat) (c : A) (p : PortalId) (a : A) (v : V)
    (hv : addrOf v = a) :
    Tri (Inv addrOf i c) (storeSet p a v : M A V E Unit) (fun _ => True) :=
  fun s hs => ⟨⟨integ_storeSet addrOf p a v hv s hs.1, hs.2.grow (Resp.storeSetGrow p a v s)⟩,
    fun _ _ => trivial⟩

theorem integ_upd (addrOf : V → A) (i : Nat) (f : AddrObj A V → AddrObj A V) (s : World A V E)
    (h : Integ addrOf s) (hf : ∀ o, s.heap[i]? = some o → ∀ v, (f o).value = some v →
      addrOf v = (f o).chain) : Integ addrOf (updObj i f s).2 := by
  refine ⟨h.1, ?_⟩
  intro j o
  simp only [updObj, List.getElem?_modify]
  by_cases hij : i = j
  · subst hij
    cases ho : s.heap[i]? with
    | none => simp
    | some x =>
      simp only [if_true, Option.map_some]
      intro e; injection e with e; subst e
      exact hf x ho
  · simp only [hij, if_false]
    cases ho : s.heap[j]? with
    | none => simp
    | some x =>
      intro e
      have e : x = o := by simpa using e
      subst e
      exact h.2 j x ho

theorem tri_updVal (addrOf : V → A) (i : Nat) (c : A) (v : V) (hv : addrOf v = c) :
    Tri (Inv addrOf i c) (updObj i (fun x => { x with value := some v }) : M A V E Unit)
      (fun _ => True) := by
  refine fun s hs => ⟨⟨integ_upd addrOf i _ s hs.1 ?_, hs.2.grow (Resp.valGrow i v s)⟩,
    fun _ _ => trivial⟩
  intro o ho w e
  obtain ⟨o', ho', hc⟩ := hs.2
  rw [ho] at ho'; injection ho' with ho'; subst ho'
  simp only [Option.some.injEq] at e; subst e
  simp only; rw [hc]; exact hv

theorem tri_getTry (addrOf : V → A) (i : Nat) (o : AddrObj A V) (q : PortalId) :
    Tri (Inv addrOf i o.chain) (getTry i o q : M A V E V) (fun v => addrOf v = o.chain) :=
  Tri.bind (Tri.withP (invFree addrOf i _) q (tri_storeGet addrOf i _ q _)) fun r hr =>
    Tri.bind (Tri.withOpt (invFree addrOf i _) _ fun p => tri_storeSet addrOf i _ p _ r hr) fun _ _ =>
      Tri.bind (tri_updVal addrOf i _ r hr) fun _ _ => Tri.pure hr

theorem tri_getLoop (addrOf : V → A) (i : Nat) (o : AddrObj A V) (qs : List PortalId) :
    Tri (Inv addrOf i o.chain) (getLoop i o qs : M A V E V) (fun v => addrOf v = o.chain) := by
  induction qs with
  | nil => exact Tri.raiseNew (invFree addrOf i _) _
  | cons q qs ih =>
    intro s hs
    rw [getLoop_cons]
    have h1 := tri_getTry addrOf i o q s hs
    cases hg : getTry i o q s with
    | mk r s' =>
      rw [hg] at h1
      cases r with
      | ok a => exact h1
      | error e => exact ih s' h1.1

theorem readObj_run (i : Nat) (o : AddrObj A V) (s : World A V E) (h : s.heap[i]? = some o) :
    readObj i s = (.ok o, s) := by simp [readObj, h]

theorem tri_readObj (addrOf : V → A) (i : Nat) (c : A) :
    Tri (Inv addrOf i c) (readObj i : M A V E (AddrObj A V))
      (fun o => o.chain = c ∧ ∀ v, o.value = some v → addrOf v = c) := by
  intro s hs
  obtain ⟨o, ho, hc⟩ := hs.2
  rw [readObj_run i o s ho]
  refine ⟨hs, fun x e => ?_⟩
  injection e with e; subst e
  exact ⟨hc, fun v hv => by rw [← hc]; exact hs.1.2 i o ho v hv⟩

theorem Tri.get (I : World A V E → Prop) : Tri I (PyM.get : M A V E _) (fun _ => True) :=
  fun s hs => ⟨hs, fun _ _ => trivial⟩

theorem tri_get (addrOf : V → A) (i : Nat) (c : A) :
    Tri (Inv addrOf i c) (get i : M A V E V) (fun v => addrOf v = c) := by
  refine Tri.bind (tri_readObj addrOf i c) fun o ho => ?_
  cases hv : o.value with
  | some v => exact Tri.pure (ho.2 v hv)
  | none =>
    refine Tri.tryE (invFree addrOf i c) ?_ fun _ => ?_
    · refine Tri.bind (tri_readObj addrOf i c) fun o ho => ?_
      cases hv : o.value with
      | some v => exact Tri.pure (ho.2 v hv)
      | none =>
        refine Tri.withOpt (invFree addrOf i c) _ fun p => ?_
        rw [ho.1]
        exact Tri.bind (tri_storeGet addrOf i c p _) fun r hr =>
          Tri.bind (tri_updVal addrOf i c r hr) fun _ _ => Tri.pure hr
    · refine Tri.bind (tri_readObj addrOf i c) fun o ho => ?_
      refine Tri.bind (Tri.get _) fun s _ => ?_
      have := tri_getLoop (E := E) addrOf i o (noncurrentList s)
      rw [ho.1] at this
      exact this

theorem integ_alloc (addrOf : V → A) (o : AddrObj A V) (ho : o.value = none) (s : World A V E)
    (h : Integ addrOf s) : Integ addrOf (alloc o s).2 := by
  refine ⟨h.1, ?_⟩
  intro j x
  simp only [alloc]
  rw [List.getElem?_append]
  split
  · exact h.2 j x
  · intro hx v hv
    have : x = o := by
      rw [List.getElem?_singleton] at hx
      split at hx
      · injection hx with hx; exact hx.symm
      · cases hx
    subst this; rw [ho] at hv; cases hv

theorem tri_ready_upd (addrOf : V → A) (i j : Nat) (c : A) :
    Tri (Inv addrOf i c) (updObj j (fun x => { x with ready := true }) : M A V E Unit)
      (fun _ => True) := by
  refine fun s hs => ⟨⟨integ_upd addrOf j _ s hs.1 ?_, hs.2.grow (Resp.readyGrow j s)⟩,
    fun _ _ => trivial⟩
  intro o ho w e
  exact hs.1.2 j o ho w e

theorem tri_storeHas (I : World A V E → Prop) (p : PortalId) (a : A) :
    Tri I (storeHas p a : M A V E Bool) (fun _ => True) := fun s hs => ⟨hs, fun _ _ => trivial⟩

theorem tri_needPortal (addrOf : V → A) (i : Nat) (c : A) (p : Option PortalId) :
    Tri (Inv addrOf i c) (needPortal p : M A V E PortalId) (fun _ => True) :=
  fun s hs => ⟨Resp.needPortal (invFree addrOf i c) p s hs, fun _ _ => trivial⟩

theorem Tri.ite {I : World A V E → Prop} {c : Prop} [Decidable c] {m m' : M A V E α} {Q : α → Prop}
    (hm : Tri I m Q) (hm' : Tri I m' Q) : Tri I (if c then m else m') Q := by
  split
  · exact hm
  · exact hm'

theorem tri_readyLoop (addrOf : V → A) (i : Nat) (o : AddrObj A V) (qs : List PortalId) :
    Tri (Inv addrOf i o.chain) (readyLoop i o qs : M A V E Bool) (fun _ => True) := by
  induction qs with
  | nil => exact Tri.pure trivial
  | cons q qs ih =>
    refine Tri.bind (Q := fun _ => True) (Tri.withP (invFree addrOf i _) q ?_) fun f _ =>
      Tri.ite (Tri.pure trivial) ih
    refine Tri.bind (tri_storeHas _ q _) fun b _ => Tri.ite ?_ (Tri.pure trivial)
    exact Tri.bind (tri_storeGet addrOf i _ q _) fun r hr =>
      Tri.bind (Tri.withOpt (invFree addrOf i _) _ fun p => tri_storeSet addrOf i _ p _ r hr) fun _ _ =>
        Tri.bind (tri_ready_upd addrOf i i _) fun _ _ => Tri.pure trivial

theorem tri_ready (addrOf : V → A) (i : Nat) (c : A) :
    Tri (Inv addrOf i c) (ready i : M A V E Bool) (fun _ => True) := by
  refine Tri.bind (tri_readObj addrOf i c) fun o ho => Tri.ite (Tri.pure trivial) ?_
  refine Tri.bind (tri_needPortal addrOf i c _) fun p _ => ?_
  refine Tri.bind (tri_storeHas _ p _) fun b _ => Tri.ite ?_ ?_
  · exact Tri.bind (tri_ready_upd addrOf i i c) fun _ _ => Tri.pure trivial
  · refine Tri.bind (Tri.get _) fun s _ => ?_
    have h := tri_readyLoop (E := E) addrOf i o (noncurrentList s)
    rw [ho.1] at h
    refine Tri.bind h fun r _ => Tri.ite ?_ (Tri.pure trivial)
    exact Tri.bind (tri_ready_upd addrOf i i c) fun _ _ => Tri.pure trivial

/-- integrity is preserved by any computation on an existing object that preserves `Inv`; on a
missing object the operations only raise -/
theorem integ_of_inv {addrOf : V → A} {i : Nat} {m : M A V E α} {Q : A → α → Prop}
    (h : ∀ c, Tri (Inv addrOf i c) m (Q c))
    (hnone : ∀ s : World A V E, s.heap[i]? = none → Integ addrOf s → Integ addrOf (m s).2) :
    Resp (fun s s' => Integ addrOf s → Integ addrOf s') m := by
  intro s hs
  cases ho : s.heap[i]? with
  | none => exact hnone s ho hs
  | some o => exact ((h o.chain) s ⟨hs, o, ho, rfl⟩).1.1

theorem readObj_none (i : Nat) (s : World A V E) (h : s.heap[i]? = none) :
    readObj i s = raiseNew .attributeError s := by simp [readObj, h]

theorem integ_get (addrOf : V → A) (i : Nat) :
    Resp (fun s s' => Integ addrOf s → Integ addrOf s') (get i : M A V E V) := by
  refine integ_of_inv (Q := fun c v => addrOf v = c) (tri_get addrOf i) ?_
  intro s h hs
  unfold get
  rw [PyM.run_bind, readObj_none i s h]
  exact hs

theorem integ_ready (addrOf : V → A) (i : Nat) :
    Resp (fun s s' => Integ addrOf s → Integ addrOf s') (ready i : M A V E Bool) := by
  refine integ_of_inv (Q := fun c v => True) (tri_ready addrOf i) ?_
  intro s h hs
  unfold ready
  rw [PyM.run_bind, readObj_none i s h]
  exact hs

theorem integ_fromStrings (addrOf : V → A) (a : A) (p : Option PortalId) (c : Bool) :
    Resp (fun s s' => Integ addrOf s → Integ addrOf s') (fromStrings a p c : M A V E Nat) := by
  have h := integFree (E := E) addrOf
  refine Resp.bind h.toPreOrd (Resp.bestPortal h p) fun q => ?_
  refine Resp.bind h.toPreOrd (fun s hs => integ_alloc addrOf _ rfl s hs) fun i =>
    Resp.ite ?_ (Resp.pure h.toPreOrd _)
  exact Resp.bind h.toPreOrd (integ_ready addrOf i) fun r =>
    Resp.ite (Resp.pure h.toPreOrd _) (Resp.raiseNew h _)

theorem has_alloc (o : AddrObj A V) (s : World A V E) :
    (alloc o s).1 = .ok s.heap.length ∧ (alloc o s).2.heap[s.heap.length]? = some o := by
  simp [alloc]

theorem integ_convBody (addrOf : V → A) (j : Nat) (q : PortalId) :
    Resp (fun s s' => Integ addrOf s → Integ addrOf s') (convBody j q : M A V E Nat) := by
  intro s hs
  unfold convBody
  rw [PyM.run_bind]
  cases ho : s.heap[j]? with
  | none => rw [readObj_none j s ho]; exact hs
  | some d =>
    rw [readObj_run j d s ho]
    simp only
    rw [PyM.run_bind]
    simp only [alloc]
    have hs1 : Inv addrOf j d.chain (alloc { chain := d.chain, portal := some q } s).2 :=
      ⟨integ_alloc addrOf _ rfl s hs, Has.grow (c := d.chain) ⟨d, ho, rfl⟩ (Resp.allocGrow _ s)⟩
    have key : Tri (Inv addrOf j d.chain) (do
        let h ← storeHas q d.chain
        if (some q ≠ d.portal) ∧ h = false then do
          let data ← get j
          storeSet q d.chain data
          updObj s.heap.length (fun x => { x with ready := true })
          pure s.heap.length
        else do
          updObj s.heap.length (fun x => { x with ready := true })
          pure s.heap.length : M A V E Nat) (fun _ => True) := by
      refine Tri.bind (tri_storeHas _ q _) fun b _ => Tri.ite ?_ ?_
      · exact Tri.bind (tri_get addrOf j _) fun v hv =>
          Tri.bind (tri_storeSet addrOf j _ q _ v hv) fun _ _ =>
            Tri.bind (tri_ready_upd addrOf j _ _) fun _ _ => Tri.pure trivial
      · exact Tri.bind (tri_ready_upd addrOf j _ _) fun _ _ => Tri.pure trivial
    exact (key _ hs1).1.1

theorem integ_conv (addrOf : V → A) (j : Nat) (p : Option PortalId) :
    Resp (fun s s' => Integ addrOf s → Integ addrOf s') (conv j p : M A V E Nat) := by
  have h := integFree (E := E) addrOf
  exact Resp.bind h.toPreOrd (Resp.bestPortal h p) fun q => Resp.withP h q (integ_convBody addrOf j q)

/-- the part of the constructor after the object exists -/
def newTail (addrOf : V → A) (v : V) (q : PortalId) (i : Nat) : M A V E Nat := do
  withP q (storeSet q (addrOf v) v)
  updObj i (fun x => { x with value := some v, ready := true })
  pure i

theorem integ_new (addrOf : V → A) (v : V) (p : Option PortalId) :
    Resp (fun s s' => Integ addrOf s → Integ addrOf s') (new addrOf v p : M A V E Nat) := by
  have h := integFree (E := E) addrOf
  refine Resp.bind h.toPreOrd (Resp.bestPortal h p) fun q => ?_
  refine Resp.bind h.toPreOrd (Resp.withP h q (Resp.pure h.toPreOrd _)) fun _ => ?_
  intro s hs
  rw [PyM.run_bind]
  simp only [alloc]
  have hs1 : Inv addrOf s.heap.length (addrOf v)
      (alloc { chain := addrOf v, portal := some q } s).2 :=
    ⟨integ_alloc addrOf _ rfl s hs, _, (has_alloc _ s).2, rfl⟩
  have hboth : Tri (Inv addrOf s.heap.length (addrOf v))
      (updObj s.heap.length (fun x => { x with value := some v, ready := true }) : M A V E Unit)
      (fun _ => True) := by
    refine fun t ht => ⟨⟨integ_upd addrOf _ _ t ht.1 ?_, ht.2.grow (Resp.bothGrow _ v t)⟩,
      fun _ _ => trivial⟩
    intro o ho w e
    obtain ⟨o', ho', hc⟩ := ht.2
    rw [ho] at ho'; injection ho' with ho'; subst ho'
    simp only [Option.some.injEq] at e; subst e
    exact hc.symm
  have key : Tri (Inv addrOf s.heap.length (addrOf v))
      (newTail addrOf v q s.heap.length : M A V E Nat) (fun _ => True) := by
    refine Tri.bind (Q := fun _ => True) (Tri.withP (invFree addrOf _ _) q
      (tri_storeSet addrOf _ _ q _ v rfl)) fun _ _ => ?_
    exact Tri.bind hboth fun _ _ => Tri.pure trivial
  exact (key _ hs1).1.1

theorem integ_step (addrOf : V → A) (w : World A V E) (op : Op V A) (hw : Integ addrOf w) :
    Integ addrOf (op.step addrOf w) := by
  have h := integFree (E := E) addrOf
  cases op with
  | new v p => exact integ_new addrOf v p w hw
  | conv i p => exact integ_conv addrOf i p w hw
  | fromStrings a p c => exact integ_fromStrings addrOf a p c w hw
  | copy i =>
    exact Resp.bind h.toPreOrd (Resp.readObj h i) (fun o => integ_fromStrings addrOf _ _ _) w hw
  | unpickle i =>
    exact Resp.bind h.toPreOrd (Resp.readObj h i) (fun o =>
      Resp.bind h.toPreOrd (Resp.get h.toPreOrd) fun s => fun t ht => integ_alloc addrOf _ rfl t ht) w hw
  | get i => exact integ_get addrOf i w hw
  | ready i => exact integ_ready addrOf i w hw
  | newPortal p => exact hw
  | enter p => exact Resp.enterP h p w hw
  | exit p => exact Resp.exitP h p w hw
  | beginExcept k => exact hw
  | endExcept => exact hw
  | foreign p v => exact integ_storeSet addrOf p _ v rfl w hw

theorem integ_run (addrOf : V → A) (ops : List (Op V A)) (w : World A V E) (h : Integ addrOf w) :
    Integ addrOf (run addrOf w ops) := by
  induction ops generalizing w with
  | nil => exact h
  | cons op ops ih => exact ih _ (integ_step addrOf w op h)

end Pyth.ValueAddr
