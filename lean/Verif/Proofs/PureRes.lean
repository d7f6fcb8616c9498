import Verif.Proofs.PurePack
/-! Result addresses: function, arguments, readiness, requests. -/
set_option linter.unusedSectionVars false
set_option linter.unusedVariables false
set_option linter.unusedSimpArgs false
namespace Pyth.Pure
open Pyth.World Pyth.Portal
open Pyth.ValueAddr (Grow growFree Integ integFree IsAddr HoldsVal Has)

variable {U A α β : Type} [DecidableEq U] [DecidableEq A] {addrOf : Val U A → A}
  {K : Accept U} {c : Option PortalId}
  {P P' F G : PWorld U A → Prop} {X X0 : Kind → PWorld U A → Prop}

theorem gen_ready (i : Nat) : Gen addrOf K c (ValueAddr.ready i : PM U A Bool) :=
  gen_low (ValueAddr.keeps_ready i)
    (ValueAddr.resp_ready lowFree low_storeSet (fun i _ => low_upd i _) (fun i => low_upd i _) i) (ValueAddr.grow_ready i)
    (ValueAddr.integ_ready addrOf i)

theorem sp_ready_held (i : Nat) (a : A) (p : PortalId) (v : Val U A) :
    Sp addrOf K c (fun s => IsAddr s i a (some p) ∧ HoldsVal s p a v) (ValueAddr.ready i : PM U A Bool)
      (fun b _ => b = true) (fun _ _ => False) :=
  Sp.ofGen (gen_ready i) fun s ho hw hc ⟨⟨o, h1, h2, h3⟩, h4⟩ => by
    cases hr : o.ready with
    | true =>
      rw [ValueAddr.ready_cached i o s h1 hr]
      exact ⟨fun b hb => (by cases hb; rfl), fun _ h => (by cases h)⟩
    | false =>
      rw [ValueAddr.ready_own i o p v s h1 hr h3 (by rw [h2]; exact h4)]
      exact ⟨fun b hb => (by cases hb; rfl), fun _ h => (by cases h)⟩

theorem sp_bestSome (p : PortalId) : Sp addrOf K c P (World.bestPortal (some p) : PM U A PortalId)
    (fun q s => q = p ∧ P s) X :=
  fun s ho hw hc hp => ⟨.refl hw, fun b h => (by cases h; exact ⟨rfl, hp⟩), fun _ h => (by cases h)⟩

theorem sp_fromStrings (a : A) (p : PortalId) : Sp addrOf K c (fun _ => True)
    (ValueAddr.fromStrings a (some p) true : PM U A Nat) (fun i s => IsAddr s i a (some p))
    (fun _ _ => True) := by
  refine Sp.bind (sp_bestSome p (P := fun _ => True)) fun q => Sp.gain fun e => ?_
  subst e
  refine Sp.bind ((sp_alloc _ rfl).true) fun i => ?_
  simp only [if_true]
  refine Sp.seq (gen_ready i) (mono_isAddr i a (some q)) (fun s h => ⟨trivial, h⟩)
    (fun _ _ _ _ => trivial) fun b => ?_
  refine Sp.ite (fun _ => Sp.pure fun s h => h.2) (fun _ => ?_)
  exact Sp.raiseNew (fun _ _ _ _ _ _ h => h) fun _ _ => trivial

theorem sp_fromStrings_held (a : A) (p : PortalId) (v : Val U A) : Sp addrOf K c (fun s => HoldsVal s p a v)
    (ValueAddr.fromStrings a (some p) true : PM U A Nat) (fun i s => IsAddr s i a (some p))
    (fun _ _ => False) := by
  refine Sp.bind (sp_bestSome p (P := fun s => HoldsVal s p a v)) fun q => Sp.gain fun e => ?_
  subst e
  refine Sp.seq (sp_alloc _ rfl) (mono_holds q a v) (fun s h => ⟨trivial, h⟩) (fun _ _ h _ => h) fun i => ?_
  simp only [if_true]
  refine Sp.seq (sp_ready_held i a q v) (mono_isAddr i a (some q)) (fun s h => ⟨h, h.1⟩)
    (fun _ _ h _ => h) fun b => Sp.gain fun e => ?_
  subst e
  exact Sp.pure fun s h => h

/-! ### reading and updating result address objects -/

theorem sp_readR (r : Nat) (hP : ∀ s, P s → ∃ o : RObj U A, s.ext.raddrs[r]? = some o) :
    Sp addrOf K c P (readR r : PM U A (RObj U A))
      (fun o s => s.ext.raddrs[r]? = some o ∧ ObjOK addrOf K s o ∧ P s) X := by
  intro s ho hw hc hp
  obtain ⟨o, h⟩ := hP s hp
  have e : (readR r : PM U A (RObj U A)) s = (.ok o, s) := by unfold readR; rw [h]
  rw [e]
  exact ⟨.refl hw, fun b hb => (by cases hb; exact ⟨h, hw.obj r o h, hp⟩), fun _ h => (by cases h)⟩

theorem sp_readR_gen (r : Nat) (hP : Fr P) : Sp addrOf K c P (readR r : PM U A (RObj U A))
      (fun o s => s.ext.raddrs[r]? = some o ∧ ObjOK addrOf K s o ∧ P s) (fun _ _ => True) := by
  intro s ho hw hc hp
  cases h : s.ext.raddrs[r]? with
  | some o =>
    have e : (readR r : PM U A (RObj U A)) s = (.ok o, s) := by unfold readR; rw [h]
    rw [e]
    exact ⟨.refl hw, fun b hb => (by cases hb; exact ⟨h, hw.obj r o h, hp⟩), fun _ _ => trivial⟩
  | none =>
    have e : (readR r : PM U A (RObj U A)) s = raiseNew .attributeError s := by unfold readR; rw [h]
    rw [e]
    have := Sp.raiseNew (α := RObj U A) (addrOf := addrOf) (K := K) (c := c) (X := fun _ _ => True)
      (Q := fun _ _ => False) (k := .attributeError) hP (fun _ _ => trivial) s ho hw hc hp
    exact ⟨this.1, fun b hb => (this.2.1 b hb).elim, this.2.2⟩

/-- facts about an object that stay true -/
def RInfo (addrOf : Val U A → A) (K : Accept U) (s : PWorld U A) (r : Nat)
    (o : RObj U A) : Prop :=
  RIs s r o.key o.portal ∧ ObjOK addrOf K s o

theorem ObjOK.ev {s s' : PWorld U A} {o : RObj U A} (h : ObjOK addrOf K s o) (e : Ev s s') :
    ObjOK addrOf K s' o := by
  obtain ⟨ts, h1, h2, h3, h4, h5⟩ := h
  refine ⟨ts, h1, h2, fun l hl => (h3 l hl).grow e.grow, h4, fun hr => ?_⟩
  obtain ⟨a, ha⟩ := Option.isSome_iff_exists.1 (h5 hr)
  rw [e.results _ _ _ ha]; rfl

theorem mono_rinfo (r : Nat) (o : RObj U A) : Mono addrOf K (fun s => RInfo addrOf K s r o) :=
  fun s s' e w h => ⟨mono_ris r _ _ s s' e w h.1, h.2.ev e⟩

theorem sp_readI (r : Nat) (hP : Fr P) : Sp addrOf K c P (readR r : PM U A (RObj U A))
      (fun o s => RInfo addrOf K s r o ∧ P s) (fun _ _ => True) :=
  (sp_readR_gen r hP).conseq (fun _ h => h) (fun o s h => ⟨⟨⟨o, h.1, rfl, rfl⟩, h.2.1⟩, h.2.2⟩) (fun _ _ h => h)

theorem fr_rinfo (r : Nat) (o : RObj U A) : Fr (fun s => RInfo addrOf K s r o) := fun _ _ _ _ _ _ h => h

theorem sp_updR (r : Nat) (k : Key A) (p : PortalId) (g : RObj U A → RObj U A)
    (h : ∀ (s : PWorld U A) (o : RObj U A), W addrOf K s → P s → o.key = k → o.portal = p →
      ObjOK addrOf K s o → ObjOK addrOf K s (g o) ∧ REv s o (g o)) :
    Sp addrOf K c (fun s => RIs s r k p ∧ P s) (updR r g : PM U A Unit) (fun _ _ => True)
      (fun _ _ => False) := by
  refine sp_modExt fun s hw hp => ⟨w_raddrs hw _ fun j o ho => ?_, ev_raddrs s _ fun j o ho => ?_, trivial⟩
  · rw [List.getElem?_modify] at ho
    by_cases hj : r = j
    · subst hj
      cases hx : s.ext.raddrs[r]? with
      | none => rw [hx] at ho; cases ho
      | some x =>
        rw [hx] at ho
        simp at ho
        subst ho
        obtain ⟨o', e1, e2, e3⟩ := hp.1
        rw [hx] at e1; cases e1
        exact (h s x hw hp.2 e2 e3 (hw.obj r x hx)).1
    · cases hx : s.ext.raddrs[j]? with
      | none => rw [hx] at ho; cases ho
      | some x =>
        rw [hx] at ho
        simp [hj] at ho
        subst ho
        exact hw.obj j x hx
  · rw [List.getElem?_modify, ho]
    by_cases hj : r = j
    · subst hj
      obtain ⟨o', e1, e2, e3⟩ := hp.1
      rw [ho] at e1; cases e1
      exact ⟨g o, by simp, (h s o hw hp.2 e2 e3 (hw.obj r o ho)).2⟩
    · exact ⟨o, by simp [hj], .refl _ _⟩

theorem sp_updRReady (r : Nat) (k : Key A) (p : PortalId) :
    Sp addrOf K c (fun s => RIs s r k p ∧ ((s.ext.results p).data k).isSome)
      (updR r (fun x => { x with ready := true }) : PM U A Unit) (fun _ _ => True) (fun _ _ => False) :=
  sp_updR r k p _ fun s o hw hp e1 e2 ⟨ts, h1, h2, h3, h4, h5⟩ =>
    ⟨⟨ts, h1, h2, h3, h4, fun _ => by subst e1 e2; exact hp⟩,
      ⟨rfl, rfl, fun _ => rfl, fun _ => id, fun _ => .inl, id⟩⟩

theorem sp_updRFn (r : Nat) (k : Key A) (p : PortalId) :
    Sp addrOf K c (fun s => RIs s r k p)
      (updR r (fun x => { x with fn := some k.1 }) : PM U A Unit) (fun _ _ => True) (fun _ _ => False) :=
  (sp_updR (P := fun _ => True) r k p _ fun s o hw hp e1 e2 ⟨ts, h1, h2, h3, h4, h5⟩ =>
    ⟨⟨ts, h1, fun f hf => (by cases hf; rw [e1]), h3, h4, h5⟩,
      ⟨rfl, rfl, id, fun f hf => (by rw [h2 f hf, e1]), fun _ => .inl, id⟩⟩).pre fun s h => ⟨h, trivial⟩

theorem sp_updRResult (r : Nat) (k : Key A) (p : PortalId) (u : U) 
    (hu : ∀ vals, k = callKey addrOf k.1 vals → K k.1 vals u) :
    Sp addrOf K c (fun s => RIs s r k p ∧ ((s.ext.results p).data k).isSome)
      (updR r (fun x => { x with result := some u }) : PM U A Unit) (fun _ _ => True) (fun _ _ => False) :=
  (sp_updR r k p _ fun s o hw hp e1 e2 ⟨ts, h1, h2, h3, h4, h5⟩ =>
    ⟨⟨ts, h1, h2, h3, fun v hv => (by cases hv; rw [e1]; exact hu), fun _ => by subst e1 e2; exact hp⟩,
      ⟨rfl, rfl, id, fun _ => id, fun _ => .inl, fun _ => rfl⟩⟩)

/-! ### stored results -/

theorem sp_resHas (p : PortalId) (k : Key A) : Sp addrOf K c P (resHas p k : PM U A Bool)
    (fun b s => b = ((s.ext.results p).data k).isSome ∧ P s) X :=
  fun s ho hw hc hp => ⟨.refl hw, fun b h => (by cases h; exact ⟨rfl, hp⟩), fun _ h => (by cases h)⟩

theorem sp_resGet (p : PortalId) (k : Key A) :
    Sp addrOf K c (fun s => ((s.ext.results p).data k).isSome) (resGet p k : PM U A A)
      (fun a s => ∃ u, a = addrOf (.user u) ∧ HoldsVal s p a (.user u) ∧
        (s.ext.results p).data k = some a ∧ ∀ vals, k = callKey addrOf k.1 vals → K k.1 vals u)
      (fun _ _ => False) := by
  intro s ho hw hc hp
  obtain ⟨a, ha⟩ := Option.isSome_iff_exists.1 hp
  have e : (resGet p k : PM U A A) s = (.ok a, s) := by unfold resGet; rw [ha]
  rw [e]
  refine ⟨.refl hw, fun b hb => ?_, fun _ h => (by cases h)⟩
  cases hb
  obtain ⟨u, h1, h2, h3⟩ := hw.held p k a ha
  exact ⟨u, h1, h2, ha, h3⟩

theorem gen_resGet (p : PortalId) (k : Key A) : Sp addrOf K c (fun _ => True) (resGet p k : PM U A A)
      (fun a s => ∃ u, a = addrOf (.user u) ∧ HoldsVal s p a (.user u) ∧
        (s.ext.results p).data k = some a ∧ ∀ vals, k = callKey addrOf k.1 vals → K k.1 vals u)
      (fun _ _ => True) := by
  refine Sp.em (P1 := fun s => ((s.ext.results p).data k).isSome) (P2 := fun s => (s.ext.results p).data k = none)
    (sp_resGet p k).true ?_ ?_
  · intro s ho hw hc hp
    have e : (resGet p k : PM U A A) s = raiseNew .keyError s := by unfold resGet; rw [hp]
    rw [e]
    have := Sp.raiseNew (α := A) (addrOf := addrOf) (K := K) (c := c) (X := fun _ _ => True)
      (Q := fun _ _ => False) (k := .keyError) fr_true (fun _ _ => trivial) s ho hw hc trivial
    exact ⟨this.1, fun b hb => (this.2.1 b hb).elim, this.2.2⟩
  · intro s _
    cases (s.ext.results p).data k with
    | none => exact .inr rfl
    | some a => exact .inl rfl

theorem sp_storeGet (p : PortalId) (a : A) (v : Val U A) :
    Sp addrOf K c (fun s => HoldsVal s p a v) (storeGet p a : PM U A (Val U A)) (fun v' _ => v' = v)
      (fun _ _ => False) :=
  Sp.ofGen (gen_storeGet p a) fun s ho hw hc hp => by
    have e : (storeGet p a : PM U A (Val U A)) s = (.ok v, s) := by
      unfold storeGet; rw [show (s.store p).data a = some v from hp]
    rw [e]
    exact ⟨fun b hb => (by cases hb; rfl), fun _ h => (by cases h)⟩

/-- effect of an assignment to the stored results -/
theorem resSet_run (p : PortalId) (k : Key A) (a : A) (s : PWorld U A) :
    ∃ d n, (resSet p k a s).2 = { s with
        nd := s.nd + 1, nextExc := n
        ext := { s.ext with results := fun q => if q = p then d else s.ext.results q } } ∧
      d.data = (fun k' => ((s.ext.results p).data k').or (if k' = k then some a else none)) ∧
      d.pCheck = (s.ext.results p).pCheck ∧
      (((s.ext.results p).data k = none ∨ (s.ext.results p).data k = some a) →
        (resSet p k a s).1 = .ok ()) ∧
      (∀ b, (s.ext.results p).data k = some b → (resSet p k a s).1 = .ok () →
        (s.ext.results p).pCheck = some 1 → s.draws s.nd < 1 → b = a) := by
  unfold resSet
  simp only
  have hd := FirstEntry.setItem_data ⟨k, a, s.draws s.nd, .none, .none⟩ (s.ext.results p) (.inl rfl)
  have hok : ((s.ext.results p).data k = none ∨ (s.ext.results p).data k = some a) →
      (FirstEntry.setItem ⟨k, a, s.draws s.nd, .none, .none⟩ (s.ext.results p)).1 = .ok () := by
    rintro (h | h)
    · simp [FirstEntry.setItem, FirstEntry.storeFirst, FirstEntry.attempt, h, FirstEntry.update,
        FirstEntry.check]
    · simp only [FirstEntry.setItem, FirstEntry.storeFirst, FirstEntry.attempt, h,
        FirstEntry.check]
      split
      · split
        · split <;> simp
        · rfl
      · rfl
  have hp : (FirstEntry.setItem ⟨k, a, s.draws s.nd, .none, .none⟩ (s.ext.results p)).2.pCheck =
      (s.ext.results p).pCheck := by
    unfold FirstEntry.setItem
    split
    · rfl
    · simp only
      split
      · rfl
      · rw [FirstEntry.check_p]
  have hc : ∀ b, (s.ext.results p).data k = some b →
      (FirstEntry.setItem ⟨k, a, s.draws s.nd, .none, .none⟩ (s.ext.results p)).1 = .ok () →
      (s.ext.results p).pCheck = some 1 → s.draws s.nd < 1 → b = a := by
    intro b hb h1 h2 h3
    by_contra hne
    simp [FirstEntry.setItem, FirstEntry.storeFirst, FirstEntry.attempt, hb, FirstEntry.check, h2, h3, hne,
      (by decide : (0 : Rat) < 1)] at h1
  cases hr : FirstEntry.setItem ⟨k, a, s.draws s.nd, .none, .none⟩ (s.ext.results p) with
  | mk r d =>
    rw [hr] at hd hok hp hc
    cases r with
    | ok _ => exact ⟨d, s.nextExc, rfl, hd, hp, fun _ => rfl, fun b h1 _ h3 h4 => hc b h1 rfl h3 h4⟩
    | error e =>
      exact ⟨d, s.nextExc + 1, rfl, hd, hp, fun h => (by cases hok h), fun b h1 h2 => (by cases h2)⟩

/-- recording an acceptable result -/
theorem sp_resSet_gen (p : PortalId) (k : Key A) (u : U)
    (hu : ∀ vals, k = callKey addrOf k.1 vals → K k.1 vals u) :
    Sp addrOf K c (fun s => HoldsVal s p (addrOf (.user u)) (.user u))
      (resSet p k (addrOf (.user u)) : PM U A Unit)
      (fun _ s => ((s.ext.results p).data k).isSome) (fun _ _ => True) := by
  intro s ho hw hc hp
  obtain ⟨d, n, h1, h2, h3, _⟩ := resSet_run p k (addrOf (.user u)) s
  have hdata : ∀ q k', (((resSet p k (addrOf (.user u)) s).2.ext.results q).data k') =
      ((s.ext.results q).data k').or (if q = p ∧ k' = k then some (addrOf (.user u)) else none) := by
    intro q k'
    rw [h1]
    simp only
    by_cases hq : q = p
    · subst hq; simp [h2]
    · simp [hq]
  have hold : ∀ q k' a', (s.ext.results q).data k' = some a' →
      ((resSet p k (addrOf (.user u)) s).2.ext.results q).data k' = some a' := by
    intro q k' a' h; rw [hdata, h]; rfl
  refine ⟨⟨?_, ?_, ?_⟩, fun _ _ => ?_, fun _ _ => trivial⟩
  · rw [h1]; exact ⟨rfl, rfl, rfl, List.prefix_rfl⟩
  · constructor
    · have := hw.integ; rw [h1]; exact this
    · intro q k' a'
      rw [hdata]
      cases hx : (s.ext.results q).data k' with
      | some b =>
        intro e
        simp at e; subst e
        have := hw.held q k' b hx
        rw [h1]; exact this
      | none =>
        intro e
        by_cases hqk : q = p ∧ k' = k
        · obtain ⟨rfl, rfl⟩ := hqk
          simp at e
          subst e
          rw [h1]
          exact ⟨u, rfl, hp, hu⟩
        · simp [hqk] at e
    · intro q
      rw [h1]
      simp only
      by_cases hq : q = p
      · subst hq; simp [h3, hw.pCheck]
      · simp [hq, hw.pCheck]
    · have := hw.reqs; rw [h1]; exact this
    · intro r o ho'
      have ho'' : s.ext.raddrs[r]? = some o := by rw [h1] at ho'; exact ho'
      obtain ⟨ts, a1, a2, a3, a4, a5⟩ := hw.obj r o ho''
      refine ⟨ts, a1, a2, fun l hl => ?_, a4, fun hr => ?_⟩
      · have := a3 l hl; rw [h1]; exact this
      · obtain ⟨b, hb⟩ := Option.isSome_iff_exists.1 (a5 hr)
        rw [hold _ _ _ hb]; rfl
    · have := hw.trace; rw [h1]; exact this
  · have hr0 := hold
    rw [h1] at hr0 ⊢
    exact { Ev.refl s with
      grow := ⟨fun _ _ _ h => h, fun i o h => ⟨o, h, rfl, rfl, id, id⟩⟩
      nd := Nat.le_succ _
      results := hr0
      requests := fun _ _ h => .inl h
      raddrs := fun r o h => ⟨o, h, (REv.refl s o).key, rfl, id, fun _ => id, fun _ => .inl, id⟩ }
  · show (((resSet p k (addrOf (.user u)) s).2.ext.results p).data k).isSome = true
    rw [hdata]
    cases (s.ext.results p).data k <;> simp

/-- recording the only acceptable result cannot fail -/
theorem sp_resSet (p : PortalId) (k : Key A) (u : U)
    (hu : ∀ vals, k = callKey addrOf k.1 vals → K k.1 vals u) (vals : List (String × U))
    (hk : k = callKey addrOf k.1 vals)
    (hfun : ∀ u u', K k.1 vals u → K k.1 vals u' → u = u') :
    Sp addrOf K c (fun s => HoldsVal s p (addrOf (.user u)) (.user u))
      (resSet p k (addrOf (.user u)) : PM U A Unit)
      (fun _ s => ((s.ext.results p).data k).isSome) (fun _ _ => False) := by
  intro s ho hw hc hp
  have h := sp_resSet_gen (c := c) p k u hu s ho hw hc hp
  refine ⟨h.1, h.2.1, fun e he => ?_⟩
  obtain ⟨d, n, h1, h2, h3, h4, _⟩ := resSet_run p k (addrOf (.user u)) s
  have : (resSet p k (addrOf (.user u)) s).1 = .ok () := by
    refine h4 ?_
    cases hx : (s.ext.results p).data k with
    | none => exact .inl rfl
    | some b =>
      obtain ⟨u', a1, a2, a3⟩ := hw.held p k b hx
      rw [a1, hfun u' u (a3 vals hk) (hu vals hk)]
      exact .inr rfl
  rw [this] at he; cases he

end Pyth.Pure
