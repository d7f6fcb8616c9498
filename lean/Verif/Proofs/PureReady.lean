import Verif.Proofs.PureAddr
/-! Readiness, requests and reading of results. -/
set_option linter.unusedSectionVars false
set_option linter.unusedVariables false
set_option linter.unusedSimpArgs false
namespace Pyth.Pure
open Pyth.World Pyth.Portal
open Pyth.ValueAddr (Grow growFree Integ integFree IsAddr HoldsVal Has)

variable {U A α β : Type} [DecidableEq U] [DecidableEq A] {addrOf : Val U A → A}
  {K : Accept U} {c : Option PortalId}
  {P P' F G : PWorld U A → Prop} {X X0 : Kind → PWorld U A → Prop}

/-- what is known about an address object: `I`; `E`: failures are possible -/
structure Route (addrOf : Val U A → A) (K : Accept U) (r : Nat) (k : Key A)
    (p : PortalId) (I : PWorld U A → Prop) (E : Prop) : Prop where
  mono : Mono addrOf K I
  fr : Fr I
  ris : ∀ s, I s → RIs s r k p
  fn : ∀ c, Sp addrOf K c I (rFunction r : PM U A FnId) (fun f _ => f = k.1) (fun _ _ => E)
  kw : ∀ c, Sp addrOf K c I (rKwargs r : PM U A (List (String × U)))
    (fun vals _ => k = callKey addrOf k.1 vals) (fun _ _ => E)
  set : ∀ c u, (∀ vals, k = callKey addrOf k.1 vals → K k.1 vals u) →
    Sp addrOf K c (fun s => HoldsVal s p (addrOf (.user u)) (.user u) ∧ (s.ext.results p).data k = none)
      (resSet p k (addrOf (.user u)) : PM U A Unit)
      (fun _ s => ((s.ext.results p).data k).isSome) (fun _ _ => E)

/-- computations of the value layer keep what is known about the pure layer -/
theorem Sp.lowF {m : PM U A α} {Q : α → PWorld U A → Prop} (h : Sp addrOf K c P m Q X) (hl : Resp Low m)
    (G : Ext U A → Prop) : Sp addrOf K c (fun s => P s ∧ G s.ext) m (fun a s => Q a s ∧ G s.ext) X :=
  fun s a b d e =>
    have := h s a b d e.1
    have hg : G (m s).2.ext := by rw [(hl s).ext]; exact e.2
    ⟨this.1, fun x y => ⟨this.2.1 x y, hg⟩, this.2.2⟩

theorem low_new (v : Val U A) (p : Option PortalId) : Resp Low (ValueAddr.new addrOf v p : PM U A Nat) :=
  ValueAddr.resp_new lowFree low_storeSet (fun i _ => low_upd i _) (fun i => low_upd i _)
      (fun i _ => low_upd i _) low_alloc addrOf v p
theorem low_readObj (i : Nat) : Resp Low (readObj i : PM U A (AddrObj A (Val U A))) := Resp.readObj lowFree i
theorem low_textOf (i : Nat) : Resp Low (textOf i : PM U A A) :=
  Resp.bind lowFree.toPreOrd (low_readObj i) fun _ => Resp.pure lowFree.toPreOrd _

theorem low_resGet (p : PortalId) (k : Key A) : Resp Low (resGet p k : PM U A A) := by
  intro s
  unfold resGet
  split
  · exact lowFree.refl s
  · exact Resp.raiseNew lowFree _ s

theorem sp_resSet_none (p : PortalId) (k : Key A) (u : U)
    (hu : ∀ vals, k = callKey addrOf k.1 vals → K k.1 vals u) :
    Sp addrOf K c (fun s => HoldsVal s p (addrOf (.user u)) (.user u) ∧ (s.ext.results p).data k = none)
      (resSet p k (addrOf (.user u)) : PM U A Unit)
      (fun _ s => ((s.ext.results p).data k).isSome) (fun _ _ => False) := by
  intro s ho hw hc hp
  have h := sp_resSet_gen (c := c) p k u hu s ho hw hc hp.1
  refine ⟨h.1, h.2.1, fun e he => ?_⟩
  obtain ⟨d, n, h1, h2, h3, h4, _⟩ := resSet_run p k (addrOf (.user u)) s
  rw [h4 (.inl hp.2)] at he; cases he

theorem route_gen (hinj : Function.Injective addrOf) (r : Nat) (k : Key A) (p : PortalId) :
    Route addrOf K r k p (fun s => RIs s r k p) True where
  mono := mono_ris r k p
  fr := fr_ris r k p
  ris _ h := h
  fn c := sp_rFunction hinj r k p
  kw c := sp_rKwargs hinj r k p
  set c u hu := (sp_resSet_gen p k u hu).pre fun _ h => h.1

theorem route_rd (hinj : Function.Injective addrOf) (r : Nat) (f : FnId)
    (vals : List (String × U)) (p : PortalId) :
    Route addrOf K r (callKey addrOf f vals) p (fun s => RD addrOf s r f vals p) False where
  mono := mono_rd hinj r f vals p
  fr := fr_rd r f vals p
  ris _ h := h.ris
  fn c := sp_rFunction_rd hinj r f vals p
  kw c := (sp_rKwargs_rd hinj r f vals p).conseq (fun _ h => h) (fun l s h => by subst h; rfl) (fun _ _ h => h)
  set c u hu := sp_resSet_none p _ u hu

theorem fr_resSome (p : PortalId) (k : Key A) :
    Fr (fun s : PWorld U A => (((s.ext.results p).data k).isSome : Prop)) := fun _ _ _ _ _ _ h => h

section
variable {r : Nat} {k : Key A} {p : PortalId} {I : PWorld U A → Prop} {E : Prop}

theorem sp_rReadyCurrent (r : Nat) (k : Key A) (p : PortalId) :
    Sp addrOf K c (fun s => RIs s r k p) (rReadyCurrent r : PM U A Bool)
      (fun b s => b = ((s.ext.results p).data k).isSome) X := by
  refine Sp.bind (sp_readK r k p) fun o => Sp.gain fun e => ?_
  obtain ⟨rfl, rfl⟩ := e
  refine Sp.ite (fun hr => ?_) (fun hr => ?_)
  · refine Sp.pure fun s h => ?_
    obtain ⟨ts, _, _, _, _, h5⟩ := h.1
    exact (h5 (.inl hr)).symm
  · refine Sp.conseq (P := fun s => RIs s r o.key o.portal)
      (Sp.withP (X := fun _ _ => False) (fr_ris _ _ _) (fun b => ?_) (fun _ => fr_false) (Q := fun b s => b = ((s.ext.results o.portal).data o.key).isSome) ?_)
      (fun s h => h.2) (fun _ _ h => h) (fun _ _ h => h.elim)
    · exact fun _ _ _ _ _ _ h => h
    · refine Sp.bind (sp_resHas o.portal o.key) fun b => ?_
      refine Sp.ite (fun hb => ?_) (fun hb => ?_)
      · refine Sp.seq (sp_updRReady r o.key o.portal) (mono_resSome o.portal o.key) (fun s h => ?_)
          (fun _ _ h _ => h) fun _ => Sp.pure fun s h => h.2.symm
        have := h.1; rw [hb] at this; exact ⟨⟨h.2, this.symm⟩, this.symm⟩
      · refine Sp.pure fun s h => ?_
        have := h.1; rw [← this]; simpa using hb

theorem sp_rCopyFrom (hR : Route addrOf K r k p I E) (hinj : Function.Injective addrOf) (o : RObj U A)
    (ek : o.key = k) (ep : o.portal = p) (q : PortalId) :
    Sp addrOf K c (fun s => (I s ∧ ((s.ext.results q).data k).isSome) ∧ (s.ext.results p).data k = none)
      (rCopyFrom addrOf r o q)
      (fun _ s => ((s.ext.results p).data k).isSome) (fun _ _ => E) := by
  unfold rCopyFrom
  rw [ek, ep]
  have g0 : Sp addrOf K c (fun s => (((s.ext.results q).data k).isSome ∧ I s) ∧ (s.ext.results p).data k = none)
      (resGet q k : PM U A A) _ _ :=
    (((sp_resGet q k).keep hR.mono).lowF (low_resGet q k) (fun x => (x.results p).data k = none))
  refine Sp.bind (g0.conseq (fun s h => ⟨⟨h.1.2, h.1.1⟩, h.2⟩) (fun _ _ h => h) (fun _ _ h => h.elim)) fun a => ?_
  refine (Sp.exI (P := fun u s => (a = addrOf (.user u) ∧ HoldsVal s q a (.user u) ∧
        (s.ext.results q).data k = some a ∧ ∀ vals, k = callKey addrOf k.1 vals → K k.1 vals u) ∧ I s ∧
        (s.ext.results p).data k = none)
    fun u => ?_).pre fun s ⟨⟨⟨u, h⟩, h'⟩, h''⟩ => ⟨u, h, h', h''⟩
  refine (Sp.gain (B := a = addrOf (.user u) ∧ ∀ vals, k = callKey addrOf k.1 vals → K k.1 vals u)
    (P := fun s => (HoldsVal s q a (.user u) ∧ I s) ∧ (s.ext.results p).data k = none) fun e => ?_).pre
    fun s h => ⟨⟨h.1.1, h.1.2.2.2⟩, ⟨h.1.2.1, h.2.1⟩, h.2.2⟩
  obtain ⟨rfl, hu⟩ := e
  have g1 := ((sp_storeGet (K := K) (addrOf := addrOf) (c := c) q (addrOf (.user u)) (.user u)).keep hR.mono).lowF
    (Resp.storeGet lowFree _ _) (fun x => (x.results p).data k = none)
  refine Sp.bind (g1.conseq (fun s h => h) (fun _ _ h => h) (fun _ _ h => h.elim)) fun d => ?_
  refine (Sp.gain (B := d = Val.user u) (P := fun s => I s ∧ (s.ext.results p).data k = none) fun e => ?_).pre
    fun s h => ⟨h.1.1, h.1.2, h.2⟩
  subst e
  have hG : Fr (fun s : PWorld U A => I s ∧ (s.ext.results p).data k = none) := fun s a b c d e h => ⟨hR.fr s a b c d e h.1, h.2⟩
  refine Sp.seq (F := I) (Q := fun _ s => ((s.ext.results p).data k).isSome)
    (P := fun s => I s ∧ (s.ext.results p).data k = none) (X0 := fun _ _ => E)
    (Sp.withP hG (fun _ => fr_resSome p k) (fun _ => fr_const E) ?_) hR.mono (fun s h => ⟨h, h.1⟩)
    (fun _ _ h _ => h) fun _ => ?_
  · have g2 := ((sp_new_cur (K := K) hinj (.user u) p).keep hR.mono).lowF (low_new _ _) (fun x => (x.results p).data k = none)
    refine Sp.bind (g2.conseq (fun s h => ⟨⟨trivial, h.1⟩, h.2⟩) (fun _ _ h => h) (fun _ _ h => h.elim)) fun i => ?_
    have g3 := ((sp_textOf (K := K) (c := some p) i (addrOf (.user u))).keep
      ((mono_holds p (addrOf (.user u)) (.user u)).and hR.mono)).lowF (low_textOf _) (fun x => (x.results p).data k = none)
    refine Sp.bind (g3.conseq (fun s h => ⟨⟨has_of_isAddr h.1.1.1, h.1.1.2, h.1.2⟩, h.2⟩) (fun _ _ h => h) (fun _ _ h => h.elim))
      fun t => ?_
    refine (Sp.gain (B := t = addrOf (.user u)) (P := fun s => HoldsVal s p (addrOf (.user u)) (.user u) ∧ I s ∧
      (s.ext.results p).data k = none) fun e => ?_).pre fun s h => ⟨h.1.1, h.1.2.1, h.1.2.2, h.2⟩
    subst e
    refine Sp.seq (hR.set (some p) u hu) hR.mono (fun s h => ⟨⟨h.1, h.2.2⟩, h.2.1⟩) (fun _ _ h _ => h) fun _ => ?_
    refine Sp.seq (hR.fn (some p)) ((mono_resSome p k).and hR.mono) (fun s h => ⟨h.2, h⟩) (fun _ _ h _ => h) fun f => ?_
    refine Sp.seq (hR.kw (some p)) (mono_resSome p k) (fun s h => ⟨h.2.2, h.2.1⟩) (fun _ _ h _ => h) fun vals => ?_
    exact Sp.pure fun s h => h.2
  · refine ((sp_updRReady r k p).keep (mono_resSome p k)).conseq
      (fun s h => ⟨⟨hR.ris s h.2, h.1⟩, h.1⟩) (fun _ s h => h.2) (fun _ _ h => h.elim)

theorem sp_rReadyLoop (hR : Route addrOf K r k p I E) (hinj : Function.Injective addrOf) (o : RObj U A)
    (ek : o.key = k) (ep : o.portal = p) (qs : List PortalId) :
    Sp addrOf K c (fun s => I s ∧ (s.ext.results p).data k = none) (rReadyLoop addrOf r o qs)
      (fun b s => (b = true → ((s.ext.results p).data k).isSome) ∧ (b = false → (s.ext.results p).data k = none))
      (fun _ _ => E) := by
  induction qs with
  | nil => exact Sp.pure fun s hs => ⟨fun h => (by cases h), fun _ => hs.2⟩
  | cons q qs ih =>
    refine Sp.seq (F := I) (P := fun s => I s ∧ (s.ext.results p).data k = none) (X0 := fun _ _ => E)
      (Q := fun b s => (b = true → ((s.ext.results p).data k).isSome) ∧ (b = false → (s.ext.results p).data k = none))
      (Sp.withP (fun s a b c d e h => ⟨hR.fr s a b c d e h.1, h.2⟩) (fun _ _ _ _ _ _ _ h => h) (fun _ => fr_const E) ?_)
      hR.mono (fun s h => ⟨h, h.1⟩) (fun _ _ h _ => h) fun found => ?_
    · refine Sp.bind (sp_resHas q o.key) fun b => ?_
      refine Sp.ite (fun hb => ?_) (fun hb => Sp.pure fun s h => ⟨fun h => (by cases h), fun _ => h.2.2⟩)
      refine Sp.bind ((sp_rCopyFrom hR hinj o ek ep q).pre fun s h => ⟨⟨h.2.1, ?_⟩, h.2.2⟩) fun _ =>
        Sp.pure fun s h => ⟨fun _ => h, fun h => (by cases h)⟩
      have := h.1; rw [hb, ek] at this; exact this.symm
    · refine Sp.ite (fun hf => Sp.pure fun s h => ⟨fun _ => h.1.1 hf, fun h => (by cases h)⟩) (fun hf => ih.pre fun s h => ⟨h.2, h.1.2 (by simpa using hf)⟩)

theorem sp_rReady_iff (hR : Route addrOf K r k p I E) (hinj : Function.Injective addrOf) :
    Sp addrOf K c I (rReady addrOf r)
      (fun b s => (b = true → ((s.ext.results p).data k).isSome) ∧ (b = false → (s.ext.results p).data k = none))
      (fun _ _ => E) := by
  unfold rReady
  refine Sp.seq (sp_readK (X := fun _ _ => E) r k p) hR.mono (fun s h => ⟨hR.ris s h, h⟩)
    (fun _ _ h _ => h) fun o => ?_
  refine (Sp.gain (B := o.key = k ∧ o.portal = p) (P := fun s => ObjOK addrOf K s o ∧ I s) fun e => ?_).pre
    fun s h => ⟨h.1.1, h.1.2.1, h.2⟩
  obtain ⟨ek, ep⟩ := e
  refine Sp.ite (fun hr => ?_) (fun hr => ?_)
  · refine Sp.pure fun s h => ⟨fun _ => ?_, fun h => (by cases h)⟩
    obtain ⟨ts, _, _, _, _, h5⟩ := h.1
    have := h5 (.inl hr)
    rwa [ek, ep] at this
  · refine Sp.seq (sp_rReadyCurrent (X := fun _ _ => E) r k p) hR.mono (fun s h => ⟨hR.ris s h.2, h.2⟩)
      (fun _ _ h _ => h) fun b => ?_
    refine Sp.ite (fun hb => ?_) (fun hb => ?_)
    · refine Sp.seq (sp_updRReady r k p) (mono_resSome p k) (fun s h => ?_) (fun _ _ h _ => h.elim)
        fun _ => Sp.pure fun s h => ⟨fun _ => h.2, fun h => (by cases h)⟩
      have := h.1; rw [hb] at this
      exact ⟨⟨hR.ris s h.2, this.symm⟩, this.symm⟩
    · refine Sp.bind (Sp.getS (P := fun s => I s ∧ (s.ext.results p).data k = none) |>.pre fun s h => ⟨h.2, ?_⟩) fun s0 => ?_
      · have := h.1
        rw [Bool.not_eq_true] at hb
        rw [hb] at this
        simpa using this.symm
      refine Sp.seq (sp_rReadyLoop hR hinj o ek ep _) hR.mono (fun s h => ⟨h.2, h.2.1⟩) (fun _ _ h _ => h) fun b => ?_
      refine Sp.ite (fun hb => ?_) (fun hb => Sp.pure fun s h => ⟨fun h => (by cases h), fun _ => h.1.2 (by simpa using hb)⟩)
      refine Sp.seq (sp_updRReady r k p) (mono_resSome p k) (fun s h => ?_) (fun _ _ h _ => h.elim)
        fun _ => Sp.pure fun s h => ⟨fun _ => h.2, fun h => (by cases h)⟩
      exact ⟨⟨hR.ris s h.2, h.1.1 hb⟩, h.1.1 hb⟩

theorem sp_rReady (hR : Route addrOf K r k p I E) (hinj : Function.Injective addrOf) :
    Sp addrOf K c I (rReady addrOf r)
      (fun b s => b = true → ((s.ext.results p).data k).isSome) (fun _ _ => E) :=
  (sp_rReady_iff hR hinj).conseq (fun _ h => h) (fun _ _ h => h.1) (fun _ _ h => h)

/-- a recorded result makes the address ready at once -/
theorem sp_rReady_yes (r : Nat) (k : Key A) (p : PortalId) :
    Sp addrOf K c (fun s => RIs s r k p ∧ ((s.ext.results p).data k).isSome) (rReady addrOf r)
      (fun b s => b = true) X := by
  unfold rReady
  refine Sp.seq (sp_readK r k p) ((mono_ris r k p).and (mono_resSome p k)) (fun s h => ⟨h.1, h⟩)
    (fun _ _ h _ => h) fun o => ?_
  refine Sp.ite (fun hr => Sp.pure fun s h => rfl) (fun hr => ?_)
  refine Sp.seq (sp_rReadyCurrent r k p) ((mono_ris r k p).and (mono_resSome p k)) (fun s h => ⟨h.2.1, h.2⟩)
      (fun _ _ h _ => h) fun b => ?_
  refine Sp.ite (fun hb => ?_) (fun hb => ?_)
  · exact Sp.bind ((sp_updRReady r k p).conseq (fun s h => h.2) (fun _ _ h => h) (fun _ _ h => h.elim))
      fun _ => Sp.pure fun s h => rfl
  · intro s _ _ _ h
    exact absurd (h.1.trans h.2.2) hb

theorem sp_rDrop (r : Nat) (k : Key A) (p : PortalId) :
    Sp addrOf K c (fun s => RIs s r k p ∧ ((s.ext.results p).data k).isSome) (rDrop r : PM U A Unit)
      (fun _ s => s.ext.requests p k = false) X := by
  refine Sp.seq (sp_readK r k p) (mono_resSome p k) (fun s h => ⟨h.1, h.2⟩) (fun _ _ h _ => h) fun o => ?_
  refine (Sp.gain (B := o.key = k ∧ o.portal = p) (P := fun s => (((s.ext.results p).data k).isSome : Prop)) fun e => ?_).pre
    fun s h => ⟨h.1.1, h.2⟩
  obtain ⟨rfl, rfl⟩ := e
  refine Sp.conseq (Sp.withP (X := fun _ _ => False) (Q := fun _ s => s.ext.requests o.portal o.key = false) (fr_resSome _ _)
    (fun _ _ _ _ _ _ _ h => h) (fun _ => fr_false) ?_) (fun _ h => h) (fun _ _ h => h) (fun _ _ h => h.elim)
  refine sp_modExt fun s hw hp => ⟨?_, ?_, ?_⟩
  · refine ⟨hw.integ, hw.held, hw.pCheck, fun q k' h => ?_, hw.obj, hw.trace⟩
    simp only [upd2] at h
    split at h
    · cases h
    · exact hw.reqs q k' h
  · exact { Ev.refl s with
      grow := growExt s _
      requests := fun q k' h => by
        simp only [upd2]
        split
        · next e => obtain ⟨rfl, rfl⟩ := e; exact .inr hp
        · exact .inl h
      raddrs := fun r o h => ⟨o, h, (REv.refl _ _).setExt _⟩ }
  · simp [upd2]

theorem sp_setReq (k : Key A) (p : PortalId) :
    Sp addrOf K c (fun s => ∃ ts, SigOf addrOf k ts)
      (modExt fun x => { x with requests := upd2 x.requests p k true } : PM U A Unit)
      (fun _ s => s.ext.requests p k = true) (fun _ _ => False) := by
  refine sp_modExt fun s hw hp => ⟨?_, ?_, ?_⟩
  · refine ⟨hw.integ, hw.held, hw.pCheck, fun q k' h => ?_, hw.obj, hw.trace⟩
    simp only [upd2] at h
    split at h
    · next e => obtain ⟨rfl, rfl⟩ := e; exact hp
    · exact hw.reqs q k' h
  · exact { Ev.refl s with
      grow := growExt s _
      requests := fun q k' h => by
        simp only [upd2]
        split
        · exact .inl rfl
        · exact .inl h
      raddrs := fun r o h => ⟨o, h, (REv.refl _ _).setExt _⟩ }
  · simp [upd2]

/-- the call is pending or its result is known -/
def Pending (s : PWorld U A) (p : PortalId) (k : Key A) : Prop :=
  s.ext.requests p k = true ∨ ((s.ext.results p).data k).isSome

theorem mono_pending (p : PortalId) (k : Key A) : Mono addrOf K (fun s : PWorld U A => Pending s p k) :=
  fun s s' e w h => by
    rcases h with h | h
    · exact e.requests p k h
    · exact .inr (mono_resSome (addrOf := addrOf) (K := K) p k s s' e w h)

/-- a request is pending exactly when there is no result -/
def Exact (s : PWorld U A) (p : PortalId) (k : Key A) : Prop :=
  s.ext.requests p k = !((s.ext.results p).data k).isSome

theorem Exact.pending {s : PWorld U A} {p : PortalId} {k : Key A} (h : Exact s p k) : Pending s p k := by
  unfold Exact at h; unfold Pending
  cases e : ((s.ext.results p).data k).isSome with
  | true => exact .inr rfl
  | false => rw [e] at h; exact .inl h

theorem sp_rRequest_exact (hR : Route addrOf K r k p I E) (hinj : Function.Injective addrOf) :
    Sp addrOf K c I (rRequest addrOf r)
      (fun _ s => Exact s p k) (fun _ _ => E) := by
  unfold rRequest
  refine Sp.seq (sp_readK (X := fun _ _ => E) r k p) hR.mono (fun s h => ⟨hR.ris s h, h⟩)
    (fun _ _ h _ => h) fun o => ?_
  refine (Sp.gain (B := o.key = k ∧ o.portal = p) (P := I) fun e => ?_).pre fun s h => ⟨h.1.1, h.2⟩
  obtain ⟨ek, ep⟩ := e
  refine Sp.withP hR.fr (fun _ _ _ _ _ _ _ h => h) (fun _ => fr_const E) ?_
  rw [ek, ep]
  refine Sp.seq (sp_rReady_iff hR hinj) hR.mono (fun s h => ⟨h, h⟩) (fun _ _ h _ => h) fun b => ?_
  refine Sp.ite (fun hb => ?_) (fun hb => ?_)
  · exact ((sp_rDrop (X := fun _ _ => E) r k p).keep (mono_resSome p k)).conseq
      (fun s h => ⟨⟨hR.ris s h.2, h.1.1 hb⟩, h.1.1 hb⟩) (fun _ s h => by unfold Exact; rw [h.1, h.2]; rfl) (fun _ _ h => h)
  · intro s ho hw hc h
    have h1 := sp_setReq k p s ho hw hc (ris_text hw (hR.ris s h.2))
    refine ⟨h1.1, fun a ha => ?_, fun e he => (by cases he)⟩
    have h2 := h1.2.1 a ha
    have h3 := h.1.2 (by simpa using hb)
    refine h2.trans ?_
    show true = !((s.ext.results p).data k).isSome
    rw [h3]; rfl

theorem sp_rRequest (hR : Route addrOf K r k p I E) (hinj : Function.Injective addrOf) :
    Sp addrOf K c I (rRequest addrOf r)
      (fun _ s => Pending s p k) (fun _ _ => E) :=
  (sp_rRequest_exact hR hinj).conseq (fun _ h => h) (fun _ _ h => h.pending) (fun _ _ h => h)

/-- reading a recorded result -/
theorem sp_rGet_yes (hinj : Function.Injective addrOf) (r : Nat) (k : Key A) (p : PortalId) :
    Sp addrOf K c (fun s => RIs s r k p ∧ ((s.ext.results p).data k).isSome) (rGet addrOf r)
      (fun u s => ∀ vals, k = callKey addrOf k.1 vals → K k.1 vals u) (fun _ _ => False) := by
  have hmo := (mono_ris (addrOf := addrOf) (K := K) (U := U) r k p).and (mono_resSome p k)
  refine Sp.seq (sp_readK r k p) hmo (fun s h => ⟨h.1, h⟩) (fun _ _ h _ => h) fun o => ?_
  refine (Sp.gain (B := o.key = k ∧ o.portal = p) (P := fun s => ObjOK addrOf K s o ∧
    RIs s r k p ∧ ((s.ext.results p).data k).isSome) fun e => ?_).pre fun s h => ⟨h.1.1, h.1.2.1, h.2⟩
  obtain ⟨rfl, rfl⟩ := e
  cases hr : o.result with
  | some u => exact Sp.pure fun s h => by obtain ⟨ts, _, _, _, h4, _⟩ := h.1; exact h4 u hr
  | none =>
    refine Sp.withP (P := fun s => RIs s r o.key o.portal ∧ ((s.ext.results o.portal).data o.key).isSome)
      (fun _ _ _ _ _ _ h => h) (fun _ _ _ _ _ _ _ h => h) (fun _ => fr_false) ?_ |>.pre fun s h => h.2
    refine Sp.seq (sp_rReady_yes (X := fun _ _ => False) r o.key o.portal) hmo (fun s h => ⟨h, h⟩) (fun _ _ h _ => h)
      fun b => Sp.gain fun e => ?_
    subst e
    simp only [if_true]
    refine Sp.seq (sp_resGet o.portal o.key) hmo (fun s h => ⟨h.2, h⟩) (fun _ _ h _ => h) fun a => ?_
    refine (Sp.exI (P := fun u s => (a = addrOf (.user u) ∧ HoldsVal s o.portal a (.user u) ∧
        (s.ext.results o.portal).data o.key = some a ∧ ∀ vals, o.key = callKey addrOf o.key.1 vals → K o.key.1 vals u) ∧
        RIs s r o.key o.portal ∧ ((s.ext.results o.portal).data o.key).isSome) fun u => ?_).pre fun s ⟨⟨u, h⟩, h'⟩ => ⟨u, h, h'⟩
    refine (Sp.gain (B := a = addrOf (.user u) ∧ ∀ vals, o.key = callKey addrOf o.key.1 vals → K o.key.1 vals u)
      (P := fun s => HoldsVal s o.portal a (.user u) ∧ RIs s r o.key o.portal ∧ ((s.ext.results o.portal).data o.key).isSome) fun e => ?_).pre
      fun s h => ⟨⟨h.1.1, h.1.2.2.2⟩, h.1.2.1, h.2⟩
    obtain ⟨rfl, hu⟩ := e
    refine Sp.seq (sp_storeGet o.portal (addrOf (.user u)) (.user u)) hmo (fun s h => h) (fun _ _ h _ => h)
      fun d => Sp.gain fun e => ?_
    subst e
    exact Sp.bind (sp_updRResult r o.key o.portal u hu) fun _ => Sp.pure fun s h => hu

/-- `get` in general -/
theorem sp_rGet (hR : Route addrOf K r k p I E) (hinj : Function.Injective addrOf) :
    Sp addrOf K c I (rGet addrOf r)
      (fun u s => ∀ vals, k = callKey addrOf k.1 vals → K k.1 vals u)
      (fun e s => E ∨ (e = .timeoutError ∧ Pending s p k)) := by
  refine Sp.seq (sp_readK (X := fun _ _ => False) r k p) hR.mono (fun s h => ⟨hR.ris s h, h⟩)
    (fun _ _ h _ => h.elim) fun o => ?_
  refine (Sp.gain (B := o.key = k ∧ o.portal = p) (P := fun s => ObjOK addrOf K s o ∧ I s) fun e => ?_).pre
    fun s h => ⟨h.1.1, h.1.2.1, h.2⟩
  obtain ⟨ek, ep⟩ := e
  cases hr : o.result with
  | some u => exact Sp.pure fun s h => by
                obtain ⟨ts, _, _, _, h4, _⟩ := h.1
                rw [← ek]; exact h4 u hr
  | none =>
    refine Sp.withP (P := I) hR.fr (fun _ _ _ _ _ _ _ h => h)
      (fun _ _ _ _ _ _ _ h => h) ?_ |>.pre fun s h => h.2
    rw [ek, ep]
    refine Sp.seq (sp_rReady hR hinj) hR.mono (fun s h => ⟨h, h⟩) (fun _ _ h _ => .inl h) fun b => ?_
    refine Sp.ite (fun hb => ?_) (fun hb => ?_)
    · refine Sp.seq (sp_resGet p k) ((mono_ris r k p).and (mono_resSome p k)) (fun s h => ⟨h.1 hb, hR.ris s h.2, h.1 hb⟩) (fun _ _ h _ => h.elim) fun a => ?_
      refine (Sp.exI (P := fun u s => (a = addrOf (.user u) ∧ HoldsVal s p a (.user u) ∧
        (s.ext.results p).data k = some a ∧ ∀ vals, k = callKey addrOf k.1 vals → K k.1 vals u) ∧
        RIs s r k p ∧ ((s.ext.results p).data k).isSome) fun u => ?_).pre fun s ⟨⟨u, h⟩, h'⟩ => ⟨u, h, h'⟩
      refine (Sp.gain (B := a = addrOf (.user u) ∧ ∀ vals, k = callKey addrOf k.1 vals → K k.1 vals u)
        (P := fun s => HoldsVal s p a (.user u) ∧ RIs s r k p ∧ ((s.ext.results p).data k).isSome) fun e => ?_).pre
        fun s h => ⟨⟨h.1.1, h.1.2.2.2⟩, h.1.2.1, h.2⟩
      obtain ⟨rfl, hu⟩ := e
      refine Sp.seq (sp_storeGet p (addrOf (.user u)) (.user u)) ((mono_ris r k p).and (mono_resSome p k)) (fun s h => h) (fun _ _ h _ => h.elim)
        fun d => Sp.gain fun e => ?_
      subst e
      exact Sp.bind ((sp_updRResult r k p u hu).conseq (fun _ h => h) (fun _ _ h => h) (fun _ _ h => h.elim))
        fun _ => Sp.pure fun s h => hu
    · refine Sp.bind ((sp_rRequest hR hinj).conseq (fun s h => h.2) (fun _ _ h => h) (fun _ _ h => .inl h)) fun _ => ?_
      exact Sp.raiseNew (fun _ _ _ _ _ _ h => h) fun s h => .inr ⟨rfl, h⟩

end
end Pyth.Pure
