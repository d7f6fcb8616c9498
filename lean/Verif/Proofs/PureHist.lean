import Verif.Proofs.PureBatch
/-! Histories of sessions with pure functions. -/
set_option linter.unusedSectionVars false
set_option linter.unusedVariables false
set_option linter.unusedSimpArgs false
namespace Pyth.Pure
open Pyth.World Pyth.Portal
open Pyth.ValueAddr (Grow growFree Integ integFree IsAddr HoldsVal Has)

variable {U A α β : Type} [DecidableEq U] [DecidableEq A] {addrOf : Val U A → A}
  {K : Accept U} {c : Option PortalId}
  {P P' F G : PWorld U A → Prop} {X X0 : Kind → PWorld U A → Prop} {E : Prop}
  {R S : Prop} {prog : FnId → Fn U} {n : Nat}

/-- reachable states -/
structure Good (addrOf : Val U A → A) (K : Accept U) (s : PWorld U A) : Prop where
  ok : Ok s
  w : W addrOf K s

/-- what a step other than dropping a request does -/
structure Step (addrOf : Val U A → A) (K : Accept U) (s s' : PWorld U A) : Prop where
  good : Good addrOf K s'
  ev : Ev s s'

theorem Step.of {m : PM U A α} {Q : α → PWorld U A → Prop} (h : Sp addrOf K none P m Q X) {s : PWorld U A}
    (hs : Good addrOf K s) (hp : P s) : Step addrOf K s (m s).2 :=
  let b := (h s hs.ok hs.w (fun p h => (by cases h)) hp).1
  ⟨⟨b.ctx.ok hs.ok, b.wf⟩, b.ev⟩

theorem gen_readR {k : RObj U A → PM U A α}
    (h : ∀ key p, Sp addrOf K c (fun s => RIs s r key p ∧ P s) (readR r >>= k) (fun _ _ => True) (fun _ _ => True)) :
    Sp addrOf K c P (readR r >>= k) (fun _ _ => True) (fun _ _ => True) := by
  refine Sp.em (P1 := fun s => ∃ k : Key A × PortalId, RIs s r k.1 k.2 ∧ P s) (P2 := fun s => s.ext.raddrs[r]? = none)
    (Sp.exI fun k => h k.1 k.2) ?_ ?_
  · refine Sp.bind (Q := fun _ _ => False) (fun s ho hw hc hp => ?_) fun o s _ _ _ h => h.elim
    have e : (readR r : PM U A (RObj U A)) s = World.raiseNew .attributeError s := by unfold readR; rw [hp]
    rw [e]
    exact ⟨(Gen.raiseNew (c := c) (α := RObj U A) .attributeError s ho hw hc trivial).1, fun a h => (by cases h), fun _ _ => trivial⟩
  · intro s hs
    cases h : s.ext.raddrs[r]? with
    | none => exact .inr rfl
    | some o => exact .inl ⟨(o.key, o.portal), ⟨o, h, rfl, rfl⟩, hs⟩

theorem gen_rReady (hinj : Function.Injective addrOf) (r : Nat) : Gen addrOf K c (rReady addrOf r) :=
  gen_readR fun k p => (sp_rReady (route_gen hinj r k p) hinj).conseq (fun _ h => h.1) (fun _ _ _ => trivial) (fun _ _ _ => trivial)
theorem gen_rGet (hinj : Function.Injective addrOf) (r : Nat) : Gen addrOf K c (rGet addrOf r) :=
  gen_readR fun k p => (sp_rGet (route_gen hinj r k p) hinj).conseq (fun _ h => h.1) (fun _ _ _ => trivial) (fun _ _ _ => trivial)
theorem gen_rRequest (hinj : Function.Injective addrOf) (r : Nat) : Gen addrOf K c (rRequest addrOf r) :=
  gen_readR fun k p => (sp_rRequest (route_gen hinj r k p) hinj).conseq (fun _ h => h.1) (fun _ _ _ => trivial) (fun _ _ _ => trivial)
theorem gen_rKwargs (hinj : Function.Injective addrOf) (r : Nat) : Gen addrOf K c (rKwargs r : PM U A _) :=
  gen_readR fun k p => (sp_rKwargs hinj r k p).conseq (fun _ h => h.1) (fun _ _ _ => trivial) (fun _ _ _ => trivial)

/-- the value layer leaves the pure layer alone -/
theorem low_step (s : PWorld U A) (op : ValueAddr.Op (Val U A) A) : Low s (op.step addrOf s) := by
  cases op with
  | new v p => exact low_new v p s
  | conv i p => exact low_conv i p s
  | fromStrings a p b => exact low_fromStrings a p b s
  | copy i => exact Resp.bind lowFree.toPreOrd (low_readObj i) (fun o => low_fromStrings _ _ _) s
  | unpickle i =>
    exact Resp.bind lowFree.toPreOrd (low_readObj i) (fun o => Resp.bind lowFree.toPreOrd (Resp.get lowFree.toPreOrd) fun _ => low_alloc _) s
  | get i => exact low_vget i s
  | ready i => exact ValueAddr.resp_ready lowFree low_storeSet (fun i _ => low_upd i _) (fun i => low_upd i _) i s
  | newPortal p => exact ⟨rfl, rfl, Nat.le_refl _, rfl⟩
  | enter p => exact Resp.enterP lowFree p s
  | exit p => exact Resp.exitP lowFree p s
  | beginExcept k => exact ⟨rfl, rfl, Nat.le_refl _, rfl⟩
  | endExcept => exact ⟨rfl, rfl, Nat.le_refl _, rfl⟩
  | foreign p v => exact low_storeSet p _ v s

theorem step_val {s : PWorld U A} (hs : Good addrOf K s) (op : ValueAddr.Op (Val U A) A) :
    Step addrOf K s (op.step addrOf s) :=
  have hl := low_step (addrOf := addrOf) s op
  have hg := ValueAddr.grow_step addrOf s op
  ⟨⟨ValueAddr.ok_step addrOf s op hs.ok, hs.w.low hl hg (ValueAddr.integ_step addrOf s op hs.w.integ)⟩, Ev.low hl hg⟩

theorem step_fromKey {s : PWorld U A} (hs : Good addrOf K s) (p : PortalId) (k : Key A) (hk : IsCallKey addrOf k) :
    Step addrOf K s (rFromKey p k s).2 := by
  have hev : Ev s (rFromKey p k s).2 := by
    refine ⟨growExt s _, rfl, Nat.le_refl _, rfl, rfl, fun _ _ _ h => h, fun _ _ h => .inl h, fun _ _ => List.prefix_rfl,
      fun _ _ => List.prefix_rfl, fun _ _ => List.prefix_rfl, fun _ _ => List.prefix_rfl, rfl,
      ⟨[], (by simp [rFromKey, PyM.run_bind, PyM.get, modExt, PyM.bind]), (List.append_nil _).symm⟩, List.prefix_rfl, Nat.le_refl _, fun r o h => ⟨o, ?_, .refl _ _⟩⟩
    show (s.ext.raddrs ++ [_])[r]? = some o
    rw [List.getElem?_append_left (by
      rcases List.getElem?_eq_some_iff.1 h with ⟨h, _⟩; exact h)]
    exact h
  refine ⟨⟨hs.ok, hs.w.integ, hs.w.held, hs.w.pCheck, hs.w.reqs, fun r o h => ?_, hs.w.trace⟩, hev⟩
  rcases lt_trichotomy r s.ext.raddrs.length with hlt | heq | hgt
  · have : s.ext.raddrs[r]? = some o := by
      have h' : (s.ext.raddrs ++ [_])[r]? = some o := h
      rw [List.getElem?_append_left hlt] at h'; exact h'
    exact (hs.w.obj r o this).ev hev
  · have h' : (s.ext.raddrs ++ [({ key := k, portal := p } : RObj U A)])[r]? = some o := h
    rw [heq, List.getElem?_append_right (Nat.le_refl _)] at h'
    simp at h'
    subst h'
    obtain ⟨ts, h1⟩ := hk
    exact ⟨ts, h1, fun f hf => (by cases hf), fun l hl => (by cases hl), fun u hu => (by cases hu),
      fun hr => (by rcases hr with hr | hr <;> cases hr)⟩
  · have h' : (s.ext.raddrs ++ [({ key := k, portal := p } : RObj U A)])[r]? = some o := h
    rw [List.getElem?_eq_none (by simp; omega)] at h'
    cases h'

theorem keyOf_eq (f : FnId) (vals : List (String × U)) : keyOf addrOf f vals = callKey addrOf f (sortKw vals) := rfl

theorem step_putResult (hinj : Function.Injective addrOf) {s : PWorld U A} (hs : Good addrOf K s) (p : PortalId) (f : FnId)
    (vals : List (String × U)) (u : U) (hu : K f (sortKw vals) u) : Step addrOf K s (putResult addrOf p f vals u s) := by
  have h1 := step_val hs (.foreign p (.user u))
  have hheld : HoldsVal (ValueAddr.Op.step addrOf s (.foreign p (.user u))) p (addrOf (.user u)) (.user u) := by
    obtain ⟨d, n, e, hd, _⟩ := ValueAddr.storeSet_run p (addrOf (.user u)) (.user u) s
    show ((storeSet p (addrOf (.user u)) (Val.user u) s).2.store p).data _ = _
    rw [e]
    simp only [hd, if_true]
    cases hx : (s.store p).data (addrOf (.user u)) with
    | none => rfl
    | some v => exact congrArg some (hinj (hs.w.integ.1 p _ _ hx))
  generalize hmid : ValueAddr.Op.step addrOf s (.foreign p (.user u)) = m at h1 hheld
  let entry : Key A → Option A := fun k => if k = keyOf addrOf f vals then some (addrOf (.user u)) else none
  have hput : putResult addrOf p f vals u s = { m with ext := { m.ext with
      results := fun q => if q = p
        then { m.ext.results q with data := fun k => ((m.ext.results q).data k).or (entry k) }
        else m.ext.results q } } := by rw [← hmid]; rfl
  have hdata : ∀ q k, ((putResult addrOf p f vals u s).ext.results q).data k =
      ((m.ext.results q).data k).or (if q = p ∧ k = keyOf addrOf f vals then some (addrOf (.user u)) else none) := by
    intro q k
    rw [hput]
    by_cases hq : q = p <;> simp [hq, entry]
  have hev : Ev m (putResult addrOf p f vals u s) := by
    have hres : ∀ q k a, (m.ext.results q).data k = some a → ((putResult addrOf p f vals u s).ext.results q).data k = some a := by
      intro q k a h; rw [hdata, h]; rfl
    rw [hput] at hres ⊢
    exact ⟨growExt m _, rfl, Nat.le_refl _, rfl, rfl, hres, fun _ _ h => .inl h, fun _ _ => List.prefix_rfl,
      fun _ _ => List.prefix_rfl, fun _ _ => List.prefix_rfl, fun _ _ => List.prefix_rfl, rfl,
      ⟨[], by simp, by simp⟩, List.prefix_rfl, Nat.le_refl _, fun r o h => ⟨o, h, .refl _ _⟩⟩
  have hw := h1.good.w
  refine ⟨⟨?_, ?_, ?_, ?_, ?_, ?_, ?_⟩, h1.ev.trans hev⟩
  · rw [hput]; exact h1.good.ok
  · rw [hput]; exact hw.integ
  · intro q k a
    rw [hdata]
    cases hx : (m.ext.results q).data k with
    | some b =>
      intro e
      simp at e; subst e
      have := hw.held q k b hx
      rw [hput]; exact this
    | none =>
      intro e
      simp only [Option.none_or] at e
      split at e
      · rename_i hq
        obtain ⟨rfl, rfl⟩ := hq
        simp at e; subst e
        refine ⟨u, rfl, ?_, fun vals' hv => ?_⟩
        · rw [hput]; exact hheld
        · have : sortKw vals = vals' := (callKey_inj hinj hv).2
          rw [← this]; exact hu
      · cases e
  · intro q
    have := hw.pCheck q
    rw [hput]
    by_cases hq : q = p <;> simp [hq] <;> simpa [hq] using this
  · rw [hput]; exact hw.reqs
  · intro r o h
    rw [hput] at h
    exact (hw.obj r o h).ev hev
  · rw [hput]; exact hw.trace

theorem step_foreignRequest {s : PWorld U A} (hs : Good addrOf K s) (p : PortalId) (f : FnId) (vals : List (String × U)) :
    Step addrOf K s { s with ext := { s.ext with requests := upd2 s.ext.requests p (keyOf addrOf f vals) true } } := by
  refine Step.of (sp_setReq (keyOf addrOf f vals) p) hs (show ∃ ts, SigOf addrOf _ ts from ⟨texts addrOf (sortKw vals), rfl, ?_⟩)
  have := sortKw_sorted vals
  unfold texts
  rw [List.pairwise_map]
  exact this

/-- dropping a request -/
theorem good_drop {s : PWorld U A} (hs : Good addrOf K s) (p : PortalId) (k : Key A) :
    Good addrOf K { s with ext := { s.ext with requests := upd2 s.ext.requests p k false } } := by
  refine ⟨hs.ok, hs.w.integ, hs.w.held, hs.w.pCheck, fun q k' h => hs.w.reqs q k' ?_, hs.w.obj, hs.w.trace⟩
  simp only [upd2] at h
  split at h
  · cases h
  · exact h

/-- only requests were changed -/
structure OnlyReq (s t : PWorld U A) : Prop where
  store : t.store = s.store
  heap : t.heap = s.heap
  draws : t.draws = s.draws
  ext : ∃ rq, t.ext = { s.ext with requests := rq }

theorem rDrop_eq {s : PWorld U A} (hs : Good addrOf K s) (r : Nat) :
    Good addrOf K (rDrop r s).2 ∧ OnlyReq s (rDrop r s).2 := by
  cases h : s.ext.raddrs[r]? with
  | none =>
    have e : (rDrop r s : Except Exc Unit × PWorld U A) = World.raiseNew .attributeError s := by
      unfold rDrop; rw [PyM.run_bind]; unfold readR; rw [h]; rfl
    rw [e]
    exact ⟨⟨hs.ok, hs.w.frame _ _ _ _ _⟩, rfl, rfl, rfl, _, rfl⟩
  | some o =>
    have e : (rDrop r s : Except Exc Unit × PWorld U A) = withP o.portal (modExt fun x => { x with requests := upd2 x.requests o.portal o.key false }) s := by
      unfold rDrop; rw [PyM.run_bind]; unfold readR; rw [h]
    rw [e]
    have key : ∀ (m : PM U A Unit) (P : PWorld U A → Prop), Fr P → (∀ s, P s → P (m s).2) → P s → P ((withP o.portal m s).2) :=
      fun m P hP hm hs => Resp.withP hP.free o.portal (fun s h => hm s h) s hs
    have hk : Ok (withP o.portal (modExt fun x => { x with requests := upd2 x.requests o.portal o.key false } : PM U A Unit) s).2 :=
      (Keeps.withP (m := (modExt fun x => { x with requests := upd2 x.requests o.portal o.key false } : PM U A Unit)) o.portal
        (fun s _ => ⟨rfl, rfl, rfl, List.prefix_rfl⟩) s hs.ok).ok hs.ok
    have hw := key (modExt fun x => { x with requests := upd2 x.requests o.portal o.key false })
      (fun t => W addrOf K t ∧ OnlyReq s t)
      (fun t _ _ _ _ _ h => ⟨h.1.frame _ _ _ _ _, h.2.store, h.2.heap, h.2.draws, h.2.ext⟩)
      (fun t h => ⟨?_, h.2.store, h.2.heap, h.2.draws, ?_⟩) ⟨hs.w, rfl, rfl, rfl, _, rfl⟩
    · exact ⟨⟨hk, hw.1⟩, hw.2⟩
    · have h := h.1
      refine ⟨h.integ, h.held, h.pCheck, fun q k' hq => h.reqs q k' ?_, h.obj, h.trace⟩
      simp only [modExt, upd2] at hq
      split at hq
      · cases hq
      · exact hq
    · obtain ⟨rq, hq⟩ := h.2.ext
      exact ⟨upd2 rq o.portal o.key false, by simp only [modExt, hq]⟩

theorem holdsAll_iff (s : PWorld U A) (p : PortalId) (vals : List (String × U)) :
    HoldsAll addrOf s p vals ↔ ∀ x ∈ vals, HoldsVal s p (addrOf (.user x.2)) (.user x.2) := Iff.rfl

/-- every legal step that does not drop a request -/
theorem step_legal (hinj : Function.Injective addrOf) (hm : Mode K E prog) {s : PWorld U A} (hs : Good addrOf K s) (op : POp U A)
    (hl : Legal addrOf prog K s op) (hd : E ∨ LegalDet addrOf prog s op) (hnd : ¬ op.drops) :
    Step addrOf K s (op.step addrOf prog s) := by
  cases op with
  | val op => exact step_val hs op
  | call p n f kw =>
    rcases hd with hd | ⟨vals, hd⟩
    · exact Step.of (recOK_exec hinj hm p n none f kw [] (.inl hd)) hs (.inl hd)
    · rcases hd with hd | hd
      · exact Step.of (recOK_exec hinj hm p n none f kw vals (.inr (.inl hd))) hs (.inr (by rw [hd]; exact denKw_raw (s := s) (vals := vals)))
      · exact Step.of (recOK_exec hinj hm p n none f kw vals (.inr (.inr ⟨hd.2.1, hd.2.2⟩))) hs (.inr hd.1)
  | address p f kw => exact Step.of (sp_getAddress (R := True) hinj p f kw []) hs (.inl trivial)
  | swarm p f kw => exact Step.of (sp_swarm (R := True) hinj p f kw []) hs (.inl trivial)
  | run n p f kw =>
    rcases hd with hd | ⟨hg, vals, hd⟩
    · exact Step.of (sp_run (R := True) hinj hm (fun _ => hd) p f kw [] hl (.inl hd) n) hs (.inl trivial)
    · exact Step.of (sp_run (R := False) hinj hm (fun h => h.elim) p f kw vals hl (.inr hg) n) hs (.inr hd)
  | swarmList sh p f l =>
    exact Step.of (sp_swarmList (R := True) hinj p f sh hl.2 l (l.map fun _ => []) (by simp) s) hs ⟨.inl trivial, sameFree.refl s⟩
  | runList n sh1 sh2 p f l =>
    rcases hd with hd | ⟨hg, vs, hd⟩
    · exact Step.of (sp_runList (R := True) hinj hm (fun _ => hd) p f hl.1 (.inl hd) n sh1 sh2 hl.2.1 hl.2.2 l (l.map fun _ => []) (by simp)) hs (.inl trivial)
    · exact Step.of (sp_runList (R := False) hinj hm (fun h => h.elim) p f hl.1 (.inr hg) n sh1 sh2 hl.2.1 hl.2.2 l vs hd.length_eq) hs (.inr hd)
  | fromKey p k => exact step_fromKey hs p k hl
  | rexec n r =>
    cases h : s.ext.raddrs[r]? with
    | none =>
      have e : (rExecute addrOf prog n r s) = World.raiseNew .attributeError s := by
        unfold rExecute; rw [PyM.run_bind]; unfold readR; rw [h]; rfl
      show Step addrOf K s (rExecute addrOf prog n r s).2
      rw [e]
      exact Step.of (Gen.raiseNew (c := none) (α := U) .attributeError) hs trivial
    | some o =>
      have hris : RIs s r o.key o.portal := ⟨o, h, rfl, rfl⟩
      rcases hd with hd | ⟨hg, hd⟩
      · exact Step.of (sp_rExecute (R := True) hinj hm (fun _ => hd) [] r o.key o.portal (hl o.key o.portal hris) (.inl hd) n) hs ⟨hris, .inl trivial⟩
      · obtain ⟨vals, h1, h2⟩ := hd o h
        exact Step.of (sp_rExecute (R := False) hinj hm (fun h => h.elim) vals r o.key o.portal (hl o.key o.portal hris) (.inr hg) n) hs
          ⟨hris, .inr ⟨h1.1, o, h, h1.1, rfl, h2, by rw [← h1.1]; exact h1.2.1, h1.2.2.1, h1.2.2.2.1, h1.2.2.2.2⟩⟩
  | rget r => exact Step.of (gen_rGet hinj r) hs trivial
  | rready r => exact Step.of (gen_rReady hinj r) hs trivial
  | rrequest r => exact Step.of (gen_rRequest hinj r) hs trivial
  | rkwargs r => exact Step.of (gen_rKwargs hinj r) hs trivial
  | rdrop r => exact absurd trivial hnd
  | foreignResult p f vals u => exact step_putResult hinj hs p f vals u hl
  | foreignRequest p f vals => exact step_foreignRequest hs p f vals
  | foreignDrop p k => exact absurd trivial hnd

/-- stored values, results, records and address objects stay -/
structure Keep (s s' : PWorld U A) : Prop where
  results : ∀ p k a, (s.ext.results p).data k = some a → (s'.ext.results p).data k = some a
  grow : Grow s s'
  ris : ∀ r k p, RIs s r k p → RIs s' r k p
  pCfg : s'.ext.pCfg = s.ext.pCfg
  draws : s'.draws = s.draws
  attempts : ∀ p k, s.ext.attempts p k <+: s'.ext.attempts p k
  outputs : ∀ p k, s.ext.outputs p k <+: s'.ext.outputs p k
  resultRecs : ∀ p k, s.ext.resultRecs p k <+: s'.ext.resultRecs p k
  crashRecs : ∀ p k, s.ext.crashRecs p k <+: s'.ext.crashRecs p k

theorem Keep.refl (s : PWorld U A) : Keep s s :=
  ⟨fun _ _ _ h => h, growFree.refl s, fun _ _ _ h => h, rfl, rfl, fun _ _ => List.prefix_rfl,
    fun _ _ => List.prefix_rfl, fun _ _ => List.prefix_rfl, fun _ _ => List.prefix_rfl⟩
theorem Keep.trans {a b c : PWorld U A} (h : Keep a b) (h' : Keep b c) : Keep a c where
  results p k x e := h'.results p k x (h.results p k x e)
  grow := growFree.trans h.grow h'.grow
  ris r k p e := h'.ris r k p (h.ris r k p e)
  pCfg := h'.pCfg.trans h.pCfg
  draws := h'.draws.trans h.draws
  attempts p k := (h.attempts p k).trans (h'.attempts p k)
  outputs p k := (h.outputs p k).trans (h'.outputs p k)
  resultRecs p k := (h.resultRecs p k).trans (h'.resultRecs p k)
  crashRecs p k := (h.crashRecs p k).trans (h'.crashRecs p k)
theorem Keep.ev {s s' : PWorld U A} (h : Ev s s') : Keep s s' :=
  ⟨h.results, h.grow, fun r k p ⟨o, h1, h2, h3⟩ => (by
    obtain ⟨o', h4, h5⟩ := h.raddrs r o h1
    exact ⟨o', h4, h5.key.trans h2, h5.portal.trans h3⟩), h.pCfg, h.draws, h.attempts, h.outputs,
    h.resultRecs, h.crashRecs⟩
theorem Step.keep {s s' : PWorld U A} (h : Step addrOf K s s') : Keep s s' := .ev h.ev
theorem OnlyReq.keep {s t : PWorld U A} (h : OnlyReq s t) : Keep s t := by
  obtain ⟨rq, e⟩ := h.ext
  refine ⟨?_, ⟨fun p a v x => (by rw [h.store]; exact x), fun i o x => ⟨o, (by rw [h.heap]; exact x), rfl, rfl, id, id⟩⟩,
    ?_, (by rw [e]), h.draws, ?_, ?_, ?_, ?_⟩
  · rw [e]; exact fun _ _ _ h => h
  · unfold RIs; rw [e]; exact fun _ _ _ h => h
  all_goals
    intro p k; rw [e]; exact List.prefix_rfl

/-- every legal step -/
theorem keep_legal (hinj : Function.Injective addrOf) (hm : Mode K E prog) {s : PWorld U A} (hs : Good addrOf K s) (op : POp U A)
    (hl : Legal addrOf prog K s op) (hd : E ∨ LegalDet addrOf prog s op) :
    Good addrOf K (op.step addrOf prog s) ∧ Keep s (op.step addrOf prog s) := by
  by_cases hnd : op.drops
  · cases op with
    | rdrop r =>
      have := rDrop_eq hs r
      exact ⟨this.1, this.2.keep⟩
    | foreignDrop p k => exact ⟨good_drop hs p k, OnlyReq.keep ⟨rfl, rfl, rfl, _, rfl⟩⟩
    | _ => exact hnd.elim
  · have := step_legal hinj hm hs op hl hd hnd
    exact ⟨this.good, this.keep⟩

theorem good_start {s : PWorld U A} (h : PStart addrOf K s) : Good addrOf K s where
  ok := h.base.ok
  w := ⟨h.base.integ, h.results, h.check, h.requests, fun r o ho => (by rw [h.objects] at ho; simp at ho),
    ⟨fun pre f kw post e => (by rw [h.trace] at e; simp at e), fun f vals e => (by rw [h.trace] at e; simp at e)⟩⟩

theorem session_keep (hinj : Function.Injective addrOf) (hm : Mode K E prog) (ops : List (POp U A)) {s : PWorld U A}
    (hs : Good addrOf K s) (hl : LegalAll addrOf prog K s ops) (hd : E ∨ LegalDetAll addrOf prog s ops) :
    Good addrOf K (session addrOf prog s ops) ∧ Keep s (session addrOf prog s ops) := by
  induction ops generalizing s with
  | nil => exact ⟨hs, .refl s⟩
  | cons op ops ih =>
    have h1 := keep_legal hinj hm hs op hl.1 (hd.imp id fun h => h.1)
    have h2 := ih h1.1 hl.2 (hd.imp id fun h => h.2)
    exact ⟨h2.1, h1.2.trans h2.2⟩

theorem session_ev (hinj : Function.Injective addrOf) (hm : Mode K E prog) (ops : List (POp U A)) {s : PWorld U A}
    (hs : Good addrOf K s) (hl : LegalAll addrOf prog K s ops) (hd : E ∨ LegalDetAll addrOf prog s ops)
    (hnd : ∀ op ∈ ops, ¬ op.drops) : Ev s (session addrOf prog s ops) := by
  induction ops generalizing s with
  | nil => exact .refl s
  | cons op ops ih =>
    have h1 := step_legal hinj hm hs op hl.1 (hd.imp id fun h => h.1) (hnd op (by simp))
    exact h1.ev.trans (ih h1.good hl.2 (hd.imp id fun h => h.2) fun o ho => hnd o (by simp [ho]))

end Pyth.Pure
