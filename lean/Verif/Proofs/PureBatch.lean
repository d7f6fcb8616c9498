import Verif.Proofs.PureOther
/-! Requests: which requests and results an operation may touch; batches. -/
set_option linter.unusedSectionVars false
set_option linter.unusedVariables false
set_option linter.unusedSimpArgs false
namespace Pyth.Pure
open Pyth.World Pyth.Portal
open Pyth.ValueAddr (Grow growFree Integ integFree IsAddr HoldsVal Has)

variable {U A α β : Type} [DecidableEq U] [DecidableEq A] {addrOf : Val U A → A}
  {K : Accept U} {c : Option PortalId}
  {P P' F G : PWorld U A → Prop} {X X0 : Kind → PWorld U A → Prop} {E : Prop}
  {R S : Prop} {prog : FnId → Fn U} {n : Nat}

theorem same_readR (r : Nat) : Resp Same (readR r : PM U A (RObj U A)) := by
  intro s
  unfold readR
  split
  · exact ⟨rfl, rfl, fun _ _ _ h => h⟩
  · exact Resp.raiseNew sameFree _ s

theorem same_updR (r : Nat) (f : RObj U A → RObj U A) (hf : ∀ o, (f o).key = o.key ∧ (f o).portal = o.portal) :
    Resp Same (updR r f : PM U A Unit) := fun s => ⟨rfl, rfl, fun r' k p ⟨o, h1, h2, h3⟩ => by
  refine ⟨if r = r' then f o else o, ?_, ?_, ?_⟩
  · show (s.ext.raddrs.modify r f)[r']? = _
    rw [List.getElem?_modify, h1]
    split <;> rfl
  · split
    · rw [(hf o).1]; exact h2
    · exact h2
  · split
    · rw [(hf o).2]; exact h3
    · exact h3⟩
theorem same_resHas (p : PortalId) (k : Key A) : Resp Same (resHas p k : PM U A Bool) := fun s => ⟨rfl, rfl, fun _ _ _ h => h⟩
theorem same_resGet (p : PortalId) (k : Key A) : Resp Same (resGet p k : PM U A A) := by
  intro s
  unfold resGet
  split
  · exact ⟨rfl, rfl, fun _ _ _ h => h⟩
  · exact Resp.raiseNew sameFree _ s
theorem same_rValueAddr (r : Nat) : Resp Same (rValueAddr r : PM U A Nat) :=
  Resp.bind sameFree.toPreOrd (same_readR r) fun _ => Resp.withP sameFree _ (Resp.same (low_fromStrings _ _ _))

theorem same_capture : Resp Same (capturePortal : PM U A (Option PortalId)) := fun s => ⟨rfl, rfl, fun _ _ _ h => h⟩

theorem same_rSignature (r : Nat) : Resp Same (rSignature r : PM U A (Nat × Nat)) := by
  have b := (sameFree (U := U) (A := A)).toPreOrd
  refine Resp.bind b (same_rValueAddr r) fun _ => Resp.bind b (Resp.same (low_vget _)) fun v => ?_
  cases v with
  | sig f x y =>
    exact Resp.bind b same_capture fun _ => Resp.bind b (Resp.same (low_alloc _)) fun _ =>
      Resp.bind b (Resp.same (low_alloc _)) fun _ => Resp.pure b _
  | user _ => exact Resp.raiseNew sameFree _
  | fn _ => exact Resp.raiseNew sameFree _
  | args _ => exact Resp.raiseNew sameFree _

theorem same_rFunction (r : Nat) : Resp Same (rFunction r : PM U A FnId) := by
  have b := (sameFree (U := U) (A := A)).toPreOrd
  refine Resp.bind b (same_readR r) fun o => ?_
  cases o.fn with
  | some f => exact Resp.pure b _
  | none =>
    refine Resp.withP sameFree _ (Resp.bind b (same_rSignature r) fun x => ?_)
    obtain ⟨i, j⟩ := x
    refine Resp.bind b (Resp.same (low_vget _)) fun v => ?_
    cases v with
    | fn f => exact Resp.bind b (same_updR _ _ fun _ => ⟨rfl, rfl⟩) fun _ => Resp.pure b _
    | user _ => exact Resp.raiseNew sameFree _
    | sig _ _ _ => exact Resp.raiseNew sameFree _
    | args _ => exact Resp.raiseNew sameFree _

theorem same_allocArgs (p : Option PortalId) (l : List (String × A)) :
    Resp Same (allocArgs p l : PM U A (Kw U)) := by
  have b := (sameFree (U := U) (A := A)).toPreOrd
  induction l with
  | nil => exact Resp.pure b _
  | cons x l ih => exact Resp.bind b (Resp.same (low_alloc _)) fun _ => Resp.bind b ih fun _ => Resp.pure b _

theorem same_rArguments (r : Nat) : Resp Same (rArguments r : PM U A (Kw U)) := by
  have b := (sameFree (U := U) (A := A)).toPreOrd
  refine Resp.bind b (same_readR r) fun o => ?_
  cases o.args with
  | some f => exact Resp.pure b _
  | none =>
    refine Resp.withP sameFree _ (Resp.bind b (same_rSignature r) fun x => ?_)
    obtain ⟨i, j⟩ := x
    refine Resp.bind b (Resp.same (low_vget _)) fun v => ?_
    cases v with
    | args l =>
      exact Resp.bind b same_capture fun _ => Resp.bind b (same_allocArgs _ _) fun _ =>
        Resp.bind b (same_updR _ _ fun _ => ⟨rfl, rfl⟩) fun _ => Resp.pure b _
    | user _ => exact Resp.raiseNew sameFree _
    | sig _ _ _ => exact Resp.raiseNew sameFree _
    | fn _ => exact Resp.raiseNew sameFree _

theorem same_rKwargs (r : Nat) : Resp Same (rKwargs r : PM U A (List (String × U))) := by
  have b := (sameFree (U := U) (A := A)).toPreOrd
  exact Resp.bind b (same_readR r) fun o => Resp.withP sameFree _ (Resp.bind b (same_rArguments r) fun _ =>
    Resp.same (low_unpack _))

theorem same_rReadyCurrent (r : Nat) : Resp Same (rReadyCurrent r : PM U A Bool) := by
  have b := (sameFree (U := U) (A := A)).toPreOrd
  refine Resp.bind b (same_readR r) fun o => Resp.ite (Resp.pure b _) (Resp.withP sameFree _ ?_)
  exact Resp.bind b (same_resHas _ _) fun _ => Resp.ite (Resp.bind b (same_updR _ _ fun _ => ⟨rfl, rfl⟩) fun _ => Resp.pure b _) (Resp.pure b _)


/-- requests and results are touched only at the given calls -/
def OffS (T : PortalId → Key A → Prop) (s s' : PWorld U A) : Prop :=
  ∀ q k, ¬ T q k → s'.ext.requests q k = s.ext.requests q k ∧ (s'.ext.results q).data k = (s.ext.results q).data k

/-- object `r` is the address of call `k` of portal `p`; since state `t` only calls in `T` were touched -/
def Lim (T : PortalId → Key A → Prop) (t : PWorld U A) (r : Nat) (k : Key A) (p : PortalId) (s : PWorld U A) : Prop :=
  RIs s r k p ∧ OffS T t s

variable {T : PortalId → Key A → Prop} {t : PWorld U A} {r : Nat} {k : Key A} {p : PortalId}

theorem lim_same {m : PM U A α} (h : Resp Same m) : Hoare (Lim T t r k p) m (fun _ => Lim T t r k p) (Lim T t r k p) := by
  have : ∀ s, Lim T t r k p s → Lim T t r k p (m s).2 := fun s hs =>
    have hm := h s
    ⟨hm.2.2 r k p hs.1, fun q k' hq => by rw [hm.1, hm.2.1]; exact hs.2 q k' hq⟩
  refine fun s hs => ⟨fun a s' e => ?_, fun e s' h' => ?_⟩
  · have := this s hs; rw [e] at this; exact this
  · have := this s hs; rw [h'] at this; exact this

theorem fr_lim : Fr (Lim T t r k p) := fun _ _ _ _ _ _ h => h

theorem lim_withP {m : PM U A α} (q : PortalId) (h : Hoare (Lim T t r k p) m (fun _ => Lim T t r k p) (Lim T t r k p)) :
    Hoare (Lim T t r k p) (withP q m) (fun _ => Lim T t r k p) (Lim T t r k p) :=
  Hoare.withP q fr_lim (fun _ => fr_lim) fr_lim (fun _ h => h) (fun _ _ h => h) h

theorem lim_resSet (hT : T p k) (a : A) : Hoare (Lim T t r k p) (resSet p k a : PM U A Unit) (fun _ => Lim T t r k p) (Lim T t r k p) := by
  have : ∀ s, Lim T t r k p s → Lim T t r k p (resSet p k a s).2 := by
    intro s hs
    obtain ⟨d, n, h, hd, _⟩ := resSet_run p k a s
    rw [h]
    refine ⟨hs.1, fun q k' hq => ⟨(hs.2 q k' hq).1, ?_⟩⟩
    show (if q = p then d else s.ext.results q).data k' = _
    split
    · next e =>
      subst e
      rw [hd]
      have : k' ≠ k := fun e => hq (by rw [e]; exact hT)
      simp [this, (hs.2 q k' hq).2]
    · exact (hs.2 q k' hq).2
  refine fun s hs => ⟨fun a s' e => ?_, fun e s' h' => ?_⟩
  · have := this s hs; rw [e] at this; exact this
  · have := this s hs; rw [h'] at this; exact this

theorem lim_readR : Hoare (Lim T t r k p) (readR r : PM U A (RObj U A))
    (fun o s => (o.key = k ∧ o.portal = p) ∧ Lim T t r k p s) (Lim T t r k p) := by
  intro s hs
  obtain ⟨o, h1, h2, h3⟩ := hs.1
  unfold readR
  rw [h1]
  exact ⟨fun a s' e => (by cases e; exact ⟨⟨h2, h3⟩, hs⟩), fun e s' h => (by cases h)⟩

theorem Hoare.gain {B : Prop} {m : PM U A α} {Q : α → PWorld U A → Prop} {Y : PWorld U A → Prop} (h : B → Hoare P m Q Y) :
    Hoare (fun s => B ∧ P s) m Q Y := fun s hs => h hs.1 s hs.2

theorem lim_rCopyFrom (hT : T p k) (o : RObj U A) (ek : o.key = k) (ep : o.portal = p) (q : PortalId) :
    Hoare (Lim T t r k p) (rCopyFrom addrOf r o q) (fun _ => Lim T t r k p) (Lim T t r k p) := by
  subst ek; subst ep
  refine Hoare.bind (lim_same (same_resGet _ _)) fun _ => Hoare.bind (lim_same (Resp.storeGet sameFree _ _)) fun _ =>
    Hoare.bind (lim_withP _ ?_) fun _ => lim_same (same_updR _ _ fun _ => ⟨rfl, rfl⟩)
  exact Hoare.bind (lim_same (Resp.same (low_new _ _))) fun _ => Hoare.bind (lim_same (Resp.same (low_textOf _))) fun _ =>
    Hoare.bind (lim_resSet hT _) fun _ => Hoare.bind (lim_same (same_rFunction _)) fun _ =>
    Hoare.bind (lim_same (same_rKwargs _)) fun _ => Hoare.pure fun _ h => h

theorem lim_rReadyLoop (hT : T p k) (o : RObj U A) (ek : o.key = k) (ep : o.portal = p) (qs : List PortalId) :
    Hoare (Lim T t r k p) (rReadyLoop addrOf r o qs) (fun _ => Lim T t r k p) (Lim T t r k p) := by
  induction qs with
  | nil => exact Hoare.pure fun _ h => h
  | cons q qs ih =>
    refine Hoare.bind (lim_withP _ ?_) fun _ => Hoare.ite (fun _ => Hoare.pure fun _ h => h) (fun _ => ih)
    exact Hoare.bind (lim_same (same_resHas _ _)) fun _ => Hoare.ite (fun _ => Hoare.bind (lim_rCopyFrom hT o ek ep q) fun _ =>
      Hoare.pure fun _ h => h) (fun _ => Hoare.pure fun _ h => h)

theorem lim_rReady (hT : T p k) : Hoare (Lim T t r k p) (rReady addrOf r) (fun _ => Lim T t r k p) (Lim T t r k p) := by
  have up := lim_same (T := T) (t := t) (r := r) (k := k) (p := p) (same_updR (A := A) r (fun x : RObj U A => { x with ready := true }) fun _ => ⟨rfl, rfl⟩)
  refine Hoare.bind lim_readR fun o => Hoare.gain fun e => ?_
  refine Hoare.ite (fun _ => Hoare.pure fun _ h => h) fun _ => Hoare.bind (lim_same (same_rReadyCurrent r)) fun _ => ?_
  refine Hoare.ite (fun _ => Hoare.bind up fun _ => Hoare.pure fun _ h => h) fun _ => ?_
  refine Hoare.bind Hoare.get fun s0 => Hoare.bind (lim_rReadyLoop hT o e.1 e.2 _) fun _ => ?_
  exact Hoare.ite (fun _ => Hoare.bind up fun _ => Hoare.pure fun _ h => h) fun _ => Hoare.pure fun _ h => h

theorem lim_setReq (hT : T p k) (b : Bool) : Hoare (Lim T t r k p)
    (modExt fun x => { x with requests := upd2 x.requests p k b } : PM U A Unit) (fun _ => Lim T t r k p) (Lim T t r k p) := by
  intro s hs
  refine ⟨fun a s' e => ?_, fun e s' h => (by cases h)⟩
  cases e
  refine ⟨hs.1, fun q k' hq => ⟨?_, (hs.2 q k' hq).2⟩⟩
  show upd2 s.ext.requests p k b q k' = _
  unfold upd2
  rw [if_neg (fun e => hq (by rw [e.1, e.2]; exact hT))]
  exact (hs.2 q k' hq).1

theorem lim_rRequest (hT : T p k) : Hoare (Lim T t r k p) (rRequest addrOf r) (fun _ => Lim T t r k p) (Lim T t r k p) := by
  refine Hoare.bind lim_readR fun o => Hoare.gain fun e => ?_
  obtain ⟨rfl, rfl⟩ := e
  refine lim_withP _ (Hoare.bind (lim_rReady hT) fun _ => Hoare.ite (fun _ => ?_) fun _ => lim_setReq hT true)
  refine Hoare.bind lim_readR fun o' => Hoare.gain fun e => lim_withP _ ?_
  rw [e.1, e.2]
  exact lim_setReq hT false

/-! ### batches -/

/-- object `r` is the address of call `key r` of portal `p` -/
def J (addrOf : Val U A → A) (R : Prop) (key : Nat → Key A) (p : PortalId) (r : Nat) (s : PWorld U A) : Prop :=
  ∃ vals, IR addrOf R vals r (key r) p s

theorem mono_j (hinj : Function.Injective addrOf) (key : Nat → Key A) (p : PortalId) (r : Nat) :
    Mono addrOf K (J addrOf R key p r) := fun s s' e w ⟨vals, h⟩ =>
  ⟨vals, (route_ir (K := K) hinj _ _ _ _).mono s s' e w h⟩

theorem mono_js (hinj : Function.Injective addrOf) (key : Nat → Key A) (p : PortalId) (l : List Nat) :
    Mono addrOf K (fun s => ∀ r ∈ l, J addrOf R key p r s) := fun s s' e w h r hr =>
  mono_j hinj key p r s s' e w (h r hr)

theorem sp_requestG (hinj : Function.Injective addrOf) (key : Nat → Key A) (p : PortalId) (r : Nat)
    (hG : ∀ s s', OffS (fun q k => q = p ∧ k = key r) s s' → Exact s' p (key r) → G s → G s') :
    Sp addrOf K c (fun s => J addrOf R key p r s ∧ G s) (rRequest addrOf r)
      (fun _ s => Exact s p (key r) ∧ G s) (fun _ _ => R) := by
  intro s ho hw hc ⟨⟨vals, hi⟩, hg⟩
  have h := sp_rRequest_exact (K := K) (c := c) (route_ir (K := K) (R := R) hinj vals r (key r) p) hinj s ho hw hc hi
  refine ⟨h.1, fun a ha => ⟨h.2.1 a ha, ?_⟩, h.2.2⟩
  have hl := (lim_rRequest (addrOf := addrOf) (T := fun q k => q = p ∧ k = key r) (t := s) (r := r) (k := key r) (p := p) ⟨rfl, rfl⟩)
    s ⟨hi.1, fun _ _ _ => ⟨rfl, rfl⟩⟩
  have := hl.1 a (rRequest addrOf r s).2 (by rw [← ha])
  exact hG s _ this.2 (h.2.1 a ha) hg

theorem sp_requestLoop (hinj : Function.Injective addrOf) (key : Nat → Key A) (p : PortalId) (T : PortalId → Key A → Prop)
    (t : PWorld U A) (l : List Nat) : ∀ done : List Nat, (∀ r ∈ l, T p (key r)) →
    Sp addrOf K c (fun s => (∀ r ∈ l, J addrOf R key p r s) ∧ (∀ r ∈ done, Exact s p (key r)) ∧ OffS T t s) (requestLoop addrOf l)
      (fun _ s => (∀ r ∈ l ++ done, Exact s p (key r)) ∧ OffS T t s) (fun _ _ => R) := by
  induction l with
  | nil => exact fun done _ => Sp.pure fun s h => h.2
  | cons r l ih =>
    intro done hT
    refine Sp.seq (sp_requestG (G := fun s => (∀ r ∈ done, Exact s p (key r)) ∧ OffS T t s) hinj key p r ?_) (mono_js (R := R) hinj key p l)
      (fun s h => ⟨⟨h.1 r (by simp), h.2⟩, fun r hr => h.1 r (by simp [hr])⟩) (fun _ _ h _ => h) fun _ => ?_
    · intro s s' ho he hg
      refine ⟨fun r' hr' => ?_, fun q k hq => ?_⟩
      · by_cases e : key r' = key r
        · rw [e]; exact he
        · have := ho p (key r') (fun h => e h.2)
          unfold Exact; rw [this.1, this.2]; exact hg.1 r' hr'
      · have := ho q k (fun h => hq (by rw [h.1, h.2]; exact hT r (by simp)))
        rw [this.1, this.2]; exact hg.2 q k hq
    · refine (ih (r :: done) fun r hr => hT r (by simp [hr])).conseq (fun s h => ⟨h.2, fun r' hr' => ?_, h.1.2.2⟩) (fun _ s h => ⟨fun r' hr' => h.1 r' ?_, h.2⟩)
        (fun _ _ h => h)
      · rcases List.mem_cons.1 hr' with rfl | hr'
        · exact h.1.1
        · exact h.1.2.1 r' hr'
      · simp only [List.mem_append, List.mem_cons] at hr' ⊢
        tauto

theorem same_addrLoop (p : PortalId) (f : FnId) (l : List (Kw U)) : Resp Same (addrLoop addrOf p f l) := by
  have b := (sameFree (U := U) (A := A)).toPreOrd
  induction l with
  | nil => exact Resp.pure b _
  | cons x l ih => exact Resp.bind b (same_mkRAddr _ _ _) fun _ => Resp.bind b ih fun _ => Resp.pure b _

theorem RIs.unique {s : PWorld U A} {r : Nat} {k k' : Key A} {p p' : PortalId} (h : RIs s r k p) (h' : RIs s r k' p') :
    k = k' ∧ p = p' := by
  obtain ⟨o, a1, a2, a3⟩ := h
  obtain ⟨o', b1, b2, b3⟩ := h'
  rw [a1] at b1; cases b1
  exact ⟨a2.symm.trans b2, a3.symm.trans b3⟩

/-- what `swarm_list` leaves behind: every call of the batch is requested exactly if it has no result yet, no other
request or result is touched -/
def Swarmed (p : PortalId) (rs : List Nat) (t s : PWorld U A) : Prop :=
  (∀ r ∈ rs, ∃ k, RIs s r k p ∧ Exact s p k) ∧ OffS (fun q k => q = p ∧ ∃ r ∈ rs, RIs s r k p) t s

theorem fr_swarmed (p : PortalId) (rs : List Nat) (t : PWorld U A) : Fr (Swarmed p rs t) := fun _ _ _ _ _ _ h => h

theorem AddrsFor.each {f : FnId} {l : List (Kw U)} {vs : List (List (String × U))} {rs : List Nat} {s : PWorld U A}
    (h : AddrsFor addrOf R f p l vs rs s) : ∀ r ∈ rs, ∃ kw vals, vals ∈ vs ∧ AddrFor addrOf R f p kw vals r s := by
  intro r hr
  unfold AddrsFor at h
  obtain ⟨i, hi, rfl⟩ := List.getElem_of_mem hr
  have hl := h.length_eq
  have := List.forall₂_iff_get.1 h
  exact ⟨_, _, (List.of_mem_zip (List.get_mem (l.zip vs) ⟨i, by omega⟩)).2, this.2 i (by omega) hi⟩

theorem sp_swarmList (hinj : Function.Injective addrOf) (p : PortalId) (f : FnId) (shuffle : List Nat → List Nat)
    (hsh : ∀ l, (shuffle l).Perm l) (l : List (Kw U)) (vs : List (List (String × U))) (hl : l.length = vs.length)
    (t : PWorld U A) :
    Sp addrOf K c (fun s => (R ∨ List.Forall₂ (fun kw vals => DenKw addrOf s kw vals) l vs) ∧ Same t s)
      (swarmList addrOf shuffle p f l)
      (fun rs s => AddrsFor addrOf R f p l vs rs s ∧ Swarmed p rs t s) (fun _ _ => R) := by
  refine Sp.withP (fun _ _ _ _ _ _ h => h) (fun _ _ _ _ _ _ _ h => h) (fun _ => fr_const _) ?_
  -- addresses
  have g1 : Sp addrOf K (some p) (fun s => (R ∨ List.Forall₂ (fun kw vals => DenKw addrOf s kw vals) l vs) ∧ Same t s)
      (addrLoop addrOf p f l) (fun rs s => AddrsFor addrOf R f p l vs rs s ∧ Same t s) (fun _ _ => R) := by
    intro s ho hw hc hp
    have h := sp_addrLoop (K := K) (R := R) hinj p f l vs hl s ho hw hc hp.1
    exact ⟨h.1, fun a ha => ⟨h.2.1 a ha, sameFree.trans hp.2 (same_addrLoop p f l s)⟩, h.2.2⟩
  refine Sp.bind g1 fun rs => ?_
  refine (Sp.exI (P := fun key s => (∀ r ∈ rs, J addrOf R key p r s) ∧ AddrsFor addrOf R f p l vs rs s ∧ Same t s) fun key => ?_).pre
    fun s h => ?_
  swap
  · classical
    refine ⟨fun r => if hk : ∃ k, RIs s r k p then hk.choose else (0, addrOf (.fn 0)), fun r hr => ?_, h⟩
    obtain ⟨kw, vals, _, ts, _, h2, _⟩ := h.1.each r hr
    have hk : ∃ k, RIs s r k p := ⟨_, h2.1⟩
    refine ⟨sortKw vals, ?_⟩
    simp only [dif_pos hk]
    have e := (hk.choose_spec.unique h2.1).1
    rw [e]; exact h2
  refine Sp.seq (sp_requestLoop (R := R) hinj key p (fun q k => q = p ∧ ∃ r ∈ rs, key r = k) t (shuffle rs) [] ?_)
    ((mono_js (R := R) hinj key p rs).and (mono_addrsFor (R := R) hinj f p l vs rs)) (fun s h => ⟨⟨fun r hr => h.1 r ((hsh rs).mem_iff.1 hr), ?_, ?_⟩, h.1, h.2.1⟩)
    (fun _ _ h _ => h) fun _ => ?_
  · exact fun r hr => ⟨rfl, r, (hsh rs).mem_iff.1 hr, rfl⟩
  · intro r hr; cases hr
  · intro q k _; rw [h.2.2.1, h.2.2.2.1]; exact ⟨rfl, rfl⟩
  · refine Sp.pure fun s h => ⟨h.2.2, fun r hr => ?_, fun q k hq => ?_⟩
    · obtain ⟨vals, hi⟩ := h.2.1 r hr
      exact ⟨key r, hi.1, h.1.1 r (by simp [(hsh rs).mem_iff, hr])⟩
    · refine h.1.2 q k fun hT => hq ⟨hT.1, ?_⟩
      obtain ⟨r, hr, rfl⟩ := hT.2
      obtain ⟨vals, hi⟩ := h.2.1 r hr
      exact ⟨r, hr, hi.1⟩

/-- the call an address stands for has a stored result -/
def HasRes (p : PortalId) (r : Nat) (s : PWorld U A) : Prop :=
  ∃ k, RIs s r k p ∧ ((s.ext.results p).data k).isSome

theorem mono_hasRes (p : PortalId) (r : Nat) : Mono addrOf K (HasRes (U := U) p r) := fun s s' e w ⟨k, h1, h2⟩ =>
  ⟨k, mono_ris r k p s s' e w h1, mono_resSome (addrOf := addrOf) (K := K) p k s s' e w h2⟩

theorem HasRes.avail {s : PWorld U A} {p : PortalId} {r : Nat} {f : FnId} {kw : Kw U} {vals : List (String × U)}
    (h : HasRes p r s) (h' : AddrFor addrOf R f p kw vals r s) : Avail addrOf p f kw s := by
  obtain ⟨k, h1, h2⟩ := h
  obtain ⟨ts, h3, h4, _⟩ := h'
  obtain ⟨o, a, b, d⟩ := h1
  obtain ⟨o', a', b', d'⟩ := h4.1
  rw [a] at a'
  cases a'
  rw [b] at b'
  subst b'
  exact ⟨ts, h3, h2⟩

theorem Avail.hasRes {s : PWorld U A} {p : PortalId} {r : Nat} {f : FnId} {kw : Kw U} {vals : List (String × U)}
    (h : Avail addrOf p f kw s) (h' : AddrFor addrOf R f p kw vals r s) : HasRes p r s := by
  obtain ⟨ts, h1, h2⟩ := h
  obtain ⟨ts', h3, h4, _⟩ := h'
  cases h1.unique h3
  exact ⟨_, h4.1, h2⟩

theorem sp_executeLoop (V : List (String × U) → Prop) (hinj : Function.Injective addrOf) (hm : Mode K E prog) (hRE : R → E) (f : FnId) (p : PortalId)
    (hpure : (prog f).isPure = true) (hg : E ∨ PureGuards prog) (n : Nat) (l : List Nat) :
    Sp addrOf K c (fun s => ∀ r ∈ l, SomeAddr addrOf R V f p r s) (executeLoop addrOf prog n l)
      (fun _ s => ∀ r ∈ l, HasRes p r s) (fun e _ => E ∨ ∃ vals, V vals ∧ XAg (refR prog f vals) n e) := by
  induction l with
  | nil => exact Sp.pure fun _ _ r hr => by cases hr
  | cons r l ih =>
    have hmo : Mono addrOf K (fun s => ∀ r ∈ l, SomeAddr addrOf R V f p r s) := fun s s' e w h r hr =>
      mono_someAddr hinj V f p r s s' e w (h r hr)
    refine Sp.seq (P := SomeAddr addrOf R V f p r) (Q := fun _ s => HasRes p r s) (X0 := fun e _ => E ∨ ∃ vals, V vals ∧ XAg (refR prog f vals) n e) ?_ hmo
      (fun s h => ⟨h r (by simp), fun r' hr' => h r' (by simp [hr'])⟩) (fun _ _ h _ => h) fun _ => ?_
    · refine Sp.exI fun kw => Sp.exI fun vals => Sp.gain fun hv => ?_
      exact ((sp_rExecute_for hinj hm hRE f p kw vals r hpure hg n).keep (mono_addrFor (R := R) hinj f p kw vals r)).conseq (fun _ h => ⟨h, h⟩)
        (fun _ _ h => h.1.2.hasRes h.2) (fun _ _ h => h.imp id fun h => ⟨vals, hv, h⟩)
    · refine (ih.keep (mono_hasRes p r)).conseq (fun s h => ⟨h.2, h.1⟩) (fun _ s h r' hr' => ?_) (fun _ _ h => h)
      rcases List.mem_cons.1 hr' with e | e
      · rw [e]; exact h.2
      · exact h.1 r' e

theorem sp_runList (hinj : Function.Injective addrOf) (hm : Mode K E prog) (hRE : R → E) (p : PortalId) (f : FnId)
    (hpure : (prog f).isPure = true) (hg : E ∨ PureGuards prog) (n : Nat) (sh1 sh2 : List Nat → List Nat)
    (h1 : ∀ l, (sh1 l).Perm l) (h2 : ∀ l, (sh2 l).Perm l) (l : List (Kw U)) (vs : List (List (String × U))) (hl : l.length = vs.length) :
    Sp addrOf K c (fun s => R ∨ List.Forall₂ (fun kw vals => DenKw addrOf s kw vals) l vs)
      (runList addrOf prog n sh1 sh2 p f l)
      (fun rs s => AddrsFor addrOf R f p l vs rs s ∧ ∀ r ∈ rs, HasRes p r s) (fun e _ => E ∨ ∃ vals, vals ∈ vs ∧ XAg (refR prog f vals) n e) := by
  refine Sp.withP (fun _ _ _ _ _ _ h => h) (fun _ _ _ _ _ _ _ h => h) (fun _ => fr_const _) ?_
  have g : Sp addrOf K (some p) (fun s => R ∨ List.Forall₂ (fun kw vals => DenKw addrOf s kw vals) l vs)
      (swarmList addrOf sh1 p f l) (fun rs s => AddrsFor addrOf R f p l vs rs s) (fun e _ => E ∨ ∃ vals, vals ∈ vs ∧ XAg (refR prog f vals) n e) := by
    intro s ho hw hc hp
    have h := sp_swarmList (K := K) (R := R) hinj p f sh1 h1 l vs hl s s ho hw hc ⟨hp, sameFree.refl s⟩
    exact ⟨h.1, fun a ha => (h.2.1 a ha).1, fun e he => .inl (hRE (h.2.2 e he))⟩
  refine Sp.bind g fun rs => ?_
  refine Sp.seq (sp_executeLoop (· ∈ vs) hinj hm hRE f p hpure hg n (sh2 rs)) (mono_addrsFor (R := R) hinj f p l vs rs)
    (fun s h => ⟨fun r hr => h.each r ((h2 rs).mem_iff.1 hr), h⟩) (fun _ _ h _ => h) fun _ => Sp.pure fun s h => ⟨h.2, fun r hr => h.1 r ((h2 rs).mem_iff.2 hr)⟩

end Pyth.Pure
