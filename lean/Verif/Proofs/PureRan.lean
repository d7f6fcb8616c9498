import Verif.Proofs.PureTop
/-! A call whose result is nowhere to be found is executed. -/
set_option linter.unusedSectionVars false
set_option linter.unusedVariables false
set_option linter.unusedSimpArgs false
namespace Pyth.Pure
open Pyth.World Pyth.Portal
open Pyth.ValueAddr (Grow growFree Integ integFree IsAddr HoldsVal Has)

variable {U A α β : Type} [DecidableEq U] [DecidableEq A] {addrOf : Val U A → A}
  {K : Accept U} {c : Option PortalId} {E R S : Prop} {prog : FnId → Fn U}
  {P P' F G : PWorld U A → Prop} {X X0 : Kind → PWorld U A → Prop}

/-- no request and no result is touched, address objects keep key and portal -/
def Same (s s' : PWorld U A) : Prop := s'.ext.requests = s.ext.requests ∧ s'.ext.results = s.ext.results ∧
  ∀ r k p, RIs s r k p → RIs s' r k p

theorem sameFree : CtxFree (Same : PWorld U A → PWorld U A → Prop) where
  refl _ := ⟨rfl, rfl, fun _ _ _ h => h⟩
  trans a b := ⟨b.1.trans a.1, b.2.1.trans a.2.1, fun r k p h => b.2.2 r k p (a.2.2 r k p h)⟩
  frame _ _ _ _ _ _ := ⟨rfl, rfl, fun _ _ _ h => h⟩

theorem Resp.same {m : PM U A α} (h : Resp Low m) : Resp Same m := fun s => by
  unfold Same RIs; rw [(h s).ext]; exact ⟨rfl, rfl, fun _ _ _ h => h⟩

theorem same_mkRAddr (f : FnId) (p : PortalId) (kw : Kw U) : Resp Same (mkRAddr addrOf f p kw) := by
  have b := (sameFree (U := U) (A := A)).toPreOrd
  exact Resp.bind b (Resp.same (low_mkSignature _ _ _)) fun _ => Resp.bind b (Resp.same (low_new _ _)) fun _ =>
    Resp.bind b (Resp.same (low_textOf _)) fun _ => Resp.bind b (Resp.get b) fun _ =>
    Resp.bind b (fun s => ⟨rfl, rfl, fun r k p ⟨o, h1, h2⟩ => ⟨o, by
      show (_ ++ _)[r]? = some o
      rw [List.getElem?_append_left (List.getElem?_eq_some_iff.1 h1).1]; exact h1, h2⟩⟩) fun _ => Resp.pure b _

/-- address object `r` of a call which has no result in any portal -/
def Missing (r : Nat) (k : Key A) (p : PortalId) (s : PWorld U A) : Prop :=
  RIs s r k p ∧ ∀ q, (s.ext.results q).data k = none

theorem fr_missing (r : Nat) (k : Key A) (p : PortalId) : Fr (Missing (U := U) r k p) := fun _ _ _ _ _ _ h => h

theorem sp_read_missing (r : Nat) (k : Key A) (p : PortalId) : Sp addrOf K c (Missing r k p) (readR r : PM U A (RObj U A))
    (fun o s => (o.key = k ∧ o.portal = p ∧ o.ready = false) ∧ Missing r k p s) (fun _ _ => True) := by
  intro s ho hw hc hp
  have h := sp_readK (addrOf := addrOf) (K := K) (c := c) (X := fun _ _ => False) r k p s ho hw hc hp.1
  obtain ⟨o, h1, h2, h3⟩ := hp.1
  have e : readR r s = (.ok o, s) := by unfold readR; rw [h1]
  refine ⟨h.1, fun o' ho' => ?_, fun _ _ => trivial⟩
  rw [e] at ho' ⊢
  cases ho'
  refine ⟨⟨h2, h3, ?_⟩, hp⟩
  cases hr : o.ready with
  | false => rfl
  | true =>
    obtain ⟨_, _, _, _, _, g⟩ := hw.obj r o h1
    have := g (.inl hr)
    rw [h2, hp.2] at this
    cases this

theorem sp_rReadyCurrent_missing (r : Nat) (k : Key A) (p : PortalId) : Sp addrOf K c (Missing r k p)
    (rReadyCurrent r : PM U A Bool) (fun b s => b = false ∧ Missing r k p s) (fun _ _ => True) := by
  refine Sp.bind (sp_read_missing r k p) fun o => Sp.gain fun e => ?_
  obtain ⟨rfl, rfl, hr⟩ := e
  rw [hr]
  simp only [Bool.false_eq_true, if_false]
  refine Sp.withP (fr_missing _ _ _) (fun b => fun _ _ _ _ _ _ h => h) (fun _ => fr_true) ?_
  refine Sp.bind (sp_resHas o.portal o.key) fun b => ?_
  refine Sp.ite (fun hb => ?_) (fun hb => Sp.pure fun s h => ⟨rfl, h.2⟩)
  intro s _ _ _ h
  have h1 := h.1
  rw [h.2.2, hb] at h1
  cases h1

theorem sp_rReadyLoop_missing (r : Nat) (o : RObj U A) (p : PortalId) (l : List PortalId) : Sp addrOf K c (Missing r o.key p)
    (rReadyLoop addrOf r o l) (fun b s => b = false ∧ Missing r o.key p s) (fun _ _ => True) := by
  induction l with
  | nil => exact Sp.pure fun s h => ⟨rfl, h⟩
  | cons q l ih =>
    have h1 : Sp addrOf K c (Missing r o.key p) (withP q (do
      let h ← resHas q o.key
      if h then do
        rCopyFrom addrOf r o q
        pure true
      else pure false)) (fun b s => b = false ∧ Missing r o.key p s) (fun _ _ => True) := by
      refine Sp.withP (fr_missing _ _ _) (fun b => fun _ _ _ _ _ _ h => h) (fun _ => fr_true) ?_
      refine Sp.bind (sp_resHas q o.key) fun b => ?_
      refine Sp.ite (fun hb => ?_) (fun hb => Sp.pure fun s h => ⟨rfl, h.2⟩)
      intro s _ _ _ h
      have h1 := h.1
      rw [h.2.2, hb] at h1
      cases h1
    refine Sp.bind h1 fun b => Sp.gain fun eb => ?_
    subst eb
    simp only [Bool.false_eq_true, if_false]
    exact ih

theorem sp_rReady_missing (r : Nat) (k : Key A) (p : PortalId) : Sp addrOf K c (Missing r k p)
    (rReady addrOf r) (fun b s => b = false) (fun _ _ => True) := by
  refine Sp.bind (sp_read_missing r k p) fun o => Sp.gain fun e => ?_
  obtain ⟨rfl, rfl, hr⟩ := e
  rw [hr]
  simp only [Bool.false_eq_true, if_false]
  refine Sp.bind (sp_rReadyCurrent_missing r o.key o.portal) fun b => Sp.gain fun eb => ?_
  subst eb
  simp only [Bool.false_eq_true, if_false]
  refine Sp.bind Sp.getS fun s0 => ?_
  refine Sp.bind ((sp_rReadyLoop_missing r o o.portal (noncurrentList s0)).pre fun s h => h.2) fun b => Sp.gain fun eb => ?_
  subst eb
  simp only [Bool.false_eq_true, if_false]
  exact Sp.pure fun s h => rfl

/-- the call has no result in any portal -/
def Nowhere (addrOf : Val U A → A) (f : FnId) (kw : Kw U) (s : PWorld U A) : Prop :=
  ∃ ts, Match addrOf s (sortKw kw) ts ∧ ∀ q, (s.ext.results q).data (f, sigText addrOf f ts) = none

theorem Sp.nowhere {m : PM U A α} {Q : α → PWorld U A → Prop} (h : Sp addrOf K c P m Q X) (hs : Resp Same m) (N : Prop)
    (f : FnId) (kw : Kw U) : Sp addrOf K c (fun s => P s ∧ (N → Nowhere addrOf f kw s)) m
      (fun a s => Q a s ∧ (N → Nowhere addrOf f kw s)) X := fun s a b d e =>
  have := h s a b d e.1
  ⟨this.1, fun x y => ⟨this.2.1 x y, fun hn => (by
    obtain ⟨ts, h1, h2⟩ := e.2 hn
    exact ⟨ts, h1.grow this.1.ev.grow, fun q => (by rw [(hs s).2.1]; exact h2 q)⟩)⟩, this.2.2⟩

end Pyth.Pure
