import Verif.Proofs.PureReady
/-! Operations that run no code leave the run history alone. -/
set_option linter.unusedSectionVars false
set_option linter.unusedVariables false
set_option linter.unusedSimpArgs false
namespace Pyth.Pure
open Pyth.World Pyth.Portal

variable {U A α β : Type} [DecidableEq U] [DecidableEq A] {addrOf : Val U A → A}
  {K : Accept U} {c : Option PortalId}
  {P P' F G : PWorld U A → Prop} {X X0 : Kind → PWorld U A → Prop}

/-- run history, running frames, output and trace -/
structure Hist (U A : Type) where
  attempts : PortalId → Key A → List Nat
  outputs : PortalId → Key A → List (Nat × List String)
  resultRecs : PortalId → Key A → List (Nat × A)
  crashRecs : PortalId → Key A → List (Nat × Nat)
  frames : PortalId → FnId → List (Nat × Key A)
  caps : List (List String)
  screen : List String
  nextRun : Nat
  pCfg : PortalId → Option Rat
  trace : List (Event U)

def hist (s : PWorld U A) : Hist U A :=
  ⟨s.ext.attempts, s.ext.outputs, s.ext.resultRecs, s.ext.crashRecs, s.ext.frames, s.ext.caps, s.ext.screen,
    s.ext.nextRun, s.ext.pCfg, s.ext.trace⟩

def Quiet (s s' : PWorld U A) : Prop := hist s' = hist s

theorem quietFree : CtxFree (Quiet : PWorld U A → PWorld U A → Prop) where
  refl _ := rfl
  trans a b := Eq.trans b a
  frame _ _ _ _ _ _ := rfl

theorem Resp.quiet {m : PM U A α} (h : Resp Low m) : Resp Quiet m := fun s => by
  unfold Quiet hist; rw [(h s).ext]

theorem Sp.quiet {m : PM U A α} {Q : α → PWorld U A → Prop} (h : Sp addrOf K c P m Q X) (hq : Resp Quiet m)
    (H : Hist U A) : Sp addrOf K c (fun s => P s ∧ hist s = H) m (fun a s => Q a s ∧ hist s = H)
      (fun k s => X k s ∧ hist s = H) := fun s a b d e =>
  have := h s a b d e.1
  have hh : hist (m s).2 = H := (hq s).trans e.2
  ⟨this.1, fun x y => ⟨this.2.1 x y, hh⟩, fun x y => ⟨this.2.2 x y, hh⟩⟩

open ValueAddr

theorem low_conv (i : Nat) (p : Option PortalId) : Resp Low (conv i p : PM U A Nat) :=
  resp_conv lowFree low_storeSet (fun i _ => low_upd i _) (fun i => low_upd i _) low_alloc i p
theorem low_vget (i : Nat) : Resp Low (ValueAddr.get i : PM U A (Val U A)) :=
  resp_get lowFree low_storeSet (fun i _ => low_upd i _) i
theorem low_fromStrings (a : A) (p : Option PortalId) (b : Bool) :
    Resp Low (fromStrings a p b : PM U A Nat) :=
  resp_fromStrings lowFree low_storeSet (fun i _ => low_upd i _) (fun i => low_upd i _) low_alloc a p b

theorem low_getUser (i : Nat) : Resp Low (getUser i : PM U A U) := by
  refine Resp.bind lowFree.toPreOrd (low_vget i) fun v => ?_
  cases v <;> first | exact Resp.pure lowFree.toPreOrd _ | exact Resp.raiseNew lowFree _

theorem low_unpack (kw : Kw U) : Resp Low (unpack kw : PM U A (List (String × U))) := by
  induction kw with
  | nil => exact Resp.pure lowFree.toPreOrd _
  | cons x kw ih =>
    obtain ⟨k, v⟩ := x
    cases v with
    | raw u => exact Resp.bind lowFree.toPreOrd ih fun _ => Resp.pure lowFree.toPreOrd _
    | addr i => exact Resp.bind lowFree.toPreOrd (low_getUser i) fun _ => Resp.bind lowFree.toPreOrd ih fun _ => Resp.pure lowFree.toPreOrd _

theorem low_packLoop (kw : Kw U) : Resp Low (packLoop addrOf kw : PM U A (List (String × Nat))) := by
  induction kw with
  | nil => exact Resp.pure lowFree.toPreOrd _
  | cons x kw ih =>
    obtain ⟨k, v⟩ := x
    refine Resp.bind lowFree.toPreOrd ?_ fun _ => Resp.bind lowFree.toPreOrd ih fun _ => Resp.pure lowFree.toPreOrd _
    cases v with
    | raw u => exact low_new _ _
    | addr i => exact low_conv _ _

theorem low_pack (p : PortalId) (kw : Kw U) : Resp Low (pack addrOf p kw) :=
  Resp.withP lowFree p (low_packLoop kw)


theorem low_textsOf (l : List (String × Nat)) : Resp Low (textsOf l : PM U A (List (String × A))) := by
  induction l with
  | nil => exact Resp.pure lowFree.toPreOrd _
  | cons x l ih =>
    obtain ⟨k, i⟩ := x
    exact Resp.bind lowFree.toPreOrd (low_textOf i) fun _ => Resp.bind lowFree.toPreOrd ih fun _ => Resp.pure lowFree.toPreOrd _

theorem low_mkSignature (f : FnId) (p : PortalId) (kw : Kw U) : Resp Low (mkSignature addrOf f p kw) := by
  have b := (lowFree (U := U) (A := A)).toPreOrd
  refine Resp.withP lowFree p ?_
  exact Resp.bind b (low_new _ _) fun _ => Resp.bind b (low_pack _ _) fun _ => Resp.bind b (low_textsOf _) fun _ =>
    Resp.bind b (low_new _ _) fun _ => Resp.bind b (low_textOf _) fun _ => Resp.bind b (low_textOf _) fun _ =>
    Resp.pure b _

theorem quiet_mkRAddr (f : FnId) (p : PortalId) (kw : Kw U) : Resp Quiet (mkRAddr addrOf f p kw) := by
  have b := (quietFree (U := U) (A := A)).toPreOrd
  exact Resp.bind b (Resp.quiet (low_mkSignature _ _ _)) fun _ => Resp.bind b (Resp.quiet (low_new _ _)) fun _ =>
    Resp.bind b (Resp.quiet (low_textOf _)) fun _ => Resp.bind b (Resp.get b) fun _ =>
    Resp.bind b (fun s => rfl) fun _ => Resp.pure b _

theorem quiet_readR (r : Nat) : Resp Quiet (readR r : PM U A (RObj U A)) := by
  intro s
  unfold readR
  split
  · exact rfl
  · exact Resp.raiseNew quietFree _ s

theorem quiet_updR (r : Nat) (f : RObj U A → RObj U A) : Resp Quiet (updR r f : PM U A Unit) := fun s => rfl
theorem quiet_resHas (p : PortalId) (k : Key A) : Resp Quiet (resHas p k : PM U A Bool) := fun s => rfl
theorem quiet_resGet (p : PortalId) (k : Key A) : Resp Quiet (resGet p k : PM U A A) := by
  intro s
  unfold resGet
  split
  · exact rfl
  · exact Resp.raiseNew quietFree _ s
theorem quiet_resSet (p : PortalId) (k : Key A) (a : A) : Resp Quiet (resSet p k a : PM U A Unit) := by
  intro s
  obtain ⟨d, n, h, _⟩ := resSet_run p k a s
  rw [h]; rfl

theorem quiet_rValueAddr (r : Nat) : Resp Quiet (rValueAddr r : PM U A Nat) :=
  Resp.bind quietFree.toPreOrd (quiet_readR r) fun _ => Resp.withP quietFree _ (Resp.quiet (low_fromStrings _ _ _))

theorem quiet_capture : Resp Quiet (capturePortal : PM U A (Option PortalId)) := fun s => rfl

theorem quiet_rSignature (r : Nat) : Resp Quiet (rSignature r : PM U A (Nat × Nat)) := by
  have b := (quietFree (U := U) (A := A)).toPreOrd
  refine Resp.bind b (quiet_rValueAddr r) fun _ => Resp.bind b (Resp.quiet (low_vget _)) fun v => ?_
  cases v with
  | sig f x y =>
    exact Resp.bind b quiet_capture fun _ => Resp.bind b (Resp.quiet (low_alloc _)) fun _ =>
      Resp.bind b (Resp.quiet (low_alloc _)) fun _ => Resp.pure b _
  | user _ => exact Resp.raiseNew quietFree _
  | fn _ => exact Resp.raiseNew quietFree _
  | args _ => exact Resp.raiseNew quietFree _

theorem quiet_rFunction (r : Nat) : Resp Quiet (rFunction r : PM U A FnId) := by
  have b := (quietFree (U := U) (A := A)).toPreOrd
  refine Resp.bind b (quiet_readR r) fun o => ?_
  cases o.fn with
  | some f => exact Resp.pure b _
  | none =>
    refine Resp.withP quietFree _ (Resp.bind b (quiet_rSignature r) fun x => ?_)
    obtain ⟨i, j⟩ := x
    refine Resp.bind b (Resp.quiet (low_vget _)) fun v => ?_
    cases v with
    | fn f => exact Resp.bind b (quiet_updR _ _) fun _ => Resp.pure b _
    | user _ => exact Resp.raiseNew quietFree _
    | sig _ _ _ => exact Resp.raiseNew quietFree _
    | args _ => exact Resp.raiseNew quietFree _

theorem quiet_allocArgs (p : Option PortalId) (l : List (String × A)) :
    Resp Quiet (allocArgs p l : PM U A (Kw U)) := by
  have b := (quietFree (U := U) (A := A)).toPreOrd
  induction l with
  | nil => exact Resp.pure b _
  | cons x l ih => exact Resp.bind b (Resp.quiet (low_alloc _)) fun _ => Resp.bind b ih fun _ => Resp.pure b _

theorem quiet_rArguments (r : Nat) : Resp Quiet (rArguments r : PM U A (Kw U)) := by
  have b := (quietFree (U := U) (A := A)).toPreOrd
  refine Resp.bind b (quiet_readR r) fun o => ?_
  cases o.args with
  | some f => exact Resp.pure b _
  | none =>
    refine Resp.withP quietFree _ (Resp.bind b (quiet_rSignature r) fun x => ?_)
    obtain ⟨i, j⟩ := x
    refine Resp.bind b (Resp.quiet (low_vget _)) fun v => ?_
    cases v with
    | args l =>
      exact Resp.bind b quiet_capture fun _ => Resp.bind b (quiet_allocArgs _ _) fun _ =>
        Resp.bind b (quiet_updR _ _) fun _ => Resp.pure b _
    | user _ => exact Resp.raiseNew quietFree _
    | sig _ _ _ => exact Resp.raiseNew quietFree _
    | fn _ => exact Resp.raiseNew quietFree _

theorem quiet_rKwargs (r : Nat) : Resp Quiet (rKwargs r : PM U A (List (String × U))) := by
  have b := (quietFree (U := U) (A := A)).toPreOrd
  exact Resp.bind b (quiet_readR r) fun o => Resp.withP quietFree _ (Resp.bind b (quiet_rArguments r) fun _ =>
    Resp.quiet (low_unpack _))

theorem quiet_rReadyCurrent (r : Nat) : Resp Quiet (rReadyCurrent r : PM U A Bool) := by
  have b := (quietFree (U := U) (A := A)).toPreOrd
  refine Resp.bind b (quiet_readR r) fun o => Resp.ite (Resp.pure b _) (Resp.withP quietFree _ ?_)
  exact Resp.bind b (quiet_resHas _ _) fun _ => Resp.ite (Resp.bind b (quiet_updR _ _) fun _ => Resp.pure b _) (Resp.pure b _)

theorem quiet_rCopyFrom (r : Nat) (o : RObj U A) (q : PortalId) : Resp Quiet (rCopyFrom addrOf r o q) := by
  have b := (quietFree (U := U) (A := A)).toPreOrd
  refine Resp.bind b (quiet_resGet _ _) fun _ => Resp.bind b (Resp.storeGet quietFree _ _) fun _ =>
    Resp.bind b (Resp.withP quietFree _ ?_) fun _ => quiet_updR _ _
  exact Resp.bind b (Resp.quiet (low_new _ _)) fun _ => Resp.bind b (Resp.quiet (low_textOf _)) fun _ =>
    Resp.bind b (quiet_resSet _ _ _) fun _ => Resp.bind b (quiet_rFunction _) fun _ =>
    Resp.bind b (quiet_rKwargs _) fun _ => Resp.pure b _

theorem quiet_rReadyLoop (r : Nat) (o : RObj U A) (qs : List PortalId) : Resp Quiet (rReadyLoop addrOf r o qs) := by
  have b := (quietFree (U := U) (A := A)).toPreOrd
  induction qs with
  | nil => exact Resp.pure b _
  | cons q qs ih =>
    refine Resp.bind b (Resp.withP quietFree _ ?_) fun _ => Resp.ite (Resp.pure b _) ih
    exact Resp.bind b (quiet_resHas _ _) fun _ => Resp.ite (Resp.bind b (quiet_rCopyFrom _ _ _) fun _ => Resp.pure b _) (Resp.pure b _)

theorem quiet_rReady (r : Nat) : Resp Quiet (rReady addrOf r) := by
  have b := (quietFree (U := U) (A := A)).toPreOrd
  refine Resp.bind b (quiet_readR r) fun o => Resp.ite (Resp.pure b _) (Resp.bind b (quiet_rReadyCurrent r) fun _ => ?_)
  refine Resp.ite (Resp.bind b (quiet_updR _ _) fun _ => Resp.pure b _) (Resp.bind b (Resp.get b) fun _ => ?_)
  refine Resp.bind b (quiet_rReadyLoop _ _ _) fun _ => Resp.ite (Resp.bind b (quiet_updR _ _) fun _ => Resp.pure b _) (Resp.pure b _)

theorem quiet_rDrop (r : Nat) : Resp Quiet (rDrop r : PM U A Unit) :=
  Resp.bind quietFree.toPreOrd (quiet_readR r) fun o => Resp.withP quietFree _ fun s => rfl

theorem quiet_rRequest (r : Nat) : Resp Quiet (rRequest addrOf r) := by
  have b := (quietFree (U := U) (A := A)).toPreOrd
  exact Resp.bind b (quiet_readR r) fun o => Resp.withP quietFree _ (Resp.bind b (quiet_rReady r) fun _ =>
    Resp.ite (quiet_rDrop _) fun s => rfl)

theorem quiet_rGet (r : Nat) : Resp Quiet (rGet addrOf r) := by
  have b := (quietFree (U := U) (A := A)).toPreOrd
  refine Resp.bind b (quiet_readR r) fun o => ?_
  cases o.result with
  | some u => exact Resp.pure b _
  | none =>
    refine Resp.withP quietFree _ (Resp.bind b (quiet_rReady r) fun _ => Resp.ite ?_ ?_)
    · refine Resp.bind b (quiet_resGet _ _) fun _ => Resp.bind b (Resp.storeGet quietFree _ _) fun v => ?_
      cases v with
      | user u => exact Resp.bind b (quiet_updR _ _) fun _ => Resp.pure b _
      | args _ => exact Resp.raiseNew quietFree _
      | sig _ _ _ => exact Resp.raiseNew quietFree _
      | fn _ => exact Resp.raiseNew quietFree _
    · exact Resp.bind b (quiet_rRequest r) fun _ => Resp.raiseNew quietFree _

theorem quiet_drawR : Resp Quiet (drawR : PM U A Rat) := fun s => rfl

end Pyth.Pure
