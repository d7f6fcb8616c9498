import Verif.Spec.AddrInfo
import Verif.Proofs.PureMain
/-! Questions about a call: the answers, and that asking changes nothing. -/
set_option linter.unusedSectionVars false
set_option linter.unusedVariables false
set_option linter.unusedSimpArgs false
namespace Pyth.Pure
open Pyth.World Pyth.Portal
open Pyth.ValueAddr (Grow growFree Integ integFree IsAddr HoldsVal Has)

variable {U A α β : Type} [DecidableEq U] [DecidableEq A] {addrOf : Val U A → A}
  {K : Accept U} {c : Option PortalId} {E : Prop} {prog : FnId → Fn U}
  {P P' F G : PWorld U A → Prop} {X X0 : Kind → PWorld U A → Prop}

/-- of the state of the pure layer only the address objects change -/
def Peek (s s' : PWorld U A) : Prop := ∃ ra, s'.ext = { s.ext with raddrs := ra }

theorem peekFree : CtxFree (Peek : PWorld U A → PWorld U A → Prop) where
  refl s := ⟨s.ext.raddrs, rfl⟩
  trans := by
    rintro a b c ⟨x, hx⟩ ⟨y, hy⟩
    exact ⟨y, by rw [hy, hx]⟩
  frame s _ _ _ _ _ := ⟨s.ext.raddrs, rfl⟩

theorem Resp.peek {m : PM U A α} (h : Resp Low m) : Resp Peek m := fun s =>
  ⟨s.ext.raddrs, by rw [(h s).ext]⟩

theorem peek_readR (r : Nat) : Resp Peek (readR r : PM U A (RObj U A)) := by
  intro s
  unfold readR
  split
  · exact peekFree.refl s
  · exact Resp.raiseNew peekFree _ s
theorem peek_updR (r : Nat) (f : RObj U A → RObj U A) : Resp Peek (updR r f : PM U A Unit) := fun s => ⟨_, rfl⟩
theorem peek_capture : Resp Peek (capturePortal : PM U A (Option PortalId)) := fun s => peekFree.refl s

theorem peek_rValueAddr (r : Nat) : Resp Peek (rValueAddr r : PM U A Nat) :=
  Resp.bind peekFree.toPreOrd (peek_readR r) fun _ => Resp.withP peekFree _ (Resp.peek (low_fromStrings _ _ _))

theorem peek_rSignature (r : Nat) : Resp Peek (rSignature r : PM U A (Nat × Nat)) := by
  have b := (peekFree (U := U) (A := A)).toPreOrd
  refine Resp.bind b (peek_rValueAddr r) fun _ => Resp.bind b (Resp.peek (low_vget _)) fun v => ?_
  cases v with
  | sig f x y =>
    exact Resp.bind b peek_capture fun _ => Resp.bind b (Resp.peek (low_alloc _)) fun _ =>
      Resp.bind b (Resp.peek (low_alloc _)) fun _ => Resp.pure b _
  | user _ => exact Resp.raiseNew peekFree _
  | fn _ => exact Resp.raiseNew peekFree _
  | args _ => exact Resp.raiseNew peekFree _

theorem peek_rFunction (r : Nat) : Resp Peek (rFunction r : PM U A FnId) := by
  have b := (peekFree (U := U) (A := A)).toPreOrd
  refine Resp.bind b (peek_readR r) fun o => ?_
  cases o.fn with
  | some f => exact Resp.pure b _
  | none =>
    refine Resp.withP peekFree _ (Resp.bind b (peek_rSignature r) fun x => ?_)
    obtain ⟨i, j⟩ := x
    refine Resp.bind b (Resp.peek (low_vget _)) fun v => ?_
    cases v with
    | fn f => exact Resp.bind b (peek_updR _ _) fun _ => Resp.pure b _
    | user _ => exact Resp.raiseNew peekFree _
    | sig _ _ _ => exact Resp.raiseNew peekFree _
    | args _ => exact Resp.raiseNew peekFree _

theorem peek_allocArgs (p : Option PortalId) (l : List (String × A)) :
    Resp Peek (allocArgs p l : PM U A (Kw U)) := by
  have b := (peekFree (U := U) (A := A)).toPreOrd
  induction l with
  | nil => exact Resp.pure b _
  | cons x l ih => exact Resp.bind b (Resp.peek (low_alloc _)) fun _ => Resp.bind b ih fun _ => Resp.pure b _

theorem peek_rArguments (r : Nat) : Resp Peek (rArguments r : PM U A (Kw U)) := by
  have b := (peekFree (U := U) (A := A)).toPreOrd
  refine Resp.bind b (peek_readR r) fun o => ?_
  cases o.args with
  | some f => exact Resp.pure b _
  | none =>
    refine Resp.withP peekFree _ (Resp.bind b (peek_rSignature r) fun x => ?_)
    obtain ⟨i, j⟩ := x
    refine Resp.bind b (Resp.peek (low_vget _)) fun v => ?_
    cases v with
    | args l =>
      exact Resp.bind b peek_capture fun _ => Resp.bind b (peek_allocArgs _ _) fun _ =>
        Resp.bind b (peek_updR _ _) fun _ => Resp.pure b _
    | user _ => exact Resp.raiseNew peekFree _
    | sig _ _ _ => exact Resp.raiseNew peekFree _
    | fn _ => exact Resp.raiseNew peekFree _

theorem peek_rKwargs (r : Nat) : Resp Peek (rKwargs r : PM U A (List (String × U))) := by
  have b := (peekFree (U := U) (A := A)).toPreOrd
  exact Resp.bind b (peek_readR r) fun o => Resp.withP peekFree _ (Resp.bind b (peek_rArguments r) fun _ =>
    Resp.peek (low_unpack _))

theorem peek_rFnName (info : FnInfo) (r : Nat) : Resp Peek (rFnName info r : PM U A String) := by
  have b := (peekFree (U := U) (A := A)).toPreOrd
  refine Resp.bind b (peek_readR r) fun o => Resp.withP peekFree _ ?_
  refine Resp.bind b (peek_rValueAddr r) fun _ => Resp.bind b (Resp.peek (low_vget _)) fun v => ?_
  cases v with
  | sig f x y =>
    exact Resp.bind b peek_capture fun _ => Resp.bind b (Resp.peek (low_alloc _)) fun _ =>
      Resp.bind b (Resp.peek (low_alloc _)) fun _ => Resp.pure b _
  | user _ => exact Resp.raiseNew peekFree _
  | fn _ => exact Resp.raiseNew peekFree _
  | args _ => exact Resp.raiseNew peekFree _

theorem peek_ask (info : FnInfo) (r : Nat) (q : Ask) : Resp Peek (ask info r q : PM U A (Answer U)) := by
  have b := (peekFree (U := U) (A := A)).toPreOrd
  cases q with
  | function => exact Resp.bind b (peek_rFunction r) fun _ => Resp.pure b _
  | fn =>
    exact Resp.bind b (Resp.bind b (peek_readR r) fun _ => Resp.withP peekFree _ (peek_rFunction r)) fun _ => Resp.pure b _
  | fnName => exact Resp.bind b (peek_rFnName info r) fun _ => Resp.pure b _
  | fnSourceCode =>
    exact Resp.bind b (Resp.bind b (peek_readR r) fun _ => Resp.withP peekFree _ (Resp.bind b (peek_rFunction r) fun _ =>
      Resp.pure b _)) fun _ => Resp.pure b _
  | islandName =>
    exact Resp.bind b (Resp.bind b (peek_readR r) fun _ => Resp.withP peekFree _ (Resp.bind b (peek_rFunction r) fun _ =>
      Resp.pure b _)) fun _ => Resp.pure b _
  | arguments => exact Resp.bind b (peek_rArguments r) fun _ => Resp.pure b _
  | kwargs => exact Resp.bind b (peek_rKwargs r) fun _ => Resp.pure b _
  | requested =>
    exact Resp.bind b (Resp.bind b (peek_readR r) fun _ => Resp.withP peekFree _ (fun s => peekFree.refl s)) fun _ => Resp.pure b _

/-! ### the answers -/

/-- reading the attributes of a known object, keeping what is known about it -/
theorem sp_readRD (hinj : Function.Injective addrOf) (r : Nat) (f : FnId) (vals : List (String × U)) (p : PortalId) :
    Sp addrOf K c (fun s => RD addrOf s r f vals p) (readR r : PM U A (RObj U A))
      (fun o s => (o.key = callKey addrOf f vals ∧ o.portal = p) ∧ RD addrOf s r f vals p) (fun _ _ => False) := by
  refine ((sp_readK (X := fun _ _ => False) r (callKey addrOf f vals) p).keep (mono_rd hinj r f vals p)).conseq
    (fun s h => ⟨h.ris, h⟩) (fun o s h => ⟨h.1.1, h.2⟩) (fun _ _ h => h)

theorem sp_rFn_rd (hinj : Function.Injective addrOf) (r : Nat) (f : FnId) (vals : List (String × U)) (p : PortalId) :
    Sp addrOf K c (fun s => RD addrOf s r f vals p) (rFn r : PM U A FnId) (fun g _ => g = f) (fun _ _ => False) := by
  refine Sp.bind (sp_readRD hinj r f vals p) fun o => Sp.gain fun e => ?_
  exact Sp.withP (fr_rd _ _ _ _) (fun _ _ _ _ _ _ _ h => h) (fun _ => fr_false) (sp_rFunction_rd hinj r f vals p)

theorem sp_rSource_rd (hinj : Function.Injective addrOf) (info : FnInfo) (r : Nat) (f : FnId) (vals : List (String × U)) (p : PortalId) :
    Sp addrOf K c (fun s => RD addrOf s r f vals p) (rSource info r : PM U A String) (fun t _ => t = info.source f) (fun _ _ => False) := by
  refine Sp.bind (sp_readRD hinj r f vals p) fun o => Sp.gain fun e => ?_
  refine Sp.withP (fr_rd _ _ _ _) (fun _ _ _ _ _ _ _ h => h) (fun _ => fr_false) ?_
  exact Sp.bind (sp_rFunction_rd hinj r f vals p) fun g => Sp.pure fun s h => by rw [h]

theorem sp_rIsland_rd (hinj : Function.Injective addrOf) (info : FnInfo) (r : Nat) (f : FnId) (vals : List (String × U)) (p : PortalId) :
    Sp addrOf K c (fun s => RD addrOf s r f vals p) (rIsland info r : PM U A String) (fun t _ => t = info.island f) (fun _ _ => False) := by
  refine Sp.bind (sp_readRD hinj r f vals p) fun o => Sp.gain fun e => ?_
  refine Sp.withP (fr_rd _ _ _ _) (fun _ _ _ _ _ _ _ h => h) (fun _ => fr_false) ?_
  exact Sp.bind (sp_rFunction_rd hinj r f vals p) fun g => Sp.pure fun s h => by rw [h]

theorem sp_rSigAddr (hinj : Function.Injective addrOf) (r : Nat) (f : FnId) (vals : List (String × U)) (p : PortalId) :
    Sp addrOf K c (fun s => RD addrOf s r f vals p) (rValueAddr r : PM U A Nat)
      (fun i s => IsAddr s i (addrOf (sigVal addrOf f vals)) (some p) ∧
        HoldsVal s p (addrOf (sigVal addrOf f vals)) (sigVal addrOf f vals)) (fun _ _ => False) :=
  ((sp_rValueAddr_held r (callKey addrOf f vals) p (sigVal addrOf f vals)).keep (mono_rd hinj r f vals p)).conseq
    (fun s h => ⟨⟨h.ris, h.choose_spec.2.2.2.2.1⟩, h⟩) (fun i s h => ⟨h.1, h.2.choose_spec.2.2.2.2.1⟩) (fun _ _ h => h)

theorem sp_rFnName_rd (hinj : Function.Injective addrOf) (info : FnInfo) (r : Nat) (f : FnId) (vals : List (String × U)) (p : PortalId) :
    Sp addrOf K c (fun s => RD addrOf s r f vals p) (rFnName info r : PM U A String) (fun t _ => t = info.name f) (fun _ _ => False) := by
  refine Sp.bind (sp_readRD hinj r f vals p) fun o => Sp.gain fun e => ?_
  rw [e.2]
  refine Sp.withP (fr_rd _ _ _ _) (fun _ _ _ _ _ _ _ h => h) (fun _ => fr_false) ?_
  refine Sp.bind (sp_rSigAddr hinj r f vals p) fun i => ?_
  refine Sp.bind (sp_get_held hinj i (sigVal addrOf f vals) p) fun v => ?_
  refine (Sp.gain (B := v = sigVal addrOf f vals) (P := fun _ => True) fun e => ?_).pre fun s h => ⟨h, trivial⟩
  subst e
  refine Sp.bind (sp_capture p (P := fun _ => True)) fun q => Sp.gain fun e => ?_
  subst e
  refine Sp.bind (sp_alloc { chain := addrOf (.fn f), portal := some p } rfl) fun i => ?_
  refine Sp.bind ((sp_alloc { chain := addrOf (.args (texts addrOf vals)), portal := some p } rfl).pre fun _ _ => trivial) fun i => ?_
  exact Sp.pure fun s h => rfl

theorem sp_rRequested_rd (r : Nat) (k : Key A) (p : PortalId) (b : Bool) :
    Sp addrOf K c (fun s => RIs s r k p ∧ s.ext.requests p k = b) (rRequested r : PM U A Bool)
      (fun t _ => t = b) (fun _ _ => False) := by
  refine Sp.bind (Q := fun o s => (o.key = k ∧ o.portal = p) ∧ s.ext.requests p k = b) ?_ fun o => Sp.gain fun e => ?_
  · rintro s ho hw hc ⟨⟨o, h1, h2, h3⟩, hb⟩
    have e : (readR r : PM U A (RObj U A)) s = (.ok o, s) := by unfold readR; rw [h1]
    rw [e]
    exact ⟨.refl hw, fun x hx => (by cases hx; exact ⟨⟨h2, h3⟩, hb⟩), fun _ hx => (by cases hx)⟩
  · rw [e.1, e.2]
    refine Sp.withP (fun _ _ _ _ _ _ h => h) (fun _ _ _ _ _ _ _ h => h) (fun _ => fr_false) ?_
    exact fun s ho hw hc hb => ⟨.refl hw, fun x hx => (by cases hx; exact hb), fun _ hx => (by cases hx)⟩

theorem sp_ask (hinj : Function.Injective addrOf) (info : FnInfo) (r : Nat) (f : FnId) (vals : List (String × U)) (p : PortalId)
    (b : Bool) (q : Ask) :
    Sp addrOf K c (fun s => RD addrOf s r f vals p ∧ s.ext.requests p (callKey addrOf f vals) = b) (ask info r q : PM U A (Answer U))
      (fun x s => Right addrOf info s f vals b q x ∧ RD addrOf s r f vals p) (fun _ _ => False) := by
  have key : Sp addrOf K c (fun s => RD addrOf s r f vals p ∧ s.ext.requests p (callKey addrOf f vals) = b) (ask info r q : PM U A (Answer U))
      (fun x s => Right addrOf info s f vals b q x) (fun _ _ => False) := by
    cases q with
    | function => exact Sp.bind ((sp_rFunction_rd hinj r f vals p).pre fun s h => h.1) fun x => Sp.pure fun s h => congrArg _ h
    | fn => exact Sp.bind ((sp_rFn_rd hinj r f vals p).pre fun s h => h.1) fun x => Sp.pure fun s h => congrArg _ h
    | fnName => exact Sp.bind ((sp_rFnName_rd hinj info r f vals p).pre fun s h => h.1) fun x => Sp.pure fun s h => congrArg _ h
    | fnSourceCode => exact Sp.bind ((sp_rSource_rd hinj info r f vals p).pre fun s h => h.1) fun x => Sp.pure fun s h => congrArg _ h
    | islandName => exact Sp.bind ((sp_rIsland_rd hinj info r f vals p).pre fun s h => h.1) fun x => Sp.pure fun s h => congrArg _ h
    | arguments => exact Sp.bind ((sp_rArguments_rd hinj r f vals p).pre fun s h => h.1) fun x => Sp.pure fun s h => ⟨x, rfl, h⟩
    | kwargs => exact Sp.bind ((sp_rKwargs_rd hinj r f vals p).pre fun s h => h.1) fun x => Sp.pure fun s h => congrArg _ h
    | requested =>
      exact Sp.bind ((sp_rRequested_rd r (callKey addrOf f vals) p b).pre fun s h => ⟨h.1.ris, h.2⟩) fun x => Sp.pure fun s h => congrArg _ h
  exact (key.keep (mono_rd hinj r f vals p)).conseq (fun s h => ⟨h, h.1⟩) (fun x s h => h) (fun _ _ h => h)

/-- what is known about an address object stays true during any session -/
theorem RD.onlyReq {s t : PWorld U A} (h : OnlyReq s t) {r : Nat} {f : FnId} {vals : List (String × U)} {p : PortalId}
    (hr : RD addrOf s r f vals p) : RD addrOf t r f vals p := by
  obtain ⟨rq, e⟩ := h.ext
  have h1 := h.store
  have h2 := h.heap
  obtain ⟨o, a1, a2, a3, a4, a5⟩ := hr
  refine ⟨o, by rw [e]; exact a1, a2, a3, fun l hl => (a4 l hl).keep h.keep, ?_⟩
  obtain ⟨b1, b2, b3, b4⟩ := a5
  have g := h.keep.grow.store
  exact ⟨g _ _ _ b1, g _ _ _ b2, g _ _ _ b3, fun x hx => g _ _ _ (b4 x hx)⟩

theorem session_rd (hinj : Function.Injective addrOf) (hm : Mode K E prog) (ops : List (POp U A)) {s : PWorld U A}
    (hs : Good addrOf K s) (hl : LegalAll addrOf prog K s ops) (hd : E ∨ LegalDetAll addrOf prog s ops)
    {r : Nat} {f : FnId} {vals : List (String × U)} {p : PortalId} (hr : RD addrOf s r f vals p) :
    RD addrOf (session addrOf prog s ops) r f vals p := by
  induction ops generalizing s with
  | nil => exact hr
  | cons op ops ih =>
    have h1 := keep_legal hinj hm hs op hl.1 (hd.imp id fun h => h.1)
    refine ih h1.1 hl.2 (hd.imp id fun h => h.2) ?_
    by_cases hnd : op.drops
    · cases op with
      | rdrop r => exact hr.onlyReq (rDrop_eq hs r).2
      | foreignDrop p k => exact RD.onlyReq ⟨rfl, rfl, rfl, _, rfl⟩ hr
      | _ => exact hnd.elim
    · have h2 := step_legal hinj hm hs op hl.1 (hd.imp id fun h => h.1) hnd
      exact mono_rd hinj r f vals p _ _ h2.ev h2.good.w hr

/-- the address made by `get_address` -/
theorem sp_getAddress_rd (hinj : Function.Injective addrOf) (p : PortalId) (f : FnId) (kw : Kw U) (vals : List (String × U)) :
    Sp addrOf K c (fun s => DenKw addrOf s kw vals) (getAddress addrOf p f kw)
      (fun r s => RD addrOf s r f (sortKw vals) p) (fun _ _ => False) := by
  refine (sp_getAddress_new (K := K) (c := c) hinj p f kw vals).conseq (fun _ h => h) (fun r s h => ?_) (fun _ _ h => h)
  obtain ⟨_, ts, _, ⟨_, h2⟩, h3⟩ := h
  exact (h2.resolve_left id).2

/-- an address rebuilt from its text -/
theorem rd_fromKey {s : PWorld U A} {p : PortalId} {f : FnId} {vals : List (String × U)}
    (hb : Backed addrOf s p f vals) : RD addrOf (rFromKey p (callKey addrOf f vals) s).2 s.ext.raddrs.length f vals p :=
  ⟨{ key := callKey addrOf f vals, portal := p }, List.getElem?_concat_length .., rfl, rfl, fun l h => (by cases h), hb⟩

/-- any sequence of questions -/
theorem askAll_spec (hinj : Function.Injective addrOf) (info : FnInfo) {s : PWorld U A} (hs : Good addrOf K s)
    {r : Nat} {f : FnId} {vals : List (String × U)} {p : PortalId} (hr : RD addrOf s r f vals p) (qs : List Ask) :
    Good addrOf K (askAll info r qs s) ∧ RD addrOf (askAll info r qs s) r f vals p ∧ Peek s (askAll info r qs s) := by
  induction qs generalizing s with
  | nil => exact ⟨hs, hr, peekFree.refl s⟩
  | cons q qs ih =>
    have h := (sp_ask (K := K) (c := none) hinj info r f vals p (s.ext.requests p (callKey addrOf f vals)) q).at hs ⟨hr, rfl⟩
    have hg := h.1.good hs
    obtain ⟨h1, h2, h3⟩ := ih hg (mono_rd hinj r f vals p _ _ h.1.ev hg.w hr)
    exact ⟨h1, h2, peekFree.trans (peek_ask info r q s) h3⟩

/-! ### address objects as data -/

theorem low_adopt (j : Nat) (p : PortalId) : Resp Low (adopt j p : PM U A Nat) := by
  have b := (lowFree (U := U) (A := A)).toPreOrd
  refine Resp.bind b (low_readObj j) fun d => Resp.bind b (low_alloc _) fun i => Resp.bind b (Resp.storeHas lowFree p _) fun h => ?_
  refine Resp.ite (Resp.bind b (low_vget j) fun _ => Resp.bind b (low_storeSet _ _ _) fun _ => Resp.bind b (low_upd _ _) fun _ => Resp.pure b _)
    (Resp.bind b (low_upd _ _) fun _ => Resp.pure b _)

theorem low_readR (r : Nat) : Resp Low (readR r : PM U A (RObj U A)) := by
  intro s
  unfold readR
  split
  · exact lowFree.refl s
  · exact Resp.raiseNew lowFree _ s

theorem low_rValueAddr (r : Nat) : Resp Low (rValueAddr r : PM U A Nat) :=
  Resp.bind lowFree.toPreOrd (low_readR r) fun _ => Resp.withP lowFree _ (low_fromStrings _ _ _)

theorem low_vaOfR (r : Nat) : Resp Low (vaOfR r : PM U A Nat) := by
  have b := (lowFree (U := U) (A := A)).toPreOrd
  exact Resp.bind b (Resp.bestPortal lowFree _) fun p => Resp.withP lowFree _ (Resp.bind b (low_rValueAddr r) fun j => low_adopt j p)

/-- `ValueAddr(addr)` of the address of a call is an address of its signature -/
theorem sp_vaOfR (hinj : Function.Injective addrOf) (r : Nat) (f : FnId) (vals : List (String × U)) (p q : PortalId) :
    Sp addrOf K (some q) (fun s => RD addrOf s r f vals p) (vaOfR r : PM U A Nat)
      (fun i s => IsAddr s i (addrOf (sigVal addrOf f vals)) (some q) ∧
        HoldsVal s q (addrOf (sigVal addrOf f vals)) (sigVal addrOf f vals)) (fun _ _ => False) := by
  refine Sp.bind (sp_bestPortal q) fun q' => Sp.gain fun e => ?_
  subst e
  refine Sp.withP (fr_rd _ _ _ _) (fun _ _ _ _ _ _ _ h => h) (fun _ => fr_false) ?_
  exact Sp.bind (sp_rSigAddr hinj r f vals p) fun j => sp_convBody_held hinj j (sigVal addrOf f vals) p q'

theorem sp_packR (hinj : Function.Injective addrOf) (r : Nat) (f : FnId) (vals : List (String × U)) (p q : PortalId) :
    Sp addrOf K c (fun s => RD addrOf s r f vals p) (packR q r : PM U A Nat)
      (fun i s => IsAddr s i (addrOf (sigVal addrOf f vals)) (some q) ∧
        HoldsVal s q (addrOf (sigVal addrOf f vals)) (sigVal addrOf f vals)) (fun _ _ => False) :=
  Sp.withP (fr_rd _ _ _ _) (fun _ _ _ _ _ _ _ h => h) (fun _ => fr_false) (sp_vaOfR hinj r f vals p q)

/-! ### the end of a call whose code returned an arbitrary object -/

/-- values, objects and results are the same -/
structure SameData (s s' : PWorld U A) : Prop where
  store : s'.store = s.store
  heap : s'.heap = s.heap
  results : s'.ext.results = s.ext.results
  raddrs : s'.ext.raddrs = s.ext.raddrs

theorem sameDataFree : CtxFree (SameData : PWorld U A → PWorld U A → Prop) where
  refl s := ⟨rfl, rfl, rfl, rfl⟩
  trans h h' := ⟨h'.store.trans h.store, h'.heap.trans h.heap, h'.results.trans h.results, h'.raddrs.trans h.raddrs⟩
  frame s _ _ _ _ _ := ⟨rfl, rfl, rfl, rfl⟩

theorem rDrop_run {s : PWorld U A} (ho : Ok s) {r : Nat} {o : RObj U A} (hr : s.ext.raddrs[r]? = some o) :
    ∃ s', (rDrop r : PM U A Unit) s = (.ok (), s') ∧ SameData s s' ∧ Ok s' := by
  have hk : Keeps (modExt (fun x => { x with requests := upd2 x.requests o.portal o.key false }) : PM U A Unit) := fun s _ => ⟨rfl, rfl, rfl, List.prefix_rfl⟩
  have e : (rDrop r : PM U A Unit) s = withP o.portal (modExt (fun x => { x with requests := upd2 x.requests o.portal o.key false })) s := by
    unfold rDrop
    rw [PyM.run_bind]
    unfold readR
    rw [hr]
  have hs : SameData s (withP o.portal (modExt (fun x => { x with requests := upd2 x.requests o.portal o.key false })) s).2 :=
    Resp.withP sameDataFree o.portal (fun s => ⟨rfl, rfl, rfl, rfl⟩) s
  have hc := (Keeps.withP o.portal hk s ho).ok ho
  rw [e]
  rw [withP_eq o.portal _ s ho hk] at hs hc ⊢
  exact ⟨_, rfl, hs, hc⟩

theorem finish_run {t t1 : PWorld U A} {p : PortalId} {ri run : Nat} {conduct : Bool} {ret : Ret U} {ra : Nat} {a : A} {v : Val U A} {k : Key A}
    (e : vaOfRet addrOf ret t = (.ok ra, t1)) (hl : t1.ext = t.ext) (ho : Ok t1) (ha : IsAddr t1 ra a (some p)) (hv : HoldsVal t1 p a v)
    (hr : RIs t ri k p) (hn : (t.ext.results p).data k = none) :
    ∃ s2, finish addrOf p ri run conduct (t.ext.results p).pCheck ret t = (.ok ret, s2) ∧ Ok s2 ∧ (s2.ext.results p).data k = some a ∧
      HoldsVal s2 p a v ∧ RIs s2 ri k p := by
  obtain ⟨oa, a1, a2, a3⟩ := ha
  obtain ⟨o, b1, b2, b3⟩ := hr
  have e2 : (textOf ra : PM U A A) t1 = (.ok a, t1) := by
    unfold textOf; rw [PyM.run_bind, ValueAddr.readObj_run ra oa t1 a1]; show (Except.ok oa.chain, t1) = _; rw [a2]
  have e3 : (readR ri : PM U A (RObj U A)) t1 = (.ok o, t1) := by unfold readR; rw [hl, b1]
  let t2 : PWorld U A := (registerResult o run a t1).2
  have e4 : (registerResult o run a : PM U A Unit) t1 = (.ok (), t2) := rfl
  have hres : (t2.ext.results p) = (t.ext.results p) := by
    show t1.ext.results p = _; rw [hl]
  obtain ⟨d, nx, h1, h2, h3, h4, _⟩ := storeResult_run p k a conduct t2
  rw [hres] at h1 h2 h3 h4
  have h4' := h4 (.inl hn)
  have e5 : storeResult p k a conduct (t.ext.results p).pCheck t2 = (.ok (), { t2 with
        nd := t2.nd + 1, nextExc := nx
        ext := { t2.ext with results := fun q => if q = p then d else t2.ext.results q } }) := Prod.ext h4' h1
  have ho2 : Ok ({ t2 with
        nd := t2.nd + 1, nextExc := nx
        ext := { t2.ext with results := fun q => if q = p then d else t2.ext.results q } } : PWorld U A) := ho
  obtain ⟨s2, e6, hs, hos⟩ := rDrop_run ho2 (r := ri) (o := o) (by show t1.ext.raddrs[ri]? = _; rw [hl]; exact b1)
  refine ⟨s2, ?_, hos, ?_, ?_, ⟨o, ?_, b2, b3⟩⟩
  · unfold finish
    rw [PyM.run_bind, e]; simp only
    rw [PyM.run_bind, e2]; simp only
    rw [PyM.run_bind, e3]; simp only
    rw [PyM.run_bind, e4]; simp only
    rw [PyM.run_bind, b2, e5]; simp only
    rw [PyM.run_bind, e6]; rfl
  · rw [hs.results]; simp [h2, hn]
  · unfold HoldsVal; rw [hs.store]; exact hv
  · rw [hs.raddrs]; show t1.ext.raddrs[ri]? = _; rw [hl]; exact b1

theorem rGetStored_run {s : PWorld U A} (ho : Ok s) {r : Nat} {k : Key A} {p : PortalId} {a : A} {v : Val U A} (hr : RIs s r k p)
    (ha : (s.ext.results p).data k = some a) (hv : HoldsVal s p a v) : ∃ s', (rGetStored r : PM U A (Val U A)) s = (.ok v, s') := by
  obtain ⟨o, b1, rfl, rfl⟩ := hr
  have hk : Keeps (do let a ← resGet o.portal o.key; storeGet o.portal a : PM U A (Val U A)) := by
    refine Keeps.bind (fun s hs => ?_) fun a => Keeps.storeGet _ _
    unfold resGet
    split
    · exact .refl s
    · exact Keeps.raiseNew _ s hs
  have e : (rGetStored r : PM U A (Val U A)) s = withP o.portal (do let a ← resGet o.portal o.key; storeGet o.portal a) s := by
    unfold rGetStored
    rw [PyM.run_bind]
    unfold readR
    rw [b1]
  obtain ⟨_, _, _, _, h5, _, h7, _⟩ := inside_ok o.portal s ho
  rw [e, withP_eq o.portal _ s ho hk, PyM.run_bind]
  have e2 : (resGet o.portal o.key : PM U A A) (inside o.portal s) = (.ok a, inside o.portal s) := by
    unfold resGet; rw [h7, ha]
  rw [e2]
  have e3 : (storeGet o.portal a : PM U A (Val U A)) (inside o.portal s) = (.ok v, inside o.portal s) := by
    unfold storeGet; rw [h5]; unfold HoldsVal at hv; rw [hv]
  simp only [e3]
  exact ⟨_, rfl⟩

end Pyth.Pure
