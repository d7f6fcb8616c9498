import Verif.Proofs.PureBatch
/-! Looking for results and requesting executions does not invent results. -/
set_option linter.unusedSectionVars false
set_option linter.unusedVariables false
namespace Pyth.Pure
open Pyth.World Pyth.Portal

variable {U A α β : Type} [DecidableEq U] [DecidableEq A] {addrOf : Val U A → A} {k : Key A}

/-- no portal has a result of the call -/
def NoneAt (k : Key A) (s : PWorld U A) : Prop := ∀ q, (s.ext.results q).data k = none

theorem fr_noneAt : Fr (NoneAt (U := U) k) := fun _ _ _ _ _ _ h => h

/-- the computation does not create results of the call -/
abbrev NoNew (k : Key A) (m : PM U A α) : Prop := Hoare (NoneAt k) m (fun _ => NoneAt k) (NoneAt k)

theorem noNew_same {m : PM U A α} (h : Resp Same m) : NoNew k m := by
  have : ∀ s, NoneAt k s → NoneAt k (m s).2 := fun s hs q => by rw [(h s).2.1]; exact hs q
  refine fun s hs => ⟨fun a s' e => ?_, fun e s' h' => ?_⟩
  · have := this s hs; rw [e] at this; exact this
  · have := this s hs; rw [h'] at this; exact this

theorem noNew_withP {m : PM U A α} (q : PortalId) (h : NoNew k m) : NoNew k (withP q m) :=
  Hoare.withP q fr_noneAt (fun _ => fr_noneAt) fr_noneAt (fun _ h => h) (fun _ _ h => h) h

theorem noNew_resSet (p : PortalId) (k' : Key A) (hk : k' ≠ k) (a : A) : NoNew k (resSet p k' a : PM U A Unit) := by
  have : ∀ s : PWorld U A, NoneAt k s → NoneAt k (resSet p k' a s).2 := by
    intro s hs
    obtain ⟨d, n, h, hd, _⟩ := resSet_run p k' a s
    rw [h]
    intro q
    show (if q = p then d else s.ext.results q).data k = _
    split
    · next e =>
      subst e
      rw [hd]
      simp [hk.symm, hs q]
    · exact hs q
  refine fun s hs => ⟨fun a s' e => ?_, fun e s' h' => ?_⟩
  · have := this s hs; rw [e] at this; exact this
  · have := this s hs; rw [h'] at this; exact this

theorem noNew_resGet (q : PortalId) (k' : Key A) : Hoare (NoneAt k) (resGet q k' : PM U A A)
    (fun _ s => k' ≠ k ∧ NoneAt k s) (NoneAt k) := by
  intro s hs
  have h := noNew_same (k := k) (same_resGet (U := U) q k') s hs
  refine ⟨fun a s' e => ⟨fun hk => ?_, h.1 a s' e⟩, h.2⟩
  subst hk
  unfold resGet at e
  rw [hs q] at e
  cases e

theorem noNew_rCopyFrom (r : Nat) (o : RObj U A) (q : PortalId) : NoNew k (rCopyFrom addrOf r o q) := by
  refine Hoare.bind (noNew_resGet _ _) fun _ => Hoare.gain fun hk => Hoare.bind (noNew_same (Resp.storeGet sameFree _ _)) fun _ =>
    Hoare.bind (noNew_withP _ ?_) fun _ => noNew_same (same_updR _ _ fun _ => ⟨rfl, rfl⟩)
  exact Hoare.bind (noNew_same (Resp.same (low_new _ _))) fun _ => Hoare.bind (noNew_same (Resp.same (low_textOf _))) fun _ =>
    Hoare.bind (noNew_resSet _ _ hk _) fun _ => Hoare.bind (noNew_same (same_rFunction _)) fun _ =>
    Hoare.bind (noNew_same (same_rKwargs _)) fun _ => Hoare.pure fun _ h => h

theorem noNew_rReadyLoop (r : Nat) (o : RObj U A) (qs : List PortalId) : NoNew k (rReadyLoop addrOf r o qs) := by
  induction qs with
  | nil => exact Hoare.pure fun _ h => h
  | cons q qs ih =>
    refine Hoare.bind (noNew_withP _ ?_) fun _ => Hoare.ite (fun _ => Hoare.pure fun _ h => h) (fun _ => ih)
    exact Hoare.bind (noNew_same (same_resHas _ _)) fun _ => Hoare.ite (fun _ => Hoare.bind (noNew_rCopyFrom r o q) fun _ =>
      Hoare.pure fun _ h => h) (fun _ => Hoare.pure fun _ h => h)

theorem noNew_rReady (r : Nat) : NoNew k (rReady addrOf r) := by
  have up := noNew_same (k := k) (same_updR (A := A) r (fun x : RObj U A => { x with ready := true }) fun _ => ⟨rfl, rfl⟩)
  refine Hoare.bind (noNew_same (same_readR r)) fun o => ?_
  refine Hoare.ite (fun _ => Hoare.pure fun _ h => h) fun _ => Hoare.bind (noNew_same (same_rReadyCurrent r)) fun _ => ?_
  refine Hoare.ite (fun _ => Hoare.bind up fun _ => Hoare.pure fun _ h => h) fun _ => ?_
  refine Hoare.bind Hoare.get fun s0 => Hoare.bind (noNew_rReadyLoop r o _) fun _ => ?_
  exact Hoare.ite (fun _ => Hoare.bind up fun _ => Hoare.pure fun _ h => h) fun _ => Hoare.pure fun _ h => h

theorem noNew_setReq (p : PortalId) (k' : Key A) (b : Bool) : NoNew k
    (modExt fun x => { x with requests := upd2 x.requests p k' b } : PM U A Unit) := by
  intro s hs
  refine ⟨fun a s' e => ?_, fun e s' h => (by cases h)⟩
  cases e
  exact hs

theorem noNew_rDrop (r : Nat) : NoNew k (rDrop r : PM U A Unit) :=
  Hoare.bind (noNew_same (same_readR r)) fun o => noNew_withP _ (noNew_setReq _ _ _)

theorem noNew_rRequest (r : Nat) : NoNew k (rRequest addrOf r) :=
  Hoare.bind (noNew_same (same_readR r)) fun o => noNew_withP _ (Hoare.bind (noNew_rReady r) fun _ =>
    Hoare.ite (fun _ => noNew_rDrop r) fun _ => noNew_setReq _ _ _)

theorem noNew_requestLoop (l : List Nat) : NoNew k (requestLoop addrOf l) := by
  induction l with
  | nil => exact Hoare.pure fun _ h => h
  | cons r l ih => exact Hoare.bind (noNew_rRequest r) fun _ => ih

theorem noNew_swarmList (sh : List Nat → List Nat) (p : PortalId) (f : FnId) (l : List (Kw U)) :
    NoNew k (swarmList addrOf sh p f l) :=
  noNew_withP _ (Hoare.bind (noNew_same (same_addrLoop p f l)) fun _ => Hoare.bind (noNew_requestLoop _) fun _ =>
    Hoare.pure fun _ h => h)

end Pyth.Pure
