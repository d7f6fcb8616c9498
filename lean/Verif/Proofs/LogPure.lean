import Verif.Proofs.LogTidy
import Verif.Proofs.PureFrame
import Verif.Model.PureHistory
/-! All operations are tidy. -/
set_option linter.unusedSectionVars false
set_option linter.unusedVariables false
set_option linter.unusedSimpArgs false
namespace Pyth.ValueAddr
open Pyth.World Pyth.Portal

variable {A V E : Type} [DecidableEq A] [DecidableEq V] (addrOf : V → A)

/-- structural steps -/
syntax "tidy_walk" : tactic
macro_rules
  | `(tactic| tidy_walk) => `(tactic| repeat' (first
    | assumption
    | exact Tidy.pure _
    | exact Tidy.get
    | exact Tidy.raiseNew _
    | exact Tidy.needPortal _
    | exact Tidy.bestPortal _
    | exact Tidy.storeGet _ _
    | exact Tidy.storeHas _ _
    | exact Tidy.storeSet _ _ _
    | exact Tidy.alloc _
    | exact Tidy.updObj _ _
    | exact Tidy.readObj _
    | refine Tidy.bind ?_ (fun _ => ?_)
    | refine Tidy.withP _ ?_
    | refine Tidy.withOpt _ (fun _ => ?_)
    | refine Tidy.ite ?_ ?_
    | split))

theorem tidy_getLoop (i : Nat) (o : AddrObj A V) (l : List PortalId) : Tidy (getLoop i o l : M A V E V) := by
  induction l with
  | nil => exact Tidy.raiseNew _
  | cons q l ih =>
    intro s hs
    have hb : Tidy (do
        let r ← withP q (storeGet q o.chain)
        withOpt o.portal (fun p => storeSet p o.chain r)
        updObj i (fun x => { x with value := some r })
        pure r : M A V E V) := by tidy_walk
    have h1 := hb s hs
    unfold getLoop
    split
    · rename_i r s' he
      rw [he] at h1; exact h1
    · rename_i e s' he
      rw [he] at h1; exact h1.trans (ih s' (h1.ctx.ok hs))

theorem tidy_getFromNoncurrent (i : Nat) : Tidy (getFromNoncurrent i : M A V E V) := by
  refine Tidy.bind (Tidy.readObj _) fun _ => Tidy.bind Tidy.get fun _ => tidy_getLoop _ _ _

theorem tidy_getFromCurrent (i : Nat) : Tidy (getFromCurrent i : M A V E V) := by
  unfold getFromCurrent; tidy_walk

theorem tidy_get (i : Nat) : Tidy (get i : M A V E V) := by
  refine Tidy.bind (Tidy.readObj _) fun o => ?_
  split
  · exact Tidy.pure _
  · exact Tidy.tryE (tidy_getFromCurrent i) fun e => (tidy_getFromNoncurrent i).h e

theorem tidy_readyLoop (i : Nat) (o : AddrObj A V) (l : List PortalId) : Tidy (readyLoop i o l : M A V E Bool) := by
  induction l with
  | nil => exact Tidy.pure _
  | cons q l ih => unfold readyLoop; tidy_walk

theorem tidy_ready (i : Nat) : Tidy (ready i : M A V E Bool) := by
  have := @tidy_readyLoop A V E _ _ i
  unfold ready
  refine Tidy.bind (Tidy.readObj _) fun o => Tidy.ite (Tidy.pure _) ?_
  refine Tidy.bind (Tidy.needPortal _) fun p => Tidy.bind (Tidy.storeHas _ _) fun h => ?_
  refine Tidy.ite (by tidy_walk) ?_
  refine Tidy.bind Tidy.get fun s => Tidy.bind (this _ _) fun r => by tidy_walk

theorem tidy_new (v : V) (p : Option PortalId) : Tidy (new addrOf v p : M A V E Nat) := by unfold new; tidy_walk

theorem tidy_conv (i : Nat) (p : Option PortalId) : Tidy (conv i p : M A V E Nat) := by
  have := @tidy_get A V E _ _ i
  unfold conv; tidy_walk

theorem tidy_fromStrings (a : A) (p : Option PortalId) (b : Bool) : Tidy (fromStrings a p b : M A V E Nat) := by
  unfold fromStrings
  refine Tidy.bind (Tidy.bestPortal _) fun p => Tidy.bind (Tidy.alloc _) fun i => Tidy.ite ?_ (Tidy.pure _)
  exact Tidy.bind (tidy_ready i) fun r => by tidy_walk

theorem tidy_copy (i : Nat) : Tidy (copy i : M A V E Nat) := Tidy.bind (Tidy.readObj _) fun o => tidy_fromStrings _ _ _
theorem tidy_unpickle (i : Nat) : Tidy (unpickle i : M A V E Nat) := by unfold unpickle; tidy_walk

end Pyth.ValueAddr

namespace Pyth.Pure
open Pyth.World Pyth.Portal Pyth.ValueAddr

variable {U A α : Type} [DecidableEq U] [DecidableEq A] (addrOf : Val U A → A)

theorem tidy_modExt (f : Ext U A → Ext U A) : Tidy (modExt f : PM U A Unit) :=
  fun s _ => .frame _ ⟨rfl, rfl, rfl, List.prefix_rfl⟩ rfl rfl rfl

theorem tidy_packOne (a : Arg U) : Tidy (packOne addrOf a) := by
  cases a with
  | raw u => exact tidy_new _ _ _
  | addr i => exact tidy_conv _ _

theorem tidy_packLoop (kw : Kw U) : Tidy (packLoop addrOf kw) := by
  induction kw with
  | nil => exact Tidy.pure _
  | cons x l ih =>
    obtain ⟨k, v⟩ := x
    exact Tidy.bind (tidy_packOne _ _) fun _ => Tidy.bind ih fun _ => Tidy.pure _

theorem tidy_pack (p : PortalId) (kw : Kw U) : Tidy (pack addrOf p kw) := Tidy.withP p (tidy_packLoop _ _)

theorem tidy_getUser (i : Nat) : Tidy (getUser i : PM U A U) := by
  refine Tidy.bind (tidy_get _) fun v => ?_
  split <;> tidy_walk

theorem tidy_unpack (kw : Kw U) : Tidy (unpack kw : PM U A (List (String × U))) := by
  induction kw with
  | nil => exact Tidy.pure _
  | cons x l ih =>
    obtain ⟨k, v⟩ := x
    cases v with
    | raw u => exact Tidy.bind ih fun _ => Tidy.pure _
    | addr i => exact Tidy.bind (tidy_getUser _) fun _ => Tidy.bind ih fun _ => Tidy.pure _

theorem tidy_textOf (i : Nat) : Tidy (textOf i : PM U A A) := Tidy.bind (Tidy.readObj _) fun _ => Tidy.pure _

theorem tidy_textsOf (l : List (String × Nat)) : Tidy (textsOf l : PM U A (List (String × A))) := by
  induction l with
  | nil => exact Tidy.pure _
  | cons x l ih =>
    obtain ⟨k, v⟩ := x
    exact Tidy.bind (tidy_textOf _) fun _ => Tidy.bind ih fun _ => Tidy.pure _

theorem tidy_mkSignature (f : FnId) (p : PortalId) (kw : Kw U) : Tidy (mkSignature addrOf f p kw) :=
  Tidy.withP p (Tidy.bind (tidy_new _ _ _) fun _ => Tidy.bind (tidy_pack _ _ _) fun _ => Tidy.bind (tidy_textsOf _) fun _ =>
    Tidy.bind (tidy_new _ _ _) fun _ => Tidy.bind (tidy_textOf _) fun _ => Tidy.bind (tidy_textOf _) fun _ => Tidy.pure _)

theorem tidy_mkRAddr (f : FnId) (p : PortalId) (kw : Kw U) : Tidy (mkRAddr addrOf f p kw) :=
  Tidy.bind (tidy_mkSignature _ _ _ _) fun _ => Tidy.bind (tidy_new _ _ _) fun _ => Tidy.bind (tidy_textOf _) fun _ =>
    Tidy.bind Tidy.get fun _ => Tidy.bind (tidy_modExt _) fun _ => Tidy.pure _

theorem tidy_rFromKey (p : PortalId) (k : Key A) : Tidy (rFromKey p k : PM U A Nat) :=
  Tidy.bind Tidy.get fun _ => Tidy.bind (tidy_modExt _) fun _ => Tidy.pure _

theorem tidy_readR (r : Nat) : Tidy (readR r : PM U A (RObj U A)) := by
  intro s hs
  unfold readR
  split
  · exact .refl s _
  · exact raiseNew_tidyAt _ s

theorem tidy_updR (r : Nat) (f : RObj U A → RObj U A) : Tidy (updR r f : PM U A Unit) := tidy_modExt _
theorem tidy_resHas (p : PortalId) (k : Key A) : Tidy (resHas p k : PM U A Bool) := fun s _ => .refl s _
theorem tidy_resGet (p : PortalId) (k : Key A) : Tidy (resGet p k : PM U A A) := by
  intro s hs
  unfold resGet
  split
  · exact .refl s _
  · exact raiseNew_tidyAt _ s

theorem tidy_resSet (p : PortalId) (k : Key A) (a : A) : Tidy (resSet p k a : PM U A Unit) := by
  intro s hs
  unfold resSet
  simp only
  generalize FirstEntry.setItem (⟨k, a, s.draws s.nd, .none, .none⟩ : FirstEntry.Op (Key A) A) (s.ext.results p) = y
  obtain ⟨r, d⟩ := y
  have hf : TidyAt s (.ok ()) { s with
      nd := s.nd + 1
      ext := { s.ext with results := fun q => if q = p then d else s.ext.results q } } :=
    .frame () ⟨rfl, rfl, rfl, List.prefix_rfl⟩ rfl rfl rfl
  cases r with
  | ok _ => exact hf
  | error e => exact hf.trans (raiseNew_tidyAt (α := Unit) _ _)

theorem tidy_setPCheck (p : PortalId) (c : Option Rat) : Tidy (setPCheck p c : PM U A Unit) := tidy_modExt _
theorem tidy_capturePortal : Tidy (capturePortal : PM U A (Option PortalId)) := Tidy.bind Tidy.get fun _ => Tidy.pure _

theorem tidy_rValueAddr (r : Nat) : Tidy (rValueAddr r : PM U A Nat) :=
  Tidy.bind (tidy_readR _) fun _ => Tidy.withP _ (tidy_fromStrings _ _ _)

theorem tidy_rSignature (r : Nat) : Tidy (rSignature r : PM U A (Nat × Nat)) := by
  refine Tidy.bind (tidy_rValueAddr _) fun _ => Tidy.bind (tidy_get _) fun v => ?_
  split
  · exact Tidy.bind tidy_capturePortal fun _ => Tidy.bind (Tidy.alloc _) fun _ => Tidy.bind (Tidy.alloc _) fun _ => Tidy.pure _
  · exact Tidy.raiseNew _

theorem tidy_rFunction (r : Nat) : Tidy (rFunction r : PM U A FnId) := by
  refine Tidy.bind (tidy_readR _) fun o => ?_
  split
  · exact Tidy.pure _
  · refine Tidy.withP _ (Tidy.bind (tidy_rSignature _) fun x => ?_)
    split
    refine Tidy.bind (tidy_get _) fun v => ?_
    split
    · exact Tidy.bind (tidy_updR _ _) fun _ => Tidy.pure _
    · exact Tidy.raiseNew _

theorem tidy_allocArgs (p : Option PortalId) (l : List (String × A)) : Tidy (allocArgs p l : PM U A (Kw U)) := by
  induction l with
  | nil => exact Tidy.pure _
  | cons x l ih =>
    obtain ⟨k, v⟩ := x
    exact Tidy.bind (Tidy.alloc _) fun _ => Tidy.bind ih fun _ => Tidy.pure _

theorem tidy_rArguments (r : Nat) : Tidy (rArguments r : PM U A (Kw U)) := by
  refine Tidy.bind (tidy_readR _) fun o => ?_
  split
  · exact Tidy.pure _
  · refine Tidy.withP _ (Tidy.bind (tidy_rSignature _) fun x => ?_)
    split
    refine Tidy.bind (tidy_get _) fun v => ?_
    split
    · exact Tidy.bind tidy_capturePortal fun _ => Tidy.bind (tidy_allocArgs _ _) fun _ => Tidy.bind (tidy_updR _ _) fun _ => Tidy.pure _
    · exact Tidy.raiseNew _

theorem tidy_rKwargs (r : Nat) : Tidy (rKwargs r : PM U A (List (String × U))) :=
  Tidy.bind (tidy_readR _) fun _ => Tidy.withP _ (Tidy.bind (tidy_rArguments _) fun _ => tidy_unpack _)

theorem tidy_rReadyCurrent (r : Nat) : Tidy (rReadyCurrent r : PM U A Bool) := by
  refine Tidy.bind (tidy_readR _) fun o => Tidy.ite (Tidy.pure _) (Tidy.withP _ (Tidy.bind (tidy_resHas _ _) fun h => Tidy.ite ?_ (Tidy.pure _)))
  exact Tidy.bind (tidy_updR _ _) fun _ => Tidy.pure _

theorem tidy_rCopyFrom (r : Nat) (o : RObj U A) (q : PortalId) : Tidy (rCopyFrom addrOf r o q) :=
  Tidy.bind (tidy_resGet _ _) fun _ => Tidy.bind (Tidy.storeGet _ _) fun _ => Tidy.bind
    (Tidy.withP _ (Tidy.bind (tidy_new _ _ _) fun _ => Tidy.bind (tidy_textOf _) fun _ => Tidy.bind (tidy_resSet _ _ _) fun _ =>
      Tidy.bind (tidy_rFunction _) fun _ => Tidy.bind (tidy_rKwargs _) fun _ => Tidy.pure _)) fun _ => tidy_updR _ _

theorem tidy_rReadyLoop (r : Nat) (o : RObj U A) (l : List PortalId) : Tidy (rReadyLoop addrOf r o l) := by
  induction l with
  | nil => exact Tidy.pure _
  | cons q l ih =>
    refine Tidy.bind (Tidy.withP _ (Tidy.bind (tidy_resHas _ _) fun h => Tidy.ite ?_ (Tidy.pure _))) fun f => Tidy.ite (Tidy.pure _) ih
    exact Tidy.bind (tidy_rCopyFrom _ _ _ _) fun _ => Tidy.pure _

theorem tidy_rReady (r : Nat) : Tidy (rReady addrOf r) := by
  refine Tidy.bind (tidy_readR _) fun o => Tidy.ite (Tidy.pure _) (Tidy.bind (tidy_rReadyCurrent _) fun c => Tidy.ite ?_ ?_)
  · exact Tidy.bind (tidy_updR _ _) fun _ => Tidy.pure _
  · refine Tidy.bind Tidy.get fun s => Tidy.bind (tidy_rReadyLoop _ _ _ _) fun n => Tidy.ite ?_ (Tidy.pure _)
    exact Tidy.bind (tidy_updR _ _) fun _ => Tidy.pure _

theorem tidy_rDrop (r : Nat) : Tidy (rDrop r : PM U A Unit) := Tidy.bind (tidy_readR _) fun _ => Tidy.withP _ (tidy_modExt _)

theorem tidy_rRequest (r : Nat) : Tidy (rRequest addrOf r) :=
  Tidy.bind (tidy_readR _) fun _ => Tidy.withP _ (Tidy.bind (tidy_rReady _ _) fun _ => Tidy.ite (tidy_rDrop _) (tidy_modExt _))

theorem tidy_rGet (r : Nat) : Tidy (rGet addrOf r) := by
  refine Tidy.bind (tidy_readR _) fun o => ?_
  split
  · exact Tidy.pure _
  · refine Tidy.withP _ (Tidy.bind (tidy_rReady _ _) fun rd => Tidy.ite ?_ ?_)
    · refine Tidy.bind (tidy_resGet _ _) fun a => Tidy.bind (Tidy.storeGet _ _) fun v => ?_
      split
      · exact Tidy.bind (tidy_updR _ _) fun _ => Tidy.pure _
      · exact Tidy.raiseNew _
    · exact Tidy.bind (tidy_rRequest _ _) fun _ => Tidy.raiseNew _

theorem tidy_runBody {rec : FnId → Kw U → PM U A U} (hr : ∀ f kw, Tidy (rec f kw)) (b : Body U) : Tidy (runBody rec b) := by
  induction b with
  | ret u => exact Tidy.pure _
  | raise n => exact Tidy.raiseNew _
  | call g kw k ih => exact Tidy.bind (hr _ _) fun u => ih u
  | tryCall g kw k ih =>
    intro s hs
    have h1 := hr g (kw.map fun x => (x.1, .raw x.2)) s hs
    unfold runBody
    split
    · rename_i u s' he
      rw [he] at h1; exact h1.trans (ih _ s' (h1.ctx.ok hs))
    · rename_i e s' he
      rw [he] at h1
      split
      · exact h1
      · exact h1.trans (ih _ s' (h1.ctx.ok hs))
  | print t b ih => exact Tidy.bind (tidy_modExt _) fun _ => ih
  | draw k ih =>
    intro s hs
    exact (TidyAt.frame (s := s) (s' := { s with nd := s.nd + 1 }) () ⟨rfl, rfl, rfl, List.prefix_rfl⟩ rfl rfl rfl).trans
      (ih (s.draws s.nd) { s with nd := s.nd + 1 } hs)

theorem tidyAt_ext {s s' : PWorld U A} {r : Except Exc α} (h : TidyAt s r s') (x : Ext U A) : TidyAt s r { s' with ext := x } where
  ctx := ⟨h.ctx.stack, h.ctx.counters, h.ctx.handling, h.ctx.all⟩
  next := h.next
  grow := h.grow
  mono := h.mono
  fresh := h.fresh
  recs := h.recs
  inv hi := have y := h.inv hi; ⟨y.nodup, y.marked, y.old, y.handled⟩
  err := h.err
  errlt := h.errlt

theorem tidyAt_logFailure {s s' : PWorld U A} {e : Exc} (h : TidyAt s (.error e : Except Exc α) s') (p : PortalId) (f : FnId) :
    TidyAt s (.error e : Except Exc α) (logFailure p f e s') := by
  unfold logFailure
  split
  · exact h
  · have h1 := h.logError (pre := [some f, none]) (by simp) (by simp)
    simp only
    split
    · exact h1
    · exact tidyAt_ext h1 _

theorem tidy_ordExec {rec : FnId → Kw U → PM U A U} (hr : ∀ f kw, Tidy (rec f kw)) (prog : FnId → Fn U) (p : PortalId) (f : FnId)
    (kw : Kw U) : Tidy (ordExec rec prog p f kw) := by
  intro s hs
  unfold ordExec
  simp only
  have h0 : TidyAt s (.ok ()) { s with ext := { s.ext with trace := s.ext.trace ++ [.start f kw (prog f).isPure] } } :=
    .frame () ⟨rfl, rfl, rfl, List.prefix_rfl⟩ rfl rfl rfl
  have h1 := h0.trans (tidy_runBody hr ((prog f).body kw) _ (h0.ctx.ok hs))
  split
  · rename_i u s' he
    rw [he] at h1; exact h1
  · rename_i e s' he
    rw [he] at h1; exact tidyAt_logFailure h1 p f

theorem tidy_autExec {rec : FnId → Kw U → PM U A U} (hr : ∀ f kw, Tidy (rec f kw)) (prog : FnId → Fn U) (p : PortalId) (f : FnId)
    (kw : Kw U) : Tidy (autExec rec prog p f kw) := Tidy.withP p (tidy_ordExec hr _ _ _ _)

theorem tidy_guardLoop {rec : FnId → Kw U → PM U A U} (hr : ∀ f kw, Tidy (rec f kw)) (kw : Kw U) (l : List FnId) :
    Tidy (guardLoop rec kw l) := by
  induction l with
  | nil => exact Tidy.pure _
  | cons g l ih => exact Tidy.bind (hr _ _) fun _ => ih

theorem tidy_canBeExecuted {rec : FnId → Kw U → PM U A U} (hr : ∀ f kw, Tidy (rec f kw)) (prog : FnId → Fn U) (p : PortalId)
    (f : FnId) (kw : Kw U) : Tidy (canBeExecuted rec prog p f kw) :=
  Tidy.withP p (Tidy.tryE (tidy_guardLoop hr _ _) fun e => TidyH.ite (TidyH.raise e) ((Tidy.pure _).h e))

/-- the body of a frame, between entering and leaving the portal -/
def frameInner (r : RObj U A) (f : FnId) (body : Nat → PM U A α) (run : Nat) : PM U A α := fun s =>
  ((body run { s with ext := openFrame r f s.ext }).1,
    { (body run { s with ext := openFrame r f s.ext }).2 with
      ext := storeOutput r run (body run { s with ext := openFrame r f s.ext }).2.ext })

theorem tidy_frameInner (r : RObj U A) (f : FnId) (body : Nat → PM U A α) (hb : ∀ n, Tidy (body n)) (run : Nat) :
    Tidy (frameInner r f body run) := by
  intro s hs
  have h0 : TidyAt s (.ok ()) { s with ext := openFrame r f s.ext } := .frame () ⟨rfl, rfl, rfl, List.prefix_rfl⟩ rfl rfl rfl
  exact tidyAt_ext (h0.trans (hb run _ (h0.ctx.ok hs))) _

theorem frameRun_inner (r : RObj U A) (f : FnId) (body : Nat → PM U A α) (s : PWorld U A) :
    (frameRun r f body s).1 = (withP r.portal (frameInner r f body s.ext.nextRun) s).1 ∧
    ∃ x, (frameRun r f body s).2 = { (withP r.portal (frameInner r f body s.ext.nextRun) s).2 with ext := x } := by
  cases hen : enterP r.portal s with
  | mk r0 s' =>
    cases r0 with
    | error e =>
      have e1 : frameRun r f body s = (.error e, s') := by
        unfold frameRun
        simp only [PyM.run_bind, PyM.run_get]
        rw [hen]
      have e2 : withP r.portal (frameInner r f body s.ext.nextRun) s = (.error e, s') := by
        unfold withP; rw [hen]
      rw [e1, e2]; exact ⟨rfl, _, rfl⟩
    | ok u =>
      cases hbs : body s.ext.nextRun { s' with ext := openFrame r f s'.ext } with
      | mk x s1 =>
        have hin : frameInner r f body s.ext.nextRun s' = (x, { s1 with ext := storeOutput r s.ext.nextRun s1.ext }) := by
          unfold frameInner; rw [hbs]
        have e0 : frameRun r f body s = (match body s.ext.nextRun { s' with ext := openFrame r f s'.ext } with
            | (.ok a, s1) => (match exitP r.portal { s1 with ext := storeOutput r s.ext.nextRun s1.ext } with
              | (.ok _, s2) => (.ok a, { s2 with ext := popFrame r f s2.ext })
              | (.error e, s2) => (.error e, s2))
            | (.error e, s1) => (match handlingE e (exitP r.portal) { s1 with ext := storeOutput r s.ext.nextRun s1.ext } with
              | (.ok _, s2) => (.error e, { s2 with ext := popFrame r f s2.ext })
              | (.error e', s2) => (.error e', s2))) := by
          unfold frameRun
          simp only [PyM.run_bind, PyM.run_get]
          rw [hen]
          rfl
        rw [hbs] at e0
        cases x with
        | ok a =>
          cases hx : exitP r.portal { s1 with ext := storeOutput r s.ext.nextRun s1.ext } with
          | mk x2 s2 =>
            simp only [hx] at e0
            have e2 := @withP.eq_def A (Val U A) (Ext U A) α r.portal (frameInner r f body s.ext.nextRun) s
            simp only [hen, hin, hx] at e2
            rw [e2, e0]
            cases x2 <;> exact ⟨rfl, _, rfl⟩
        | error e =>
          cases hx : handlingE e (exitP r.portal) { s1 with ext := storeOutput r s.ext.nextRun s1.ext } with
          | mk x2 s2 =>
            simp only [hx] at e0
            have e2 := @withP.eq_def A (Val U A) (Ext U A) α r.portal (frameInner r f body s.ext.nextRun) s
            simp only [hen, hin, hx] at e2
            rw [e2, e0]
            cases x2 <;> exact ⟨rfl, _, rfl⟩

theorem tidy_frameRun (r : RObj U A) (f : FnId) (body : Nat → PM U A α) (hb : ∀ n, Tidy (body n)) : Tidy (frameRun r f body) := by
  intro s hs
  obtain ⟨h1, x, h2⟩ := frameRun_inner r f body s
  rw [h1, h2]
  exact tidyAt_ext (Tidy.withP r.portal (tidy_frameInner r f body hb _) s hs) x

theorem tidy_traceback (m : PM U A α) (h : Tidy m) : Tidy (printTraceback m) := by
  intro s hs
  have h1 := h s hs
  unfold printTraceback
  cases hms : m s with
  | mk r s1 =>
    rw [hms] at h1
    cases r with
    | ok a => exact h1
    | error e => exact tidyAt_ext h1 _

theorem tidy_withFrame (ri : Nat) (body : Nat → PM U A α) (hb : ∀ n, Tidy (body n)) : Tidy (withFrame ri body) := by
  rw [withFrame_eq]
  exact Tidy.bind (tidy_readR _) fun r => Tidy.bind (Tidy.withP _ (tidy_rFunction _)) fun f => tidy_frameRun r f _ fun n => tidy_traceback _ (hb n)

theorem tidy_storeResult (p : PortalId) (k : Key A) (a : A) (conduct : Bool) (cfg : Option Rat) :
    Tidy (storeResult p k a conduct cfg : PM U A Unit) := by
  intro s hs
  have hm : Tidy (do
      if conduct then setPCheck p (some 1) else pure ()
      resSet p k a : PM U A Unit) :=
    Tidy.ite (Tidy.bind (tidy_setPCheck _ _) fun _ => tidy_resSet _ _ _) (tidy_resSet _ _ _)
  have h1 := hm s hs
  unfold storeResult
  split
  rename_i res s' he
  rw [he] at h1
  exact tidyAt_ext h1 _

theorem tidy_drawR : Tidy (drawR : PM U A Rat) := fun s _ => .frame _ ⟨rfl, rfl, rfl, List.prefix_rfl⟩ rfl rfl rfl

theorem tidy_frameBody {rec : FnId → Kw U → PM U A U} (hr : ∀ f kw, Tidy (rec f kw)) (prog : FnId → Fn U) (p : PortalId) (f : FnId)
    (kw : Kw U) (packed : List (String × Nat)) (ri : Nat) (conduct : Bool) (cfg : Option Rat) (run : Nat) :
    Tidy (frameBody addrOf rec prog p f kw packed ri conduct cfg run) := by
  refine Tidy.bind (tidy_rRequest _ _) fun _ => Tidy.bind (tidy_canBeExecuted hr _ _ _ _) fun ok => Tidy.bind (tidy_modExt _) fun _ =>
    Tidy.ite ?_ (Tidy.raiseNew _)
  exact Tidy.bind (tidy_unpack _) fun _ => Tidy.bind (tidy_autExec hr _ _ _ _) fun _ => Tidy.bind (tidy_new _ _ _) fun _ =>
    Tidy.bind (tidy_textOf _) fun _ => Tidy.bind (tidy_readR _) fun _ => Tidy.bind (tidy_modExt _) fun _ =>
    Tidy.bind (tidy_storeResult _ _ _ _ _) fun _ => Tidy.bind (tidy_rDrop _) fun _ => Tidy.pure _

theorem tidy_pureExec {rec : FnId → Kw U → PM U A U} (hr : ∀ f kw, Tidy (rec f kw)) (prog : FnId → Fn U) (p : PortalId) (f : FnId)
    (kw : Kw U) : Tidy (pureExec addrOf rec prog p f kw) := by
  refine Tidy.withP p (Tidy.bind (tidy_pack _ _ _) fun _ => Tidy.bind (tidy_mkRAddr _ _ _ _) fun ri => Tidy.bind tidy_drawR fun x =>
    Tidy.bind Tidy.get fun s => Tidy.bind (tidy_rReady _ _) fun rd => Tidy.ite (tidy_rGet _ _) (tidy_withFrame _ _ fun n => ?_))
  exact tidy_frameBody addrOf hr _ _ _ _ _ _ _ _ _

theorem tidy_exec (prog : FnId → Fn U) (p : PortalId) (n : Nat) (f : FnId) (kw : Kw U) : Tidy (exec addrOf prog p n f kw) := by
  induction n generalizing f kw with
  | zero => exact Tidy.raiseNew _
  | succ n ih => exact Tidy.ite (tidy_pureExec addrOf ih _ _ _ _) (tidy_autExec ih _ _ _ _)

theorem tidy_rExecute (prog : FnId → Fn U) (n r : Nat) : Tidy (rExecute addrOf prog n r) := by
  refine Tidy.bind (tidy_readR _) fun o => ?_
  split
  · exact Tidy.pure _
  · exact Tidy.withP _ (Tidy.bind (tidy_rFunction _) fun _ => Tidy.bind (tidy_rArguments _) fun _ => Tidy.bind (tidy_exec _ _ _ _ _ _) fun _ =>
      Tidy.bind (tidy_updR _ _) fun _ => Tidy.pure _)

theorem tidy_getAddress (p : PortalId) (f : FnId) (kw : Kw U) : Tidy (getAddress addrOf p f kw) :=
  Tidy.withP p (Tidy.bind (tidy_pack _ _ _) fun _ => tidy_mkRAddr _ _ _ _)

theorem tidy_swarm (p : PortalId) (f : FnId) (kw : Kw U) : Tidy (swarm addrOf p f kw) :=
  Tidy.withP p (Tidy.bind (tidy_getAddress _ _ _ _) fun _ => Tidy.bind (tidy_rRequest _ _) fun _ => Tidy.pure _)

theorem tidy_run (prog : FnId → Fn U) (n : Nat) (p : PortalId) (f : FnId) (kw : Kw U) : Tidy (run addrOf prog n p f kw) :=
  Tidy.withP p (Tidy.bind (tidy_getAddress _ _ _ _) fun _ => Tidy.bind (tidy_rExecute _ _ _ _) fun _ => Tidy.pure _)

theorem tidy_addrLoop (p : PortalId) (f : FnId) (l : List (Kw U)) : Tidy (addrLoop addrOf p f l) := by
  induction l with
  | nil => exact Tidy.pure _
  | cons kw l ih => exact Tidy.bind (tidy_mkRAddr _ _ _ _) fun _ => Tidy.bind ih fun _ => Tidy.pure _

theorem tidy_requestLoop (l : List Nat) : Tidy (requestLoop addrOf l) := by
  induction l with
  | nil => exact Tidy.pure _
  | cons r l ih => exact Tidy.bind (tidy_rRequest _ _) fun _ => ih

theorem tidy_executeLoop (prog : FnId → Fn U) (n : Nat) (l : List Nat) : Tidy (executeLoop addrOf prog n l) := by
  induction l with
  | nil => exact Tidy.pure _
  | cons r l ih => exact Tidy.bind (tidy_rExecute _ _ _ _) fun _ => ih

theorem tidy_swarmList (sh : List Nat → List Nat) (p : PortalId) (f : FnId) (l : List (Kw U)) : Tidy (swarmList addrOf sh p f l) :=
  Tidy.withP p (Tidy.bind (tidy_addrLoop _ _ _ _) fun _ => Tidy.bind (tidy_requestLoop _ _) fun _ => Tidy.pure _)

theorem tidy_runList (prog : FnId → Fn U) (n : Nat) (sh1 sh2 : List Nat → List Nat) (p : PortalId) (f : FnId) (l : List (Kw U)) :
    Tidy (runList addrOf prog n sh1 sh2 p f l) :=
  Tidy.withP p (Tidy.bind (tidy_swarmList _ _ _ _ _) fun _ => Tidy.bind (tidy_executeLoop _ _ _ _) fun _ => Tidy.pure _)

end Pyth.Pure
