import Verif.Proofs.PureQuiet
import Verif.Proofs.PureRef
/-! The execution frame of a pure call. -/
set_option linter.unusedSectionVars false
set_option linter.unusedVariables false
set_option linter.unusedSimpArgs false
namespace Pyth.Pure
open Pyth.World Pyth.Portal

variable {U A α β : Type} [DecidableEq U] [DecidableEq A] {addrOf : Val U A → A}
  {K : Accept U} {c : Option PortalId}
  {P P' F G : PWorld U A → Prop} {X X0 : Kind → PWorld U A → Prop}

/-- the part of `withFrame` after the function is known -/
def frameRun (r : RObj U A) (f : FnId) (body : Nat → PM U A α) : PM U A α := do
  let s0 ← PyM.get
  let run := s0.ext.nextRun
  enterP r.portal
  modExt (openFrame r f)
  fun s => match body run s with
    | (.ok a, s1) =>
      let s1 := { s1 with ext := storeOutput r run s1.ext }
      match exitP r.portal s1 with
      | (.ok _, s2) => (.ok a, { s2 with ext := popFrame r f s2.ext })
      | (.error e, s2) => (.error e, s2)
    | (.error e, s1) =>
      let s1 := { s1 with ext := storeOutput r run s1.ext }
      match handlingE e (exitP r.portal) s1 with
      | (.ok _, s2) => (.error e, { s2 with ext := popFrame r f s2.ext })
      | (.error e', s2) => (.error e', s2)

theorem withFrame_eq (ri : Nat) (body : Nat → PM U A α) : withFrame ri body = (do
    let r ← readR ri
    let f ← withP r.portal (rFunction ri)
    frameRun r f fun n => printTraceback (body n)) := rfl

theorem logger_form (s : PWorld U A) : ∃ m c, exceptionLogger s = { s with marked := m, crashes := c } := by
  unfold exceptionLogger
  split
  · exact ⟨s.marked, s.crashes, rfl⟩
  · unfold persistExc
    split
    · exact ⟨s.marked, s.crashes, rfl⟩
    · exact ⟨_, _, rfl⟩

/-- insensitive to the parts changed by opening and closing a frame -/
def FrX (P : PWorld U A → Prop) : Prop := ∀ s nr caps fr att outp, P s →
  P { s with ext := { s.ext with nextRun := nr, caps := caps, frames := fr, attempts := att, outputs := outp } }

/-- the run is recorded: attempt, and everything printed during the run -/
def Rec (H : Hist U A) (p : PortalId) (k : Key A) (s : PWorld U A) : Prop :=
  (H.attempts p k ++ [H.nextRun]) <+: s.ext.attempts p k ∧
  (∃ out, s.ext.screen = H.screen ++ out ∧ (H.nextRun, out) ∈ s.ext.outputs p k) ∧ H.nextRun < s.ext.nextRun

/-- the same for a run that ended with an exception of class `e`: the output ends with the traceback -/
def RecErr (H : Hist U A) (p : PortalId) (k : Key A) (e : Kind) (s : PWorld U A) : Prop :=
  Rec H p k s ∧
  ∃ out, s.ext.screen = H.screen ++ (out ++ [tracebackOf e]) ∧ (H.nextRun, out ++ [tracebackOf e]) ∈ s.ext.outputs p k

theorem ev_frame_close {s s1 : PWorld U A} (r : RObj U A) (f : FnId) (sys' : Sys) 
    (hb : Ev { s with sys := sys', ext := openFrame r f s.ext } s1) :
    Ev s { s1 with ext := popFrame r f (storeOutput r s.ext.nextRun s1.ext) } ∧
      Rec (hist s) r.portal r.key { s1 with ext := popFrame r f (storeOutput r s.ext.nextRun s1.ext) } := by
  obtain ⟨o, hc, hs⟩ := hb.out
  have hs' : s1.ext.screen = s.ext.screen ++ o := hs
  have hc' : s1.ext.caps = o :: s.ext.caps.map (· ++ o) := by
    rw [hc]; simp [openFrame]
  have hatt : ∀ p k, s.ext.attempts p k <+: s1.ext.attempts p k := fun p k => by
    refine List.IsPrefix.trans ?_ (hb.attempts p k)
    simp only [openFrame, upd2]
    split
    · next h => rw [h.1, h.2]; exact List.prefix_append _ _
    · exact List.prefix_rfl
  refine ⟨⟨?_, hb.draws, hb.nd, hb.dflt, hb.pCfg, hb.results, hb.requests, hatt, ?_, hb.resultRecs, hb.crashRecs, ?_, ?_, hb.trace, ?_, ?_⟩, ?_, ⟨o, hs', ?_⟩, ?_⟩
  · exact ⟨fun p a v h => hb.grow.store p a v h, fun i x h => hb.grow.heap i x h⟩
  · intro p k
    have h1 : s.ext.outputs p k <+: s1.ext.outputs p k := hb.outputs p k
    simp only [popFrame, storeOutput, upd2]
    split
    · next h => rw [h.1, h.2] at h1 ⊢; exact h1.trans (List.prefix_append _ _)
    · exact h1
  · simp only [popFrame, storeOutput]
    rw [hb.frames]
    funext q g
    simp only [openFrame, upd2]
    by_cases h : q = r.portal ∧ g = f
    · simp [h]
    · simp [h]
  · exact ⟨o, by simp [popFrame, storeOutput, hc'], hs'⟩
  · have := hb.nextRun
    simp only [openFrame] at this
    simp only [popFrame, storeOutput]
    omega
  · intro i x h
    obtain ⟨x', h1, h2⟩ := hb.raddrs i x h
    exact ⟨x', h1, h2.setExt _⟩
  · have := hb.attempts r.portal r.key
    simpa [openFrame, upd2, hist, popFrame, storeOutput] using this
  · simp [popFrame, storeOutput, upd2, hc', hist]
  · have := hb.nextRun
    simp only [openFrame] at this
    simp only [popFrame, storeOutput, hist]
    omega

theorem w_frame_close {s1 : PWorld U A} (h : W addrOf K s1) (r : RObj U A) (f : FnId) (run : Nat) :
    W addrOf K { s1 with ext := popFrame r f (storeOutput r run s1.ext) } :=
  ⟨h.integ, h.held, h.pCheck, h.reqs, h.obj, h.trace⟩

theorem w_frame_open {s : PWorld U A} (h : W addrOf K s) (r : RObj U A) (f : FnId) (sys' : Sys) :
    W addrOf K { s with sys := sys', ext := openFrame r f s.ext } :=
  ⟨h.integ, h.held, h.pCheck, h.reqs, h.obj, h.trace⟩

/-- the rule for execution frames -/
theorem Sp.frameRun {r : RObj U A} {f : FnId} {body : Nat → PM U A α} {H : Hist U A}
    {Q : α → PWorld U A → Prop} (hP : Fr P) (hQ : ∀ a, Fr (Q a)) (hX : ∀ k, Fr (X k))
    (hPx : FrX P) (hQx : ∀ a, FrX (Q a)) (hXx : ∀ k, FrX (X k))
    (h : Sp addrOf K (some r.portal) P (body H.nextRun) Q X) :
    Sp addrOf K c (fun s => P s ∧ hist s = H) (frameRun r f body)
      (fun a s => Q a s ∧ Rec H r.portal r.key s) (fun k s => X k s ∧ Rec H r.portal r.key s) := by
  intro s ho hw hc ⟨hp, hH⟩
  subst hH
  obtain ⟨sys', e1, h2, h3, h4, h5, h6⟩ := enterP_ok r.portal s ho
  have hopen : P { s with sys := sys', ext := openFrame r f s.ext } :=
    hPx _ _ _ _ _ _ (hP s sys' s.handling s.nextExc s.marked s.crashes hp)
  have hb := h { s with sys := sys', ext := openFrame r f s.ext } h2 (w_frame_open hw r f sys')
    (fun q hq => by cases hq; exact h4) hopen
  have hun : Pure.frameRun r f body s = (match body s.ext.nextRun { s with sys := sys', ext := openFrame r f s.ext } with
    | (.ok a, s1) =>
      let s1 := { s1 with ext := storeOutput r s.ext.nextRun s1.ext }
      match exitP r.portal s1 with
      | (.ok _, s2) => (.ok a, { s2 with ext := popFrame r f s2.ext })
      | (.error e, s2) => (.error e, s2)
    | (.error e, s1) =>
      let s1 := { s1 with ext := storeOutput r s.ext.nextRun s1.ext }
      match handlingE e (exitP r.portal) s1 with
      | (.ok _, s2) => (.error e, { s2 with ext := popFrame r f s2.ext })
      | (.error e', s2) => (.error e', s2)) := by
    unfold Pure.frameRun
    rw [PyM.run_bind]
    show (do enterP r.portal; modExt (openFrame r f); _ : PM U A α) s = _
    rw [PyM.run_bind, e1]
    rfl
  rw [hun]
  have hrun : (hist s).nextRun = s.ext.nextRun := rfl
  rw [hrun] at hb
  cases hms : body s.ext.nextRun { s with sys := sys', ext := openFrame r f s.ext } with
  | mk res s1 =>
    rw [hms] at hb
    simp only at hb
    have hctx := hb.1.ctx
    have hclose := ev_frame_close r f sys' hb.1.ev
    have hwc := w_frame_close hb.1.wf r f s.ext.nextRun
    cases res with
    | ok a =>
      have hc1 : Ctx (inside r.portal s) { s1 with ext := storeOutput r s.ext.nextRun s1.ext } := by
        rw [h6]; exact ⟨hctx.stack, hctx.counters, hctx.handling, hctx.all⟩
      have hex := exitP_ok r.portal s _ ho hc1
      obtain ⟨m, cr, hl⟩ := logger_form { s1 with ext := storeOutput r s.ext.nextRun s1.ext }
      rw [hl] at hex
      simp only [hex]
      have hq := hb.2.1 a rfl
      refine ⟨⟨?_, hwc.frame { s.sys with all := s1.sys.all } s1.handling s1.nextExc m cr,
        hclose.1.trans (Ev.frame _ { s.sys with all := s1.sys.all } s1.handling s1.nextExc m cr)⟩,
        fun b e => ?_, fun e h => (by cases h)⟩
      · refine ⟨rfl, rfl, hctx.handling, ?_⟩
        have := hctx.all
        simpa [h3] using this
      · cases e
        exact ⟨hQx a _ _ _ _ _ _ (hQ a _ _ _ _ _ _ hq), hclose.2⟩
    | error e =>
      have hc1 : Ctx (inside r.portal { s with handling := e :: s.handling })
          { s1 with ext := storeOutput r s.ext.nextRun s1.ext, handling := e :: s1.handling } := by
        obtain ⟨sys2, g1, g2, g3, g4, g5, g6⟩ := enterP_ok r.portal { s with handling := e :: s.handling } ho
        have e12 : sys2 = sys' := by
          have a1 := e1; have a2 := g1
          unfold enterP at a1 a2
          simp only at a2
          cases hE : Portal.enter r.portal s.sys with
          | ok y =>
            rw [hE] at a1 a2
            simp only at a1 a2
            injection a1 with _ a1; injection a2 with _ a2
            have b1 := congrArg World.sys a1
            have b2 := congrArg World.sys a2
            simp only at b1 b2
            rw [← b1, ← b2]
          | error y => rw [hE] at a1; simp [World.raiseNew] at a1
        rw [g6, e12]
        exact ⟨hctx.stack, hctx.counters, by simp [hctx.handling], hctx.all⟩
      have hex := exitP_ok r.portal { s with handling := e :: s.handling } _ ho hc1
      obtain ⟨m, cr, hl⟩ := logger_form
        { s1 with ext := storeOutput r s.ext.nextRun s1.ext, handling := e :: s1.handling }
      rw [hl] at hex
      have hh : handlingE e (exitP r.portal : PM U A Unit) { s1 with ext := storeOutput r s.ext.nextRun s1.ext } = (.ok (),
          { s1 with ext := storeOutput r s.ext.nextRun s1.ext, marked := m, crashes := cr,
                    sys := { s.sys with all := s1.sys.all }, handling := s1.handling }) := by
        unfold handlingE
        rw [hex]
        rfl
      simp only [hh]
      have hq := hb.2.2 e rfl
      refine ⟨⟨?_, hwc.frame { s.sys with all := s1.sys.all } s1.handling s1.nextExc m cr,
        hclose.1.trans (Ev.frame _ { s.sys with all := s1.sys.all } s1.handling s1.nextExc m cr)⟩,
        fun b e => (by cases e), fun e' h => ?_⟩
      · refine ⟨rfl, rfl, hctx.handling, ?_⟩
        have := hctx.all
        simpa [h3] using this
      · cases h
        exact ⟨hXx _ _ _ _ _ _ _ (hX _ _ _ _ _ _ _ hq), hclose.2⟩

end Pyth.Pure
