import Verif.Proofs.PureSlack
/-! Every execution of the code of a pure function has an attempt of that call: all operations, all portals. -/
set_option linter.unusedSectionVars false
set_option linter.unusedVariables false
set_option linter.unusedSimpArgs false
namespace Pyth.Pure.AllOps
open Pyth.World Pyth.Portal
open Pyth.ValueAddr (Grow growFree Integ integFree IsAddr HoldsVal Has)

variable {U A α β : Type} [DecidableEq U] [DecidableEq A] {addrOf : Val U A → A}
  {c : Option PortalId} {P P' F G Z : PWorld U A → Prop} {X X0 : Kind → PWorld U A → Prop}
  {prog : FnId → Fn U} {n m : Nat} {rec : FnId → Kw U → PM U A U}
  {ps : List PortalId} {p : PortalId} {cfg : Option Rat} {g0 : FnId} {v0 : List (String × U)} {d e : Nat}

/-- the call `g0(**v0)` was executed `d` times less than attempted, compared with a beginning (`e`) -/
def Slack (addrOf : Val U A → A) (ps : List PortalId) (g0 : FnId) (v0 : List (String × U)) (d e : Nat) (s : PWorld U A) : Prop :=
  codeRuns s g0 v0 + d ≤ (ps.map fun p => (s.ext.attempts p (callKey addrOf g0 (sortKw v0))).length).sum + e

theorem stable_slack (d e : Nat) : Stable (U := U) (Slack addrOf ps g0 v0 d e) := by
  intro s s' h hs
  unfold Slack at hs ⊢
  simp only [h.runs, h.attempts]; exact hs

/-- nested calls keep the slack -/
def RecSlack (addrOf : Val U A → A) (ps : List PortalId) (g0 : FnId) (v0 : List (String × U))
    (rec : FnId → Kw U → PM U A U) : Prop :=
  ∀ d e c g kw, Sp addrOf (anything U) c (Slack addrOf ps g0 v0 d e) (rec g kw)
      (fun _ => Slack addrOf ps g0 v0 d e) (fun _ => Slack addrOf ps g0 v0 d e)

theorem sp_drawSlack {m : Rat → PM U A α} {Q : α → PWorld U A → Prop}
    (h : ∀ x, Sp addrOf (anything U) c (Slack addrOf ps g0 v0 d e) (m x) Q X) :
    Sp addrOf (anything U) c (Slack addrOf ps g0 v0 d e) (fun s => m (s.draws s.nd) { s with nd := s.nd + 1 }) Q X := by
  intro s ho hw hc hp
  have hw' : W addrOf (anything U) { s with nd := s.nd + 1 } := ⟨hw.integ, hw.held, hw.pCheck, hw.reqs, hw.obj, hw.trace⟩
  have h1 := h (s.draws s.nd) { s with nd := s.nd + 1 } ho hw' hc hp
  have hb : Base addrOf (anything U) s { s with nd := s.nd + 1 } := ⟨⟨rfl, rfl, rfl, List.prefix_rfl⟩, hw',
    { Ev.refl s with
      grow := ⟨fun _ _ _ h => h, fun i o h => ⟨o, h, rfl, rfl, id, id⟩⟩
      nd := Nat.le_succ _
      raddrs := fun r o h => ⟨o, h, (REv.refl s o).key, rfl, id, fun _ => id, fun _ => .inl, id⟩ }⟩
  exact ⟨hb.trans h1.1, h1.2⟩

theorem sp_bodySlack (hrec : RecSlack addrOf ps g0 v0 rec) (body : Body U) :
    Sp addrOf (anything U) c (Slack addrOf ps g0 v0 d e) (runBody rec body)
      (fun _ => Slack addrOf ps g0 v0 d e) (fun _ => Slack addrOf ps g0 v0 d e) := by
  induction body with
  | ret u => exact Sp.pure fun s h => h
  | raise i => exact Sp.raiseNew (stable_slack d e).fr fun s h => h
  | call g kw k ih => exact Sp.bind (hrec d e c g _) fun u => ih u
  | tryCall g kw k ih =>
    rw [runBody_tryCall]
    exact sp_tryCall (hrec d e c g _) (fun u => ih _) (fun x _ => ih _) (fun s h => h)
  | print t body ih =>
    refine Sp.bind (((sp_print (P := fun _ => True) (X := fun _ _ => True) t).ag (ag_modExt fun s => ⟨fun _ _ => rfl, fun _ _ h => h, rfl, fun _ _ => rfl⟩)
      (stable_slack d e)).conseq (fun s h => ⟨trivial, h⟩) (fun _ _ h => h.2) (fun _ _ h => h.2)) fun _ => ih
  | draw k ih => exact sp_drawSlack ih

theorem sp_guardSlack (hrec : RecSlack addrOf ps g0 v0 rec) (kw : Kw U) (gs : List FnId) :
    Sp addrOf (anything U) c (Slack addrOf ps g0 v0 d e) (guardLoop rec kw gs)
      (fun _ => Slack addrOf ps g0 v0 d e) (fun _ => Slack addrOf ps g0 v0 d e) := by
  induction gs with
  | nil => exact Sp.pure fun s h => h
  | cons g gs ih => exact Sp.bind (hrec d e c g kw) fun u => ih

theorem sp_canSlack (hrec : RecSlack addrOf ps g0 v0 rec) (f : FnId) (kw : Kw U) :
    Sp addrOf (anything U) c (Slack addrOf ps g0 v0 d e) (canBeExecuted rec prog p f kw)
      (fun _ => Slack addrOf ps g0 v0 d e) (fun _ => Slack addrOf ps g0 v0 d e) := by
  have hs := (stable_slack (addrOf := addrOf) (ps := ps) (g0 := g0) (v0 := v0) d e).fr
  refine Sp.withP hs (fun _ => hs) (fun _ => hs) ?_
  refine Sp.tryE (fun _ => hs) (fun _ => hs) (fun _ => hs) (sp_guardSlack hrec kw _) fun e => ?_
  exact Sp.ite (fun he => Sp.raise fun s h => h) (fun he => Sp.pure fun s h => h)

/-- how much slack the execution of the code uses up -/
def used (prog : FnId → Fn U) (g0 : FnId) (v0 : List (String × U)) (f : FnId) (kw : Kw U) : Nat :=
  if (prog f).isPure = true ∧ f = g0 ∧ kw = rawKw (sortKw v0) then 1 else 0

theorem slack_start {s : PWorld U A} {f : FnId} {kw : Kw U} (h : Slack addrOf ps g0 v0 (d + used prog g0 v0 f kw) e s) :
    Slack addrOf ps g0 v0 d e { s with ext := { s.ext with trace := s.ext.trace ++ [.start f kw (prog f).isPure] } } := by
  unfold Slack codeRuns at h ⊢
  simp only [List.countP_append, List.countP_cons, List.countP_nil]
  unfold used at h
  by_cases hu : (prog f).isPure = true ∧ f = g0 ∧ kw = rawKw (sortKw v0)
  · rw [if_pos hu] at h
    have h3 : isRun g0 v0 (.start f kw (prog f).isPure) = true := by rw [hu.1]; simp [isRun, hu.2]
    simp only [h3, if_true]; omega
  · rw [if_neg hu] at h
    have h3 : isRun g0 v0 (.start f kw (prog f).isPure) = false := by
      cases hp : (prog f).isPure with
      | false => rfl
      | true => simp only [isRun, decide_eq_false_iff_not]; exact fun x => hu ⟨hp, x⟩
    simp only [h3]; simpa using h

theorem sp_autSlack (hrec : RecSlack addrOf ps g0 v0 rec) (f : FnId) (kw : Kw U) :
    Sp addrOf (anything U) c (fun s => ((prog f).isPure = true → TailG (anything U).may f kw s.ext) ∧
        Slack addrOf ps g0 v0 (d + used prog g0 v0 f kw) e s)
      (autExec rec prog p f kw)
      (fun _ => Slack addrOf ps g0 v0 d e) (fun _ => Slack addrOf ps g0 v0 d e) := by
  have hst := stable_slack (addrOf := addrOf) (ps := ps) (g0 := g0) (v0 := v0) d e
  have hst' := stable_slack (addrOf := addrOf) (ps := ps) (g0 := g0) (v0 := v0) (d + used prog g0 v0 f kw) e
  refine Sp.withP (fun s a b c d e h => ⟨h.1, hst'.fr s a b c d e h.2⟩) (fun _ => hst.fr) (fun _ => hst.fr) ?_
  rw [ordExec_eq]
  refine Sp.bind (Q := fun _ => Slack addrOf ps g0 v0 d e) (sp_modExt fun s hw hp => ⟨?_, ev_trace s _, ?_⟩) fun _ =>
    Sp.onError (base_logFailure p f) (fun k e s h => hst _ _ (ag_logFailure p f e s) h) (sp_bodySlack hrec _)
  · exact ⟨hw.integ, hw.held, hw.pCheck, hw.reqs, hw.obj, hw.trace.start f kw _ hp.1⟩
  · exact slack_start hp.2

/-- how much slack the opening of a frame adds -/
def added (addrOf : Val U A → A) (g0 : FnId) (v0 : List (String × U)) (k : Key A) : Nat :=
  if k = callKey addrOf g0 (sortKw v0) then 1 else 0

theorem used_le (f : FnId) (un : List (String × U)) :
    used prog g0 v0 f (rawKw un) ≤ added addrOf g0 v0 (callKey addrOf f un) := by
  unfold used added
  split
  · rename_i h
    obtain ⟨_, rfl, h2⟩ := h
    rw [rawKw_inj h2, if_pos rfl]
  · exact Nat.zero_le _

theorem Slack.weak {s : PWorld U A} {d d' : Nat} (h : Slack addrOf ps g0 v0 d e s) (hd : d' ≤ d) : Slack addrOf ps g0 v0 d' e s := by
  unfold Slack at h ⊢; omega

theorem tr_frameSlack (hinj : Function.Injective addrOf) {ri : Nat} {k : Key A} {I : PWorld U A → Prop}
    (hR : Route addrOf (anything U) ri k p I True) (hrec : RecOK addrOf (anything U) True prog n rec)
    (hslack : RecSlack addrOf ps g0 v0 rec)
    (kw : Kw U) (packed : List (String × Nat)) (ts : List (String × A)) (hk : k = (k.1, sigText addrOf k.1 ts))
    (conduct : Bool) (cfg' : Option Rat) (run : Nat) :
    Tr addrOf (anything U) (some p)
      (fun s => Known addrOf True I p kw [] packed ts cfg [] s ∧ Slack addrOf ps g0 v0 (d + added addrOf g0 v0 k) e s)
      (frameBody addrOf rec prog p k.1 kw packed ri conduct cfg' run) (Slack addrOf ps g0 v0 d e) := by
  have hst0 := stable_slack (addrOf := addrOf) (ps := ps) (g0 := g0) (v0 := v0) d e
  have hst := stable_slack (addrOf := addrOf) (ps := ps) (g0 := g0) (v0 := v0) (d + added addrOf g0 v0 k) e
  have hlow : ∀ s : PWorld U A, Slack addrOf ps g0 v0 (d + added addrOf g0 v0 k) e s → Slack addrOf ps g0 v0 d e s :=
    fun s h => h.weak (Nat.le_add_right _ _)
  have hmo := mono_known (E := True) hR.mono p kw [] packed ts cfg []
  unfold frameBody
  refine Tr.bind ((((sp_rRequest (c := some p) hR hinj).mono hmo).agq (quiet_rRequest ri) hst).pre fun s h => ⟨⟨h.1.1, h.1⟩, h.2⟩)
    (fun _ s h => hlow s h.2) fun _ => ?_
  refine Tr.bind (((sp_canSlack (c := some p) (p := p) (d := d + added addrOf g0 v0 k) (e := e) hslack k.1 kw).mono hmo).pre
    fun s h => ⟨h.2, h.1.2⟩) (fun _ s h => hlow s h.1) fun ok => ?_
  refine Tr.bind (Q := fun _ s => (Known addrOf True I p kw [] packed ts cfg [] s ∧ Slack addrOf ps g0 v0 (d + added addrOf g0 v0 k) e s) ∧
      ∃ pre, s.ext.trace = pre ++ [Event.guards k.1 kw ok]) (X := fun _ _ => False)
    (sp_modExt fun s hw h => ⟨?_, ev_trace s _, ⟨?_, ?_⟩, s.ext.trace, rfl⟩) (fun _ _ h => h.elim) fun _ => ?_
  · exact ⟨hw.integ, hw.held, hw.pCheck, hw.reqs, hw.obj, hw.trace.guards _ _ _⟩
  · refine hmo _ _ (ev_trace s _) ?_ h.2
    exact ⟨hw.integ, hw.held, hw.pCheck, hw.reqs, hw.obj, hw.trace.guards _ _ _⟩
  · exact hst s _ (ag_guards s _ _ _) h.1
  refine Tr.ite (fun hb' => ?_) (fun hb' => Tr.resp (Resp.raiseNew agFree _) hst0 fun s h => hlow s h.1.2)
  subst hb'
  refine (Tr.gain (B := sortKw (asKw (U := U) packed) = asKw packed)
    (P := fun s => (Known addrOf True I p kw [] packed ts cfg [] s ∧ Slack addrOf ps g0 v0 (d + added addrOf g0 v0 k) e s) ∧
      ∃ pre, s.ext.trace = pre ++ [Event.guards k.1 kw true]) fun es => ?_).pre
    fun s h => ⟨sorted_packed h.1.1.2.1 h.1.1.2.2.1, h⟩
  rw [es]
  have hun : Sp addrOf (anything U) (some p) (fun s => (Known addrOf True I p kw [] packed ts cfg [] s ∧ Slack addrOf ps g0 v0 (d + added addrOf g0 v0 k) e s) ∧
      ∃ pre, s.ext.trace = pre ++ [Event.guards k.1 kw true]) (unpack (asKw packed) : PM U A (List (String × U)))
      (fun un s => (ts = texts addrOf un ∧ ArgsAgree kw (rawKw un)) ∧ Slack addrOf ps g0 v0 (d + added addrOf g0 v0 k) e s ∧
        ∃ pre, s.ext.trace = pre ++ [Event.guards k.1 kw true])
      (fun _ s => Slack addrOf ps g0 v0 d e s) := by
    intro s ho hw hc hp
    have h1 := ((sp_unpack_mode (K := anything U) (c := some p) (E := True) hinj (asKw packed) []).mono hmo) s ho hw hc
      ⟨.inl trivial, hp.1.1⟩
    have hsl := hst _ _ (Resp.agLow (low_unpack (asKw packed)) s) hp.1.2
    refine ⟨h1.1, fun un hun => ?_, fun e he => hlow _ hsl⟩
    have h2 := h1.2.1 un hun
    have e1 : ts = texts addrOf un := (Match.packed (addrOf := addrOf) h2.2.2.1).unique h2.1.1
    refine ⟨⟨e1, ?_⟩, hsl, ?_⟩
    · have := h2.2.2.2.1
      rw [e1] at this
      exact argsAgree_of_match hinj this
    · rw [(low_unpack (asKw packed) s).ext]; exact hp.2
  refine Tr.bind hun (fun _ _ h => h) fun un => Tr.gain fun hu => ?_
  obtain ⟨ets, hagree⟩ := hu
  have hle : used prog g0 v0 k.1 (rawKw un) ≤ added addrOf g0 v0 k := by
    conv => rhs; rw [hk, ets]
    exact used_le k.1 un
  refine Tr.bind ((sp_autSlack (c := some p) (p := p) (d := d) (e := e) hslack k.1 (rawKw un)).pre
    fun s h => ⟨fun _ => ?_, h.1.weak (by omega)⟩) (fun _ _ h => h) fun u => Tr.resp (ag_tail p ri run conduct cfg' u) hst0 fun s h => h
  obtain ⟨pre, hpre⟩ := h.2
  exact ⟨⟨pre, _, hpre, hagree⟩, fun _ _ => trivial⟩

theorem sum_open {ps : List PortalId} {f g : PortalId → Nat} {p : PortalId} (hp : p ∈ ps) (h : g p = f p + 1)
    (hle : ∀ q, f q ≤ g q) : (ps.map f).sum + 1 ≤ (ps.map g).sum := by
  induction ps with
  | nil => cases hp
  | cons q ps ih =>
    simp only [List.map_cons, List.sum_cons]
    have hall : (ps.map f).sum ≤ (ps.map g).sum := by
      clear ih hp
      induction ps with
      | nil => exact le_refl _
      | cons r ps ih => simp only [List.map_cons, List.sum_cons]; have := hle r; omega
    rcases List.mem_cons.1 hp with rfl | hp
    · omega
    · have := ih hp; have := hle q; omega

theorem slack_open {s : PWorld U A} {r : RObj U A} {f : FnId} (hp : r.portal ∈ ps) (h : Slack addrOf ps g0 v0 d e s) :
    Slack addrOf ps g0 v0 (d + added addrOf g0 v0 r.key) e { s with ext := openFrame r f s.ext } := by
  unfold Slack at h ⊢
  have h1 : codeRuns { s with ext := openFrame r f s.ext } g0 v0 = codeRuns s g0 v0 := rfl
  rw [h1]
  unfold added
  by_cases hk : r.key = callKey addrOf g0 (sortKw v0)
  · rw [if_pos hk, ← hk]
    rw [← hk] at h
    have := sum_open (f := fun p => (s.ext.attempts p r.key).length)
      (g := fun p => ((openFrame r f s.ext).attempts p r.key).length) hp (by simp [openFrame, upd2])
      (fun q => by simp only [openFrame, upd2]; split <;> simp_all)
    dsimp only at this ⊢
    omega
  · rw [if_neg hk]
    have e2 : ∀ q, ({ s with ext := openFrame r f s.ext } : PWorld U A).ext.attempts q (callKey addrOf g0 (sortKw v0)) =
        s.ext.attempts q (callKey addrOf g0 (sortKw v0)) := by
      intro q
      simp [openFrame, upd2, Ne.symm hk]
    have e3 : (fun q => (({ s with ext := openFrame r f s.ext } : PWorld U A).ext.attempts q
        (callKey addrOf g0 (sortKw v0))).length) =
        fun q => (s.ext.attempts q (callKey addrOf g0 (sortKw v0))).length := funext fun q => by rw [e2]
    rw [e3]; exact h

theorem tr_withFrameSlack (hinj : Function.Injective addrOf) {ri : Nat} {k : Key A} {I : PWorld U A → Prop}
    (hR : Route addrOf (anything U) ri k p I True) (hIx : FrX I) (hrec : RecOK addrOf (anything U) True prog n rec)
    (hslack : RecSlack addrOf ps g0 v0 rec) (hps : p ∈ ps)
    (kw : Kw U) (packed : List (String × Nat)) (ts : List (String × A)) (hk : k = (k.1, sigText addrOf k.1 ts))
    (conduct : Bool) (cfg' : Option Rat) :
    Tr addrOf (anything U) (some p)
      (fun s => Known addrOf True I p kw [] packed ts cfg [] s ∧ Slack addrOf ps g0 v0 d e s)
      (withFrame ri (frameBody addrOf rec prog p k.1 kw packed ri conduct cfg')) (Slack addrOf ps g0 v0 d e) := by
  have hst := stable_slack (addrOf := addrOf) (ps := ps) (g0 := g0) (v0 := v0) d e
  have hmo := mono_known (E := True) hR.mono p kw [] packed ts cfg []
  rw [withFrame_eq]
  refine Tr.bind ((((sp_readK (X := fun _ _ => False) ri k p).mono hmo).agq (quiet_readR ri) hst).pre
    fun s h => ⟨⟨hR.ris s h.1.1, h.1⟩, h.2⟩) (fun _ _ h => h.1.1.elim) fun o => ?_
  refine (Tr.gain (B := o.key = k ∧ o.portal = p) (P := fun s => Known addrOf True I p kw [] packed ts cfg [] s ∧
        Slack addrOf ps g0 v0 d e s) fun e => ?_).pre fun s h => ⟨h.1.1.1, h.1.2, h.2⟩
  obtain ⟨rfl, rfl⟩ := e
  have g2 : Sp addrOf (anything U) (some o.portal) I (withP o.portal (rFunction ri)) (fun f _ => f = o.key.1) (fun _ _ => True) :=
    Sp.withP hR.fr (fun _ => fr_const _) (fun _ => fr_const _) (hR.fn (some o.portal))
  refine Tr.bind (((g2.mono hmo).agq (Resp.withP quietFree _ (quiet_rFunction ri)) hst).pre
    fun s h => ⟨⟨h.1.1, h.1⟩, h.2⟩) (fun _ _ h => h.2) fun f => ?_
  refine Tr.frameRun (P := fun s => ((f = o.key.1) ∧ Known addrOf True I o.portal kw [] packed ts cfg [] s) ∧
      Slack addrOf ps g0 v0 d e s)
    (P' := fun s => Known addrOf True I o.portal kw [] packed ts cfg [] s ∧ Slack addrOf ps g0 v0 (d + added addrOf g0 v0 o.key) e s)
    (fun s a b c d e h => ⟨⟨h.1.1, fr_known hR.fr _ _ _ _ _ _ _ s a b c d e h.1.2⟩, hst.fr s a b c d e h.2⟩) hst (fun s h => ?_)
    fun i => Tr.traceback hst (tr_frameSlack hinj hR hrec hslack kw packed ts hk conduct cfg' i)
  exact ⟨frx_known hIx _ _ _ _ _ _ _ s _ _ _ _ _ h.1.2, slack_open hps h.2⟩

theorem tr_pureSlack (hinj : Function.Injective addrOf)
    (hrec : RecOK addrOf (anything U) True prog n rec)
    (hslack : RecSlack addrOf ps g0 v0 rec) (hps : p ∈ ps) (f : FnId) (kw : Kw U) :
    Tr addrOf (anything U) c (Slack addrOf ps g0 v0 d e)
      (pureExec addrOf rec prog p f kw) (Slack addrOf ps g0 v0 d e) := by
  have hst := stable_slack (addrOf := addrOf) (ps := ps) (g0 := g0) (v0 := v0) d e
  unfold pureExec
  refine Tr.withP hst.fr hst ?_
  refine Tr.bind (((sp_pack_mode (K := anything U) (c := some p) (R := True) hinj p kw []).agq
    (Resp.quiet (low_pack p (sortKw kw))) hst).pre fun s h => ⟨.inl trivial, h⟩) (fun _ _ h => h.2) fun packed => ?_
  refine (Tr.exI (P := fun ts s => PK addrOf True p kw [] packed ts s ∧ Slack addrOf ps g0 v0 d e s) fun ts => ?_).pre fun s ⟨⟨ts, h1⟩, h2⟩ => ⟨ts, h1, h2⟩
  refine Tr.bind ((sp_mkRAddr_mode (K := anything U) (R := True) hinj f p kw [] packed ts).agq
    (quiet_mkRAddr f p (asKw packed)) hst) (fun _ _ h => h.2) fun ri => ?_
  have hroute := route_ir (K := anything U) (R := True) hinj (sortKw []) ri (f, sigText addrOf f ts) p
  have hmo := hroute.mono.and (mono_pk (K := anything U) (R := True) (addrOf := addrOf) p kw [] packed ts)
  let P1 : PWorld U A → Prop := fun s => (IR addrOf True (sortKw []) ri (f, sigText addrOf f ts) p s ∧
    PK addrOf True p kw [] packed ts s) ∧ Slack addrOf ps g0 v0 d e s
  have g4 : Sp addrOf (anything U) (some p) P1 (drawR : PM U A Rat) (fun _ s => P1 s) (fun _ _ => False) := by
    intro s ho hw hc hp
    refine ⟨⟨⟨rfl, rfl, rfl, List.prefix_rfl⟩, ⟨hw.integ, hw.held, hw.pCheck, hw.reqs, hw.obj, hw.trace⟩,
      { Ev.refl s with
        grow := ⟨fun _ _ _ h => h, fun i o h => ⟨o, h, rfl, rfl, id, id⟩⟩
        nd := Nat.le_succ _
        raddrs := fun r o h => ⟨o, h, (REv.refl s o).key, rfl, id, fun _ => id, fun _ => .inl, id⟩ }⟩,
      fun x hx => ?_, fun e he => (by cases he)⟩
    exact hp
  refine Tr.bind g4 (fun _ _ h => h.elim) fun x => ?_
  refine Tr.bind (X := fun _ _ => False) Sp.getS (fun _ _ h => h.elim) fun s0 => ?_
  refine (Tr.pre (P := fun s => P1 s ∧ s.ext.pCfg p = s0.ext.pCfg p) ?_) fun s h => ⟨h.2, by rw [h.1]⟩
  have hcf : Mono addrOf (anything U) (fun s => s.ext.pCfg p = s0.ext.pCfg p) := fun s s' h _ h1 => (congrFun h.pCfg p).trans h1
  refine Tr.bind ((((sp_rReady (K := anything U) (c := some p) hroute hinj).mono (hmo.and hcf)).agq (quiet_rReady ri) hst).pre
    fun s h => ⟨⟨h.1.1.1, h.1.1, h.2⟩, h.1.2⟩) (fun _ _ h => h.2) fun rd => ?_
  refine Tr.ite (fun hc => ?_) (fun hc => ?_)
  · refine Tr.ofSp (((sp_rGet_yes (K := anything U) (c := some p) hinj ri (f, sigText addrOf f ts) p).agq (quiet_rGet ri) hst).conseq
      (fun s h => ⟨⟨h.1.2.1.1.1, h.1.1 hc.1⟩, h.2⟩) (fun _ _ h => h.2) (fun _ _ h => h.1.elim))
  · refine (tr_withFrameSlack (cfg := s0.ext.pCfg p) hinj hroute (fun _ _ _ _ _ _ h => h) hrec hslack hps kw packed ts rfl rd _).pre fun s h => ?_
    have hpk := h.1.2.1.2
    exact ⟨⟨h.1.2.1.1, hpk.1, hpk.2.1, .inl trivial, .inl trivial, h.1.2.2, List.nil_prefix⟩, h.2⟩

/-- at any depth -/
theorem recSlack_exec (hinj : Function.Injective addrOf) (prog : FnId → Fn U) (hps : p ∈ ps) :
    ∀ n, RecSlack addrOf ps g0 v0 (exec addrOf prog p n) := by
  intro n
  induction n with
  | zero =>
    intro d e c g kw
    exact Sp.raiseNew (stable_slack d e).fr fun s h => h
  | succ n ih =>
    intro d e c g kw
    have hrec := recOK_exec (addrOf := addrOf) hinj (mode_any prog) p n
    show Sp addrOf (anything U) c _ (if (prog g).isPure then pureExec addrOf (exec addrOf prog p n) prog p g kw
      else autExec (exec addrOf prog p n) prog p g kw) _ _
    refine Sp.ite (fun hg => ?_) (fun hg => ?_)
    · have h1 := gen_exec (addrOf := addrOf) (c := c) hinj prog p (n + 1) g kw
      have e1 : exec addrOf prog p (n + 1) g kw = pureExec addrOf (exec addrOf prog p n) prog p g kw := by
        show (if (prog g).isPure then _ else _) = _
        rw [if_pos hg]
      rw [e1] at h1
      exact (Sp.tr h1 (tr_pureSlack (c := c) (d := d) (e := e) hinj hrec ih hps g kw)).conseq
        (fun s h => ⟨trivial, h⟩) (fun _ _ h => h.2) (fun _ _ h => h.2)
    · have hg' : (prog g).isPure = false := by simpa using hg
      refine (sp_autSlack ih g kw).pre fun s h => ⟨fun h' => (by rw [hg'] at h'; cases h'), ?_⟩
      have : used prog g0 v0 g kw = 0 := by unfold used; rw [if_neg]; intro h; rw [hg'] at h; cases h.1
      rw [this]; exact h

/-! ### execution through addresses -/

theorem slack_quiet {s s' : PWorld U A} (h : Quiet s s') (hs : Slack addrOf ps g0 v0 d e s) : Slack addrOf ps g0 v0 d e s' := by
  have h : hist s' = hist s := h
  simp only [hist, Hist.mk.injEq] at h
  unfold Slack codeRuns at hs ⊢
  rw [h.1, h.2.2.2.2.2.2.2.2.2]; exact hs

theorem Tr.quiet {m : PM U A α} (h : Resp Quiet m) : Tr addrOf (anything U) c (Slack addrOf ps g0 v0 d e) m (Slack addrOf ps g0 v0 d e) :=
  fun s _ _ _ hs => slack_quiet (h s) hs

theorem tr_rExecute (hinj : Function.Injective addrOf) (prog : FnId → Fn U) (ri : Nat) (k : Key A) (p : PortalId)
    (hps : p ∈ ps) (n : Nat) :
    Tr addrOf (anything U) c (fun s => IR addrOf True [] ri k p s ∧ Slack addrOf ps g0 v0 d e s) (rExecute addrOf prog n ri)
      (Slack addrOf ps g0 v0 d e) := by
  have hst := stable_slack (addrOf := addrOf) (ps := ps) (g0 := g0) (v0 := v0) d e
  have hroute := route_ir (K := anything U) (R := True) hinj [] ri k p
  refine Tr.bind ((((sp_readK (X := fun _ _ => False) ri k p).mono hroute.mono).agq (quiet_readR ri) hst).pre
    fun s h => ⟨⟨h.1.1, h.1⟩, h.2⟩) (fun _ _ h => h.1.1.elim) fun o => ?_
  refine (Tr.gain (B := o.key = k ∧ o.portal = p) (P := fun s => IR addrOf True [] ri k p s ∧ Slack addrOf ps g0 v0 d e s) fun e => ?_).pre
    fun s h => ⟨h.1.1.1, h.1.2, h.2⟩
  obtain ⟨ek, ep⟩ := e
  cases hr : o.result with
  | some u => exact fun s _ _ _ h => h.2
  | none =>
    refine (Tr.withP (P := fun s => IR addrOf True [] ri k p s ∧ Slack addrOf ps g0 v0 d e s)
      (fun s a b c d e h => ⟨hroute.fr s a b c d e h.1, hst.fr s a b c d e h.2⟩) hst ?_)
    rw [ep]
    refine Tr.bind ((((hroute.fn (some p)).mono hroute.mono).agq (quiet_rFunction ri) hst).pre
      fun s h => ⟨⟨h.1, h.1⟩, h.2⟩) (fun _ _ h => h.2) fun f => ?_
    refine Tr.bind ((((sp_rArguments_ir hinj [] ri k p).mono hroute.mono).agq (quiet_rArguments ri) hst).pre
      fun s h => ⟨⟨h.1.2, h.1.2⟩, h.2⟩) (fun _ _ h => h.2) fun l => ?_
    refine Tr.bind ((recSlack_exec hinj prog hps n d e (some p) f l).pre fun s h => h.2) (fun _ _ h => h) fun u => ?_
    exact Tr.quiet (Resp.bind quietFree.toPreOrd (quiet_updR _ _) fun _ => Resp.pure quietFree.toPreOrd _)

theorem quiet_getAddress (p : PortalId) (f : FnId) (kw : Kw U) : Resp Quiet (getAddress addrOf p f kw) :=
  Resp.withP quietFree _ (Resp.bind quietFree.toPreOrd (Resp.quiet (low_pack _ _)) fun _ => quiet_mkRAddr _ _ _)

theorem quiet_swarm (p : PortalId) (f : FnId) (kw : Kw U) : Resp Quiet (swarm addrOf p f kw) :=
  Resp.withP quietFree _ (Resp.bind quietFree.toPreOrd (quiet_getAddress _ _ _) fun _ =>
    Resp.bind quietFree.toPreOrd (quiet_rRequest _) fun _ => Resp.pure quietFree.toPreOrd _)

theorem quiet_addrLoop (p : PortalId) (f : FnId) (l : List (Kw U)) : Resp Quiet (addrLoop addrOf p f l) := by
  induction l with
  | nil => exact Resp.pure quietFree.toPreOrd _
  | cons kw l ih =>
    exact Resp.bind quietFree.toPreOrd (quiet_mkRAddr _ _ _) fun _ =>
      Resp.bind quietFree.toPreOrd ih fun _ => Resp.pure quietFree.toPreOrd _

theorem quiet_requestLoop (l : List Nat) : Resp Quiet (requestLoop addrOf l) := by
  induction l with
  | nil => exact Resp.pure quietFree.toPreOrd _
  | cons r l ih => exact Resp.bind quietFree.toPreOrd (quiet_rRequest _) fun _ => ih

theorem quiet_swarmList (sh : List Nat → List Nat) (p : PortalId) (f : FnId) (l : List (Kw U)) :
    Resp Quiet (swarmList addrOf sh p f l) :=
  Resp.withP quietFree _ (Resp.bind quietFree.toPreOrd (quiet_addrLoop _ _ _) fun _ =>
    Resp.bind quietFree.toPreOrd (quiet_requestLoop _) fun _ => Resp.pure quietFree.toPreOrd _)

theorem tr_run (hinj : Function.Injective addrOf) (prog : FnId → Fn U) (p : PortalId) (hps : p ∈ ps) (n : Nat) (f : FnId)
    (hp : (prog f).isPure = true) (kw : Kw U) :
    Tr addrOf (anything U) c (Slack addrOf ps g0 v0 d e) (Pure.run addrOf prog n p f kw) (Slack addrOf ps g0 v0 d e) := by
  have hst := stable_slack (addrOf := addrOf) (ps := ps) (g0 := g0) (v0 := v0) d e
  refine Tr.withP hst.fr hst ?_
  refine Tr.bind (((sp_getAddress (K := anything U) (R := True) hinj p f kw []).agq (quiet_getAddress p f kw) hst).pre
    fun s h => ⟨.inl trivial, h⟩) (fun _ _ h => h.2) fun r => ?_
  have h : Sp addrOf (anything U) (some p) (fun s => AddrFor addrOf True f p kw [] r s ∧ Slack addrOf ps g0 v0 d e s)
      (rExecute addrOf prog n r) (fun _ => Slack addrOf ps g0 v0 d e) (fun _ => Slack addrOf ps g0 v0 d e) := by
    refine (Sp.exI (P := fun ts s => IR addrOf True [] r (f, sigText addrOf f ts) p s ∧ Slack addrOf ps g0 v0 d e s) fun ts => ?_).pre
      fun s ⟨⟨ts, _, h1, _⟩, h2⟩ => ⟨ts, ⟨h1.1, .inl trivial⟩, h2⟩
    exact (Sp.tr (sp_rExecute (R := True) hinj (mode_any prog) id [] r (f, sigText addrOf f ts) p hp (.inl trivial) n)
      (tr_rExecute hinj prog r (f, sigText addrOf f ts) p hps n)).conseq (fun s h => ⟨h.1, h⟩) (fun _ _ h => h.2) (fun _ _ h => h.2)
  exact Tr.bind h (fun _ _ h => h) fun _ _ _ _ _ h => h

/-- addresses of calls of `f` in portal `p` -/
def AddrsOf (addrOf : Val U A → A) (f : FnId) (p : PortalId) (rs : List Nat) (s : PWorld U A) : Prop :=
  ∀ r ∈ rs, ∃ kw vals, AddrFor addrOf True f p kw vals r s

theorem tr_executeLoop (hinj : Function.Injective addrOf) (prog : FnId → Fn U) (p : PortalId) (hps : p ∈ ps) (n : Nat)
    (f : FnId) (hp : (prog f).isPure = true) (rs : List Nat) :
    Tr addrOf (anything U) c (fun s => AddrsOf addrOf f p rs s ∧ Slack addrOf ps g0 v0 d e s) (executeLoop addrOf prog n rs)
      (Slack addrOf ps g0 v0 d e) := by
  induction rs with
  | nil => exact fun s _ _ _ h => h.2
  | cons r rs ih =>
    have hmo : Mono addrOf (anything U) (AddrsOf addrOf f p rs) := fun s s' e w h r hr => by
      obtain ⟨kw, vals, h⟩ := h r hr
      exact ⟨kw, vals, mono_addrFor hinj f p kw vals r s s' e w h⟩
    have h : Sp addrOf (anything U) c (fun s => AddrsOf addrOf f p (r :: rs) s ∧ Slack addrOf ps g0 v0 d e s)
        (rExecute addrOf prog n r) (fun _ s => AddrsOf addrOf f p rs s ∧ Slack addrOf ps g0 v0 d e s)
        (fun _ => Slack addrOf ps g0 v0 d e) := by
      refine (Sp.exI (P := fun ts s => IR addrOf True [] r (f, sigText addrOf f ts) p s ∧ AddrsOf addrOf f p rs s ∧
        Slack addrOf ps g0 v0 d e s) fun ts => ?_).pre
        fun s h => ?_
      · exact (Sp.tr ((sp_rExecute (R := True) hinj (mode_any prog) id [] r (f, sigText addrOf f ts) p hp (.inl trivial) n).mono hmo)
          (tr_rExecute hinj prog r (f, sigText addrOf f ts) p hps n)).conseq (fun s h => ⟨⟨h.1, h.2.1⟩, h.1, h.2.2⟩)
          (fun _ _ h => ⟨h.1.2, h.2⟩) (fun _ _ h => h.2)
      · obtain ⟨kw, vals, ts, _, h1, _⟩ := h.1 r (by simp)
        exact ⟨ts, ⟨h1.1, .inl trivial⟩, fun r' hr' => h.1 r' (by simp [hr']), h.2⟩
    exact Tr.bind h (fun _ _ h => h) fun _ => ih

theorem tr_runList (hinj : Function.Injective addrOf) (prog : FnId → Fn U) (p : PortalId) (hps : p ∈ ps) (n : Nat)
    (f : FnId) (hp : (prog f).isPure = true) (sh1 sh2 : List Nat → List Nat) (h1 : ∀ l, (sh1 l).Perm l)
    (h2 : ∀ l, (sh2 l).Perm l) (l : List (Kw U)) :
    Tr addrOf (anything U) c (Slack addrOf ps g0 v0 d e) (runList addrOf prog n sh1 sh2 p f l)
      (Slack addrOf ps g0 v0 d e) := by
  have hst := stable_slack (addrOf := addrOf) (ps := ps) (g0 := g0) (v0 := v0) d e
  refine Tr.withP hst.fr hst ?_
  have g : Sp addrOf (anything U) (some p) (fun _ => True) (swarmList addrOf sh1 p f l) (fun rs => AddrsOf addrOf f p rs)
      (fun _ _ => True) := by
    intro s ho hw hc _
    have h := sp_swarmList (K := anything U) (R := True) hinj p f sh1 h1 l (l.map fun _ => []) (by simp) s s ho hw hc
      ⟨.inl trivial, sameFree.refl s⟩
    refine ⟨h.1, fun a ha => fun r hr => ?_, fun _ _ => trivial⟩
    obtain ⟨kw, vals, _, h⟩ := (h.2.1 a ha).1.each r hr
    exact ⟨kw, vals, h⟩
  refine Tr.bind ((g.agq (quiet_swarmList sh1 p f l) hst).pre fun s h => ⟨trivial, h⟩) (fun _ _ h => h.2) fun rs => ?_
  refine Tr.bind (Q := fun _ => Slack addrOf ps g0 v0 d e) (X := fun _ => Slack addrOf ps g0 v0 d e) ?_ (fun _ _ h => h)
    fun _ _ _ _ _ h => h
  have hloop := tr_executeLoop (c := some p) (ps := ps) (g0 := g0) (v0 := v0) (d := d) (e := e) hinj prog p hps n f hp (sh2 rs)
  have hsp := sp_executeLoop (R := True) (K := anything U) (c := some p) (fun _ => True) hinj (mode_any prog) id f p hp (.inl trivial) n (sh2 rs)
  refine (Sp.tr hsp hloop).conseq (fun s h => ⟨fun r hr => ?_, fun r hr => h.1 r ((h2 rs).mem_iff.1 hr), h.2⟩)
    (fun _ _ h => h.2) (fun _ _ h => h.2)
  obtain ⟨kw, vals, h⟩ := h.1 r ((h2 rs).mem_iff.1 hr)
  exact ⟨kw, vals, trivial, h⟩

/-! ### sessions -/

theorem Tr.at {m : PM U A α} (h : Tr addrOf (anything U) none (Slack addrOf ps g0 v0 d e) m (Slack addrOf ps g0 v0 d e))
    {s : PWorld U A} (hs : Good addrOf (anything U) s) (hsl : Slack addrOf ps g0 v0 d e s) : Slack addrOf ps g0 v0 d e (m s).2 :=
  h s hs.ok hs.w (fun p h => by cases h) hsl

/-- each operation executes in one portal -/
theorem slack_step (hinj : Function.Injective addrOf) (prog : FnId → Fn U) {s : PWorld U A} (hs : Good addrOf (anything U) s)
    (op : POp U A) (hl : Legal addrOf prog (anything U) s op) :
    ∃ p, ∀ ps, p ∈ ps → ∀ d e, Slack addrOf ps g0 v0 d e s → Slack addrOf ps g0 v0 d e (op.step addrOf prog s) := by
  cases op with
  | val op =>
    exact ⟨0, fun ps _ d e h => slack_quiet (s' := op.step addrOf s) (by unfold Quiet hist; rw [(low_step s op).ext]) h⟩
  | call p n f kw => exact ⟨p, fun ps hp d e h => Tr.at (Tr.ofSp (recSlack_exec hinj prog hp n d e none f kw)) hs h⟩
  | address p f kw => exact ⟨p, fun ps hp d e h => slack_quiet (quiet_getAddress p f kw s) h⟩
  | swarm p f kw => exact ⟨p, fun ps hp d e h => slack_quiet (quiet_swarm p f kw s) h⟩
  | run n p f kw => exact ⟨p, fun ps hp d e h => Tr.at (tr_run hinj prog p hp n f hl kw) hs h⟩
  | swarmList sh p f l => exact ⟨p, fun ps hp d e h => slack_quiet (quiet_swarmList sh p f l s) h⟩
  | runList n sh1 sh2 p f l =>
    exact ⟨p, fun ps hp d e h => Tr.at (tr_runList hinj prog p hp n f hl.1 sh1 sh2 hl.2.1 hl.2.2 l) hs h⟩
  | fromKey p k => exact ⟨p, fun ps hp d e h => slack_quiet (s' := (rFromKey p k s).2) rfl h⟩
  | rexec n r =>
    cases h : s.ext.raddrs[r]? with
    | none =>
      refine ⟨0, fun ps hp d e hsl => ?_⟩
      have e1 : (rExecute addrOf prog n r s) = World.raiseNew .attributeError s := by
        unfold rExecute; rw [PyM.run_bind]; unfold readR; rw [h]; rfl
      show Slack addrOf ps g0 v0 d e (rExecute addrOf prog n r s).2
      rw [e1]
      exact slack_quiet (Resp.raiseNew quietFree _ s) hsl
    | some o =>
      refine ⟨o.portal, fun ps hp d e hsl => ?_⟩
      exact tr_rExecute (c := none) hinj prog r o.key o.portal hp n s hs.ok hs.w (fun p h => by cases h)
        ⟨ir_gen ⟨o, h, rfl, rfl⟩, hsl⟩
  | rget r => exact ⟨0, fun ps hp d e h => slack_quiet (quiet_rGet r s) h⟩
  | rready r => exact ⟨0, fun ps hp d e h => slack_quiet (quiet_rReady r s) h⟩
  | rrequest r => exact ⟨0, fun ps hp d e h => slack_quiet (quiet_rRequest r s) h⟩
  | rkwargs r => exact ⟨0, fun ps hp d e h => slack_quiet (quiet_rKwargs r s) h⟩
  | rdrop r => exact ⟨0, fun ps hp d e h => slack_quiet (quiet_rDrop r s) h⟩
  | foreignResult p f vals u =>
    refine ⟨0, fun ps hp d e h => slack_quiet (s' := putResult addrOf p f vals u s) ?_ h⟩
    have := low_step (addrOf := addrOf) s (.foreign p (.user u))
    show hist (putResult addrOf p f vals u s) = hist s
    have h1 : hist (ValueAddr.Op.step addrOf s (.foreign p (.user u))) = hist s := by unfold hist; rw [this.ext]
    exact h1
  | foreignRequest p f vals => exact ⟨0, fun ps hp d e h => slack_quiet (s' := { s with ext := _ }) rfl h⟩
  | foreignDrop p k => exact ⟨0, fun ps hp d e h => slack_quiet (s' := { s with ext := _ }) rfl h⟩

theorem slack_session (hinj : Function.Injective addrOf) (prog : FnId → Fn U) (ops : List (POp U A)) {s : PWorld U A}
    (hs : Good addrOf (anything U) s) (hl : LegalAll addrOf prog (anything U) s ops) :
    ∃ qs : List PortalId, ∀ ps, qs ⊆ ps → ∀ d e, Slack addrOf ps g0 v0 d e s →
      Slack addrOf ps g0 v0 d e (session addrOf prog s ops) := by
  induction ops generalizing s with
  | nil => exact ⟨[], fun ps _ d e h => h⟩
  | cons op ops ih =>
    obtain ⟨p, hp⟩ := slack_step (g0 := g0) (v0 := v0) hinj prog hs op hl.1
    obtain ⟨qs, hq⟩ := ih (keep_legal hinj (mode_any prog) hs op hl.1 (.inl trivial)).1 hl.2
    refine ⟨p :: qs, fun ps hps d e h => hq ps (fun x hx => hps (by simp [hx])) d e (hp ps (hps (by simp)) d e h)⟩

end Pyth.Pure.AllOps
