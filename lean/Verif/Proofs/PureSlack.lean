import Verif.Proofs.PureOnceCall
/-! Every execution of the code of a pure function has an attempt of that call. -/
set_option linter.unusedSectionVars false
set_option linter.unusedVariables false
set_option linter.unusedSimpArgs false
namespace Pyth.Pure
open Pyth.World Pyth.Portal
open Pyth.ValueAddr (Grow growFree Integ integFree IsAddr HoldsVal Has)

variable {U A α β : Type} [DecidableEq U] [DecidableEq A] {addrOf : Val U A → A}
  {K : Accept U} {E : Prop} {c : Option PortalId} {P P' F G Z : PWorld U A → Prop} {X X0 : Kind → PWorld U A → Prop}
  {prog : FnId → Fn U} {n m : Nat} {rec : FnId → Kw U → PM U A U}
  {p : PortalId} {cfg : Option Rat} {g0 : FnId} {v0 : List (String × U)} {d e : Nat}

/-- the call `g0(**v0)` was executed `d` times less than attempted, compared with a beginning (`e`) -/
def Slack (addrOf : Val U A → A) (p : PortalId) (g0 : FnId) (v0 : List (String × U)) (d e : Nat) (s : PWorld U A) : Prop :=
  codeRuns s g0 v0 + d ≤ (s.ext.attempts p (callKey addrOf g0 (sortKw v0))).length + e

theorem stable_slack (d e : Nat) : Stable (U := U) (Slack addrOf p g0 v0 d e) := by
  intro s s' h hs
  unfold Slack at hs ⊢
  rw [h.runs, h.attempts]; exact hs

/-- nested calls keep the slack -/
def RecSlack (addrOf : Val U A → A) (K : Accept U) (p : PortalId) (g0 : FnId) (v0 : List (String × U))
    (rec : FnId → Kw U → PM U A U) : Prop :=
  ∀ d e c g vals, Sp addrOf K c (Slack addrOf p g0 v0 d e) (rec g (rawKw vals))
      (fun _ => Slack addrOf p g0 v0 d e) (fun _ => Slack addrOf p g0 v0 d e)

theorem sp_drawSlack {m : Rat → PM U A α} {Q : α → PWorld U A → Prop}
    (h : ∀ x, Sp addrOf K c (Slack addrOf p g0 v0 d e) (m x) Q X) :
    Sp addrOf K c (Slack addrOf p g0 v0 d e) (fun s => m (s.draws s.nd) { s with nd := s.nd + 1 }) Q X := by
  intro s ho hw hc hp
  have hw' : W addrOf K { s with nd := s.nd + 1 } := ⟨hw.integ, hw.held, hw.pCheck, hw.reqs, hw.obj, hw.trace⟩
  have h1 := h (s.draws s.nd) { s with nd := s.nd + 1 } ho hw' hc hp
  have hb : Base addrOf K s { s with nd := s.nd + 1 } := ⟨⟨rfl, rfl, rfl, List.prefix_rfl⟩, hw',
    { Ev.refl s with
      grow := ⟨fun _ _ _ h => h, fun i o h => ⟨o, h, rfl, rfl, id, id⟩⟩
      nd := Nat.le_succ _
      raddrs := fun r o h => ⟨o, h, (REv.refl s o).key, rfl, id, fun _ => id, fun _ => .inl, id⟩ }⟩
  exact ⟨hb.trans h1.1, h1.2⟩

theorem sp_bodySlack (hrec : RecSlack addrOf K p g0 v0 rec) (body : Body U) :
    Sp addrOf K c (Slack addrOf p g0 v0 d e) (runBody rec body)
      (fun _ => Slack addrOf p g0 v0 d e) (fun _ => Slack addrOf p g0 v0 d e) := by
  induction body with
  | ret u => exact Sp.pure fun s h => h
  | raise i => exact Sp.raiseNew (stable_slack d e).fr fun s h => h
  | call g kw k ih => exact Sp.bind (hrec d e c g kw) fun u => ih u
  | tryCall g kw k ih =>
    rw [runBody_tryCall]
    exact sp_tryCall (hrec d e c g kw) (fun u => ih _) (fun x _ => ih _) (fun s h => h)
  | print t body ih =>
    refine Sp.bind (((sp_print (P := fun _ => True) (X := fun _ _ => True) t).ag (ag_modExt fun s => ⟨fun _ _ => rfl, fun _ _ h => h, rfl, fun _ _ => rfl⟩)
      (stable_slack d e)).conseq (fun s h => ⟨trivial, h⟩) (fun _ _ h => h.2) (fun _ _ h => h.2)) fun _ => ih
  | draw k ih => exact sp_drawSlack ih

theorem sp_guardSlack (hrec : RecSlack addrOf K p g0 v0 rec) (vals : List (String × U)) (gs : List FnId) :
    Sp addrOf K c (Slack addrOf p g0 v0 d e) (guardLoop rec (rawKw vals) gs)
      (fun _ => Slack addrOf p g0 v0 d e) (fun _ => Slack addrOf p g0 v0 d e) := by
  induction gs with
  | nil => exact Sp.pure fun s h => h
  | cons g gs ih => exact Sp.bind (hrec d e c g vals) fun u => ih

theorem sp_canSlack (hrec : RecSlack addrOf K p g0 v0 rec) (f : FnId) (vals : List (String × U)) :
    Sp addrOf K c (Slack addrOf p g0 v0 d e) (canBeExecuted rec prog p f (rawKw vals))
      (fun _ => Slack addrOf p g0 v0 d e) (fun _ => Slack addrOf p g0 v0 d e) := by
  have hs := (stable_slack (addrOf := addrOf) (p := p) (g0 := g0) (v0 := v0) d e).fr
  refine Sp.withP hs (fun _ => hs) (fun _ => hs) ?_
  refine Sp.tryE (fun _ => hs) (fun _ => hs) (fun _ => hs) (sp_guardSlack hrec vals _) fun e => ?_
  exact Sp.ite (fun he => Sp.raise fun s h => h) (fun he => Sp.pure fun s h => h)

/-- how much slack the execution of the code uses up -/
def used (prog : FnId → Fn U) (g0 : FnId) (v0 : List (String × U)) (f : FnId) (kw : Kw U) : Nat :=
  if (prog f).isPure = true ∧ f = g0 ∧ kw = rawKw (sortKw v0) then 1 else 0

theorem slack_start {s : PWorld U A} {f : FnId} {kw : Kw U} (h : Slack addrOf p g0 v0 (d + used prog g0 v0 f kw) e s) :
    Slack addrOf p g0 v0 d e { s with ext := { s.ext with trace := s.ext.trace ++ [.start f kw (prog f).isPure] } } := by
  unfold Slack codeRuns at h ⊢
  simp only [List.countP_append, List.countP_cons, List.countP_nil]
  unfold used at h
  by_cases hu : (prog f).isPure = true ∧ f = g0 ∧ kw = rawKw (sortKw v0)
  · rw [if_pos hu] at h
    have h3 : isRun g0 v0 (.start f kw (prog f).isPure) = true := by rw [hu.1]; simp [isRun, hu.2]
    simp only [h3, if_true]; omega
  · rw [if_neg hu] at h
    have h3 : isRun g0 v0 (.start f kw (prog f).isPure) = false := by
      cases hp : (prog f).isPure with
      | false => rfl
      | true => simp only [isRun, decide_eq_false_iff_not]; exact fun x => hu ⟨hp, x⟩
    simp only [h3]; simpa using h

theorem sp_autSlack (hrec : RecSlack addrOf K p g0 v0 rec) (f : FnId) (kw : Kw U) :
    Sp addrOf K c (fun s => ((prog f).isPure = true → TailG K.may f kw s.ext) ∧
        Slack addrOf p g0 v0 (d + used prog g0 v0 f kw) e s)
      (autExec rec prog p f kw)
      (fun _ => Slack addrOf p g0 v0 d e) (fun _ => Slack addrOf p g0 v0 d e) := by
  have hst := stable_slack (addrOf := addrOf) (p := p) (g0 := g0) (v0 := v0) d e
  have hst' := stable_slack (addrOf := addrOf) (p := p) (g0 := g0) (v0 := v0) (d + used prog g0 v0 f kw) e
  refine Sp.withP (fun s a b c d e h => ⟨h.1, hst'.fr s a b c d e h.2⟩) (fun _ => hst.fr) (fun _ => hst.fr) ?_
  rw [ordExec_eq]
  refine Sp.bind (Q := fun _ => Slack addrOf p g0 v0 d e) (sp_modExt fun s hw hp => ⟨?_, ev_trace s _, ?_⟩) fun _ =>
    Sp.onError (base_logFailure p f) (fun k e s h => hst _ _ (ag_logFailure p f e s) h) (sp_bodySlack hrec _)
  · exact ⟨hw.integ, hw.held, hw.pCheck, hw.reqs, hw.obj, hw.trace.start f kw _ hp.1⟩
  · exact slack_start hp.2

/-- how much slack the opening of a frame adds -/
def added (addrOf : Val U A → A) (g0 : FnId) (v0 : List (String × U)) (k : Key A) : Nat :=
  if k = callKey addrOf g0 (sortKw v0) then 1 else 0

theorem used_le (f : FnId) (vals : List (String × U)) :
    used prog g0 v0 f (rawKw (sortKw vals)) ≤ added addrOf g0 v0 (callKey addrOf f (sortKw vals)) := by
  unfold used added
  split
  · rename_i h
    obtain ⟨_, rfl, h2⟩ := h
    rw [rawKw_inj h2, if_pos rfl]
  · exact Nat.zero_le _

theorem Slack.weak {s : PWorld U A} {d d' : Nat} (h : Slack addrOf p g0 v0 d e s) (hd : d' ≤ d) : Slack addrOf p g0 v0 d' e s := by
  unfold Slack at h ⊢; omega

theorem ag_guards (s : PWorld U A) (f : FnId) (kw : Kw U) (ok : Bool) :
    AG s { s with ext := { s.ext with trace := s.ext.trace ++ [.guards f kw ok] } } :=
  ⟨fun _ _ => rfl, fun _ _ h => h, rfl, fun g v => by
    unfold codeRuns
    simp only [List.countP_append, List.countP_cons, List.countP_nil]
    simp [isRun]⟩

theorem tr_frameSlack (hinj : Function.Injective addrOf) (hm : Mode K E prog) {ri : Nat} {k : Key A} {I : PWorld U A → Prop}
    (hR : Route addrOf K ri k p I False) (hrec : RecOK addrOf K E prog n rec)
    (hslack : RecSlack addrOf K p g0 v0 rec)
    (vals : List (String × U)) (hk : k = callKey addrOf k.1 (sortKw vals))
    (packed : List (String × Nat)) (ts : List (String × A)) (conduct : Bool) (cfg' : Option Rat) (run : Nat) :
    Tr addrOf K (some p)
      (fun s => Known addrOf False I p (rawKw vals) vals packed ts cfg [] s ∧ Slack addrOf p g0 v0 (d + added addrOf g0 v0 k) e s)
      (frameBody addrOf rec prog p k.1 (rawKw vals) packed ri conduct cfg' run) (Slack addrOf p g0 v0 d e) := by
  have hst0 := stable_slack (addrOf := addrOf) (p := p) (g0 := g0) (v0 := v0) d e
  have hst := stable_slack (addrOf := addrOf) (p := p) (g0 := g0) (v0 := v0) (d + added addrOf g0 v0 k) e
  have hlow : ∀ s : PWorld U A, Slack addrOf p g0 v0 (d + added addrOf g0 v0 k) e s → Slack addrOf p g0 v0 d e s :=
    fun s h => h.weak (Nat.le_add_right _ _)
  have hmo := mono_known (E := False) hR.mono p (rawKw vals) vals packed ts cfg []
  unfold frameBody
  refine Tr.bind ((((sp_rRequest (c := some p) hR hinj).mono hmo).agq (quiet_rRequest ri) hst).pre fun s h => ⟨⟨h.1.1, h.1⟩, h.2⟩)
    (fun _ s h => hlow s h.2) fun _ => ?_
  refine Tr.bind ((((sp_canBeExecuted (c := some p) hrec p k.1 (rawKw vals) vals fun g _ => .inr (.inl rfl)).and
    (sp_canSlack (c := some p) (d := d + added addrOf g0 v0 k) (e := e) hslack k.1 vals)).mono hmo).pre fun s h => ⟨⟨h.1.2.2.2.2.1.imp (fun x => x.elim) id, h.2⟩, h.1.2⟩)
    (fun _ s h => hlow s h.1.2) fun ok => ?_
  refine (Tr.gain (B := guardOut E prog vals (prog k.1).guards ok)
    (P := fun s => Known addrOf False I p (rawKw vals) vals packed ts cfg [] s ∧ Slack addrOf p g0 v0 (d + added addrOf g0 v0 k) e s) fun hok => ?_).pre
    fun s h => ⟨h.1.1, h.2, h.1.2⟩
  refine Tr.bind (Q := fun _ s => (Known addrOf False I p (rawKw vals) vals packed ts cfg [] s ∧ Slack addrOf p g0 v0 (d + added addrOf g0 v0 k) e s) ∧
      ∃ pre, s.ext.trace = pre ++ [Event.guards k.1 (rawKw vals) ok]) (X := fun _ _ => False)
    (sp_modExt fun s hw h => ⟨?_, ev_trace s _, ⟨?_, ?_⟩, s.ext.trace, rfl⟩) (fun _ _ h => h.elim) fun _ => ?_
  · exact ⟨hw.integ, hw.held, hw.pCheck, hw.reqs, hw.obj, hw.trace.guards _ _ _⟩
  · refine hmo _ _ (ev_trace s _) ?_ h.1
    exact ⟨hw.integ, hw.held, hw.pCheck, hw.reqs, hw.obj, hw.trace.guards _ _ _⟩
  · exact hst s _ (ag_guards s _ _ _) h.2
  refine Tr.ite (fun hb' => ?_) (fun hb' => Tr.resp (Resp.raiseNew agFree _) hst0 fun s h => hlow s h.1.2)
  subst hb'
  have hmay : K.may k.1 (sortKw vals) := by
    refine hm.may _ _ ?_
    rcases hm.det with hE | hd
    · exact .inl hE
    rcases hok with hok | ⟨_, hok⟩ | ⟨h1, _⟩
    · exact .inl hok
    · refine .inr fun g hg' => ?_
      obtain ⟨v, hv⟩ := dn_guards_each vals _ (dn_uncatch hok) g hg'
      refine ⟨v, ?_⟩
      show Dn (refR prog g (sortKw vals)) (.ok v)
      rw [refR_sort hd]; exact hv
    · cases h1
  refine (Tr.gain (B := sortKw (asKw (U := U) packed) = asKw packed)
    (P := fun s => (Known addrOf False I p (rawKw vals) vals packed ts cfg [] s ∧ Slack addrOf p g0 v0 (d + added addrOf g0 v0 k) e s) ∧
      ∃ pre, s.ext.trace = pre ++ [Event.guards k.1 (rawKw vals) true]) fun es => ?_).pre
    fun s h => ⟨sorted_packed h.1.1.2.1 h.1.1.2.2.1, h⟩
  rw [es]
  have hun : Sp addrOf K (some p) (fun s => (Known addrOf False I p (rawKw vals) vals packed ts cfg [] s ∧ Slack addrOf p g0 v0 (d + added addrOf g0 v0 k) e s) ∧
      ∃ pre, s.ext.trace = pre ++ [Event.guards k.1 (rawKw vals) true]) (unpack (asKw packed) : PM U A (List (String × U)))
      (fun un s => (un = sortKw vals ∧ ArgsAgree (rawKw vals) (rawKw un)) ∧ Slack addrOf p g0 v0 (d + added addrOf g0 v0 k) e s ∧
        ∃ pre, s.ext.trace = pre ++ [Event.guards k.1 (rawKw vals) true])
      (fun _ s => Slack addrOf p g0 v0 d e s) := by
    intro s ho hw hc hp
    have h1 := ((sp_unpack_mode (K := K) (c := some p) (E := False) hinj (asKw packed) (sortKw vals)).mono hmo) s ho hw hc
      ⟨hp.1.1.2.2.2.2.1, hp.1.1⟩
    refine ⟨h1.1, fun un hun => ?_, fun e he => (h1.2.2 e he).1.elim⟩
    have h2 := h1.2.1 un hun
    have e1 : ts = texts addrOf un := (Match.packed (addrOf := addrOf) h2.2.2.1).unique h2.1.1
    refine ⟨⟨h2.1.2.resolve_left id, ?_⟩, hst _ _ (Resp.agLow (low_unpack (asKw packed)) s) hp.1.2, ?_⟩
    · have := h2.2.2.2.1
      rw [e1] at this
      exact argsAgree_of_match hinj this
    · rw [(low_unpack (asKw packed) s).ext]; exact hp.2
  refine Tr.bind hun (fun _ _ h => h) fun un => Tr.gain fun hu => ?_
  obtain ⟨rfl, hagree⟩ := hu
  have hle : used prog g0 v0 k.1 (rawKw (sortKw vals)) ≤ added addrOf g0 v0 k := by
    conv => rhs; rw [hk]
    exact used_le k.1 vals
  refine Tr.bind ((sp_autSlack (c := some p) (d := d) (e := e) hslack k.1 (rawKw (sortKw vals))).pre
    fun s h => ⟨fun _ => ?_, h.1.weak (by omega)⟩) (fun _ _ h => h) fun u => Tr.resp (ag_tail p ri run conduct cfg' u) hst0 fun s h => h
  obtain ⟨pre, hpre⟩ := h.2
  refine ⟨⟨pre, _, hpre, hagree⟩, fun vals' hv => ?_⟩
  have ev : sortKw vals = vals' := rawKw_inj hv
  subst ev
  exact hmay

theorem slack_open {s : PWorld U A} {r : RObj U A} {f : FnId} (hp : r.portal = p) (h : Slack addrOf p g0 v0 d e s) :
    Slack addrOf p g0 v0 (d + added addrOf g0 v0 r.key) e { s with ext := openFrame r f s.ext } := by
  subst hp
  unfold Slack at h ⊢
  have h1 : codeRuns { s with ext := openFrame r f s.ext } g0 v0 = codeRuns s g0 v0 := rfl
  rw [h1]
  unfold added
  by_cases hk : r.key = callKey addrOf g0 (sortKw v0)
  · rw [if_pos hk, ← hk]
    rw [← hk] at h
    simp only [openFrame, upd2, and_self, if_true, List.length_append, List.length_cons, List.length_nil]
    omega
  · rw [if_neg hk]
    have e2 : ({ s with ext := openFrame r f s.ext } : PWorld U A).ext.attempts r.portal (callKey addrOf g0 (sortKw v0)) =
        s.ext.attempts r.portal (callKey addrOf g0 (sortKw v0)) := by
      simp [openFrame, upd2, Ne.symm hk]
    rw [e2]; omega

theorem tr_withFrameSlack (hinj : Function.Injective addrOf) (hm : Mode K E prog) {ri : Nat} {k : Key A} {I : PWorld U A → Prop}
    (hR : Route addrOf K ri k p I False) (hIx : FrX I) (hrec : RecOK addrOf K E prog n rec)
    (hslack : RecSlack addrOf K p g0 v0 rec)
    (vals : List (String × U)) (hk : k = callKey addrOf k.1 (sortKw vals))
    (packed : List (String × Nat)) (ts : List (String × A)) (conduct : Bool) (cfg' : Option Rat) :
    Tr addrOf K (some p)
      (fun s => Known addrOf False I p (rawKw vals) vals packed ts cfg [] s ∧ Slack addrOf p g0 v0 d e s)
      (withFrame ri (frameBody addrOf rec prog p k.1 (rawKw vals) packed ri conduct cfg')) (Slack addrOf p g0 v0 d e) := by
  have hst := stable_slack (addrOf := addrOf) (p := p) (g0 := g0) (v0 := v0) d e
  have hmo := mono_known (E := False) hR.mono p (rawKw vals) vals packed ts cfg []
  rw [withFrame_eq]
  refine Tr.bind ((((sp_readK (X := fun _ _ => False) ri k p).mono hmo).agq (quiet_readR ri) hst).pre
    fun s h => ⟨⟨hR.ris s h.1.1, h.1⟩, h.2⟩) (fun _ _ h => h.1.1.elim) fun o => ?_
  refine (Tr.gain (B := o.key = k ∧ o.portal = p) (P := fun s => Known addrOf False I p (rawKw vals) vals packed ts cfg [] s ∧
        Slack addrOf p g0 v0 d e s) fun e => ?_).pre fun s h => ⟨h.1.1.1, h.1.2, h.2⟩
  obtain ⟨rfl, rfl⟩ := e
  have g2 : Sp addrOf K (some o.portal) I (withP o.portal (rFunction ri)) (fun f _ => f = o.key.1) (fun _ _ => False) :=
    Sp.withP hR.fr (fun _ => fr_const _) (fun _ => fr_const _) (hR.fn (some o.portal))
  refine Tr.bind (((g2.mono hmo).agq (Resp.withP quietFree _ (quiet_rFunction ri)) hst).pre
    fun s h => ⟨⟨h.1.1, h.1⟩, h.2⟩) (fun _ _ h => h.1.1.elim) fun f => ?_
  refine Tr.frameRun (P := fun s => ((f = o.key.1) ∧ Known addrOf False I o.portal (rawKw vals) vals packed ts cfg [] s) ∧
      Slack addrOf o.portal g0 v0 d e s)
    (P' := fun s => Known addrOf False I o.portal (rawKw vals) vals packed ts cfg [] s ∧ Slack addrOf o.portal g0 v0 (d + added addrOf g0 v0 o.key) e s)
    (fun s a b c d e h => ⟨⟨h.1.1, fr_known hR.fr _ _ _ _ _ _ _ s a b c d e h.1.2⟩, hst.fr s a b c d e h.2⟩) hst (fun s h => ?_)
    fun i => Tr.traceback hst (tr_frameSlack hinj hm hR hrec hslack vals hk packed ts conduct cfg' i)
  exact ⟨frx_known hIx _ _ _ _ _ _ _ s _ _ _ _ _ h.1.2, slack_open rfl h.2⟩

theorem tr_pureSlack (hinj : Function.Injective addrOf) (hm : Mode K E prog)
    (hrec : RecOK addrOf K E prog n rec)
    (hslack : RecSlack addrOf K p g0 v0 rec) (f : FnId) (vals : List (String × U)) :
    Tr addrOf K c (Slack addrOf p g0 v0 d e)
      (pureExec addrOf rec prog p f (rawKw vals)) (Slack addrOf p g0 v0 d e) := by
  have hst := stable_slack (addrOf := addrOf) (p := p) (g0 := g0) (v0 := v0) d e
  unfold pureExec
  refine Tr.withP hst.fr hst ?_
  refine Tr.bind (((sp_pack_mode (K := K) (c := some p) (R := False) hinj p (rawKw vals) vals).agq
    (Resp.quiet (low_pack p (sortKw (rawKw vals)))) hst).pre fun s h => ⟨.inr (denKw_raw s vals), h⟩) (fun _ _ h => h.1.elim) fun packed => ?_
  refine (Tr.exI (P := fun ts s => PK addrOf False p (rawKw vals) vals packed ts s ∧ Slack addrOf p g0 v0 d e s) fun ts => ?_).pre fun s ⟨⟨ts, h1⟩, h2⟩ => ⟨ts, h1, h2⟩
  refine (Tr.gain (B := ts = texts addrOf (sortKw vals)) (P := fun s => PK addrOf False p (rawKw vals) vals packed ts s ∧
    Slack addrOf p g0 v0 d e s) fun ets => ?_).pre
    fun s h => ⟨(h.1.2.2.resolve_left id).1, h⟩
  have ek : ((f, sigText addrOf f ts) : Key A) = callKey addrOf f (sortKw vals) := by rw [ets]; rfl
  refine Tr.bind ((sp_mkRAddr_mode (K := K) (R := False) hinj f p (rawKw vals) vals packed ts).agq
    (quiet_mkRAddr f p (asKw packed)) hst) (fun _ _ h => h.1.elim) fun ri => ?_
  rw [ek]
  have hroute := route_ir (K := K) (R := False) hinj (sortKw vals) ri (callKey addrOf f (sortKw vals)) p
  have hmo := hroute.mono.and (mono_pk (K := K) (R := False) (addrOf := addrOf) p (rawKw vals) vals packed ts)
  let P1 : PWorld U A → Prop := fun s => (IR addrOf False (sortKw vals) ri (callKey addrOf f (sortKw vals)) p s ∧
    PK addrOf False p (rawKw vals) vals packed ts s) ∧ Slack addrOf p g0 v0 d e s
  have g4 : Sp addrOf K (some p) P1 (drawR : PM U A Rat) (fun _ s => P1 s) (fun _ _ => False) := by
    intro s ho hw hc hp
    refine ⟨⟨⟨rfl, rfl, rfl, List.prefix_rfl⟩, ⟨hw.integ, hw.held, hw.pCheck, hw.reqs, hw.obj, hw.trace⟩,
      { Ev.refl s with
        grow := ⟨fun _ _ _ h => h, fun i o h => ⟨o, h, rfl, rfl, id, id⟩⟩
        nd := Nat.le_succ _
        raddrs := fun r o h => ⟨o, h, (REv.refl s o).key, rfl, id, fun _ => id, fun _ => .inl, id⟩ }⟩,
      fun x hx => ?_, fun e he => (by cases he)⟩
    exact hp
  refine Tr.bind g4 (fun _ _ h => h.elim) fun x => ?_
  refine Tr.bind (X := fun _ _ => False) Sp.getS (fun _ _ h => h.elim) fun s0 => ?_
  refine (Tr.pre (P := fun s => P1 s ∧ s.ext.pCfg p = s0.ext.pCfg p) ?_) fun s h => ⟨h.2, by rw [h.1]⟩
  have hcf : Mono addrOf K (fun s => s.ext.pCfg p = s0.ext.pCfg p) := fun s s' h _ h1 => (congrFun h.pCfg p).trans h1
  refine Tr.bind ((((sp_rReady (K := K) (c := some p) hroute hinj).mono (hmo.and hcf)).agq (quiet_rReady ri) hst).pre
    fun s h => ⟨⟨h.1.1.1, h.1.1, h.2⟩, h.1.2⟩) (fun _ _ h => h.1.1.elim) fun rd => ?_
  refine Tr.ite (fun hc => ?_) (fun hc => ?_)
  · refine Tr.ofSp (((sp_rGet_yes (K := K) (c := some p) hinj ri (callKey addrOf f (sortKw vals)) p).agq (quiet_rGet ri) hst).conseq
      (fun s h => ⟨⟨h.1.2.1.1.1, h.1.1 hc.1⟩, h.2⟩) (fun _ _ h => h.2) (fun _ _ h => h.1.elim))
  · refine (tr_withFrameSlack (cfg := s0.ext.pCfg p) hinj hm hroute (fun _ _ _ _ _ _ h => h) hrec hslack vals rfl packed ts rd _).pre fun s h => ?_
    have hpk := h.1.2.1.2
    have hx := hpk.2.2.resolve_left id
    exact ⟨⟨h.1.2.1.1, hpk.1, hpk.2.1, .inr hx.2.1, .inr hx.2.2, h.1.2.2, List.nil_prefix⟩, h.2⟩

/-- at any depth -/
theorem recSlack_exec (hinj : Function.Injective addrOf) (hm : Mode K E prog) :
    ∀ n, RecSlack addrOf K p g0 v0 (exec addrOf prog p n) := by
  intro n
  induction n with
  | zero =>
    intro d e c g vals
    exact Sp.raiseNew (stable_slack d e).fr fun s h => h
  | succ n ih =>
    intro d e c g vals
    have hrec := recOK_exec (addrOf := addrOf) hinj hm p n
    show Sp addrOf K c _ (if (prog g).isPure then pureExec addrOf (exec addrOf prog p n) prog p g (rawKw vals)
      else autExec (exec addrOf prog p n) prog p g (rawKw vals)) _ _
    refine Sp.ite (fun hg => ?_) (fun hg => ?_)
    · have h1 := recOK_exec (addrOf := addrOf) hinj hm p (n + 1) c g (rawKw vals) vals (.inr (.inl rfl))
      have e1 : exec addrOf prog p (n + 1) g (rawKw vals) = pureExec addrOf (exec addrOf prog p n) prog p g (rawKw vals) := by
        show (if (prog g).isPure then _ else _) = _
        rw [if_pos hg]
      rw [e1] at h1
      refine (h1.tr (tr_pureSlack (c := c) (d := d) (e := e) hinj hm hrec ih g vals)).conseq
        (fun s h => ⟨.inr (denKw_raw s vals), h⟩) (fun _ _ h => h.2) (fun _ _ h => h.2)
    · have hg' : (prog g).isPure = false := by simpa using hg
      refine (sp_autSlack ih g (rawKw vals)).pre fun s h => ⟨fun h' => (by rw [hg'] at h'; cases h'), ?_⟩
      have : used prog g0 v0 g (rawKw vals) = 0 := by unfold used; rw [if_neg]; intro h; rw [hg'] at h; cases h.1
      rw [this]; exact h

end Pyth.Pure
