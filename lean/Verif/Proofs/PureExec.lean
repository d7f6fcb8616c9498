import Verif.Proofs.PureFrame
/-! Execution of functions.  `E = True`: any program; `E = False`: deterministic programs, compared
with the reference semantics. -/
set_option linter.unusedSectionVars false
set_option linter.unusedVariables false
set_option linter.unusedSimpArgs false
namespace Pyth.Pure
open Pyth.World Pyth.Portal
open Pyth.ValueAddr (Grow growFree Integ integFree IsAddr HoldsVal Has)

variable {U A α β : Type} [DecidableEq U] [DecidableEq A] {addrOf : Val U A → A}
  {K : Accept U} {c : Option PortalId}
  {P P' F G : PWorld U A → Prop} {X X0 : Kind → PWorld U A → Prop} {E : Prop}
  {prog : FnId → Fn U} {n : Nat} {rec : FnId → Kw U → PM U A U}

theorem Sp.const {B : Prop} {m : PM U A α} {Q : α → PWorld U A → Prop}
    (h : B → Sp addrOf K c (fun _ => True) m Q X) : Sp addrOf K c (fun _ => B) m Q X :=
  fun s a b d e => h e s a b d trivial

/-- the way a call may be made when the outcome is compared with the reference semantics: with plain
values, or with addresses to a pure function (all guards in the program being pure then) -/
def PlainCall (E : Prop) (prog : FnId → Fn U) (g : FnId) (kw : Kw U) (vals : List (String × U)) : Prop :=
  E ∨ kw = rawKw vals ∨ ((prog g).isPure = true ∧ ∀ f, ∀ g ∈ (prog f).guards, (prog g).isPure = true)

/-- nested calls behave -/
def RecOK (addrOf : Val U A → A) (K : Accept U) (E : Prop) (prog : FnId → Fn U)
    (n : Nat) (rec : FnId → Kw U → PM U A U) : Prop :=
  ∀ c g kw vals, PlainCall E prog g kw vals →
    Sp addrOf K c (fun s => E ∨ DenKw addrOf s kw vals) (rec g kw)
      (fun u _ => E ∨ Dn (refR prog g vals) (.ok u)) (fun k _ => E ∨ XAg (refR prog g vals) n k)

theorem denKw_raw (s : PWorld U A) (vals : List (String × U)) : DenKw addrOf s (rawKw vals) vals := by
  induction vals with
  | nil => exact .nil
  | cons x l ih => exact .cons ⟨rfl, rfl⟩ ih

/-! ### code -/

theorem sp_print (t : String) : Sp addrOf K c P (printOut t : PM U A Unit) (fun _ _ => True) X := by
  refine sp_modExt fun s hw hp => ⟨⟨hw.integ, hw.held, hw.pCheck, hw.reqs, hw.obj, hw.trace⟩, ?_, trivial⟩
  exact { Ev.refl s with
    grow := growExt s _
    out := ⟨[t], rfl, rfl⟩
    raddrs := fun r o h => ⟨o, h, (REv.refl _ _).setExt _⟩ }

def catchCall (m : PM U A U) (k : Except Kind U → PM U A β) : PM U A β := fun s => match m s with
  | (.ok u, s') => k (.ok u) s'
  | (.error e, s') => if e.kind = diverge then (.error e, s') else k (.error e.kind) s'

theorem runBody_tryCall (g : FnId) (kw : List (String × U)) (k : Except Kind U → Body U) :
    runBody rec (.tryCall g kw k) = catchCall (rec g (rawKw kw)) (fun r => runBody rec (k r)) := by
  funext s
  simp only [runBody, catchCall, rawKw]
  rcases rec g (kw.map fun x => (x.1, Arg.raw x.2)) s with ⟨r, s'⟩
  cases r <;> rfl

theorem sp_tryCall {m : PM U A U} {k : Except Kind U → PM U A β} {Q : U → PWorld U A → Prop}
    {R : β → PWorld U A → Prop} (hm : Sp addrOf K c P m Q X)
    (hok : ∀ u, Sp addrOf K c (Q u) (k (.ok u)) R X0)
    (herr : ∀ e, e ≠ diverge → Sp addrOf K c (X e) (k (.error e)) R X0)
    (hdiv : ∀ s, X diverge s → X0 diverge s) :
    Sp addrOf K c P (catchCall m k) R X0 := by
  intro s ho hw hc hp
  have h1 := hm s ho hw hc hp
  unfold catchCall
  cases hms : m s with
  | mk r s' =>
    rw [hms] at h1
    cases r with
    | ok a =>
      have h2 := hok a s' (h1.1.ctx.ok ho) h1.1.wf (hc.ctx h1.1.ctx) (h1.2.1 a rfl)
      exact ⟨h1.1.trans h2.1, h2.2⟩
    | error e =>
      simp only
      by_cases he : e.kind = diverge
      · simp only [he, if_true]
        refine ⟨h1.1, fun b h => (by cases h), fun e' h => ?_⟩
        cases h
        have := h1.2.2 e rfl
        rw [he] at this ⊢
        exact hdiv _ this
      · simp only [he, if_false]
        have h2 := herr e.kind he s' (h1.1.ctx.ok ho) h1.1.wf (hc.ctx h1.1.ctx) (h1.2.2 e rfl)
        exact ⟨h1.1.trans h2.1, h2.2⟩

theorem sp_draw {m : Rat → PM U A α} {Q : α → PWorld U A → Prop}
    (h : ∀ x, Sp addrOf K c (fun _ => True) (m x) Q X) :
    Sp addrOf K c P (fun s => m (s.draws s.nd) { s with nd := s.nd + 1 }) Q X := by
  intro s ho hw hc hp
  have hw' : W addrOf K { s with nd := s.nd + 1 } := ⟨hw.integ, hw.held, hw.pCheck, hw.reqs, hw.obj, hw.trace⟩
  have h1 := h (s.draws s.nd) { s with nd := s.nd + 1 } ho hw' hc trivial
  have hb : Base addrOf K s { s with nd := s.nd + 1 } := ⟨⟨rfl, rfl, rfl, List.prefix_rfl⟩, hw',
    { Ev.refl s with
      grow := ⟨fun _ _ _ h => h, fun i o h => ⟨o, h, rfl, rfl, id, id⟩⟩
      nd := Nat.le_succ _
      raddrs := fun r o h => ⟨o, h, (REv.refl s o).key, rfl, id, fun _ => id, fun _ => .inl, id⟩ }⟩
  exact ⟨hb.trans h1.1, h1.2⟩

theorem sp_runBody (hrec : RecOK addrOf K E prog n rec) (b : Body U) : (E ∨ b.Det) →
    Sp addrOf K c (fun _ => True) (runBody rec b) (fun u _ => E ∨ Dn (bodyR (refR prog) b) (.ok u))
      (fun k _ => E ∨ XAg (bodyR (refR prog) b) n k) := by
  induction b with
  | ret u => exact fun _ => Sp.pure fun s _ => .inr ⟨by simp, 0, rfl⟩
  | raise m =>
    refine fun _ => Sp.raiseNew fr_true fun s _ => .inr (.inr ⟨?_, ?_, 0, rfl⟩)
    · simp [diverge]
    · simp [diverge]
  | call g kw k ih =>
    intro hd
    rw [bodyR_call]
    have hcut := cut_ref prog g kw
    have hcut' := fun u => cut_body (cut_ref prog) (k u)
    have hg := hrec c g (rawKw kw) kw (.inr (.inl rfl))
    refine Sp.bind (hg.conseq (fun s _ => .inr (denKw_raw s kw)) (fun _ _ h => h)
      (fun _ _ h => h.imp id XAg.seqErr)) fun u => Sp.const fun hu => ?_
    refine (ih u (hd.imp id fun h => h u)).conseq (fun _ h => h) (fun _ _ h => ?_) (fun _ _ h => ?_)
    · rcases hu with hu | hu
      · exact .inl hu
      · exact h.imp id fun h => hu.seq hcut hcut' h
    · rcases hu with hu | hu
      · exact .inl hu
      · exact h.imp id fun h => XAg.seq hcut hcut' hu h
  | tryCall g kw k ih =>
    intro hd
    rw [bodyR_tryCall, runBody_tryCall]
    have hcut := (cut_ref prog g kw).catch
    have hcut' := fun u => cut_body (cut_ref prog) (k u)
    have hg := hrec c g (rawKw kw) kw (.inr (.inl rfl))
    refine sp_tryCall (m := rec g (rawKw kw)) (k := fun r => runBody rec (k r))
      (hg.pre fun s _ => .inr (denKw_raw s kw)) (fun u => Sp.const fun hu => ?_)
      (fun e he => Sp.const fun hu => ?_) (fun s h => ?_)
    · refine (ih _ (hd.imp id fun h => h _)).conseq (fun _ h => h) (fun _ _ h => ?_) (fun _ _ h => ?_)
      · rcases hu with hu | hu
        · exact .inl hu
        · exact h.imp id fun h => (dn_catch_ok hu).seq hcut hcut' h
      · rcases hu with hu | hu
        · exact .inl hu
        · exact h.imp id fun h => XAg.seq hcut hcut' (dn_catch_ok hu) h
    · refine (ih _ (hd.imp id fun h => h _)).conseq (fun _ h => h) (fun _ _ h => ?_) (fun _ _ h => ?_)
      · rcases hu with hu | hu
        · exact .inl hu
        · rcases hu with hu | hu
          · exact absurd hu.1 he
          · exact h.imp id fun h => (dn_catch_err he hu.2).seq hcut hcut' h
      · rcases hu with hu | hu
        · exact .inl hu
        · rcases hu with hu | hu
          · exact absurd hu.1 he
          · exact h.imp id fun h => XAg.seq hcut hcut' (dn_catch_err he hu.2) h
    · refine h.imp id fun h => ?_
      rcases h with h | h
      · exact (xag_catch h.2).seqErr
      · exact absurd rfl h.1
  | print t b ih => exact fun hd => Sp.bind (sp_print t) fun _ => ih hd
  | draw k ih =>
    intro hd
    rcases hd with hd | hd
    · exact sp_draw fun x => (ih x (.inl hd)).conseq (fun _ h => h) (fun _ _ h => .inl hd) (fun _ _ h => .inl hd)
    · exact hd.elim

/-- an exception passes while `g` is applied to the state -/
def onErr (m : PM U A α) (g : Exc → PWorld U A → PWorld U A) : PM U A α := fun s => match m s with
  | (.ok u, s') => (.ok u, s')
  | (.error e, s') => (.error e, g e s')

/-- an exception passes while the failure is logged -/
theorem Sp.onError {m : PM U A α} {Q : α → PWorld U A → Prop} {g : Exc → PWorld U A → PWorld U A}
    (hg : ∀ e s, W addrOf K s → Base addrOf K s (g e s)) (hX : ∀ k e s, X k s → X k (g e s))
    (h : Sp addrOf K c P m Q X) : Sp addrOf K c P (onErr m g) Q X := by
  intro s ho hw hc hp
  have h1 := h s ho hw hc hp
  unfold onErr
  cases hms : m s with
  | mk r s' =>
    rw [hms] at h1
    cases r with
    | ok a => exact h1
    | error e => exact ⟨h1.1.trans (hg e s' h1.1.wf), fun b h => (by cases h), fun e' h => (by cases h; exact hX _ _ _ (h1.2.2 e rfl))⟩

theorem persistExc_form (l : List (Option Nat)) (e : Exc) (s : PWorld U A) :
    ∃ m c, persistExc l e s = { s with marked := m, crashes := c } := by
  unfold persistExc
  split
  · exact ⟨s.marked, s.crashes, rfl⟩
  · exact ⟨_, _, rfl⟩

theorem base_logFailure (p : PortalId) (f : FnId) (e : Exc) (s : PWorld U A) (hw : W addrOf K s) :
    Base addrOf K s (logFailure p f e s) := by
  unfold logFailure
  split
  · exact .refl hw
  · simp only
    obtain ⟨m, cr, h⟩ := persistExc_form [some f, none] e s
    rw [h]
    have h1 : Base addrOf K s { s with marked := m, crashes := cr } :=
      ⟨⟨rfl, rfl, rfl, List.prefix_rfl⟩, hw.frame s.sys s.handling s.nextExc m cr, Ev.frame s s.sys s.handling s.nextExc m cr⟩
    cases s.ext.frames p f with
    | nil => exact h1
    | cons x xs =>
      refine h1.trans ⟨⟨rfl, rfl, rfl, List.prefix_rfl⟩,
        ⟨hw.integ, hw.held, hw.pCheck, hw.reqs, hw.obj, hw.trace⟩, ?_⟩
      refine { Ev.refl _ with
        grow := growExt _ _
        crashRecs := fun q k => ?_
        raddrs := fun r o h => ⟨o, h, (REv.refl _ _).setExt _⟩ }
      simp only [upd2]
      split
      · next h => rw [h.1, h.2]; exact List.prefix_append _ _
      · exact List.prefix_rfl

/-! ### trace -/

theorem split_snoc {γ : Type} {t pre post : List γ} {x y : γ} (h : t ++ [x] = pre ++ y :: post) :
    (pre = t ∧ y = x ∧ post = []) ∨ ∃ post', t = pre ++ y :: post' := by
  rcases List.eq_nil_or_concat post with rfl | ⟨q, z, rfl⟩
  · have := List.append_inj' h rfl
    simp at this
    exact .inl ⟨this.1.symm, this.2.symm, rfl⟩
  · right
    have h' : t ++ [x] = (pre ++ y :: q) ++ [z] := by rw [h]; simp
    have := List.append_inj' h' rfl
    exact ⟨q, this.1⟩

variable {may : FnId → List (String × U) → Prop}

theorem Gated.guards {t : List (Event U)} (h : Gated may t) (f : FnId) (kw : Kw U) (b : Bool) :
    Gated may (t ++ [Event.guards f kw b]) := by
  refine ⟨fun pre f' kw' post e => ?_, fun f' vals hf => ?_⟩
  · rcases split_snoc e with ⟨_, e2, _⟩ | ⟨post', e⟩
    · cases e2
    · exact h.1 pre f' kw' post' e
  · rcases List.mem_append.1 hf with hf | hf
    · exact h.2 f' vals hf
    · simp at hf

/-- the trace ends with a successful evaluation of the guards of `f` -/
def TailG (may : FnId → List (String × U) → Prop) (f : FnId) (kw : Kw U) (x : Ext U A) : Prop :=
  (∃ pre kw0, x.trace = pre ++ [Event.guards f kw0 true] ∧ ArgsAgree kw0 kw) ∧
    ∀ vals, kw = rawKw vals → may f vals

theorem Gated.start {t : List (Event U)} (h : Gated may t) (f : FnId) (kw : Kw U) (b : Bool)
    (hb : b = true → (∃ pre kw0, t = pre ++ [Event.guards f kw0 true] ∧ ArgsAgree kw0 kw) ∧
      ∀ vals, kw = rawKw vals → may f vals) :
    Gated may (t ++ [Event.start f kw b]) := by
  refine ⟨fun pre f' kw' post e => ?_, fun f' vals hf => ?_⟩
  · rcases split_snoc e with ⟨e1, e2, _⟩ | ⟨post', e⟩
    · cases e2
      subst e1
      exact (hb rfl).1
    · exact h.1 pre f' kw' post' e
  · rcases List.mem_append.1 hf with hf | hf
    · exact h.2 f' vals hf
    · simp only [List.mem_singleton, Event.start.injEq] at hf
      obtain ⟨rfl, e, rfl⟩ := hf
      exact (hb rfl).2 vals e.symm

theorem ev_trace (s : PWorld U A) (x : Event U) : Ev s { s with ext := { s.ext with trace := s.ext.trace ++ [x] } } :=
  { Ev.refl s with
    grow := growExt _ _
    trace := List.prefix_append _ _
    raddrs := fun r o h => ⟨o, h, (REv.refl _ _).setExt _⟩ }

theorem ordExec_eq (p : PortalId) (f : FnId) (kw : Kw U) : ordExec rec prog p f kw = (do
    modExt fun x => { x with trace := x.trace ++ [.start f kw (prog f).isPure] }
    onErr (runBody rec ((prog f).body kw)) (logFailure p f)) := by
  funext s
  simp only [ordExec]
  rw [PyM.run_bind]
  simp only [modExt, onErr]
  rcases runBody rec ((prog f).body kw) _ with ⟨r, s'⟩
  cases r <;> rfl

theorem sp_ordExec (hrec : RecOK addrOf K E prog n rec) (p : PortalId) (f : FnId) (kw : Kw U)
    (hd : E ∨ ((prog f).body kw).Det) :
    Sp addrOf K c (fun s => (prog f).isPure = true → TailG K.may f kw s.ext) (ordExec rec prog p f kw)
      (fun u _ => E ∨ Dn (bodyR (refR prog) ((prog f).body kw)) (.ok u))
      (fun k _ => E ∨ XAg (bodyR (refR prog) ((prog f).body kw)) n k) := by
  rw [ordExec_eq]
  refine Sp.bind (Q := fun _ _ => True) (sp_modExt fun s hw hp => ⟨?_, ev_trace s _, trivial⟩) fun _ =>
    Sp.onError (base_logFailure p f) (fun _ _ _ h => h) (sp_runBody hrec _ hd)
  exact ⟨hw.integ, hw.held, hw.pCheck, hw.reqs, hw.obj, hw.trace.start f kw _ hp⟩

theorem sp_autExec (hrec : RecOK addrOf K E prog n rec) (p : PortalId) (f : FnId) (kw : Kw U)
    (hd : E ∨ ((prog f).body kw).Det) :
    Sp addrOf K c (fun s => (prog f).isPure = true → TailG K.may f kw s.ext) (autExec rec prog p f kw)
      (fun u _ => E ∨ Dn (bodyR (refR prog) ((prog f).body kw)) (.ok u))
      (fun k _ => E ∨ XAg (bodyR (refR prog) ((prog f).body kw)) n k) :=
  Sp.withP (fun _ _ _ _ _ _ h => h) (fun _ => fr_const _) (fun _ => fr_const _) (sp_ordExec hrec p f kw hd)

/-! ### guards -/

theorem mono_mode {F : PWorld U A → Prop} (h : Mono addrOf K F) : Mono addrOf K (fun s => E ∨ F s) :=
  fun s s' e w => Or.imp id (h s s' e w)

theorem sp_guardLoop (hrec : RecOK addrOf K E prog n rec) (kw : Kw U) (vals : List (String × U))
    (gs : List FnId) (hp : ∀ g ∈ gs, PlainCall E prog g kw vals) :
    Sp addrOf K c (fun s => E ∨ DenKw addrOf s kw vals) (guardLoop rec kw gs)
      (fun b _ => b = true ∧ (E ∨ Dn (guardsR (refR prog) vals gs) (.ok ())))
      (fun k _ => E ∨ XAg (guardsR (refR prog) vals gs) n k) := by
  induction gs with
  | nil => exact Sp.pure fun s _ => ⟨rfl, .inr ⟨by simp, 0, rfl⟩⟩
  | cons g gs ih =>
    rw [guardsR_cons]
    have hcut := cut_ref prog g vals
    have hcut' := fun _ : U => cut_guards (cut_ref prog) vals gs
    refine Sp.seq (hrec c g kw vals (hp g (.head _))) (mono_mode (mono_denKw kw vals)) (fun s h => ⟨h, h⟩)
      (fun _ _ h _ => h.imp id XAg.seqErr) fun u => Sp.gain fun hu => ?_
    refine (ih fun g' hg => hp g' (.tail _ hg)).conseq (fun _ h => h) (fun _ _ h => ?_) (fun _ _ h => ?_)
    · refine ⟨h.1, ?_⟩
      rcases hu with hu | hu
      · exact .inl hu
      · exact h.2.imp id fun h => hu.seq hcut hcut' h
    · rcases hu with hu | hu
      · exact .inl hu
      · exact h.imp id fun h => XAg.seq hcut hcut' hu h

theorem Sp.raise {e : Exc} {Q : α → PWorld U A → Prop} (h : ∀ s, P s → X e.kind s) :
    Sp addrOf K c P (PyM.raise e : PM U A α) Q X :=
  fun s _ hw _ hp => ⟨.refl hw, fun b e => (by cases e), fun e' h' => (by cases h'; exact h s hp)⟩

/-- outcome of the guards -/
def guardOut (E : Prop) (prog : FnId → Fn U) (vals : List (String × U)) (gs : List FnId) (b : Bool) : Prop :=
  E ∨ (b = true ∧ Dn (catchR (guardsR (refR prog) vals gs)) (.ok (.ok ()))) ∨
    (b = false ∧ ∃ k, Dn (catchR (guardsR (refR prog) vals gs)) (.ok (.error k)))

theorem sp_canBeExecuted (hrec : RecOK addrOf K E prog n rec) (p : PortalId) (f : FnId) (kw : Kw U)
    (vals : List (String × U)) (hp : ∀ g ∈ (prog f).guards, PlainCall E prog g kw vals) :
    Sp addrOf K c (fun s => E ∨ DenKw addrOf s kw vals) (canBeExecuted rec prog p f kw)
      (fun b _ => guardOut E prog vals (prog f).guards b)
      (fun k _ => E ∨ XAg (catchR (guardsR (refR prog) vals (prog f).guards)) n k) := by
  refine Sp.withP (fun _ _ _ _ _ _ h => h) (fun _ => fr_const _) (fun _ => fr_const _) ?_
  refine Sp.tryE (X := fun k _ => E ∨ XAg (guardsR (refR prog) vals (prog f).guards) n k)
    (fun _ => fr_const _) (fun _ => fr_const _) (fun _ => fr_const _)
    ((sp_guardLoop hrec kw vals _ hp).conseq (fun _ h => h) (fun b s h => ?_) (fun _ _ h => h)) fun e => ?_
  · rcases h with ⟨h1, h2⟩
    exact h2.imp id fun h => .inl ⟨h1, dn_catch_ok h⟩
  · refine Sp.ite (fun he => Sp.raise fun s h => ?_) (fun he => Sp.pure fun s h => ?_)
    · rw [he] at h ⊢
      refine h.imp id fun h => ?_
      rcases h with h | h
      · exact xag_catch h.2
      · exact absurd rfl h.1
    · refine h.imp id fun h => ?_
      rcases h with h | h
      · exact absurd h.1 he
      · exact .inr ⟨rfl, _, dn_catch_err he h.2⟩

end Pyth.Pure
