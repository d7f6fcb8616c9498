import Verif.Proofs.PureRan
/-! Calls of pure functions: the main rule. -/
set_option linter.unusedSectionVars false
set_option linter.unusedVariables false
set_option linter.unusedSimpArgs false
namespace Pyth.Pure
open Pyth.World Pyth.Portal
open Pyth.ValueAddr (Grow growFree Integ integFree IsAddr HoldsVal Has)

variable {U A α β : Type} [DecidableEq U] [DecidableEq A] {addrOf : Val U A → A}
  {K : Accept U} {c : Option PortalId}
  {P P' F G : PWorld U A → Prop} {X X0 : Kind → PWorld U A → Prop} {E : Prop}
  {R S N : Prop} {prog : FnId → Fn U} {n : Nat} {rec : FnId → Kw U → PM U A U}

/-- no consistency check was due -/
def NoCheck (cfg : Option Rat) (s : PWorld U A) : Prop :=
  cfg = none ∨ cfg = some 0 ∨ ∃ i c, cfg = some c ∧ ¬ s.draws i < c

/-- a consistency check may have been due -/
def MayCheck (cfg : Option Rat) (s : PWorld U A) : Prop :=
  ∃ i c, cfg = some c ∧ c ≠ 0 ∧ s.draws i < c

/-- how a call that returned was answered: from the stored result, or by running the code -/
def Answered (addrOf : Val U A → A) (S N : Prop) (H : Hist U A) (p : PortalId) (k : Key A) (kw : Kw U) (u : U)
    (s : PWorld U A) : Prop :=
  (hist s = H ∧ ¬ N ∧ NoCheck (H.pCfg p) s ∧ (S → (s.ext.results p).data k = some (addrOf (.user u)))) ∨
  (Rec H p k s ∧ ∃ conduct, (S → conduct = true ∧ MayCheck (H.pCfg p) s) ∧
    Done addrOf p k k.1 kw H.trace H.nextRun conduct u s)

/-- a call that returned -/
def CallPost (addrOf : Val U A → A) (prog : FnId → Fn U) (E R S N : Prop) (H : Hist U A) (p : PortalId) (f : FnId)
    (kw : Kw U) (vals : List (String × U)) (u : U) (s : PWorld U A) : Prop :=
  (E ∨ Dn (pureR prog f vals) (.ok u)) ∧
  ∃ ts, Match addrOf s (sortKw kw) ts ∧ (R ∨ ts = texts addrOf (sortKw vals)) ∧
    ((s.ext.results p).data (f, sigText addrOf f ts)).isSome ∧
    Answered addrOf S N H p (f, sigText addrOf f ts) kw u s

/-- a call that raised -/
def CallExc (addrOf : Val U A → A) (prog : FnId → Fn U) (E R S : Prop) (n : Nat) (H : Hist U A) (p : PortalId) (f : FnId)
    (kw : Kw U) (vals : List (String × U)) (e : Kind) (s : PWorld U A) : Prop :=
  R ∨ ((E ∨ XAg (pureR prog f vals) n e) ∧
    ∃ ts, Match addrOf s (sortKw kw) ts ∧ (R ∨ ts = texts addrOf (sortKw vals)) ∧
      RecErr H p (f, sigText addrOf f ts) e s ∧ Pending s p (f, sigText addrOf f ts) ∧ (S → MayCheck (H.pCfg p) s))

theorem Done.fr (p : PortalId) (k : Key A) (f : FnId) (kw : Kw U) (t : List (Event U))
    (run : Nat) (conduct : Bool) (u : U) : Fr (Done addrOf p k f kw t run conduct u) :=
  fun _ _ _ _ _ _ h => ⟨h.result, h.recorded, h.request, h.seen, h.check⟩

theorem Done.frx (p : PortalId) (k : Key A) (f : FnId) (kw : Kw U) (t : List (Event U))
    (run : Nat) (conduct : Bool) (u : U) : FrX (Done addrOf p k f kw t run conduct u) :=
  fun _ _ _ _ _ _ h => ⟨h.result, h.recorded, h.request, h.seen, h.check⟩

theorem Dn.unstep {R : Nat → Except Kind α} {r : Except Kind α} (h : Dn (stepR R) r) : Dn R r := by
  obtain ⟨h1, n, h2⟩ := h
  cases n with
  | zero => exact absurd h2.symm h1
  | succ n => exact ⟨h1, n, h2⟩

theorem PlainCall.guards {f : FnId} {kw : Kw U} {vals : List (String × U)} (h : PlainCall E prog f kw vals) :
    ∀ g ∈ (prog f).guards, PlainCall E prog g kw vals := by
  intro g hg
  rcases h with h | h | h
  · exact .inl h
  · exact .inr (.inl h)
  · exact .inr (.inr ⟨h.2 f g hg, h.2⟩)

/-- insensitive to output -/
def OutX (P : PWorld U A → Prop) : Prop := ∀ s caps screen, P s →
  P { s with ext := { s.ext with caps := caps, screen := screen } }

theorem Sp.traceback {m : PM U A α} {Q : α → PWorld U A → Prop} (scr : List String)
    (h : Sp addrOf K c (fun s => P s ∧ s.ext.screen = scr) m Q X) (hX : ∀ k, OutX (X k)) :
    Sp addrOf K c (fun s => P s ∧ s.ext.screen = scr) (printTraceback m) Q
      (fun k s => X k s ∧ ∃ l, s.ext.screen = scr ++ (l ++ [tracebackOf k])) := by
  intro s ho hw hc hp
  have hb := h s ho hw hc hp
  unfold printTraceback
  cases hms : m s with
  | mk r s1 =>
    rw [hms] at hb
    cases r with
    | ok a => exact ⟨hb.1, hb.2.1, fun e h => (by cases h)⟩
    | error e =>
      have h1 := sp_print (addrOf := addrOf) (K := K) (c := none) (P := fun _ => True) (X := fun _ _ => True)
        (tracebackOf e.kind) s1 (hb.1.ctx.ok ho) hb.1.wf (fun q hq => by cases hq) trivial
      obtain ⟨o, _, hs⟩ := hb.1.ev.out
      refine ⟨hb.1.trans h1.1, fun a h => (by cases h), fun e' h => ?_⟩
      cases h
      refine ⟨hX _ _ _ _ (hb.2.2 e rfl), o, ?_⟩
      show s1.ext.screen ++ [_] = _
      rw [hs, hp.2, List.append_assoc]

theorem sp_withFrame {ri : Nat} {k : Key A} {p : PortalId} {I : PWorld U A → Prop} (hR : Route addrOf K ri k p I R)
    {body : Nat → PM U A α} {H : Hist U A} {Q : α → PWorld U A → Prop} (hP : Fr P) (hPm : Mono addrOf K P) (hQ : ∀ a, Fr (Q a))
    (hX : ∀ k, Fr (X k)) (hPx : FrX P) (hQx : ∀ a, FrX (Q a)) (hXx : ∀ k, FrX (X k)) (hXo : ∀ k, OutX (X k)) (hPI : ∀ s, P s → I s)
    (h : Sp addrOf K (some p) P (body H.nextRun) Q X) :
    Sp addrOf K c (fun s => P s ∧ hist s = H) (withFrame ri body)
      (fun a s => Q a s ∧ Rec H p k s) (fun e s => R ∨ (X e s ∧ RecErr H p k e s)) := by
  rw [withFrame_eq]
  have g1 := ((sp_readK (K := K) (c := c) (X := fun _ _ => False) ri k p).mono (hR.mono.and hPm)).quiet (quiet_readR ri) H
  refine Sp.bind (g1.conseq (fun s h => ⟨⟨hR.ris s (hPI s h.1), hPI s h.1, h.1⟩, h.2⟩) (fun _ _ h => h) (fun _ _ h => h.1.1.elim)) fun o => ?_
  refine (Sp.gain (B := o.key = k ∧ o.portal = p) (P := fun s => (I s ∧ P s) ∧ hist s = H) fun e => ?_).pre
    fun s h => ⟨h.1.1.1, h.1.2, h.2⟩
  obtain ⟨rfl, rfl⟩ := e
  have g2 : Sp addrOf K c I (withP o.portal (rFunction ri)) (fun f _ => f = o.key.1) (fun _ _ => R) :=
    Sp.withP hR.fr (fun _ => fr_const _) (fun _ => fr_const _) (hR.fn (some o.portal))
  have g3 := (g2.mono hPm).quiet (Resp.withP quietFree _ (quiet_rFunction ri)) H
  refine Sp.bind (g3.conseq (fun s h => h) (fun _ _ h => h) (fun _ _ h => .inl h.1.1)) fun f => ?_
  have ht := Sp.traceback (P := P) H.screen (h.pre fun s hs => hs.1) hXo
  refine (Sp.frameRun (P := fun s => P s ∧ s.ext.screen = H.screen) (H := H) (fun s a b c d e hs => ⟨hP s a b c d e hs.1, hs.2⟩) hQ
    (fun k s a b c d e hs => ⟨hX k s a b c d e hs.1, hs.2⟩) (fun s a b c d e hs => ⟨hPx s a b c d e hs.1, hs.2⟩) hQx
    (fun k s a b c d e hs => ⟨hXx k s a b c d e hs.1, hs.2⟩) (body := fun n => printTraceback (body n)) ht).conseq
    (fun s h => ⟨⟨h.1.2, by rw [← h.2]; rfl⟩, h.2⟩) (fun _ _ h => h) (fun e s h => .inr ⟨h.1.1, h.2, ?_⟩)
  obtain ⟨⟨_, l, hl⟩, _, ⟨out, h1, h2⟩, _⟩ := h
  have : out = l ++ [tracebackOf e] := List.append_cancel_left (h1.symm.trans hl)
  subst this
  exact ⟨l, hl, h2⟩

theorem frx_known {I : PWorld U A → Prop} (hI : FrX I) (p : PortalId) (kw : Kw U)
    (vals : List (String × U)) (packed : List (String × Nat)) (ts : List (String × A)) (cfg : Option Rat)
    (t : List (Event U)) : FrX (Known addrOf E I p kw vals packed ts cfg t) :=
  fun s a b c d e h => ⟨hI s a b c d e h.1, h.2⟩
theorem fr_known {I : PWorld U A → Prop} (hI : Fr I) (p : PortalId) (kw : Kw U)
    (vals : List (String × U)) (packed : List (String × Nat)) (ts : List (String × A)) (cfg : Option Rat)
    (t : List (Event U)) : Fr (Known addrOf E I p kw vals packed ts cfg t) :=
  fun s a b c d e h => ⟨hI s a b c d e h.1, h.2⟩

theorem fr_callPost (E R S N : Prop) (H : Hist U A) (p : PortalId) (f : FnId) (kw : Kw U) (vals : List (String × U)) (u : U) :
    Fr (CallPost addrOf prog E R S N H p f kw vals u) := by
  rintro s a b c d e ⟨h1, ts, h2, h3, h4, h5⟩
  refine ⟨h1, ts, h2, h3, h4, ?_⟩
  rcases h5 with h | ⟨h, cd, h', h''⟩
  · exact .inl h
  · exact .inr ⟨h, cd, h', h''.fr _ _ _ _ _ _ _ _ _ _ _ _ _ _⟩

theorem sp_pureExec (hinj : Function.Injective addrOf) (hm : Mode K E prog) (hrec : RecOK addrOf K E prog n rec)
    (hRE : R → E) (p : PortalId) (f : FnId) (hpure : (prog f).isPure = true) (kw : Kw U) (vals : List (String × U))
    (hplain : PlainCall E prog f kw vals) (H : Hist U A) :
    Sp addrOf K c (fun s => ((R ∨ DenKw addrOf s kw vals) ∧
        (S → ∃ ts, Match addrOf s (sortKw kw) ts ∧ ((s.ext.results p).data (f, sigText addrOf f ts)).isSome) ∧ (N → Nowhere addrOf f kw s)) ∧ hist s = H)
      (pureExec addrOf rec prog p f kw)
      (CallPost addrOf prog E R S N H p f kw vals) (CallExc addrOf prog E R S n H p f kw vals) := by
  unfold pureExec
  refine Sp.withP (fun _ _ _ _ _ _ h => h) (fun u => fr_callPost E R S N H p f kw vals u) (fun _ _ _ _ _ _ _ h => h) ?_
  -- what is known about a stored result
  let ST : PWorld U A → Prop := fun s => S → ∃ ts, Match addrOf s (sortKw kw) ts ∧ ((s.ext.results p).data (f, sigText addrOf f ts)).isSome
  have hST : Mono addrOf K ST := fun s s' e w h hs => by
    obtain ⟨ts, h1, h2⟩ := h hs
    exact ⟨ts, mono_match _ _ s s' e w h1, mono_resSome (addrOf := addrOf) (K := K) p _ s s' e w h2⟩
  -- pack
  have g1 := (((sp_pack_mode (K := K) (c := some p) (R := R) hinj p kw vals).mono hST).nowhere (Resp.same (low_pack p (sortKw kw))) N f kw).quiet (Resp.quiet (low_pack p (sortKw kw))) H
  refine Sp.bind (g1.conseq (fun s h => ⟨⟨⟨h.1.1, h.1.2.1⟩, h.1.2.2⟩, h.2⟩) (fun _ _ h => h) (fun _ _ h => .inl h.1.1)) fun packed => ?_
  refine (Sp.exI (P := fun ts s => ((PK addrOf R p kw vals packed ts s ∧ ST s) ∧ (N → Nowhere addrOf f kw s)) ∧ hist s = H) fun ts => ?_).pre
    fun s ⟨⟨⟨⟨ts, h1⟩, h2⟩, h4⟩, h3⟩ => ⟨ts, ⟨⟨h1, h2⟩, h4⟩, h3⟩
  -- make the address
  have g2 := ((((sp_mkRAddr_mode (K := K) (R := R) hinj f p kw vals packed ts).mono hST).nowhere (same_mkRAddr f p (asKw packed)) N f kw).quiet (quiet_mkRAddr f p (asKw packed)) H)
  let k : Key A := (f, sigText addrOf f ts)
  have g3 : Sp addrOf K (some p) (fun s => ((PK addrOf R p kw vals packed ts s ∧ ST s) ∧ (N → Nowhere addrOf f kw s)) ∧ hist s = H)
      (mkRAddr addrOf f p (asKw packed))
      (fun ri s => (IR addrOf R (sortKw vals) ri k p s ∧ PK addrOf R p kw vals packed ts s ∧ (S → Fresh s ri k p) ∧ (N → Missing ri k p s)) ∧ hist s = H)
      (CallExc addrOf prog E R S n H p f kw vals) := by
    intro s ho hw hc hp
    have h := g2 s ho hw hc hp
    refine ⟨h.1, fun ri hri => ?_, fun e he => .inl (h.2.2 e he).1.1⟩
    obtain ⟨⟨⟨⟨h1, h2⟩, h3⟩, h5⟩, h4⟩ := h.2.1 ri hri
    refine ⟨⟨h1, h2, fun hs => ?_, fun hn => ?_⟩, h4⟩
    swap
    · obtain ⟨ts', b1, b2⟩ := h5 hn
      have : ts' = ts := b1.unique h2.2.1
      subst this
      exact ⟨h1.1, b2⟩
    obtain ⟨o, a1, a2, _⟩ := mkRAddr_run f p (asKw packed) s ri hri
    obtain ⟨ts', b1, b2⟩ := h3 hs
    obtain ⟨o', c1, c2, c3⟩ := h1.1
    rw [a1] at c1; cases c1
    have : ts' = ts := b1.unique h2.2.1
    subst this
    exact ⟨⟨o, a1, c2, c3, a2⟩, b2⟩
  refine Sp.bind g3 fun ri => ?_
  have hroute := route_ir (K := K) (R := R) hinj (sortKw vals) ri k p
  -- draw
  have g4 : Sp addrOf K (some p)
      (fun s => (IR addrOf R (sortKw vals) ri k p s ∧ PK addrOf R p kw vals packed ts s ∧ (S → Fresh s ri k p) ∧ (N → Missing ri k p s)) ∧ hist s = H)
      (drawR : PM U A Rat)
      (fun x s => ((IR addrOf R (sortKw vals) ri k p s ∧ PK addrOf R p kw vals packed ts s ∧ (S → Fresh s ri k p) ∧ (N → Missing ri k p s)) ∧
        hist s = H) ∧ ∃ i, x = s.draws i) (CallExc addrOf prog E R S n H p f kw vals) := by
    intro s ho hw hc hp
    refine ⟨⟨⟨rfl, rfl, rfl, List.prefix_rfl⟩, ⟨hw.integ, hw.held, hw.pCheck, hw.reqs, hw.obj, hw.trace⟩,
      { Ev.refl s with
        grow := ⟨fun _ _ _ h => h, fun i o h => ⟨o, h, rfl, rfl, id, id⟩⟩
        nd := Nat.le_succ _
        raddrs := fun r o h => ⟨o, h, (REv.refl s o).key, rfl, id, fun _ => id, fun _ => .inl, id⟩ }⟩,
      fun x hx => ?_, fun e he => (by cases he)⟩
    cases hx
    exact ⟨hp, s.nd, rfl⟩
  refine Sp.bind g4 fun x => ?_
  refine Sp.bind Sp.getS fun s0 => ?_
  refine (Sp.gain (B := s0.ext.pCfg p = H.pCfg p) (P := fun s => ((IR addrOf R (sortKw vals) ri k p s ∧
      PK addrOf R p kw vals packed ts s ∧ (S → Fresh s ri k p) ∧ (N → Missing ri k p s)) ∧ hist s = H) ∧ ∃ i, x = s.draws i) fun ecfg => ?_).pre
    fun s h => ⟨by rw [← h.1, ← h.2.1.2]; rfl, h.2⟩
  simp only [ecfg]
  let cfg := H.pCfg p
  have hdrawm : Mono addrOf K (fun s : PWorld U A => ∃ i, x = s.draws i) := fun s s' e w ⟨i, h⟩ => ⟨i, by rw [e.draws]; exact h⟩
  -- readiness
  have g5 : Sp addrOf K (some p) (fun s => ((IR addrOf R (sortKw vals) ri k p s ∧
      PK addrOf R p kw vals packed ts s ∧ (S → Fresh s ri k p) ∧ (N → Missing ri k p s)) ∧ hist s = H) ∧ ∃ i, x = s.draws i) (rReady addrOf ri)
      (fun b s => ((b = true → ((s.ext.results p).data k).isSome) ∧ (S → b = true ∧ Fresh s ri k p) ∧ (N → b = false)) ∧
        (IR addrOf R (sortKw vals) ri k p s ∧ PK addrOf R p kw vals packed ts s) ∧ hist s = H ∧ ∃ i, x = s.draws i)
      (CallExc addrOf prog E R S n H p f kw vals) := by
    have a1 := (((sp_rReady (K := K) (c := some p) hroute hinj).mono (hroute.mono.and ((mono_pk (R := R) p kw vals packed ts).and hdrawm))).quiet (quiet_rReady ri) H)
    have a2 : Sp addrOf K (some p) (fun s => ((IR addrOf R (sortKw vals) ri k p s ∧
      PK addrOf R p kw vals packed ts s ∧ (S → Fresh s ri k p) ∧ (N → Missing ri k p s)) ∧ hist s = H) ∧ ∃ i, x = s.draws i) (rReady addrOf ri)
      (fun b s => N → b = false) (fun _ _ => True) := by
      by_cases hN : N
      · exact (sp_rReady_missing ri k p).conseq (fun s h => h.1.1.2.2.2 hN) (fun b s h _ => h) (fun _ _ _ => trivial)
      · intro s ho hw hc hp
        have h := sp_rReady (K := K) (c := some p) hroute hinj s ho hw hc hp.1.1.1
        exact ⟨h.1, fun _ _ hn => absurd hn hN, fun _ _ => trivial⟩
    suffices a3 : Sp addrOf K (some p) (fun s => ((IR addrOf R (sortKw vals) ri k p s ∧
      PK addrOf R p kw vals packed ts s ∧ (S → Fresh s ri k p) ∧ (N → Missing ri k p s)) ∧ hist s = H) ∧ ∃ i, x = s.draws i) (rReady addrOf ri)
      (fun b s => ((b = true → ((s.ext.results p).data k).isSome) ∧ (S → b = true ∧ Fresh s ri k p)) ∧
        (IR addrOf R (sortKw vals) ri k p s ∧ PK addrOf R p kw vals packed ts s) ∧ hist s = H ∧ ∃ i, x = s.draws i)
      (CallExc addrOf prog E R S n H p f kw vals) from
      (a3.and a2).conseq (fun s h => ⟨h, h⟩) (fun b s h => ⟨⟨h.1.1.1, h.1.1.2, h.2⟩, h.1.2⟩) (fun _ _ h => h.1)
    by_cases hS : S
    · refine (a1.and (sp_rReady_fresh (K := K) (addrOf := addrOf) (c := some p) ri k p)).conseq
        (fun s h => ⟨⟨⟨h.1.1.1, h.1.1.1, h.1.1.2.1, h.2⟩, h.1.2⟩, h.1.1.2.2.1 hS⟩) (fun b s h => ?_) (fun _ _ h => h.2.elim)
      exact ⟨⟨h.1.1.1, fun _ => h.2⟩, ⟨h.1.1.2.1, h.1.1.2.2.1⟩, h.1.2, h.1.1.2.2.2⟩
    · refine a1.conseq (fun s h => ⟨⟨h.1.1.1, h.1.1.1, h.1.1.2.1, h.2⟩, h.1.2⟩) (fun b s h => ?_) (fun _ _ h => .inl h.1.1)
      exact ⟨⟨h.1.1, fun h => absurd h hS⟩, ⟨h.1.2.1, h.1.2.2.1⟩, h.2, h.1.2.2.2⟩
  refine Sp.bind g5 fun rd => ?_
  have hkey : ∀ s, PK addrOf R p kw vals packed ts s → R ∨ k = callKey addrOf f (sortKw vals) := by
    intro s h
    rcases h.2.2 with h | h
    · exact .inl h
    · right; show ((f, sigText addrOf f ts) : Key A) = _; rw [h.1]; rfl
  have htx : ∀ s, PK addrOf R p kw vals packed ts s → R ∨ ts = texts addrOf (sortKw vals) := fun s h => h.2.2.imp id fun h => h.1
  -- acceptable results
  have hden : ∀ u, K f (sortKw vals) u → E ∨ Dn (pureR prog f vals) (.ok u) := by
    intro u hu
    rcases hm.det with h | hd
    · exact .inl h
    · refine (hm.elim _ _ _ hu).imp id fun h => ?_
      have h' : Dn (refR prog f (sortKw vals)) (.ok u) := h
      rw [refR_sort hd, ref_pure hpure] at h'
      exact h'.unstep
  refine Sp.ite (fun hcond => ?_) (fun hcond => ?_)
  · -- answered from the store
    obtain ⟨rfl, hnc⟩ := hcond
    have hmo := (mono_pk (K := K) (R := R) (addrOf := addrOf) p kw vals packed ts).and (hdrawm.and (mono_resSome p k))
    have b1 : Sp addrOf K (some p) _ (rGet addrOf ri) _ _ :=
      ((sp_rGet_yes (K := K) (c := some p) hinj ri k p).mono hmo).quiet (quiet_rGet ri) H
    have fin : ∀ u s, (((∀ vals, k = callKey addrOf k.1 vals → K k.1 vals u) ∧ PK addrOf R p kw vals packed ts s ∧
        (∃ i, x = s.draws i) ∧ ((s.ext.results p).data k).isSome) ∧ hist s = H) →
        ¬ N → (S → (s.ext.results p).data k = some (addrOf (.user u))) → CallPost addrOf prog E R S N H p f kw vals u s := by
      rintro u s ⟨⟨h1, h2, ⟨i, h3⟩, h4⟩, h5⟩ hnn h6
      refine ⟨?_, ts, h2.2.1, htx s h2, h4, .inl ⟨h5, hnn, ?_, h6⟩⟩
      · rcases hkey s h2 with h | h
        · exact .inl (hRE h)
        · exact hden u (h1 _ h)
      · rcases hnc with h | h | h
        · exact .inl h
        · exact .inr (.inl h)
        · cases hc : H.pCfg p with
          | none => exact .inl rfl
          | some c => exact .inr (.inr ⟨i, c, rfl, by rw [← h3]; exact h c hc⟩)
    refine (Sp.gain (B := ¬ N) (P := fun s => ((true = true → ((s.ext.results p).data k).isSome) ∧ (S → true = true ∧ Fresh s ri k p)) ∧
        (IR addrOf R (sortKw vals) ri k p s ∧ PK addrOf R p kw vals packed ts s) ∧ hist s = H ∧ ∃ i, x = s.draws i) fun hnn => ?_).pre
      fun s h => ⟨fun hn => (by cases h.1.2.2 hn), ⟨h.1.1, h.1.2.1⟩, h.2⟩
    by_cases hS : S
    · refine (b1.and (sp_rGet_fresh (K := K) (addrOf := addrOf) (c := some p) ri k p)).conseq
        (fun s h => ⟨⟨⟨⟨h.2.1.1.1, h.1.1 rfl⟩, h.2.1.2, h.2.2.2, h.1.1 rfl⟩, h.2.2.1⟩, (h.1.2 hS).2⟩) (fun u s h => ?_) (fun _ _ h => h.2.elim)
      exact fin u s h.1 hnn fun _ => h.2
    · refine b1.conseq (fun s h => ⟨⟨⟨h.2.1.1.1, h.1.1 rfl⟩, h.2.1.2, h.2.2.2, h.1.1 rfl⟩, h.2.2.1⟩) (fun u s h => ?_) (fun _ _ h => h.1.1.elim)
      exact fin u s h hnn fun h => absurd h hS
  · -- run the code
    have hS' : ∀ s : PWorld U A, (∃ i, x = s.draws i) → (S → rd = true) → S → rd = true ∧ MayCheck (H.pCfg p) s := by
      rintro s ⟨i, hi⟩ h hs
      refine ⟨h hs, ?_⟩
      have h1 : ¬ (H.pCfg p = none ∨ H.pCfg p = some 0 ∨ ∀ c, H.pCfg p = some c → ¬ x < c) := fun h' => hcond ⟨h hs, h'⟩
      cases hc : H.pCfg p with
      | none => exact absurd (.inl hc) h1
      | some c =>
        refine ⟨i, c, rfl, fun h0 => h1 (.inr (.inl (by rw [hc, h0]))), ?_⟩
        rw [← hi]
        by_contra hlt
        exact h1 (.inr (.inr fun c' hc' => by rw [hc] at hc'; cases hc'; exact hlt))
    refine (Sp.gain (B := (S → rd = true) ∧ (R ∨ k = callKey addrOf f (sortKw vals)))
      (P := fun s => (Known addrOf E (IR addrOf R (sortKw vals) ri k p) p kw vals packed ts (H.pCfg p) H.trace s ∧
        PK addrOf R p kw vals packed ts s ∧ ∃ i, x = s.draws i) ∧ hist s = H) fun hB => ?_).pre fun s h => ?_
    swap
    · have hpk := h.2.1.2
      have hh := h.2.2.1
      refine ⟨⟨fun hs => (h.1.2.1 hs).1, hkey s hpk⟩, ⟨⟨h.2.1.1, hpk.1, hpk.2.1, ?_, ?_, ?_, ?_⟩, hpk, h.2.2.2⟩, hh⟩
      · exact hpk.2.2.imp hRE fun h => h.2.1
      · exact hpk.2.2.imp hRE fun h => h.2.2
      · rw [← hh]; rfl
      · rw [← hh]; exact List.prefix_rfl
    obtain ⟨hSrd, hk⟩ := hB
    have hEkey : E ∨ k = callKey addrOf k.1 (sortKw vals) := hk.imp hRE id
    have hbody := sp_frameBody (R := R) hinj hroute hrec hpure hm.det kw vals hplain.guards
      (fun u vals' hv hu => hm.intro _ _ _ (by
        rcases hu with hu | ⟨hu1, hu2⟩
        · exact .inl hu
        · rcases hm.det with h | hd
          · exact .inl h
          · right
            have : vals' = sortKw vals := (callKey_inj hinj (hv.symm.trans hu1)).2
            subst this
            show Dn (refR prog f (sortKw vals)) (.ok u)
            rw [refR_sort hd, ref_pure hpure]
            exact hu2.step))
      (fun u s hu hw => by
        rcases hu with hu | hu
        · exact .inl hu
        · rcases hEkey with h | h
          · exact .inl h
          · cases hx : (s.ext.results p).data k with
            | none => exact .inr (.inl rfl)
            | some b =>
              obtain ⟨u', a1, a2, a3⟩ := hw.held p k b hx
              rcases hden u' (a3 _ h) with h' | h'
              · exact .inl h'
              · have := Dn.unique (cut_pure prog f vals) hu h'
                cases this
                exact .inr (.inr (by rw [a1])))
      hEkey (fun vals' hv => hm.may _ _ (by
        rcases hv with hv | ⟨rfl, hv⟩
        · exact .inl hv
        · rcases hm.det with h | hd
          · exact .inl h
          · refine .inr fun g hg => ?_
            obtain ⟨v, hv⟩ := dn_guards_each vals _ (dn_uncatch hv) g hg
            refine ⟨v, ?_⟩
            show Dn (refR prog g (sortKw vals)) (.ok v)
            rw [refR_sort hd]; exact hv)) packed ts rd (H.pCfg p) H.trace H.nextRun
    have hmP := (mono_known (K := K) (E := E) hroute.mono p kw vals packed ts (H.pCfg p) H.trace).and
      ((mono_pk (R := R) p kw vals packed ts).and hdrawm)
    have hbody' := hbody.mono ((mono_pk (R := R) p kw vals packed ts).and hdrawm)
    have hfin := sp_withFrame (c := some p) hroute (P := fun s =>
        Known addrOf E (IR addrOf R (sortKw vals) ri k p) p kw vals packed ts (H.pCfg p) H.trace s ∧
        PK addrOf R p kw vals packed ts s ∧ ∃ i, x = s.draws i) (body := frameBody addrOf rec prog p f kw packed ri rd (H.pCfg p)) (H := H)
      (fun s a b c d e h => ⟨fr_known hroute.fr _ _ _ _ _ _ _ s a b c d e h.1, h.2⟩) hmP
      (fun u s a b c d e h => ⟨⟨h.1.1, h.1.2.fr _ _ _ _ _ _ _ _ _ _ _ _ _ _⟩, h.2⟩)
      (fun _ _ _ _ _ _ _ h => h)
      (fun s a b c d e h => ⟨frx_known (fun _ _ _ _ _ _ h => h) _ _ _ _ _ _ _ s a b c d e h.1, h.2⟩)
      (fun u s a b c d e h => ⟨⟨h.1.1, h.1.2.frx _ _ _ _ _ _ _ _ _ _ _ _ _ _⟩, h.2⟩)
      (fun _ _ _ _ _ _ _ h => h)
      (fun _ _ _ _ h => h)
      (fun s h => h.1.1) hbody'
    refine hfin.conseq (fun s h => h) (fun u s h => ?_) (fun e s h => ?_)
    · obtain ⟨⟨⟨h1, h2⟩, h3, h4⟩, h5⟩ := h
      exact ⟨h1, ts, h3.2.1, htx s h3, h2.result, .inr ⟨h5, rd, hS' s h4 hSrd, h2⟩⟩
    · rcases h with h | ⟨⟨h | ⟨h1, h2⟩, h3, h4⟩, h5⟩
      · exact .inl h
      · exact .inl h
      · exact .inr ⟨h1, ts, h3.2.1, htx s h3, h5, h2, fun hs => (hS' s h4 hSrd hs).2⟩

end Pyth.Pure
