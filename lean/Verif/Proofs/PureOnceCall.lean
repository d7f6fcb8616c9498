import Verif.Proofs.PureOnce
/-! The code of a terminating call is executed at most once: calls. -/
set_option linter.unusedSectionVars false
set_option linter.unusedVariables false
set_option linter.unusedSimpArgs false
namespace Pyth.Pure
open Pyth.World Pyth.Portal
open Pyth.ValueAddr (Grow growFree Integ integFree IsAddr HoldsVal Has)

variable {U A α β : Type} [DecidableEq U] [DecidableEq A] {addrOf : Val U A → A}
  {c : Option PortalId} {P P' F G Z : PWorld U A → Prop} {X X0 : Kind → PWorld U A → Prop}
  {prog : FnId → Fn U} {n m : Nat} {rec : FnId → Kw U → PM U A U}
  {p : PortalId} {cfg : Option Rat} {b : Key A → Nat} {st Fk : Key A → Prop}

theorem tr_frameOnce (hinj : Function.Injective addrOf) (hd : DetProg prog) {ri : Nat} {k : Key A} {I : PWorld U A → Prop}
    (hR : Route addrOf (correct prog) ri k p I False) (hrec : RecOK addrOf (correct prog) False prog n rec)
    (honce : RecOnce addrOf prog p cfg b st n rec) (hmn : m ≤ n) (hF : Opened addrOf prog m Fk)
    (vals : List (String × U)) (hg : refGuards (ref prog m) vals (prog k.1).guards ≠ .error diverge)
    (hb : refGuards (ref prog m) vals (prog k.1).guards = .ok () →
      refBody (ref prog m) ((prog k.1).body (rawKw (sortKw vals))) ≠ .error diverge)
    (packed : List (String × Nat)) (ts : List (String × A)) (conduct : Bool) (cfg' : Option Rat) (run : Nat) :
    Tr addrOf (correct prog) (some p)
      (fun s => Known addrOf False I p (rawKw vals) vals packed ts cfg [] s ∧ Once addrOf prog p cfg b st Fk s)
      (frameBody addrOf rec prog p k.1 (rawKw vals) packed ri conduct cfg' run) (Once addrOf prog p cfg b st Fk) := by
  have hst := stable_once (addrOf := addrOf) (prog := prog) (U := U) p cfg b st Fk
  have hmo := mono_known (E := False) hR.mono p (rawKw vals) vals packed ts cfg []
  unfold frameBody
  refine Tr.bind ((((sp_rRequest (c := some p) hR hinj).mono hmo).agq (quiet_rRequest ri) hst).pre fun s h => ⟨⟨h.1.1, h.1⟩, h.2⟩)
    (fun _ _ h => h.2) fun _ => ?_
  refine Tr.bind ((((sp_canBeExecuted (c := some p) hrec p k.1 (rawKw vals) vals fun g _ => .inr (.inl rfl)).and
    (sp_canOnce (c := some p) hrec honce hmn hF k.1 vals hg)).mono hmo).pre fun s h => ⟨⟨h.1.2.2.2.2.1, h.2⟩, h.1.2⟩)
    (fun _ _ h => h.1.2) fun ok => ?_
  refine (Tr.gain (B := guardOut False prog vals (prog k.1).guards ok)
    (P := fun s => Known addrOf False I p (rawKw vals) vals packed ts cfg [] s ∧ Once addrOf prog p cfg b st Fk s) fun hok => ?_).pre
    fun s h => ⟨h.1.1, h.2, h.1.2⟩
  refine Tr.bind (Q := fun _ s => (Known addrOf False I p (rawKw vals) vals packed ts cfg [] s ∧ Once addrOf prog p cfg b st Fk s) ∧
      ∃ pre, s.ext.trace = pre ++ [Event.guards k.1 (rawKw vals) ok]) (X := fun _ _ => False)
    (sp_modExt fun s hw h => ⟨?_, ev_trace s _, ⟨?_, ?_⟩, s.ext.trace, rfl⟩) (fun _ _ h => h.elim) fun _ => ?_
  · exact ⟨hw.integ, hw.held, hw.pCheck, hw.reqs, hw.obj, hw.trace.guards _ _ _⟩
  · refine hmo _ _ (ev_trace s _) ?_ h.1
    exact ⟨hw.integ, hw.held, hw.pCheck, hw.reqs, hw.obj, hw.trace.guards _ _ _⟩
  · exact h.2
  refine Tr.ite (fun hb' => ?_) (fun hb' => Tr.resp (Resp.raiseNew agFree _) hst fun s h => h.1.2)
  subst hb'
  have hdn : Dn (guardsR (refR prog) vals (prog k.1).guards) (.ok ()) := by
    rcases hok with hok | ⟨_, hok⟩ | ⟨h1, _⟩
    · exact hok.elim
    · exact dn_uncatch hok
    · cases h1
  have hge : refGuards (ref prog m) vals (prog k.1).guards = .ok () := dn_eq (cut_guards (cut_ref prog) vals _) hdn hg
  refine (Tr.gain (B := sortKw (asKw (U := U) packed) = asKw packed)
    (P := fun s => (Known addrOf False I p (rawKw vals) vals packed ts cfg [] s ∧ Once addrOf prog p cfg b st Fk s) ∧
      ∃ pre, s.ext.trace = pre ++ [Event.guards k.1 (rawKw vals) true]) fun es => ?_).pre
    fun s h => ⟨sorted_packed h.1.1.2.1 h.1.1.2.2.1, h⟩
  rw [es]
  have hun : Sp addrOf (correct prog) (some p) (fun s => (Known addrOf False I p (rawKw vals) vals packed ts cfg [] s ∧ Once addrOf prog p cfg b st Fk s) ∧
      ∃ pre, s.ext.trace = pre ++ [Event.guards k.1 (rawKw vals) true]) (unpack (asKw packed) : PM U A (List (String × U)))
      (fun un s => (un = sortKw vals ∧ ArgsAgree (rawKw vals) (rawKw un)) ∧ Once addrOf prog p cfg b st Fk s ∧
        ∃ pre, s.ext.trace = pre ++ [Event.guards k.1 (rawKw vals) true])
      (fun _ s => Once addrOf prog p cfg b st Fk s) := by
    intro s ho hw hc hp
    have h1 := ((sp_unpack_mode (K := correct prog) (c := some p) (E := False) hinj (asKw packed) (sortKw vals)).mono hmo) s ho hw hc
      ⟨hp.1.1.2.2.2.2.1, hp.1.1⟩
    refine ⟨h1.1, fun un hun => ?_, fun e he => (h1.2.2 e he).1.elim⟩
    have h2 := h1.2.1 un hun
    have e1 : ts = texts addrOf un := (Match.packed (addrOf := addrOf) h2.2.2.1).unique h2.1.1
    refine ⟨⟨h2.1.2.resolve_left id, ?_⟩, hst _ _ (Resp.agLow (low_unpack (asKw packed)) s) hp.1.2, ?_⟩
    · have := h2.2.2.2.1
      rw [e1] at this
      exact argsAgree_of_match hinj this
    · rw [(low_unpack (asKw packed) s).ext]; exact hp.2
  refine Tr.bind hun (fun _ _ h => h) fun un => Tr.gain fun hu => ?_
  obtain ⟨rfl, hagree⟩ := hu
  refine Tr.bind ((sp_autOnce (c := some p) hrec honce hmn hF k.1 (rawKw (sortKw vals)) (hd.det _ _) (hb hge)).pre
    fun s h => ⟨fun _ => ?_, h.1⟩) (fun _ _ h => h) fun u => Tr.resp (ag_tail p ri run conduct cfg' u) hst fun s h => h
  obtain ⟨pre, hpre⟩ := h.2
  refine ⟨⟨pre, _, hpre, hagree⟩, fun vals' hv => ?_⟩
  have ev : sortKw vals = vals' := rawKw_inj hv
  subst ev
  intro g hg'
  obtain ⟨v, hv⟩ := dn_guards_each vals _ hdn g hg'
  refine ⟨v, ?_⟩
  show Dn (refR prog g (sortKw vals)) (.ok v)
  rw [refR_sort hd]; exact hv

/-- the runs that are open inside a run of call `k` -/
def Plus (Fk : Key A → Prop) (k : Key A) : Key A → Prop := fun k' => Fk k' ∨ k' = k

theorem once_plus {s : PWorld U A} {k : Key A} (h : Once addrOf prog p cfg b st Fk s) : Once addrOf prog p cfg b st (Plus Fk k) s :=
  ⟨h.1, fun k' hk => ⟨(h.2 k' hk).1, (h.2 k' hk).2.imp id fun ⟨x, y, z⟩ => ⟨x, y, z.imp id .inl⟩⟩⟩

theorem once_open {s : PWorld U A} {r : RObj U A} {f : FnId} (hp : r.portal = p) (h : Once addrOf prog p cfg b st Fk s)
    (hv : Virgin addrOf prog p b st r.key s) :
    Once addrOf prog p cfg b st (Plus Fk r.key) { s with ext := openFrame r f s.ext } := by
  subst hp
  refine ⟨h.1, fun k hk => ⟨(h.2 k hk).1, ?_⟩⟩
  by_cases e : k = r.key
  · subst e
    obtain ⟨h1, h2⟩ := hv hk
    refine .inr ⟨?_, h2, .inr (.inr rfl)⟩
    simp [openFrame, upd2, h1]
  · have h3 := (h.2 k hk).2
    have e2 : ({ s with ext := openFrame r f s.ext } : PWorld U A).ext.attempts r.portal k = s.ext.attempts r.portal k := by
      simp [openFrame, upd2, e]
    rw [e2]
    exact h3.imp id fun ⟨x, y, z⟩ => ⟨x, y, z.imp id .inl⟩

theorem tr_withFrameOnce (hinj : Function.Injective addrOf) (hd : DetProg prog) {ri : Nat} {k : Key A} {I : PWorld U A → Prop}
    (hR : Route addrOf (correct prog) ri k p I False) (hIx : FrX I) (hrec : RecOK addrOf (correct prog) False prog n rec)
    (honce : RecOnce addrOf prog p cfg b st n rec) (hmn : m ≤ n) (hF : Opened addrOf prog m (Plus Fk k))
    (vals : List (String × U)) (hg : refGuards (ref prog m) vals (prog k.1).guards ≠ .error diverge)
    (hb : refGuards (ref prog m) vals (prog k.1).guards = .ok () →
      refBody (ref prog m) ((prog k.1).body (rawKw (sortKw vals))) ≠ .error diverge)
    (packed : List (String × Nat)) (ts : List (String × A)) (conduct : Bool) (cfg' : Option Rat) :
    Tr addrOf (correct prog) (some p)
      (fun s => Known addrOf False I p (rawKw vals) vals packed ts cfg [] s ∧
        (Once addrOf prog p cfg b st Fk s ∧ Virgin addrOf prog p b st k s))
      (withFrame ri (frameBody addrOf rec prog p k.1 (rawKw vals) packed ri conduct cfg')) (Once addrOf prog p cfg b st (Plus Fk k)) := by
  have hst := stable_once (addrOf := addrOf) (prog := prog) (U := U) p cfg b st Fk
  have hst' := stable_once (addrOf := addrOf) (prog := prog) (U := U) p cfg b st (Plus Fk k)
  have hsv := hst.and (stable_virgin (addrOf := addrOf) (prog := prog) (U := U) p b st k)
  have hmo := mono_known (E := False) hR.mono p (rawKw vals) vals packed ts cfg []
  rw [withFrame_eq]
  refine Tr.bind ((((sp_readK (X := fun _ _ => False) ri k p).mono hmo).agq (quiet_readR ri) hsv).pre
    fun s h => ⟨⟨hR.ris s h.1.1, h.1⟩, h.2⟩) (fun _ _ h => h.1.1.elim) fun o => ?_
  refine (Tr.gain (B := o.key = k ∧ o.portal = p) (P := fun s => Known addrOf False I p (rawKw vals) vals packed ts cfg [] s ∧
        (Once addrOf prog p cfg b st Fk s ∧ Virgin addrOf prog p b st k s)) fun e => ?_).pre fun s h => ⟨h.1.1.1, h.1.2, h.2⟩
  obtain ⟨rfl, rfl⟩ := e
  have g2 : Sp addrOf (correct prog) (some o.portal) I (withP o.portal (rFunction ri)) (fun f _ => f = o.key.1) (fun _ _ => False) :=
    Sp.withP hR.fr (fun _ => fr_const _) (fun _ => fr_const _) (hR.fn (some o.portal))
  refine Tr.bind (((g2.mono hmo).agq (Resp.withP quietFree _ (quiet_rFunction ri)) hsv).pre
    fun s h => ⟨⟨h.1.1, h.1⟩, h.2⟩) (fun _ _ h => h.1.1.elim) fun f => ?_
  refine Tr.frameRun (P := fun s => ((f = o.key.1) ∧ Known addrOf False I o.portal (rawKw vals) vals packed ts cfg [] s) ∧
      (Once addrOf prog o.portal cfg b st Fk s ∧ Virgin addrOf prog o.portal b st o.key s))
    (P' := fun s => Known addrOf False I o.portal (rawKw vals) vals packed ts cfg [] s ∧ Once addrOf prog o.portal cfg b st (Plus Fk o.key) s)
    (fun s a b c d e h => ⟨⟨h.1.1, fr_known hR.fr _ _ _ _ _ _ _ s a b c d e h.1.2⟩, hsv.fr s a b c d e h.2⟩) hst' (fun s h => ?_)
    fun i => Tr.traceback hst' (tr_frameOnce hinj hd hR hrec honce hmn hF vals hg hb packed ts conduct cfg' i)
  exact ⟨frx_known hIx _ _ _ _ _ _ _ s _ _ _ _ _ h.1.2, once_open rfl h.2.1 h.2.2⟩

theorem tr_pureOnce (hinj : Function.Injective addrOf) (hd : DetProg prog) (hcfg : cfg = none ∨ cfg = some 0)
    (hrec : RecOK addrOf (correct prog) False prog n rec)
    (honce : RecOnce addrOf prog p cfg b st n rec) (hmn : m ≤ n) (f : FnId) (vals : List (String × U))
    (hF : Opened addrOf prog m (Plus Fk (callKey addrOf f (sortKw vals))))
    (hg : refGuards (ref prog m) vals (prog f).guards ≠ .error diverge)
    (hb : refGuards (ref prog m) vals (prog f).guards = .ok () →
      refBody (ref prog m) ((prog f).body (rawKw (sortKw vals))) ≠ .error diverge) :
    Tr addrOf (correct prog) c
      (fun s => Once addrOf prog p cfg b st Fk s ∧ Virgin addrOf prog p b st (callKey addrOf f (sortKw vals)) s)
      (pureExec addrOf rec prog p f (rawKw vals)) (Once addrOf prog p cfg b st (Plus Fk (callKey addrOf f (sortKw vals)))) := by
  have hst := stable_once (addrOf := addrOf) (prog := prog) (U := U) p cfg b st Fk
  have hst' := stable_once (addrOf := addrOf) (prog := prog) (U := U) p cfg b st (Plus Fk (callKey addrOf f (sortKw vals)))
  have hsv := hst.and (stable_virgin (addrOf := addrOf) (prog := prog) (U := U) p b st (callKey addrOf f (sortKw vals)))
  unfold pureExec
  refine Tr.withP hsv.fr hst' ?_
  refine Tr.bind (((sp_pack_mode (K := correct prog) (c := some p) (R := False) hinj p (rawKw vals) vals).agq
    (Resp.quiet (low_pack p (sortKw (rawKw vals)))) hsv).pre fun s h => ⟨.inr (denKw_raw s vals), h⟩) (fun _ _ h => h.1.elim) fun packed => ?_
  refine (Tr.exI (P := fun ts s => PK addrOf False p (rawKw vals) vals packed ts s ∧ (Once addrOf prog p cfg b st Fk s ∧
    Virgin addrOf prog p b st (callKey addrOf f (sortKw vals)) s)) fun ts => ?_).pre fun s ⟨⟨ts, h1⟩, h2⟩ => ⟨ts, h1, h2⟩
  refine (Tr.gain (B := ts = texts addrOf (sortKw vals)) (P := fun s => PK addrOf False p (rawKw vals) vals packed ts s ∧
    (Once addrOf prog p cfg b st Fk s ∧ Virgin addrOf prog p b st (callKey addrOf f (sortKw vals)) s)) fun ets => ?_).pre
    fun s h => ⟨(h.1.2.2.resolve_left id).1, h⟩
  have ek : ((f, sigText addrOf f ts) : Key A) = callKey addrOf f (sortKw vals) := by rw [ets]; rfl
  refine Tr.bind ((sp_mkRAddr_mode (K := correct prog) (R := False) hinj f p (rawKw vals) vals packed ts).agq
    (quiet_mkRAddr f p (asKw packed)) hsv) (fun _ _ h => h.1.elim) fun ri => ?_
  rw [ek]
  have hroute := route_ir (K := correct prog) (R := False) hinj (sortKw vals) ri (callKey addrOf f (sortKw vals)) p
  have hmo := hroute.mono.and (mono_pk (K := correct prog) (R := False) (addrOf := addrOf) p (rawKw vals) vals packed ts)
  let P1 : PWorld U A → Prop := fun s => (IR addrOf False (sortKw vals) ri (callKey addrOf f (sortKw vals)) p s ∧
    PK addrOf False p (rawKw vals) vals packed ts s) ∧ (Once addrOf prog p cfg b st Fk s ∧
    Virgin addrOf prog p b st (callKey addrOf f (sortKw vals)) s)
  have g4 : Sp addrOf (correct prog) (some p) P1 (drawR : PM U A Rat) (fun _ s => P1 s) (fun _ _ => False) := by
    intro s ho hw hc hp
    refine ⟨⟨⟨rfl, rfl, rfl, List.prefix_rfl⟩, ⟨hw.integ, hw.held, hw.pCheck, hw.reqs, hw.obj, hw.trace⟩,
      { Ev.refl s with
        grow := ⟨fun _ _ _ h => h, fun i o h => ⟨o, h, rfl, rfl, id, id⟩⟩
        nd := Nat.le_succ _
        raddrs := fun r o h => ⟨o, h, (REv.refl s o).key, rfl, id, fun _ => id, fun _ => .inl, id⟩ }⟩,
      fun x hx => ?_, fun e he => (by cases he)⟩
    exact hp
  refine Tr.bind g4 (fun _ _ h => h.elim) fun x => ?_
  refine Tr.bind (X := fun _ _ => False) Sp.getS (fun _ _ h => h.elim) fun s0 => ?_
  refine (Tr.gain (B := s0.ext.pCfg p = cfg) (P := P1) fun ecfg => ?_).pre fun s h => ⟨by rw [← h.1]; exact h.2.2.1.1, h.2⟩
  simp only [ecfg]
  refine Tr.bind ((((sp_rReady (K := correct prog) (c := some p) hroute hinj).mono hmo).agq (quiet_rReady ri) hsv).pre
    fun s h => ⟨⟨h.1.1, h.1⟩, h.2⟩) (fun _ _ h => h.1.1.elim) fun rd => ?_
  refine Tr.ite (fun hc => ?_) (fun hc => ?_)
  · refine Tr.ofSp (((sp_rGet_yes (K := correct prog) (c := some p) hinj ri (callKey addrOf f (sortKw vals)) p).agq (quiet_rGet ri) hsv).conseq
      (fun s h => ⟨⟨h.1.2.1.1, h.1.1 hc.1⟩, h.2⟩) (fun _ _ h => once_plus h.2.1) (fun _ _ h => h.1.elim))
  · refine (tr_withFrameOnce hinj hd hroute (fun _ _ _ _ _ _ h => h) hrec honce hmn hF vals hg hb packed ts rd cfg).pre fun s h => ?_
    have hpk := h.1.2.2
    have hx := hpk.2.2.resolve_left id
    exact ⟨⟨h.1.2.1, hpk.1, hpk.2.1, .inr hx.2.1, .inr hx.2.2, h.2.1.1, List.nil_prefix⟩, h.2⟩

theorem noMay {s : PWorld U A} (hcfg : cfg = none ∨ cfg = some 0) (h : MayCheck cfg s) : False := by
  obtain ⟨i, x, h1, h2, _⟩ := h
  rcases hcfg with rfl | rfl
  · cases h1
  · injection h1 with h1; exact h2 h1.symm

/-- at any depth -/
theorem recOnce_exec (hinj : Function.Injective addrOf) (hd : DetProg prog) (hcfg : cfg = none ∨ cfg = some 0) :
    ∀ n, RecOnce addrOf prog p cfg b st n (exec addrOf prog p n) := by
  intro n
  induction n with
  | zero =>
    intro m hm F hF c g vals hne
    obtain rfl : m = 0 := by omega
    exact absurd rfl hne
  | succ n ih =>
    intro m hm F hF c g vals hne
    have hrec := recOK_exec (addrOf := addrOf) hinj (mode_det hd) p n
    have hst := stable_once (addrOf := addrOf) (prog := prog) (U := U) p cfg b st F
    show Sp addrOf (correct prog) c _ (if (prog g).isPure then pureExec addrOf (exec addrOf prog p n) prog p g (rawKw vals)
      else autExec (exec addrOf prog p n) prog p g (rawKw vals)) _ _
    refine Sp.ite (fun hg => ?_) (fun hg => ?_)
    · intro s ho hw hc hp
      have hpc : (hist s).pCfg p = cfg := hp.1
      by_cases hs : ((s.ext.results p).data (callKey addrOf g (sortKw vals))).isSome
      · -- answered from the store
        have h := sp_pureExec (c := c) (R := False) (S := True) (N := False) hinj (mode_det hd) hrec id p g hg (rawKw vals) vals
          (.inr (.inl rfl)) (hist s) s ho hw hc
          ⟨⟨.inr (denKw_raw s vals), fun _ => ⟨_, (denKw_sort (denKw_raw s vals)).match, hs⟩, fun h => h.elim⟩, rfl⟩
        refine ⟨h.1, fun u hu => ?_, fun e he => ?_⟩
        · obtain ⟨_, ts, _, _, _, h5⟩ := h.2.1 u hu
          rcases h5 with ⟨h5, _⟩ | ⟨_, cd, h5, _⟩
          · exact hst _ _ (ag_of_quiet h5 h.1.ev) hp
          · have := (h5 trivial).2
            rw [hpc] at this
            exact (noMay hcfg this).elim
        · rcases h.2.2 e he with h5 | ⟨_, ts, _, _, _, _, h5⟩
          · exact h5.elim
          · have := h5 trivial
            rw [hpc] at this
            exact (noMay hcfg this).elim
      · -- the code runs
        have hne0 := hne
        have hex : ∃ d, ref prog d g vals ≠ .error diverge := ⟨m, hne⟩
        classical
        obtain ⟨d, hd1, hd2, hdm⟩ : ∃ d, ref prog d g vals = .error diverge ∧ ref prog (d + 1) g vals ≠ .error diverge ∧ d + 1 ≤ m := by
          have h1 := Nat.find_spec hex
          have h2 := Nat.find_min' hex hne
          cases hf : Nat.find hex with
          | zero => rw [hf] at h1; exact absurd rfl h1
          | succ d =>
            have h3 := Nat.find_min hex (m := d) (by omega)
            rw [hf] at h1 h2
            exact ⟨d, not_not.1 h3, h1, h2⟩
        have hnF : ¬ F (callKey addrOf g (sortKw vals)) := fun h => hne (hF g vals h)
        have hop : Opened addrOf prog d (Plus F (callKey addrOf g (sortKw vals))) := by
          intro g' vals' h
          rcases h with h | h
          · exact (hF.mono (by omega)) g' vals' h
          · obtain ⟨rfl, h2⟩ := callKey_inj hinj h
            rw [← ref_sort hd d g' vals', h2, ref_sort hd]; exact hd1
        have hpg : refGuards (ref prog d) vals (prog g).guards ≠ .error diverge := by
          intro h
          apply hd2
          simp [ref, hg, h]
        have hpb : refGuards (ref prog d) vals (prog g).guards = .ok () →
            refBody (ref prog d) ((prog g).body (rawKw (sortKw vals))) ≠ .error diverge := by
          intro h h'
          apply hd2
          simp [ref, hg, h, h']
        have hv : Virgin addrOf prog p b st (callKey addrOf g (sortKw vals)) s := by
          intro hk
          obtain ⟨h1, h2⟩ := hp.2 _ hk
          rcases h2 with h2 | ⟨_, _, h2 | h2⟩
          · exact ⟨h2, fun h => hs (h1 h)⟩
          · exact absurd h2 hs
          · exact absurd h2 hnF
        have ht := tr_pureOnce (c := c) hinj hd hcfg hrec ih (by omega) g vals hop hpg hpb s ho hw hc ⟨hp, hv⟩
        have h := sp_pureExec (c := c) (R := False) (S := False) (N := False) hinj (mode_det hd) hrec id p g hg (rawKw vals) vals
          (.inr (.inl rfl)) (hist s) s ho hw hc
          ⟨⟨.inr (denKw_raw s vals), fun h => h.elim, fun h => h.elim⟩, rfl⟩
        refine ⟨h.1, fun u hu => ?_, fun e he => ?_⟩
        · obtain ⟨_, ts, _, h3, h4, _⟩ := h.2.1 u hu
          have ek : ((g, sigText addrOf g ts) : Key A) = callKey addrOf g (sortKw vals) := by rw [h3.resolve_left id]; rfl
          rw [ek] at h4
          refine ⟨ht.1, fun k hk => ⟨(ht.2 k hk).1, (ht.2 k hk).2.imp id fun ⟨x, y, z⟩ => ⟨x, y, ?_⟩⟩⟩
          rcases z with z | z | rfl
          · exact .inl z
          · exact .inr z
          · exact .inl h4
        · have hden : Den prog g vals (.error e.kind) := by
            rcases h.2.2 e he with h5 | ⟨h5, _⟩
            · exact h5.elim
            · show Dn (refR prog g vals) _
              rw [ref_pure hg]
              rcases h5 with h5 | h5 | h5
              · exact h5.elim
              · exfalso
                apply hne
                have h6 : ref prog (n + 1) g vals = .error diverge := by
                  have : refR prog g vals (n + 1) = pureR prog g vals n := by rw [ref_pure hg]; rfl
                  rw [show ref prog (n + 1) g vals = refR prog g vals (n + 1) from rfl, this]; exact h5.2
                rw [← ref_mono prog m (n + 1) hm g vals hne]; exact h6
              · exact h5.2.step
          refine ⟨ht.1, fun k hk => ⟨(ht.2 k hk).1, (ht.2 k hk).2.imp id fun ⟨x, y, z⟩ => ⟨x, y, ?_⟩⟩⟩
          rcases z with z | z | rfl
          · exact .inl z
          · exact .inr z
          · exfalso
            obtain ⟨g', vals', u, h6, h7⟩ := hk
            obtain ⟨rfl, h8⟩ := callKey_inj hinj h7
            have h9 : Dn (refR prog g vals) (.ok u) := by
              rw [← refR_sort hd g vals, h8, refR_sort hd]; exact h6
            exact absurd (Den.unique (prog := prog) hden h9) (by simp)
    · have hg' : (prog g).isPure = false := by simpa using hg
      cases m with
      | zero => exact absurd rfl hne
      | succ m =>
        refine (sp_autOnce hrec ih (m := m) (by omega) (hF.mono (by omega)) g (rawKw vals) (hd.det _ _) ?_).pre
          fun s h => ⟨fun h' => (by rw [hg'] at h'; cases h'), h⟩
        intro h
        apply hne
        simp [ref, hg', h]

end Pyth.Pure
