import Verif.Proofs.PureExec
/-! Calls of pure functions. -/
set_option linter.unusedSectionVars false
set_option linter.unusedVariables false
set_option linter.unusedSimpArgs false
namespace Pyth.Pure
open Pyth.World Pyth.Portal
open Pyth.ValueAddr (Grow growFree Integ integFree IsAddr HoldsVal Has)

variable {U A α β : Type} [DecidableEq U] [DecidableEq A] {addrOf : Val U A → A}
  {K : Accept U} {c : Option PortalId}
  {P P' F G : PWorld U A → Prop} {X X0 : Kind → PWorld U A → Prop} {E : Prop}
  {R : Prop} {prog : FnId → Fn U} {n : Nat} {rec : FnId → Kw U → PM U A U}

/-- a state that differs by one more acceptable result -/
theorem base_resWrite {s s' : PWorld U A} {d : FirstEntry.Dict (Key A) A} {nx : Nat} (p : PortalId) (k : Key A) (u : U)
    (hu : ∀ vals, k = callKey addrOf k.1 vals → K k.1 vals u) (hw : W addrOf K s)
    (h1 : s' = { s with nd := s.nd + 1, nextExc := nx
                        ext := { s.ext with results := fun q => if q = p then d else s.ext.results q } })
    (h2 : d.data = fun k' => ((s.ext.results p).data k').or (if k' = k then some (addrOf (.user u)) else none))
    (h3 : d.pCheck = (s.ext.results p).pCheck) (hp : HoldsVal s p (addrOf (.user u)) (.user u)) :
    Base addrOf K s s' ∧ ((s'.ext.results p).data k).isSome := by
  have hdata : ∀ q k', ((s'.ext.results q).data k') =
      ((s.ext.results q).data k').or (if q = p ∧ k' = k then some (addrOf (.user u)) else none) := by
    intro q k'
    rw [h1]
    simp only
    by_cases hq : q = p
    · subst hq; simp [h2]
    · simp [hq]
  have hold : ∀ q k' a', (s.ext.results q).data k' = some a' → (s'.ext.results q).data k' = some a' := by
    intro q k' a' h; rw [hdata, h]; rfl
  refine ⟨⟨?_, ?_, ?_⟩, ?_⟩
  · rw [h1]; exact ⟨rfl, rfl, rfl, List.prefix_rfl⟩
  · constructor
    · have := hw.integ; rw [h1]; exact this
    · intro q k' a'
      rw [hdata]
      cases hx : (s.ext.results q).data k' with
      | some b =>
        intro e
        simp at e; subst e
        have := hw.held q k' b hx
        rw [h1]; exact this
      | none =>
        intro e
        by_cases hqk : q = p ∧ k' = k
        · obtain ⟨rfl, rfl⟩ := hqk
          simp at e
          subst e
          rw [h1]
          exact ⟨u, rfl, hp, hu⟩
        · simp [hqk] at e
    · intro q
      rw [h1]
      simp only
      by_cases hq : q = p
      · subst hq; simp [h3, hw.pCheck]
      · simp [hq, hw.pCheck]
    · have := hw.reqs; rw [h1]; exact this
    · intro r o ho'
      have ho'' : s.ext.raddrs[r]? = some o := by rw [h1] at ho'; exact ho'
      obtain ⟨ts, a1, a2, a3, a4, a5⟩ := hw.obj r o ho''
      refine ⟨ts, a1, a2, fun l hl => ?_, a4, fun hr => ?_⟩
      · have := a3 l hl; rw [h1]; exact this
      · obtain ⟨b, hb⟩ := Option.isSome_iff_exists.1 (a5 hr)
        rw [hold _ _ _ hb]; rfl
    · have := hw.trace; rw [h1]; exact this
  · have hr0 := hold
    rw [h1] at hr0 ⊢
    exact { Ev.refl s with
      grow := ⟨fun _ _ _ h => h, fun i o h => ⟨o, h, rfl, rfl, id, id⟩⟩
      nd := Nat.le_succ _
      results := hr0
      requests := fun _ _ h => .inl h
      raddrs := fun r o h => ⟨o, h, (REv.refl s o).key, rfl, id, fun _ => id, fun _ => .inl, id⟩ }
  · rw [hdata]
    cases (s.ext.results p).data k <;> simp

theorem storeResult_run (p : PortalId) (k : Key A) (a : A) (conduct : Bool) (s : PWorld U A) :
    ∃ d nx, (storeResult p k a conduct (s.ext.results p).pCheck s).2 = { s with
        nd := s.nd + 1, nextExc := nx
        ext := { s.ext with results := fun q => if q = p then d else s.ext.results q } } ∧
      d.data = (fun k' => ((s.ext.results p).data k').or (if k' = k then some a else none)) ∧
      d.pCheck = (s.ext.results p).pCheck ∧
      (((s.ext.results p).data k = none ∨ (s.ext.results p).data k = some a) →
        (storeResult p k a conduct (s.ext.results p).pCheck s).1 = .ok ()) ∧
      (conduct = true → s.draws s.nd < 1 →
        (storeResult p k a conduct (s.ext.results p).pCheck s).1 = .ok () →
        ∀ b, (s.ext.results p).data k = some b → b = a) := by
  cases conduct with
  | false =>
    obtain ⟨d, nx, h1, h2, h3, h4, h5⟩ := resSet_run p k a s
    have e : storeResult p k a false (s.ext.results p).pCheck s =
        ((resSet p k a s).1, (setPCheck p (s.ext.results p).pCheck (resSet p k a s).2).2) := rfl
    rw [e]
    refine ⟨{ d with pCheck := (s.ext.results p).pCheck }, nx, ?_, h2, rfl, h4, fun h => (by cases h)⟩
    rw [h1]
    simp only [setPCheck, modExt]
    congr 2
    funext q
    by_cases hq : q = p <;> simp [hq]
  | true =>
    have e : storeResult p k a true (s.ext.results p).pCheck s =
        ((resSet p k a (setPCheck p (some 1) s).2).1,
          (setPCheck p (s.ext.results p).pCheck (resSet p k a (setPCheck p (some 1) s).2).2).2) := rfl
    obtain ⟨d, nx, h1, h2, h3, h4, h5⟩ := resSet_run p k a (setPCheck p (some 1) s).2
    rw [e]
    have hd : ((setPCheck p (some 1) s).2.ext.results p).data = (s.ext.results p).data := by
      simp [setPCheck, modExt]
    have hpc : ((setPCheck p (some 1) s).2.ext.results p).pCheck = some 1 := by
      simp [setPCheck, modExt]
    rw [hd] at h2 h4 h5
    refine ⟨{ d with pCheck := (s.ext.results p).pCheck }, nx, ?_, h2, rfl, h4, fun _ h6 h7 b hb => h5 b hb h7 hpc h6⟩
    rw [h1]
    simp only [setPCheck, modExt]
    congr 2
    funext q
    by_cases hq : q = p <;> simp [hq]

theorem sp_storeResult (p : PortalId) (k : Key A) (u : U) (conduct : Bool) (cfg : Option Rat)
    (hu : ∀ vals, k = callKey addrOf k.1 vals → K k.1 vals u)
    (hset : ∀ s : PWorld U A, W addrOf K s → E ∨ (s.ext.results p).data k = none ∨
      (s.ext.results p).data k = some (addrOf (.user u))) :
    Sp addrOf K c (fun s => HoldsVal s p (addrOf (.user u)) (.user u) ∧ s.ext.pCfg p = cfg)
      (storeResult p k (addrOf (.user u)) conduct cfg : PM U A Unit)
      (fun _ s => ((s.ext.results p).data k).isSome ∧
        (conduct = true → (∀ i, s.draws i < 1) → (s.ext.results p).data k = some (addrOf (.user u))))
      (fun _ _ => E) := by
  intro s ho hw hc ⟨hp, hcfg⟩
  have hc' : cfg = (s.ext.results p).pCheck := by rw [hw.pCheck, hcfg]
  subst hc'
  obtain ⟨d, nx, h1, h2, h3, h4, h5⟩ := storeResult_run p k (addrOf (.user u)) conduct s
  obtain ⟨hb, hsome⟩ := base_resWrite p k u hu hw h1 h2 h3 hp
  refine ⟨hb, fun x hx => ⟨hsome, fun hcon hdr => ?_⟩, fun e he => ?_⟩
  · have hdr' : ∀ i, s.draws i < 1 := by have := hb.ev.draws; rw [this] at hdr; exact hdr
    cases hk : (s.ext.results p).data k with
    | none => rw [h1]; simp [h2, hk]
    | some b =>
      have := h5 hcon (hdr' _) hx b hk
      rw [h1]; simp [h2, hk, this]
  · rcases hset s hw with h | h
    · exact h
    · rw [h4 h] at he; cases he

theorem sp_register (o : RObj U A) (run : Nat) (a : A) (p : PortalId) (k : Key A) (hk : o.key = k) (hp : o.portal = p) :
    Sp addrOf K c (fun _ => True) (registerResult o run a : PM U A Unit)
      (fun _ s => (run, a) ∈ s.ext.resultRecs p k) X := by
  subst hk hp
  refine sp_modExt fun s hw _ => ⟨⟨hw.integ, hw.held, hw.pCheck, hw.reqs, hw.obj, hw.trace⟩, ?_, by simp [upd2]⟩
  refine { Ev.refl _ with
    grow := growExt _ _
    resultRecs := fun q k => ?_
    raddrs := fun r o h => ⟨o, h, (REv.refl _ _).setExt _⟩ }
  simp only [upd2]
  split
  · next h => rw [h.1, h.2]; exact List.prefix_append _ _
  · exact List.prefix_rfl

theorem sp_unpack_mode (hinj : Function.Injective addrOf) (l : Kw U) (sv : List (String × U)) :
    Sp addrOf K c (fun s => E ∨ DenKw addrOf s l sv) (unpack l : PM U A (List (String × U)))
      (fun un s => Match addrOf s l (texts addrOf un) ∧ (E ∨ un = sv)) (fun _ _ => E) := by
  by_cases hE : E
  · exact (sp_unpack hinj l).conseq (fun _ _ => trivial) (fun _ _ h => ⟨h, .inl hE⟩) (fun _ _ _ => hE)
  · exact ((sp_unpack hinj l).and (sp_unpack_den hinj l sv)).conseq
      (fun s h => ⟨trivial, h.resolve_left hE⟩) (fun _ _ h => ⟨h.1, .inr h.2⟩) (fun _ _ h => h.2.elim)

theorem argsAgree_of_match (hinj : Function.Injective addrOf) {s : PWorld U A} {kw : Kw U} {un : List (String × U)}
    (h : Match addrOf s (sortKw kw) (texts addrOf un)) : ArgsAgree kw (rawKw un) := by
  unfold ArgsAgree rawKw
  unfold Match texts at h
  rw [List.forall₂_map_right_iff] at h ⊢
  refine h.imp fun x y hxy => ⟨hxy.1, y.2, rfl, fun u hu => ?_⟩
  have := hxy.2
  rw [hu] at this
  have := hinj this
  cases this; rfl

theorem Match.names {s : PWorld U A} {kw : Kw U} {ts : List (String × A)} (h : Match addrOf s kw ts) :
    List.Forall₂ (fun (x : String × Arg U) (y : String × A) => x.1 = y.1) kw ts := h.imp fun _ _ h => h.1

theorem sorted_packed {s : PWorld U A} {p : PortalId} {kw : Kw U} {l : List (String × Nat)} {ts : List (String × A)}
    (h : Packed s p l ts) (hm : Match addrOf s (sortKw kw) ts) : sortKw (asKw (U := U) l) = asKw l := by
  refine sortKw_of_sorted ?_
  have h1 : ts.Pairwise (fun a b => a.1 ≤ b.1) :=
    sorted_forall₂ (fun _ _ h => h) hm.names (sortKw_sorted kw)
  have h2 : List.Forall₂ (fun (x : String × A) (y : String × Arg U) => x.1 = y.1) ts (asKw l) :=
    (Match.packed (addrOf := addrOf) h).names.flip.imp fun _ _ h => h.symm
  exact sorted_forall₂ (fun _ _ h => h) h2 h1

/-- the guards of `f` were evaluated successfully since the trace was `t` -/
def Seen (t : List (Event U)) (f : FnId) (kw : Kw U) (s : PWorld U A) : Prop :=
  ∃ mid, (t ++ mid ++ [Event.guards f kw true]) <+: s.ext.trace

theorem mono_seen (t : List (Event U)) (f : FnId) (kw : Kw U) :
    Mono addrOf K (fun s : PWorld U A => Seen t f kw s) := fun s s' e w ⟨mid, h⟩ => ⟨mid, h.trans e.trace⟩

theorem mono_pcfg (p : PortalId) (cfg : Option Rat) : Mono addrOf K (fun s : PWorld U A => s.ext.pCfg p = cfg) :=
  fun s s' e w h => by show s'.ext.pCfg p = cfg; rw [e.pCfg]; exact h

theorem mono_trace (t : List (Event U)) : Mono addrOf K (fun s : PWorld U A => t <+: s.ext.trace) :=
  fun s s' e w h => h.trans e.trace

theorem mono_recs (p : PortalId) (k : Key A) (x : Nat × A) :
    Mono addrOf K (fun s : PWorld U A => x ∈ s.ext.resultRecs p k) := fun s s' e w h => (e.resultRecs p k).subset h

/-- what the caller of `frameBody` knows -/
def Known (addrOf : Val U A → A) (E : Prop) (I : PWorld U A → Prop) (p : PortalId) (kw : Kw U)
    (vals : List (String × U)) (packed : List (String × Nat)) (ts : List (String × A)) (cfg : Option Rat)
    (t : List (Event U)) (s : PWorld U A) : Prop :=
  I s ∧ Packed s p packed ts ∧ Match addrOf s (sortKw kw) ts ∧
    (E ∨ DenKw addrOf s kw vals) ∧ (E ∨ DenKw addrOf s (asKw packed) (sortKw vals)) ∧
    s.ext.pCfg p = cfg ∧ t <+: s.ext.trace

theorem mono_known {I : PWorld U A → Prop} (hI : Mono addrOf K I) (p : PortalId) (kw : Kw U)
    (vals : List (String × U)) (packed : List (String × Nat)) (ts : List (String × A)) (cfg : Option Rat)
    (t : List (Event U)) : Mono addrOf K (Known addrOf E I p kw vals packed ts cfg t) :=
  hI.and ((mono_packed _ _ _).and ((mono_match _ _).and ((mono_mode (mono_denKw _ _)).and
    ((mono_mode (mono_denKw _ _)).and ((mono_pcfg _ _).and (mono_trace _))))))

/-- outcome of a successful run -/
structure Done (addrOf : Val U A → A) (p : PortalId) (k : Key A) (f : FnId) (kw : Kw U) (t : List (Event U))
    (run : Nat) (conduct : Bool) (u : U) (s : PWorld U A) : Prop where
  result : ((s.ext.results p).data k).isSome
  recorded : (run, addrOf (.user u)) ∈ s.ext.resultRecs p k
  request : s.ext.requests p k = false
  seen : Seen t f kw s
  check : conduct = true → (∀ i, s.draws i < 1) → (s.ext.results p).data k = some (addrOf (.user u))

theorem rawKw_inj {v w : List (String × U)} (h : rawKw v = rawKw w) : v = w := by
  unfold rawKw at h
  refine List.map_injective_iff.2 ?_ h
  rintro ⟨a, b⟩ ⟨a', b'⟩ e
  simpa using e

theorem dn_guards_each (vals : List (String × U)) (gs : List FnId)
    (h : Dn (guardsR (refR prog) vals gs) (.ok ())) : ∀ g ∈ gs, ∃ v, Dn (refR prog g vals) (.ok v) := by
  induction gs with
  | nil => intro g hg; cases hg
  | cons g gs ih =>
    rw [guardsR_cons] at h
    obtain ⟨h1, m, h2⟩ := h
    unfold seqR at h2
    cases e : refR prog g vals m with
    | error k => rw [e] at h2; cases h2
    | ok v =>
      rw [e] at h2
      intro g' hg'
      rcases List.mem_cons.1 hg' with rfl | hg'
      · exact ⟨v, by simp, m, e⟩
      · exact ih ⟨h1, m, h2⟩ g' hg'

theorem dn_uncatch {α : Type} {R : Nat → Except Kind α} {a : α} (h : Dn (catchR R) (.ok (.ok a))) : Dn R (.ok a) := by
  obtain ⟨_, m, h2⟩ := h
  unfold catchR at h2
  cases e : R m with
  | ok b => rw [e] at h2; simp at h2; subst h2; exact ⟨by simp, m, e⟩
  | error k => rw [e] at h2; simp at h2; split at h2 <;> simp at h2

theorem sp_frameBody (hinj : Function.Injective addrOf) {ri : Nat} {k : Key A} {p : PortalId} {I : PWorld U A → Prop}
    (hR : Route addrOf K ri k p I R) (hrec : RecOK addrOf K E prog n rec) (hpure : (prog k.1).isPure = true)
    (hd : E ∨ DetProg prog) (kw : Kw U) (vals : List (String × U))
    (hplain : ∀ g ∈ (prog k.1).guards, PlainCall E prog g kw vals)
    (hK : ∀ u vals', k = callKey addrOf k.1 vals' → (E ∨ (k = callKey addrOf k.1 (sortKw vals) ∧ Dn (pureR prog k.1 vals) (.ok u))) → K k.1 vals' u)
    (hset : ∀ u (s : PWorld U A), (E ∨ Dn (pureR prog k.1 vals) (.ok u)) → W addrOf K s →
      E ∨ (s.ext.results p).data k = none ∨ (s.ext.results p).data k = some (addrOf (.user u)))
    (hkey : E ∨ k = callKey addrOf k.1 (sortKw vals))
    (hmay : ∀ vals', (E ∨ (vals' = sortKw vals ∧ Dn (catchR (guardsR (refR prog) vals (prog k.1).guards)) (.ok (.ok ())))) → K.may k.1 vals')
    (packed : List (String × Nat)) (ts : List (String × A)) (conduct : Bool) (cfg : Option Rat) (t : List (Event U))
    (run : Nat) :
    Sp addrOf K (some p) (Known addrOf E I p kw vals packed ts cfg t)
      (frameBody addrOf rec prog p k.1 kw packed ri conduct cfg run)
      (fun u s => (E ∨ Dn (pureR prog k.1 vals) (.ok u)) ∧ Done addrOf p k k.1 kw t run conduct u s)
      (fun e s => R ∨ ((E ∨ XAg (pureR prog k.1 vals) n e) ∧ Pending s p k)) := by
  have hmo := mono_known (E := E) hR.mono p kw vals packed ts cfg t
  have hgcut := (cut_guards (cut_ref prog) vals (prog k.1).guards).catch
  have hbcut : ∀ r, Cut (gateR (bodyR (refR prog) ((prog k.1).body (rawKw (sortKw vals)))) r) := by
    intro r; cases r with
    | ok _ => exact cut_body (cut_ref prog) _
    | error _ => exact cut_const _
  unfold frameBody
  refine Sp.seq (sp_rRequest hR hinj) hmo (fun s h => ⟨h.1, h⟩) (fun _ _ h _ => .inl h) fun _ => ?_
  have hmo2 := (mono_pending (addrOf := addrOf) (K := K) (U := U) p k).and hmo
  refine Sp.seq (sp_canBeExecuted hrec p k.1 kw vals hplain) hmo2 (fun s h => ⟨h.2.2.2.2.1, h⟩)
    (fun _ _ h h' => .inr ⟨h.imp id fun h => h.seqErr, h'.1⟩) fun ok => Sp.gain fun hok => ?_
  refine Sp.bind (Q := fun _ s => (Pending s p k ∧ Known addrOf E I p kw vals packed ts cfg t s) ∧
      ∃ mid, s.ext.trace = t ++ mid ++ [Event.guards k.1 kw ok]) (sp_modExt fun s hw h => ⟨?_, ?_, ?_⟩) fun _ => ?_
  · exact ⟨hw.integ, hw.held, hw.pCheck, hw.reqs, hw.obj, hw.trace.guards _ _ _⟩
  · exact ev_trace s _
  · refine ⟨hmo2 _ _ (ev_trace s _) ?_ h, ?_⟩
    · exact ⟨hw.integ, hw.held, hw.pCheck, hw.reqs, hw.obj, hw.trace.guards _ _ _⟩
    · obtain ⟨mid, hm⟩ := h.2.2.2.2.2.2.2
      exact ⟨mid, by simp [← hm]⟩
  refine Sp.ite (fun hb => ?_) (fun hb => ?_)
  · subst hb
    -- unpack
    refine (Sp.gain (B := sortKw (asKw (U := U) packed) = asKw packed)
      (P := fun s => (Pending s p k ∧ Known addrOf E I p kw vals packed ts cfg t s) ∧
        ∃ mid, s.ext.trace = t ++ mid ++ [Event.guards k.1 kw true]) fun es => ?_).pre
      fun s h => ⟨sorted_packed h.1.2.2.1 h.1.2.2.2.1, h⟩
    rw [es]
    have hun : Sp addrOf K (some p) (fun s => (Pending s p k ∧ Known addrOf E I p kw vals packed ts cfg t s) ∧
        ∃ mid, s.ext.trace = t ++ mid ++ [Event.guards k.1 kw true]) (unpack (asKw packed) : PM U A (List (String × U)))
        (fun un s => (ts = texts addrOf un ∧ ArgsAgree kw (rawKw un) ∧ (E ∨ un = sortKw vals)) ∧
          (Pending s p k ∧ Known addrOf E I p kw vals packed ts cfg t s) ∧
          ∃ mid, s.ext.trace = t ++ mid ++ [Event.guards k.1 kw true])
        (fun _ s => E ∧ Pending s p k) := by
      intro s ho hw hc hp
      have h1 := ((sp_unpack_mode (K := K) (c := some p) (E := E) hinj (asKw packed) (sortKw vals)).mono hmo2) s ho hw hc
        ⟨hp.1.2.2.2.2.2.1, hp.1⟩
      refine ⟨h1.1, fun un hun => ?_, fun e he => ⟨(h1.2.2 e he).1, (h1.2.2 e he).2.1⟩⟩
      have h2 := h1.2.1 un hun
      have e1 : ts = texts addrOf un := (Match.packed (addrOf := addrOf) h2.2.2.2.1).unique h2.1.1
      refine ⟨⟨e1, ?_, h2.1.2⟩, h2.2, ?_⟩
      · have := h2.2.2.2.2.1
        rw [e1] at this
        exact argsAgree_of_match hinj this
      · rw [(low_unpack (asKw packed) s).ext]; exact hp.2
    refine Sp.bind (hun.conseq (fun _ h => h) (fun _ _ h => h) (fun _ _ h => .inr ⟨.inl h.1, h.2⟩)) fun un => Sp.gain fun hun => ?_
    obtain ⟨ets, hagree, hunv⟩ := hun
    have hdet : E ∨ ((prog k.1).body (rawKw un)).Det := hd.imp id fun h => h.det _ _
    have hmo3 := hmo2.and (mono_seen (addrOf := addrOf) (K := K) (A := A) t k.1 kw)
    refine Sp.seq (sp_autExec hrec p k.1 (rawKw un) hdet) hmo3 (fun s h => ⟨fun _ => ?_, h.1, ?_⟩)
      (fun e s h h' => ?_) fun u => Sp.gain fun hu0 => ?_
    · obtain ⟨mid, hm⟩ := h.2
      refine ⟨⟨t ++ mid, kw, hm, hagree⟩, fun vals' hv => hmay vals' ?_⟩
      have ev : un = vals' := rawKw_inj hv
      subst ev
      rcases hok with hok | ⟨_, hok⟩ | ⟨h1, _⟩
      · exact .inl hok
      · rcases hunv with hE | hE
        · exact .inl hE
        · exact .inr ⟨hE, hok⟩
      · cases h1
    · obtain ⟨mid, hm⟩ := h.2
      exact ⟨mid, by rw [hm]; exact List.prefix_rfl⟩
    · refine .inr ⟨?_, h'.1.1⟩
      rcases h with h | h
      · exact .inl h
      · rcases hok with hok | ⟨_, hok⟩ | ⟨h1, _⟩
        · exact .inl hok
        · rcases hunv with hE | rfl
          · exact .inl hE
          · exact .inr (XAg.seq hgcut hbcut hok h)
        · cases h1
    have hu : E ∨ Dn (pureR prog k.1 vals) (.ok u) := by
      rcases hu0 with h | h
      · exact .inl h
      · rcases hok with hok | ⟨_, hok⟩ | ⟨h1, _⟩
        · exact .inl hok
        · rcases hunv with hE | rfl
          · exact .inl hE
          · exact .inr (hok.seq hgcut hbcut h)
        · cases h1
    refine Sp.seq (sp_new_cur hinj (.user u) p) hmo3 (fun s h => ⟨trivial, h⟩) (fun _ _ h _ => h.elim) fun ra => ?_
    have hmo4 := (mono_holds (K := K) (addrOf := addrOf) p (addrOf (.user u)) (Val.user u)).and hmo3
    refine Sp.seq (sp_textOf ra (addrOf (.user u))) hmo4 (fun s h => ⟨has_of_isAddr h.1.1, h.1.2, h.2⟩)
      (fun _ _ h _ => h.elim) fun tx => Sp.gain fun e => ?_
    subst e
    refine Sp.seq (sp_readK (X := fun _ _ => False) ri k p) hmo4 (fun s h => ⟨hR.ris s h.2.1.2.1, h⟩)
      (fun _ _ h _ => h.elim) fun o => ?_
    refine (Sp.gain (B := o.key = k ∧ o.portal = p) (P := fun s => HoldsVal s p (addrOf (Val.user u)) (Val.user u) ∧
        (Pending s p k ∧ Known addrOf E I p kw vals packed ts cfg t s) ∧ Seen t k.1 kw s) fun e => ?_).pre
      fun s h => ⟨h.1.1, h.2⟩
    obtain ⟨ek, ep⟩ := e
    refine Sp.seq (sp_register (X := fun _ _ => False) o run (addrOf (.user u)) p k ek ep) hmo4 (fun s h => ⟨trivial, h⟩)
      (fun _ _ h _ => h.elim) fun _ => ?_
    rw [ek]
    have hu' : ∀ vals', k = callKey addrOf k.1 vals' → K k.1 vals' u := fun vals' hv => hK u vals' hv (by
      rcases hkey with h | h
      · exact .inl h
      · exact hu.imp id fun hu => ⟨h, hu⟩)
    have hmo5 := (mono_recs (K := K) (addrOf := addrOf) (U := U) p k (run, addrOf (.user u))).and hmo3
    refine Sp.seq (sp_storeResult (E := E) p k u conduct cfg hu' (fun s hw => hset u s hu hw)) hmo5
      (fun s h => ⟨⟨h.2.1, h.2.2.1.2.2.2.2.2.2.1⟩, h.1, h.2.2⟩) (fun _ _ h h' => .inr ⟨.inl h, h'.2.1.1⟩) fun _ => ?_
    refine Sp.seq (sp_rDrop (X := fun _ _ => False) ri k p) (F := fun s =>
        (((s.ext.results p).data k).isSome ∧
        (conduct = true → (∀ i, s.draws i < 1) → (s.ext.results p).data k = some (addrOf (.user u)))) ∧
        (run, addrOf (.user u)) ∈ s.ext.resultRecs p k ∧ Seen t k.1 kw s)
      ((Mono.and (mono_resSome p k) ?_).and ((mono_recs p k _).and (mono_seen _ _ _)))
      (fun s h => ⟨⟨hR.ris s h.2.2.1.2.1, h.1.1⟩, h.1, h.2.1, h.2.2.2⟩) (fun _ _ h _ => h.elim) fun _ => ?_
    · intro s s' e w h hc hdr
      rw [e.draws] at hdr
      exact e.results _ _ _ (h hc hdr)
    · exact Sp.pure fun s h => ⟨hu, h.2.1.1, h.2.2.1, h.1, h.2.2.2, h.2.1.2⟩
  · refine Sp.raiseNew (fun s a b c d e h => ⟨⟨h.1.1, hR.fr s a b c d e h.1.2.1, h.1.2.2⟩, h.2⟩) fun s h => ?_
    refine .inr ⟨?_, h.1.1⟩
    rcases hok with hok | ⟨h1, _⟩ | ⟨_, e, hok⟩
    · exact .inl hok
    · exact absurd h1 hb
    · exact .inr (.inr ⟨by simp [diverge], hok.seq hgcut hbcut ⟨by simp [diverge], 0, rfl⟩⟩)

end Pyth.Pure
