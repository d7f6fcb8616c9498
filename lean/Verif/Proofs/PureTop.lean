import Verif.Proofs.PureCall
/-! Calls of pure functions, from the outside. -/
set_option linter.unusedSectionVars false
set_option linter.unusedVariables false
set_option linter.unusedSimpArgs false
namespace Pyth.Pure
open Pyth.World Pyth.Portal
open Pyth.ValueAddr (Grow growFree Integ integFree IsAddr HoldsVal Has)

variable {U A α β : Type} [DecidableEq U] [DecidableEq A] {addrOf : Val U A → A}
  {K : Accept U} {c : Option PortalId}
  {P P' F G : PWorld U A → Prop} {X X0 : Kind → PWorld U A → Prop} {E : Prop}
  {R : Prop} {prog : FnId → Fn U} {n : Nat} {rec : FnId → Kw U → PM U A U}

/-- `E`: any program, nothing is known about results; otherwise: a deterministic program, acceptable
results are those of the reference semantics -/
structure Mode (K : Accept U) (E : Prop) (prog : FnId → Fn U) : Prop where
  intro : ∀ f vals u, (E ∨ Den prog f vals (.ok u)) → K f vals u
  elim : ∀ f vals u, K f vals u → E ∨ Den prog f vals (.ok u)
  may : ∀ f vals, (E ∨ ∀ g ∈ (prog f).guards, ∃ v, Den prog g vals (.ok v)) → K.may f vals
  det : E ∨ DetProg prog

theorem mode_any (prog : FnId → Fn U) : Mode (anything U) True prog :=
  ⟨fun _ _ _ _ => trivial, fun _ _ _ _ => .inl trivial, fun _ _ _ => trivial, .inl trivial⟩

theorem mode_det {prog : FnId → Fn U} (h : DetProg prog) : Mode (correct prog) False prog :=
  ⟨fun _ _ _ h => h.resolve_left id, fun _ _ _ h => .inr h, fun _ _ h => h.resolve_left id, .inr h⟩

/-- what is known about the address object of a call -/
def IR (addrOf : Val U A → A) (R : Prop) (vals : List (String × U)) (ri : Nat) (k : Key A) (p : PortalId)
    (s : PWorld U A) : Prop :=
  RIs s ri k p ∧ (R ∨ (k = callKey addrOf k.1 vals ∧ RD addrOf s ri k.1 vals p))

theorem route_ir (hinj : Function.Injective addrOf) (vals : List (String × U)) (ri : Nat) (k : Key A) (p : PortalId) :
    Route addrOf K ri k p (IR addrOf R vals ri k p) R := by
  have g := route_gen (K := K) hinj ri k p
  by_cases hR : R
  · exact {
      mono := (mono_ris ri k p).and fun s s' e w h => .inl hR
      fr := fun s a b c d e h => ⟨h.1, .inl hR⟩
      ris := fun s h => h.1
      fn := fun c => (g.fn c).conseq (fun _ h => h.1) (fun _ _ h => h) (fun _ _ _ => hR)
      kw := fun c => (g.kw c).conseq (fun _ h => h.1) (fun _ _ h => h) (fun _ _ _ => hR)
      set := fun c u hu => (g.set c u hu).conseq (fun _ h => h) (fun _ _ h => h) (fun _ _ _ => hR) }
  · by_cases hk : k = callKey addrOf k.1 vals
    · have g := route_rd (K := K) hinj ri k.1 vals p
      rw [← hk] at g
      exact {
        mono := (mono_ris ri k p).and fun s s' e w h => .inr ⟨hk, g.mono s s' e w (h.resolve_left hR).2⟩
        fr := fun s a b c d e h => ⟨h.1, .inr ⟨hk, g.fr s a b c d e (h.2.resolve_left hR).2⟩⟩
        ris := fun s h => h.1
        fn := fun c => (g.fn c).conseq (fun _ h => (h.2.resolve_left hR).2) (fun _ _ h => h) (fun _ _ h => h.elim)
        kw := fun c => (g.kw c).conseq (fun _ h => (h.2.resolve_left hR).2) (fun _ _ h => h) (fun _ _ h => h.elim)
        set := fun c u hu => (g.set c u hu).conseq (fun _ h => h) (fun _ _ h => h) (fun _ _ h => h.elim) }
    · have hno : ∀ s, ¬ IR addrOf R vals ri k p s := fun s h => hk (h.2.resolve_left hR).1
      exact {
        mono := fun s s' e w h => absurd h (hno s)
        fr := fun s a b c d e h => absurd h (hno s)
        ris := fun s h => h.1
        fn := fun c s _ _ _ h => absurd h (hno s)
        kw := fun c s _ _ _ h => absurd h (hno s)
        set := fun c u hu => (sp_resSet_none p k u hu).conseq (fun _ h => h) (fun _ _ h => h) (fun _ _ h => h.elim) }

theorem denKw_sort {s : PWorld U A} {kw : Kw U} {vals : List (String × U)} (h : DenKw addrOf s kw vals) :
    DenKw addrOf s (sortKw kw) (sortKw vals) := sortKw_forall₂ (fun _ _ h => h.1) h

theorem Packed.bound {s : PWorld U A} {p : PortalId} {l : List (String × Nat)} {ts : List (String × A)}
    (h : Packed s p l ts) : BoundTo s p (asKw l : Kw U) := by
  unfold Packed at h
  induction h with
  | nil => intro x hx; cases hx
  | @cons a b l1 l2 h _ ih =>
    intro x hx
    simp only [asKw, List.map_cons, List.mem_cons] at hx
    rcases hx with rfl | hx
    · exact ⟨a.2, b.2, rfl, h.2⟩
    · exact ih x hx

/-- packed arguments of a call -/
def PK (addrOf : Val U A → A) (R : Prop) (p : PortalId) (kw : Kw U) (vals : List (String × U))
    (packed : List (String × Nat)) (ts : List (String × A)) (s : PWorld U A) : Prop :=
  Packed s p packed ts ∧ Match addrOf s (sortKw kw) ts ∧
    (R ∨ (ts = texts addrOf (sortKw vals) ∧ DenKw addrOf s kw vals ∧ DenKw addrOf s (asKw packed) (sortKw vals)))

theorem mono_pk (p : PortalId) (kw : Kw U) (vals : List (String × U)) (packed : List (String × Nat))
    (ts : List (String × A)) : Mono addrOf K (PK addrOf R p kw vals packed ts) :=
  (mono_packed _ _ _).and ((mono_match _ _).and (mono_mode ((show Mono addrOf K (fun _ => ts = texts addrOf (sortKw vals)) from
    fun _ _ _ _ h => h).and ((mono_denKw _ _).and (mono_denKw _ _)))))

theorem sp_pack_mode (hinj : Function.Injective addrOf) (p : PortalId) (kw : Kw U) (vals : List (String × U)) :
    Sp addrOf K c (fun s => R ∨ DenKw addrOf s kw vals) (pack addrOf p (sortKw kw))
      (fun packed s => ∃ ts, PK addrOf R p kw vals packed ts s) (fun _ _ => R) := by
  by_cases hR : R
  · exact (sp_pack hinj p (sortKw kw)).conseq (fun _ _ => trivial) (fun _ s ⟨ts, h1, h2⟩ => ⟨ts, h1, h2, .inl hR⟩)
      (fun _ _ _ => hR)
  · refine (((sp_pack_den hinj p (sortKw kw) (sortKw vals)).keep (mono_denKw kw vals))).conseq
      (fun s h => ⟨denKw_sort (h.resolve_left hR), h.resolve_left hR⟩) (fun l s h => ?_) (fun _ _ h => h.elim)
    refine ⟨_, h.1.1, (denKw_sort h.2).match, .inr ⟨rfl, h.2, ?_⟩⟩
    exact denKw_bound h.1.1.bound (Match.packed h.1.1) h.1.2

theorem sp_mkRAddr_mode (hinj : Function.Injective addrOf) (f : FnId) (p : PortalId) (kw : Kw U)
    (vals : List (String × U)) (packed : List (String × Nat)) (ts : List (String × A)) :
    Sp addrOf K (some p) (PK addrOf R p kw vals packed ts) (mkRAddr addrOf f p (asKw packed))
      (fun ri s => IR addrOf R (sortKw vals) ri (f, sigText addrOf f ts) p s ∧ PK addrOf R p kw vals packed ts s)
      (fun _ _ => R) := by
  intro s ho hw hc hp
  have es := sorted_packed hp.1 hp.2.1
  by_cases hR : R
  · have h := ((sp_mkRAddr (K := K) hinj f p (asKw packed)).keep (mono_pk (R := R) p kw vals packed ts)) s ho hw hc ⟨trivial, hp⟩
    refine ⟨h.1, fun ri hri => ?_, fun _ _ => hR⟩
    obtain ⟨⟨ts', h1, h2⟩, h3⟩ := h.2.1 ri hri
    rw [es] at h2
    have : ts' = ts := h2.unique (Match.packed h3.1)
    subst this
    exact ⟨⟨h1, .inl hR⟩, h3⟩
  · obtain ⟨e1, e2, e3⟩ := hp.2.2.resolve_left hR
    have h := ((sp_mkRAddr_den (K := K) hinj f p (asKw packed) (sortKw vals)).keep (mono_pk (R := R) p kw vals packed ts)) s ho hw hc
      ⟨by rw [es]; exact e3, hp⟩
    refine ⟨h.1, fun ri hri => ?_, fun e he => (h.2.2 e he).elim⟩
    obtain ⟨h1, h2⟩ := h.2.1 ri hri
    have hk : ((f, sigText addrOf f ts) : Key A) = callKey addrOf f (sortKw vals) := by rw [e1]; rfl
    refine ⟨⟨?_, .inr ⟨hk, h1⟩⟩, h2⟩
    rw [hk]; exact h1.ris

/-! ### address objects that were just made -/

/-- a result address object that has not cached a result, of a call whose result is recorded -/
def Fresh (s : PWorld U A) (r : Nat) (k : Key A) (p : PortalId) : Prop :=
  (∃ o : RObj U A, s.ext.raddrs[r]? = some o ∧ o.key = k ∧ o.portal = p ∧ o.result = none) ∧
    ((s.ext.results p).data k).isSome

theorem Fresh.ris {s : PWorld U A} {r : Nat} {k : Key A} {p : PortalId} (h : Fresh s r k p) : RIs s r k p :=
  let ⟨⟨o, h1, h2, h3, _⟩, _⟩ := h; ⟨o, h1, h2, h3⟩

theorem sp_readFresh (r : Nat) (k : Key A) (p : PortalId) : Sp addrOf K c (fun s => Fresh s r k p)
    (readR r : PM U A (RObj U A)) (fun o s => (o.key = k ∧ o.portal = p ∧ o.result = none) ∧ Fresh s r k p) X := by
  refine (sp_readR r fun s h => ?_).conseq (fun s h => h) (fun o s h => ?_) (fun _ _ h => h)
  · obtain ⟨⟨o, h1, _⟩, _⟩ := h; exact ⟨o, h1⟩
  · obtain ⟨⟨o', h1, h2, h3, h4⟩, h5⟩ := h.2.2
    have := h.1
    rw [h1] at this; cases this
    exact ⟨⟨h2, h3, h4⟩, h.2.2⟩

theorem sp_updReadyFresh (r : Nat) (k : Key A) (p : PortalId) : Sp addrOf K c (fun s => Fresh s r k p)
    (updR r (fun x => { x with ready := true }) : PM U A Unit) (fun _ s => Fresh s r k p) X := by
  intro s ho hw hc hp
  have h := sp_updRReady (c := c) r k p s ho hw hc ⟨hp.ris, hp.2⟩
  refine ⟨h.1, fun _ _ => ⟨?_, hp.2⟩, fun e he => (by cases he)⟩
  obtain ⟨⟨o, h1, h2, h3, h4⟩, h5⟩ := hp
  refine ⟨{ o with ready := true }, ?_, h2, h3, h4⟩
  simp only [updR, modExt]
  rw [List.getElem?_modify, h1]
  simp

theorem fr_fresh (r : Nat) (k : Key A) (p : PortalId) : Fr (fun s : PWorld U A => Fresh s r k p) :=
  fun _ _ _ _ _ _ h => h

theorem sp_rReadyCurrent_fresh (r : Nat) (k : Key A) (p : PortalId) : Sp addrOf K c (fun s => Fresh s r k p)
    (rReadyCurrent r : PM U A Bool) (fun b s => b = true ∧ Fresh s r k p) (fun _ _ => False) := by
  refine Sp.bind (sp_readFresh r k p) fun o => Sp.gain fun e => ?_
  obtain ⟨rfl, rfl, _⟩ := e
  refine Sp.ite (fun hr => Sp.pure fun s h => ⟨rfl, h⟩) (fun hr => ?_)
  refine Sp.withP (fr_fresh _ _ _) (fun b => fun _ _ _ _ _ _ h => h) (fun _ => fr_false) ?_
  refine Sp.bind (sp_resHas o.portal o.key) fun b => ?_
  refine Sp.ite (fun hb => ?_) (fun hb => ?_)
  · exact Sp.bind ((sp_updReadyFresh r o.key o.portal).pre fun s h => h.2) fun _ => Sp.pure fun s h => ⟨rfl, h⟩
  · intro s _ _ _ h
    exact absurd (h.1.trans h.2.2) hb

theorem sp_rReady_fresh (r : Nat) (k : Key A) (p : PortalId) : Sp addrOf K c (fun s => Fresh s r k p)
    (rReady addrOf r) (fun b s => b = true ∧ Fresh s r k p) (fun _ _ => False) := by
  refine Sp.bind (sp_readFresh r k p) fun o => Sp.gain fun e => ?_
  refine Sp.ite (fun hr => Sp.pure fun s h => ⟨rfl, h⟩) (fun hr => ?_)
  refine Sp.bind (sp_rReadyCurrent_fresh r k p) fun b => Sp.gain fun eb => ?_
  subst eb
  simp only [if_true]
  exact Sp.bind (sp_updReadyFresh r k p) fun _ => Sp.pure fun s h => ⟨rfl, h⟩

/-- `get` through a new address object reads the stored result -/
theorem sp_rGet_fresh (r : Nat) (k : Key A) (p : PortalId) : Sp addrOf K c (fun s => Fresh s r k p)
    (rGet addrOf r) (fun u s => (s.ext.results p).data k = some (addrOf (.user u))) (fun _ _ => False) := by
  refine Sp.bind (sp_readFresh r k p) fun o => Sp.gain fun e => ?_
  obtain ⟨rfl, rfl, hn⟩ := e
  rw [hn]
  refine Sp.withP (fr_fresh _ _ _) (fun b => fun _ _ _ _ _ _ h => h) (fun _ => fr_false) ?_
  refine Sp.bind (sp_rReady_fresh r o.key o.portal) fun b => Sp.gain fun eb => ?_
  subst eb
  simp only [if_true]
  refine Sp.seq (sp_resGet o.portal o.key) (mono_ris r o.key o.portal) (fun s h => ⟨h.2, h.ris⟩) (fun _ _ h _ => h) fun a => ?_
  refine (Sp.exI (P := fun u s => (a = addrOf (.user u) ∧ HoldsVal s o.portal a (.user u) ∧
        (s.ext.results o.portal).data o.key = some a ∧ ∀ vals, o.key = callKey addrOf o.key.1 vals → K o.key.1 vals u) ∧
        RIs s r o.key o.portal) fun u => ?_).pre fun s ⟨⟨u, h⟩, h'⟩ => ⟨u, h, h'⟩
  refine (Sp.gain (B := a = addrOf (.user u) ∧ ∀ vals, o.key = callKey addrOf o.key.1 vals → K o.key.1 vals u)
      (P := fun s => HoldsVal s o.portal a (.user u) ∧ RIs s r o.key o.portal ∧ (s.ext.results o.portal).data o.key = some a) fun e => ?_).pre
      fun s h => ⟨⟨h.1.1, h.1.2.2.2⟩, h.1.2.1, h.2, h.1.2.2.1⟩
  obtain ⟨rfl, hu⟩ := e
  have hmr : Mono addrOf K (fun s : PWorld U A => (s.ext.results o.portal).data o.key = some (addrOf (.user u))) :=
    fun s s' e w h => e.results _ _ _ h
  refine Sp.seq (sp_storeGet o.portal (addrOf (.user u)) (.user u)) ((mono_ris r o.key o.portal).and hmr) (fun s h => h) (fun _ _ h _ => h)
      fun d => Sp.gain fun e => ?_
  subst e
  refine Sp.seq (sp_updRResult r o.key o.portal u hu) hmr (fun s h => ⟨⟨h.1, by rw [h.2]; rfl⟩, h.2⟩) (fun _ _ h _ => h) fun _ => Sp.pure fun s h => h.2

theorem bind_ok {m : PM U A α} {k : α → PM U A β} {s : PWorld U A} {b : β} (h : ((m >>= k) s).1 = .ok b) :
    ∃ a s', m s = (.ok a, s') ∧ (m >>= k) s = k a s' ∧ (k a s').1 = .ok b := by
  rw [PyM.run_bind] at h ⊢
  cases hm : m s with
  | mk r s' =>
    rw [hm] at h
    cases r with
    | ok a => exact ⟨a, s', rfl, rfl, h⟩
    | error e => cases h

/-- the object made by `mkRAddr` has no cached result -/
theorem mkRAddr_run (f : FnId) (p : PortalId) (kw : Kw U) (s : PWorld U A) (r : Nat)
    (h : (mkRAddr addrOf f p kw s).1 = .ok r) :
    ∃ o, (mkRAddr addrOf f p kw s).2.ext.raddrs[r]? = some o ∧ o.result = none ∧ o.ready = false := by
  unfold mkRAddr at h ⊢
  obtain ⟨v, s1, _, e1, h⟩ := bind_ok h
  obtain ⟨i, s2, _, e2, h⟩ := bind_ok h
  obtain ⟨t, s3, _, e3, h⟩ := bind_ok h
  rw [e1, e2, e3]
  cases h
  exact ⟨_, List.getElem?_concat_length, rfl, rfl⟩

end Pyth.Pure
