import Verif.Proofs.PureHist
/-! From the program logic to statements about reachable states. -/
set_option linter.unusedSectionVars false
set_option linter.unusedVariables false
set_option linter.unusedSimpArgs false
namespace Pyth.Pure
open Pyth.World Pyth.Portal
open Pyth.ValueAddr (Grow growFree Integ integFree IsAddr HoldsVal Has)

variable {U A α β : Type} [DecidableEq U] [DecidableEq A] {addrOf : Val U A → A}
  {K : Accept U} {c : Option PortalId} {E R S : Prop} {prog : FnId → Fn U}
  {P P' F G : PWorld U A → Prop} {X X0 : Kind → PWorld U A → Prop}

theorem Reached.good (hinj : Function.Injective addrOf) {s : PWorld U A} (h : Reached addrOf prog s) :
    Good addrOf (anything U) s := by
  obtain ⟨s0, ops, h0, hl, rfl⟩ := h
  exact (session_keep hinj (mode_any prog) ops (good_start h0) hl (.inl trivial)).1

theorem ReachedDet.good (hinj : Function.Injective addrOf) (hd : DetProg prog) {s : PWorld U A}
    (h : ReachedDet addrOf prog s) : Good addrOf (correct prog) s := by
  obtain ⟨s0, ops, h0, hl, hl', rfl⟩ := h
  exact (session_keep hinj (mode_det hd) ops (good_start h0) hl (.inr hl')).1

theorem Reached.start {s : PWorld U A} (h : PStart addrOf (anything U) s) : Reached addrOf prog s :=
  ⟨s, [], h, trivial, rfl⟩
theorem ReachedDet.start {s : PWorld U A} (h : PStart addrOf (correct prog) s) : ReachedDet addrOf prog s :=
  ⟨s, [], h, trivial, trivial, rfl⟩

theorem legalAll_append {s : PWorld U A} {a b : List (POp U A)} (h : LegalAll addrOf prog K s a)
    (h' : LegalAll addrOf prog K (session addrOf prog s a) b) : LegalAll addrOf prog K s (a ++ b) := by
  induction a generalizing s with
  | nil => exact h'
  | cons x a ih => exact ⟨h.1, ih h.2 h'⟩
theorem legalDetAll_append {s : PWorld U A} {a b : List (POp U A)} (h : LegalDetAll addrOf prog s a)
    (h' : LegalDetAll addrOf prog (session addrOf prog s a) b) : LegalDetAll addrOf prog s (a ++ b) := by
  induction a generalizing s with
  | nil => exact h'
  | cons x a ih => exact ⟨h.1, ih h.2 h'⟩

theorem Reached.session {s : PWorld U A} (h : Reached addrOf prog s) {ops : List (POp U A)}
    (hl : LegalAll addrOf prog (anything U) s ops) : Reached addrOf prog (session addrOf prog s ops) := by
  obtain ⟨s0, ops0, h0, hl0, rfl⟩ := h
  exact ⟨s0, ops0 ++ ops, h0, legalAll_append hl0 hl, by unfold Pure.session; rw [List.foldl_append]⟩
theorem ReachedDet.session {s : PWorld U A} (h : ReachedDet addrOf prog s) {ops : List (POp U A)}
    (hl : LegalAll addrOf prog (correct prog) s ops) (hl' : LegalDetAll addrOf prog s ops) :
    ReachedDet addrOf prog (session addrOf prog s ops) := by
  obtain ⟨s0, ops0, h0, hl0, hl0', rfl⟩ := h
  exact ⟨s0, ops0 ++ ops, h0, legalAll_append hl0 hl, legalDetAll_append hl0' hl', by unfold Pure.session; rw [List.foldl_append]⟩

theorem Sp.at {m : PM U A α} {Q : α → PWorld U A → Prop} (h : Sp addrOf K none P m Q X) {s : PWorld U A}
    (hs : Good addrOf K s) (hp : P s) : Base addrOf K s (m s).2 ∧
    (∀ a, (m s).1 = .ok a → Q a (m s).2) ∧ (∀ e, (m s).1 = .error e → X e.kind (m s).2) :=
  h s hs.ok hs.w (fun _ h => by cases h) hp

theorem Base.good {s s' : PWorld U A} (h : Base addrOf K s s') (hs : Good addrOf K s) : Good addrOf K s' :=
  ⟨h.ctx.ok hs.ok, h.wf⟩

/-- a computation that does not raise -/
theorem Sp.total {m : PM U A α} {Q : α → PWorld U A → Prop} (h : Sp addrOf K none P m Q (fun _ _ => False)) {s : PWorld U A}
    (hs : Good addrOf K s) (hp : P s) : ∃ a s', m s = (.ok a, s') ∧ Q a s' ∧ Base addrOf K s s' := by
  obtain ⟨h1, h2, h3⟩ := h.at hs hp
  rcases hm : m s with ⟨r, s'⟩
  rw [hm] at h1 h2 h3
  cases r with
  | ok a => exact ⟨a, s', rfl, h2 a rfl, h1⟩
  | error e => exact (h3 e rfl).elim

theorem Stored.mk' {s : PWorld U A} (hs : Good addrOf K s) {p : PortalId} {f : FnId} {vals : List (String × U)} {u : U}
    (hinj : Function.Injective addrOf)
    (h : (s.ext.results p).data (keyOf addrOf f vals) = some (addrOf (.user u))) : Stored addrOf s p f vals u := by
  obtain ⟨v, h1, h2, _⟩ := hs.w.held p _ _ h
  have := hinj h1
  cases this
  exact ⟨h, h2⟩

theorem Stored.of_isSome {s : PWorld U A} (hs : Good addrOf K s) {p : PortalId} {f : FnId} {vals : List (String × U)}
    (h : ((s.ext.results p).data (keyOf addrOf f vals)).isSome) : ∃ u, Stored addrOf s p f vals u ∧ K f (sortKw vals) u := by
  obtain ⟨a, ha⟩ := Option.isSome_iff_exists.1 h
  obtain ⟨v, rfl, h2, h3⟩ := hs.w.held p _ _ ha
  exact ⟨v, ⟨ha, h2⟩, h3 _ rfl⟩

theorem Stored.unique (hinj : Function.Injective addrOf) {s : PWorld U A} {p : PortalId} {f : FnId} {vals : List (String × U)} {u v : U}
    (h : Stored addrOf s p f vals u) (h' : Stored addrOf s p f vals v) : u = v := by
  have := h.1.symm.trans h'.1
  injection this with this
  have := hinj this
  injection this

theorem Stored.keep {s s' : PWorld U A} {p : PortalId} {f : FnId} {vals : List (String × U)} {u : U}
    (h : Stored addrOf s p f vals u) (hk : Keep s s') : Stored addrOf s' p f vals u :=
  ⟨hk.results _ _ _ h.1, hk.grow.store _ _ _ h.2⟩

theorem DenKw.keep {s s' : PWorld U A} {kw : Kw U} {vals : List (String × U)}
    (h : DenKw addrOf s kw vals) (hk : Keep s s') : DenKw addrOf s' kw vals :=
  List.Forall₂.imp (fun x y h => ⟨h.1, h.2.grow hk.grow⟩) h

theorem denKw_packed {s : PWorld U A} {p : PortalId} {l : List (String × Nat)} {vals : List (String × U)}
    (hp : Packed s p l (texts addrOf vals)) (hh : HoldsAll addrOf s p vals) : DenKw addrOf s (asKw l) vals := by
  unfold DenKw asKw
  rw [List.forall₂_map_left_iff]
  unfold Packed texts at hp
  rw [List.forall₂_map_right_iff] at hp
  refine (List.forall₂_iff_get.2 ⟨hp.length_eq, fun i h1 h2 => ?_⟩)
  have := hp.get h1 h2
  exact ⟨this.1, p, this.2, hh _ (List.get_mem _ _)⟩

theorem forall₂_names {γ δ : Type} {Rl : String × γ → String × δ → Prop} (hR : ∀ a b, Rl a b → a.1 = b.1)
    {x : List (String × γ)} {y : List (String × δ)} (h : List.Forall₂ Rl x y) : x.map Prod.fst = y.map Prod.fst := by
  induction h with
  | nil => rfl
  | cons h _ ih => simp [hR _ _ h, ih]

theorem NothingRan.of_hist {s s' : PWorld U A} (h : hist s' = hist s) : NothingRan s s' := by
  simp only [hist, Hist.mk.injEq] at h
  obtain ⟨h1, h2, h3, h4, h5, h6, h7, h8, h9, h10⟩ := h
  exact ⟨h1, h2, h3, h4, h7, h8, h10⟩

/-- new address objects have no cached result -/
theorem sp_getAddress_new (hinj : Function.Injective addrOf) (p : PortalId) (f : FnId) (kw : Kw U) (vals : List (String × U)) :
    Sp addrOf K c (fun s => DenKw addrOf s kw vals) (getAddress addrOf p f kw)
      (fun r s => (∃ o : RObj U A, s.ext.raddrs[r]? = some o ∧ o.key = keyOf addrOf f vals ∧ o.portal = p ∧ o.result = none) ∧
        AddrFor addrOf False f p kw vals r s) (fun _ _ => False) := by
  have h1 := sp_getAddress (K := K) (c := c) (R := False) hinj p f kw vals
  have h2 : Sp addrOf K c (fun _ => True) (getAddress addrOf p f kw)
      (fun r s => ∃ o : RObj U A, s.ext.raddrs[r]? = some o ∧ o.result = none) (fun _ _ => True) := by
    unfold getAddress
    refine Sp.withP fr_true (fun _ _ _ _ _ _ _ h => h) (fun _ => fr_true) ?_
    refine Sp.bind ((sp_pack hinj p (sortKw kw)).conseq (fun _ h => h) (fun _ _ _ => trivial) (fun _ _ h => h)) fun packed => ?_
    intro s ho hw hc hp
    refine ⟨(sp_mkRAddr hinj f p (asKw packed) s ho hw hc trivial).1, fun r hr => ?_, fun _ _ => trivial⟩
    obtain ⟨o, a1, a2, _⟩ := mkRAddr_run f p (asKw packed) s r hr
    exact ⟨o, a1, a2⟩
  intro s ho hw hc hp
  have g1 := h1 s ho hw hc (.inr hp)
  have g2 := h2 s ho hw hc trivial
  refine ⟨g1.1, fun r hr => ?_, fun e he => g1.2.2 e he⟩
  have q1 := g1.2.1 r hr
  obtain ⟨o, q2, q3⟩ := g2.2.1 r hr
  refine ⟨⟨o, q2, ?_, ?_, q3⟩, q1⟩
  all_goals
    obtain ⟨ts, _, ⟨⟨o', b1, b2, b3⟩, _⟩, b4⟩ := q1
    rw [q2] at b1; cases b1
  · rcases b4 with h | rfl
    · exact h.elim
    · exact b2
  · exact b3

end Pyth.Pure
