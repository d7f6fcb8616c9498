import Verif.Proofs.PureOps
/-! Packing arguments and building result addresses. -/
set_option linter.unusedSectionVars false
set_option linter.unusedVariables false
set_option linter.unusedSimpArgs false
namespace Pyth.Pure
open Pyth.World Pyth.Portal
open Pyth.ValueAddr (Grow growFree Integ integFree IsAddr HoldsVal Has)

variable {U A α β : Type} [DecidableEq U] [DecidableEq A] {addrOf : Val U A → A}
  {K : Accept U} {c : Option PortalId}
  {P P' F G : PWorld U A → Prop} {X X0 : Kind → PWorld U A → Prop}

theorem Sp.gain {B : Prop} {m : PM U A α} {Q : α → PWorld U A → Prop}
    (h : B → Sp addrOf K c P m Q X) : Sp addrOf K c (fun s => B ∧ P s) m Q X :=
  fun s a b d e => h e.1 s a b d e.2

theorem Sp.exI {ι : Type} {P : ι → PWorld U A → Prop} {m : PM U A α} {Q : α → PWorld U A → Prop}
    (h : ∀ i, Sp addrOf K c (P i) m Q X) : Sp addrOf K c (fun s => ∃ i, P i s) m Q X :=
  fun s a b d ⟨i, e⟩ => h i s a b d e

theorem Sp.em {P1 P2 : PWorld U A → Prop} {m : PM U A α} {Q : α → PWorld U A → Prop}
    (h1 : Sp addrOf K c P1 m Q X) (h2 : Sp addrOf K c P2 m Q X) (h : ∀ s, P s → P1 s ∨ P2 s) :
    Sp addrOf K c P m Q X := fun s a b d e => (h s e).elim (h1 s a b d) (h2 s a b d)

theorem sp_conv (hinj : Function.Injective addrOf) (j : Nat) (q : PortalId) :
    Sp addrOf K (some q) (fun _ => True) (ValueAddr.conv j none : PM U A Nat)
      (fun i s => ∃ a, IsAddr s i a (some q) ∧ Has j a s) (fun _ _ => True) := by
  refine Sp.em (P1 := fun s => ∃ a, Has j a s) (P2 := fun s => s.heap[j]? = none) ?_ ?_ ?_
  · refine Sp.exI fun a => ?_
    refine ((sp_conv_has hinj j a q).keep (mono_has j a)).conseq (fun s h => ⟨h, h⟩)
      (fun i s h => ⟨a, h⟩) (fun _ _ h => h)
  · refine Sp.ofGen (gen_conv j none) fun s ho hw hc hp => ⟨fun i hi => ?_, fun _ _ => trivial⟩
    exfalso
    have hc' := hc q rfl
    have hb : (World.bestPortal none : PM U A PortalId) s = (.ok q, s) := by
      unfold World.bestPortal
      cases hs : s.sys.stack with
      | nil => rw [hs] at hc'; cases hc'
      | cons x xs => rw [hs] at hc'; cases hc'; rfl
    unfold ValueAddr.conv at hi
    rw [PyM.run_bind, hb] at hi
    change ((withP q (ValueAddr.convBody j q) : PM U A Nat) s).1 = .ok i at hi
    rw [withP_eq q _ s ho (ValueAddr.keeps_convBody j q)] at hi
    obtain ⟨_, h2, h3, _, h5, h6, h7, h8, h9, h10⟩ := inside_ok q s ho
    have : (ValueAddr.convBody j q : PM U A Nat) (inside q s) =
        raiseNew .attributeError (inside q s) := by
      unfold ValueAddr.convBody
      rw [PyM.run_bind, ValueAddr.readObj_none j _ (by rw [h6]; exact hp)]
      rfl
    rw [this] at hi
    simp [World.raiseNew] at hi
  · intro s _
    cases h : s.heap[j]? with
    | none => exact .inr rfl
    | some o => exact .inl ⟨o.chain, o, h, rfl⟩

/-- packed arguments: address objects of portal `p` with these texts -/
def Packed (s : PWorld U A) (p : PortalId) (l : List (String × Nat)) (ts : List (String × A)) : Prop :=
  List.Forall₂ (fun x y => x.1 = y.1 ∧ IsAddr s x.2 y.2 (some p)) l ts

/-- the portal holds all values -/
def HoldsAll (addrOf : Val U A → A) (s : PWorld U A) (p : PortalId) (vals : List (String × U)) : Prop :=
  ∀ x ∈ vals, HoldsVal s p (addrOf (.user x.2)) (.user x.2)

theorem mono_packed (p : PortalId) (l : List (String × Nat)) (ts : List (String × A)) :
    Mono addrOf K (fun s : PWorld U A => Packed s p l ts) :=
  fun s s' e w h => List.Forall₂.imp (fun x y h => ⟨h.1, h.2.grow e.grow⟩) h
theorem mono_holdsAll (p : PortalId) (vals : List (String × U)) :
    Mono addrOf K (fun s : PWorld U A => HoldsAll addrOf s p vals) :=
  fun s s' e w h x hx => e.grow.store _ _ _ (h x hx)

theorem sp_packLoop (hinj : Function.Injective addrOf) (p : PortalId) (kw : Kw U) :
    Sp addrOf K (some p) (fun _ => True) (packLoop addrOf kw)
      (fun l s => ∃ ts, Packed s p l ts ∧ Match addrOf s kw ts) (fun _ _ => True) := by
  induction kw with
  | nil => exact Sp.pure fun s _ => ⟨[], .nil, .nil⟩
  | cons x kw ih =>
    obtain ⟨k, v⟩ := x
    have h1 : Sp addrOf K (some p) (fun _ => True) (packOne addrOf v)
        (fun i s => ∃ a, IsAddr s i a (some p) ∧ Match addrOf s [(k, v)] [(k, a)]) (fun _ _ => True) := by
      cases v with
      | raw u =>
        exact (sp_new_cur hinj (.user u) p).conseq (fun _ h => h)
          (fun i s h => ⟨_, h.1, .cons ⟨rfl, rfl⟩ .nil⟩) (fun _ _ _ => trivial)
      | addr j =>
        exact (sp_conv hinj j p).conseq (fun _ h => h)
          (fun i s ⟨a, h1, h2⟩ => ⟨a, h1, .cons ⟨rfl, h2⟩ .nil⟩) (fun _ _ _ => trivial)
    refine Sp.bind h1 fun i => Sp.exI fun a => ?_
    refine Sp.seq ih ((mono_isAddr i a _).and (mono_match _ _)) (fun s h => ⟨trivial, h⟩)
      (fun _ _ _ _ => trivial) fun l => ?_
    refine Sp.pure fun s ⟨⟨ts, h3, h4⟩, h5, h6⟩ => ⟨(k, a) :: ts, .cons ⟨rfl, h5⟩ h3, ?_⟩
    cases h6 with
    | cons h7 _ => exact .cons h7 h4

theorem sp_packLoop_den (hinj : Function.Injective addrOf) (p : PortalId) (kw : Kw U) :
    ∀ (vals : List (String × U)), Sp addrOf K (some p) (fun s => DenKw addrOf s kw vals)
      (packLoop addrOf kw)
      (fun l s => Packed s p l (texts addrOf vals) ∧ HoldsAll addrOf s p vals) (fun _ _ => False) := by
  induction kw with
  | nil =>
    intro vals
    exact Sp.pure fun s h => by cases h; exact ⟨.nil, fun _ h => by simp at h⟩
  | cons x kw ih =>
    obtain ⟨k, v⟩ := x
    intro vals
    cases vals with
    | nil => exact fun s _ _ _ h => by cases h
    | cons y vals =>
    obtain ⟨k', u⟩ := y
    have h1 : Sp addrOf K (some p) (fun s => Denotes addrOf s v u) (packOne addrOf v)
        (fun i s => IsAddr s i (addrOf (.user u)) (some p) ∧ HoldsVal s p (addrOf (.user u)) (.user u))
        (fun _ _ => False) := by
      cases v with
      | raw u' =>
        refine (Sp.gain (B := u' = u) (P := fun _ => True) fun e => ?_).pre (P' := fun s => Denotes addrOf s (.raw u') u)
          fun s h => ⟨h, trivial⟩
        subst e
        exact sp_new_cur hinj (.user u') p
      | addr j =>
        exact Sp.exI fun q => sp_conv_held hinj j (.user u) q p
    have hk : Sp addrOf K (some p) (fun s => k = k' ∧ Denotes addrOf s v u ∧ DenKw addrOf s kw vals)
        (packLoop addrOf ((k, v) :: kw))
        (fun l s => Packed s p l (texts addrOf ((k', u) :: vals)) ∧ HoldsAll addrOf s p ((k', u) :: vals))
        (fun _ _ => False) := by
      refine Sp.gain fun e => ?_
      subst e
      refine Sp.seq h1 (mono_denKw kw vals) (fun s h => h) (fun _ _ h _ => h) fun i => ?_
      refine Sp.seq (ih vals) ((mono_isAddr i _ _).and (mono_holds p _ _)) (fun s h => ⟨h.2, h.1⟩)
        (fun _ _ h _ => h) fun l => ?_
      refine Sp.pure fun s ⟨⟨h3, h4⟩, h5, h6⟩ => ⟨.cons ⟨rfl, h5⟩ h3, fun x hx => ?_⟩
      rcases List.mem_cons.1 hx with rfl | hx
      · exact h6
      · exact h4 x hx
    refine hk.pre fun s h => ?_
    cases h with
    | cons a b => exact ⟨a.1, a.2, b⟩

theorem fr_packed (p : PortalId) (l : List (String × Nat)) (ts : List (String × A)) :
    Fr (fun s : PWorld U A => Packed s p l ts) := fun _ _ _ _ _ _ h => h

theorem sp_pack (hinj : Function.Injective addrOf) (p : PortalId) (kw : Kw U) :
    Sp addrOf K c (fun _ => True) (pack addrOf p kw)
      (fun l s => ∃ ts, Packed s p l ts ∧ Match addrOf s kw ts) (fun _ _ => True) :=
  Sp.withP fr_true (fun _ _ _ _ _ _ _ h => h) (fun _ => fr_true) (sp_packLoop hinj p kw)

theorem sp_pack_den (hinj : Function.Injective addrOf) (p : PortalId) (kw : Kw U)
    (vals : List (String × U)) : Sp addrOf K c (fun s => DenKw addrOf s kw vals) (pack addrOf p kw)
      (fun l s => Packed s p l (texts addrOf vals) ∧ HoldsAll addrOf s p vals) (fun _ _ => False) :=
  Sp.withP (fun _ _ _ _ _ _ h => h) (fun _ _ _ _ _ _ _ h => h) (fun _ => fr_false)
    (sp_packLoop_den hinj p kw vals)

theorem sp_textsOf (p : PortalId) (l : List (String × Nat)) : ∀ (ts : List (String × A)),
    Sp addrOf K c (fun s => Packed s p l ts) (textsOf l : PM U A (List (String × A)))
      (fun r _ => r = ts) (fun _ _ => False) := by
  induction l with
  | nil =>
    intro ts
    exact Sp.pure fun s h => by cases h; rfl
  | cons x l ih =>
    intro ts
    obtain ⟨k, i⟩ := x
    cases ts with
    | nil => exact fun s _ _ _ h => by cases h
    | cons y ts =>
    obtain ⟨k', a⟩ := y
    have hk : Sp addrOf K c (fun s => k = k' ∧ Has i a s ∧ Packed s p l ts)
        (textsOf ((k, i) :: l) : PM U A (List (String × A))) (fun r _ => r = (k', a) :: ts)
        (fun _ _ => False) := by
      refine Sp.gain fun e => ?_
      subst e
      refine Sp.seq (sp_textOf i a) (mono_packed p l ts) (fun s h => h) (fun _ _ h _ => h) fun b => ?_
      refine Sp.gain fun e => ?_
      subst e
      refine Sp.bind (ih ts) fun r => ?_
      exact Sp.pure fun s h => by rw [h]
    refine hk.pre fun s h => ?_
    cases h with
    | cons a b => exact ⟨a.1, (let ⟨o, h1, h2, h3⟩ := a.2; ⟨o, h1, h2⟩), b⟩

theorem has_of_isAddr {s : PWorld U A} {i : Nat} {a : A} {p : Option PortalId} (h : IsAddr s i a p) :
    Has i a s := let ⟨o, h1, h2, _⟩ := h; ⟨o, h1, h2⟩

theorem Match.packed {s : PWorld U A} {p : PortalId} {l : List (String × Nat)} {ts : List (String × A)}
    (h : Packed s p l ts) : Match addrOf s (asKw l) ts := by
  unfold asKw
  unfold Packed at h
  induction h with
  | nil => exact .nil
  | cons h _ ih => exact .cons ⟨h.1, has_of_isAddr h.2⟩ ih

/-- the texts are determined by the objects -/
theorem Match.unique {s : PWorld U A} {kw : Kw U} {ts ts' : List (String × A)}
    (h : Match addrOf s kw ts) (h' : Match addrOf s kw ts') : ts = ts' := by
  unfold Match at h h'
  induction h generalizing ts' with
  | nil => cases h'; rfl
  | @cons x y l1 l2 h _ ih =>
    cases h' with
    | @cons _ y' _ l2' h' hr =>
      have h1 : y.2 = y'.2 := by
        have a := h.2; have b := h'.2
        cases hx : x.2 with
        | raw u => rw [hx] at a b; exact a.trans b.symm
        | addr i =>
          rw [hx] at a b
          obtain ⟨o, a1, a2⟩ := a
          obtain ⟨o', b1, b2⟩ := b
          rw [a1] at b1; cases b1
          exact a2.symm.trans b2
      rw [ih hr, Prod.ext (h.1.symm.trans h'.1) h1]

theorem DenKw.match {s : PWorld U A} {kw : Kw U} {vals : List (String × U)}
    (h : DenKw addrOf s kw vals) : Match addrOf s kw (texts addrOf vals) := by
  unfold DenKw at h
  induction h with
  | nil => exact .nil
  | @cons x y l1 l2 h _ ih =>
    refine .cons ⟨h.1, ?_⟩ ih
    have := h.2
    cases hx : x.2 with
    | raw u => rw [hx] at this; cases this; rfl
    | addr i => rw [hx] at this; obtain ⟨q, h1, _⟩ := this; exact has_of_isAddr h1

/-- everything a call address needs is stored in the portal -/
def Backed (addrOf : Val U A → A) (s : PWorld U A) (p : PortalId) (f : FnId)
    (vals : List (String × U)) : Prop :=
  HoldsVal s p (callKey addrOf f vals).2
    (.sig f (addrOf (.fn f)) (addrOf (.args (texts addrOf vals)))) ∧
  HoldsVal s p (addrOf (.fn f)) (.fn f) ∧
  HoldsVal s p (addrOf (.args (texts addrOf vals))) (.args (texts addrOf vals)) ∧
  HoldsAll addrOf s p vals

theorem mono_backed (p : PortalId) (f : FnId) (vals : List (String × U)) :
    Mono addrOf K (fun s : PWorld U A => Backed addrOf s p f vals) :=
  (mono_holds _ _ _).and ((mono_holds _ _ _).and ((mono_holds _ _ _).and (mono_holdsAll _ _)))

theorem sp_mkSignature (hinj : Function.Injective addrOf) (f : FnId) (p : PortalId) (args : Kw U) :
    Sp addrOf K c (fun _ => True) (mkSignature addrOf f p args)
      (fun v s => ∃ ts, v = .sig f (addrOf (.fn f)) (addrOf (.args ts)) ∧ Match addrOf s args ts)
      (fun _ _ => True) := by
  refine Sp.withP fr_true (fun _ _ _ _ _ _ _ h => h) (fun _ => fr_true) ?_
  refine Sp.seq (sp_new_cur hinj (.fn f) p) mono_true (fun s h => ⟨trivial, trivial⟩)
    (fun _ _ _ _ => trivial) fun fa => ?_
  refine Sp.seq (sp_pack hinj p args) (mono_isAddr fa _ (some p)) (fun s h => ⟨trivial, h.1.1⟩)
    (fun _ _ _ _ => trivial) fun l => ?_
  refine (Sp.exI (P := fun ts s => (Packed s p l ts ∧ Match addrOf s args ts) ∧ IsAddr s fa (addrOf (.fn f)) (some p)) fun ts => ?_).pre
    fun s ⟨⟨ts, h⟩, h'⟩ => ⟨ts, h, h'⟩
  refine Sp.seq (sp_textsOf p l ts) ((mono_match args ts).and (mono_isAddr fa _ (some p)))
    (fun s h => ⟨h.1.1, h.1.2, h.2⟩) (fun _ _ _ _ => trivial) fun ts' => Sp.gain fun e => ?_
  subst e
  refine Sp.seq (sp_new_cur hinj (.args ts') p) ((mono_match args ts').and (mono_isAddr fa _ (some p)))
    (fun s h => ⟨trivial, h⟩) (fun _ _ _ _ => trivial) fun aa => ?_
  refine Sp.seq (sp_textOf fa (addrOf (.fn f))) ((mono_match args ts').and (mono_isAddr aa _ (some p)))
    (fun s h => ⟨has_of_isAddr h.2.2, h.2.1, h.1.1⟩) (fun _ _ _ _ => trivial) fun t1 => Sp.gain fun e => ?_
  subst e
  refine Sp.seq (sp_textOf aa (addrOf (.args ts'))) (mono_match args ts')
    (fun s h => ⟨has_of_isAddr h.2, h.1⟩) (fun _ _ _ _ => trivial) fun t2 => Sp.gain fun e => ?_
  subst e
  exact Sp.pure fun s h => ⟨ts', rfl, h⟩

theorem sp_mkSignature_den (hinj : Function.Injective addrOf) (f : FnId) (p : PortalId) (args : Kw U)
    (vals : List (String × U)) :
    Sp addrOf K c (fun s => DenKw addrOf s args vals) (mkSignature addrOf f p args)
      (fun v s => v = .sig f (addrOf (.fn f)) (addrOf (.args (texts addrOf vals))) ∧
        HoldsVal s p (addrOf (.fn f)) (.fn f) ∧
        HoldsVal s p (addrOf (.args (texts addrOf vals))) (.args (texts addrOf vals)) ∧
        HoldsAll addrOf s p vals) (fun _ _ => False) := by
  refine Sp.withP (fun _ _ _ _ _ _ h => h) (fun _ _ _ _ _ _ _ h => h) (fun _ => fr_false) ?_
  refine Sp.seq (sp_new_cur hinj (.fn f) p) (mono_denKw args vals) (fun s h => ⟨trivial, h⟩)
    (fun _ _ h _ => h) fun fa => ?_
  have m1 : Mono addrOf K (fun s : PWorld U A => IsAddr s fa (addrOf (.fn f)) (some p) ∧
    HoldsVal s p (addrOf (.fn f)) (.fn f)) := (mono_isAddr fa _ (some p)).and (mono_holds p _ _)
  refine Sp.seq (sp_pack_den hinj p args vals) m1 (fun s h => ⟨h.2, h.1⟩)
    (fun _ _ h _ => h) fun l => ?_
  refine Sp.seq (sp_textsOf p l (texts addrOf vals)) ((mono_holdsAll p vals).and m1)
    (fun s h => ⟨h.1.1, h.1.2, h.2⟩) (fun _ _ h _ => h) fun ts' => Sp.gain fun e => ?_
  subst e
  refine Sp.seq (sp_new_cur hinj (.args (texts addrOf vals)) p) ((mono_holdsAll p vals).and m1)
    (fun s h => ⟨trivial, h⟩) (fun _ _ h _ => h) fun aa => ?_
  have m2 : Mono addrOf K (fun s : PWorld U A => IsAddr s aa (addrOf (.args (texts addrOf vals))) (some p) ∧
    HoldsVal s p (addrOf (.args (texts addrOf vals))) (.args (texts addrOf vals))) :=
    (mono_isAddr aa _ (some p)).and (mono_holds p _ _)
  refine Sp.seq (sp_textOf fa (addrOf (.fn f))) (m2.and ((mono_holdsAll p vals).and m1))
    (fun s h => ⟨has_of_isAddr h.2.2.1, h⟩) (fun _ _ h _ => h) fun t1 => Sp.gain fun e => ?_
  subst e
  refine Sp.seq (sp_textOf aa (addrOf (.args (texts addrOf vals)))) (m2.and ((mono_holdsAll p vals).and m1))
    (fun s h => ⟨has_of_isAddr h.1.1, h⟩) (fun _ _ h _ => h) fun t2 => Sp.gain fun e => ?_
  subst e
  exact Sp.pure fun s h => ⟨rfl, h.2.2.2, h.1.2, h.2.1⟩

/-! ### changes of the state of the pure layer -/

theorem sp_modExt {g : Ext U A → Ext U A} {Q : Unit → PWorld U A → Prop}
    (h : ∀ s, W addrOf K s → P s → W addrOf K { s with ext := g s.ext } ∧ Ev s { s with ext := g s.ext } ∧
      Q () { s with ext := g s.ext }) : Sp addrOf K c P (modExt g : PM U A Unit) Q X :=
  fun s ho hw hc hp => ⟨⟨⟨rfl, rfl, rfl, List.prefix_rfl⟩, (h s hw hp).1, (h s hw hp).2.1⟩,
    fun _ e => (by cases e; exact (h s hw hp).2.2), fun _ e => (by cases e)⟩

theorem growExt (s : PWorld U A) (x : Ext U A) : Grow s { s with ext := x } :=
  ⟨fun _ _ _ h => h, fun i o h => ⟨o, h, rfl, rfl, id, id⟩⟩

theorem REv.setExt {s : PWorld U A} {o o' : RObj U A} (h : REv s o o') (x : Ext U A) :
    REv { s with ext := x } o o' := ⟨h.key, h.portal, h.ready, h.fn, h.args', h.result⟩

theorem ev_raddrs (s : PWorld U A) (l : List (RObj U A))
    (h : ∀ (r : Nat) (o : RObj U A), s.ext.raddrs[r]? = some o → ∃ o', l[r]? = some o' ∧ REv s o o') :
    Ev s { s with ext := { s.ext with raddrs := l } } :=
  { Ev.refl s with grow := growExt s _, raddrs := fun r o ho =>
    let ⟨o', h1, h2⟩ := h r o ho; ⟨o', h1, h2.setExt _⟩ }

theorem w_raddrs {s : PWorld U A} (hw : W addrOf K s) (l : List (RObj U A))
    (h : ∀ (r : Nat) (o : RObj U A), l[r]? = some o → ObjOK addrOf K s o) :
    W addrOf K { s with ext := { s.ext with raddrs := l } } :=
  ⟨hw.integ, hw.held, hw.pCheck, hw.reqs, h, hw.trace⟩

/-- a result address object that can be resolved: its call is `f` on `vals`, all parts of which are
held by its portal -/
def RD (addrOf : Val U A → A) (s : PWorld U A) (r : Nat) (f : FnId) (vals : List (String × U))
    (p : PortalId) : Prop :=
  ∃ o : RObj U A, s.ext.raddrs[r]? = some o ∧ o.key = callKey addrOf f vals ∧ o.portal = p ∧
    (∀ l, o.args = some l → DenKw addrOf s l vals) ∧ Backed addrOf s p f vals

theorem RD.ris {s : PWorld U A} {r : Nat} {f : FnId} {vals : List (String × U)} {p : PortalId}
    (h : RD addrOf s r f vals p) : RIs s r (callKey addrOf f vals) p :=
  let ⟨o, h1, h2, h3, _⟩ := h; ⟨o, h1, h2, h3⟩

theorem sigText_inj (hinj : Function.Injective addrOf) {f g : FnId} {ts ts' : List (String × A)}
    (h : sigText addrOf f ts = sigText addrOf g ts') : f = g ∧ ts = ts' := by
  have h1 := hinj h
  injection h1 with h2 _ h3
  have h4 := hinj h3
  injection h4 with h5
  exact ⟨h2, h5⟩

theorem texts_inj (hinj : Function.Injective addrOf) {v w : List (String × U)}
    (h : texts addrOf v = texts addrOf w) : v = w := by
  unfold texts at h
  refine List.map_injective_iff.2 ?_ h
  rintro ⟨a, b⟩ ⟨a', b'⟩ e
  simp only [Prod.mk.injEq] at e
  have := hinj e.2
  injection this with this
  rw [e.1, this]

theorem callKey_inj (hinj : Function.Injective addrOf) {f g : FnId} {v w : List (String × U)}
    (h : callKey addrOf f v = callKey addrOf g w) : f = g ∧ v = w := by
  have h2 := congrArg Prod.snd h
  obtain ⟨a, b⟩ := sigText_inj hinj h2
  exact ⟨a, texts_inj hinj b⟩

theorem denKw_bound {s : PWorld U A} {p : PortalId} {l : Kw U} {vals : List (String × U)}
    (hb : BoundTo s p l) (hm : Match addrOf s l (texts addrOf vals)) (hh : HoldsAll addrOf s p vals) :
    DenKw addrOf s l vals := by
  induction l generalizing vals with
  | nil =>
    cases vals with
    | nil => exact .nil
    | cons _ _ => cases hm
  | cons x l ih =>
    cases vals with
    | nil => cases hm
    | cons y vals =>
      cases hm with
      | cons h hr =>
        refine .cons ⟨h.1, ?_⟩ (ih (fun z hz => hb z (.tail _ hz)) hr (fun z hz => hh z (.tail _ hz)))
        obtain ⟨i, a, e, h1⟩ := hb x (.head _)
        have h2 := h.2
        rw [e] at h2 ⊢
        simp only at h2
        obtain ⟨o, a1, a2⟩ := h2
        obtain ⟨o', b1, b2, b3⟩ := h1
        rw [a1] at b1; cases b1
        exact ⟨p, ⟨o, a1, a2, b3⟩, hh y (.head _)⟩

theorem mono_rd (hinj : Function.Injective addrOf) (r : Nat) (f : FnId) (vals : List (String × U))
    (p : PortalId) : Mono addrOf K (fun s : PWorld U A => RD addrOf s r f vals p) := by
  rintro s s' e w ⟨o, h1, h2, h3, h4, h5⟩
  have hb := mono_backed p f vals s s' e w h5
  obtain ⟨o', a1, a2⟩ := e.raddrs r o h1
  refine ⟨o', a1, a2.key.trans h2, a2.portal.trans h3, fun l hl => ?_, hb⟩
  rcases a2.args' l hl with b1 | b1
  · exact mono_denKw l vals s s' e w (h4 l b1)
  · obtain ⟨ts, c1, c2, c3, c4, c5⟩ := w.obj r o' a1
    have c6 := c3 l hl
    rw [a2.key.trans h2] at c1
    have := (sigText_inj hinj c1.1).2
    rw [← this] at c6
    rw [h3] at b1
    exact denKw_bound b1 c6 hb.2.2.2

/-- a fresh result address -/
theorem sp_mkRAddr (hinj : Function.Injective addrOf) (f : FnId) (p : PortalId) (args : Kw U) :
    Sp addrOf K (some p) (fun _ => True) (mkRAddr addrOf f p args)
      (fun r s => ∃ ts, RIs s r (f, sigText addrOf f ts) p ∧ Match addrOf s (sortKw args) ts)
      (fun _ _ => True) := by
  unfold mkRAddr
  refine Sp.bind (sp_mkSignature hinj f p (sortKw args)) fun v => Sp.exI fun ts => Sp.gain fun e => ?_
  subst e
  refine Sp.seq (sp_new_cur hinj (.sig f (addrOf (.fn f)) (addrOf (.args ts))) p)
    (mono_match (sortKw args) ts) (fun s h => ⟨trivial, h⟩)
    (fun _ _ _ _ => trivial) fun i => ?_
  refine Sp.seq (sp_textOf i (sigText addrOf f ts)) (mono_match (sortKw args) ts)
    (fun s h => ⟨has_of_isAddr h.1.1, h.2⟩) (fun _ _ _ _ => trivial) fun t => Sp.gain fun e => ?_
  subst e
  refine Sp.bind (Q := fun t s => s = t ∧ Match addrOf s (sortKw args) ts) Sp.getS fun s0 => ?_
  refine Sp.bind (Q := fun _ s => ∃ ts', RIs s s0.ext.raddrs.length (f, sigText addrOf f ts') p ∧
    Match addrOf s (sortKw args) ts') (sp_modExt fun s hw h => ?_) fun _ => Sp.pure fun s h => h
  obtain ⟨rfl, hm⟩ := h
  refine ⟨w_raddrs hw _ fun r o ho => ?_, ev_raddrs s _ fun r o ho => ?_, ts, ?_, hm⟩
  · rcases Nat.lt_trichotomy r s.ext.raddrs.length with h | h | h
    · rw [List.getElem?_append_left h] at ho
      exact hw.obj r o ho
    · subst h
      rw [List.getElem?_append_right (Nat.le_refl _)] at ho
      simp at ho
      subst ho
      exact ⟨ts, ⟨rfl, hm.sorted.2 (sortKw_sorted _)⟩, fun g hg => (by cases hg; rfl), fun l hl => (by cases hl; exact hm),
        fun u hu => (by cases hu), fun h => (by simp at h)⟩
    · rw [List.getElem?_eq_none (by simp; omega)] at ho; cases ho
  · have hr : r < s.ext.raddrs.length := by
      by_contra h
      rw [List.getElem?_eq_none (Nat.le_of_not_lt h)] at ho; cases ho
    exact ⟨o, by rw [List.getElem?_append_left hr]; exact ho, .refl _ _⟩
  · exact ⟨_, List.getElem?_concat_length, rfl, rfl⟩

theorem sp_mkRAddr_den (hinj : Function.Injective addrOf) (f : FnId) (p : PortalId) (args : Kw U)
    (vals : List (String × U)) :
    Sp addrOf K (some p) (fun s => DenKw addrOf s (sortKw args) vals) (mkRAddr addrOf f p args)
      (fun r s => RD addrOf s r f vals p) (fun _ _ => False) := by
  unfold mkRAddr
  refine Sp.seq (sp_mkSignature_den hinj f p (sortKw args) vals) (mono_denKw (sortKw args) vals)
    (fun s h => ⟨h, h⟩) (fun _ _ h _ => h) fun v => ?_
  refine (Sp.gain (B := v = .sig f (addrOf (.fn f)) (addrOf (.args (texts addrOf vals)))) (P := fun s =>
    HoldsVal s p (addrOf (.fn f)) (.fn f) ∧
        HoldsVal s p (addrOf (.args (texts addrOf vals))) (.args (texts addrOf vals)) ∧
        HoldsAll addrOf s p vals ∧ DenKw addrOf s (sortKw args) vals) fun e => ?_).pre
    fun s h => ⟨h.1.1, h.1.2.1, h.1.2.2.1, h.1.2.2.2, h.2⟩
  subst e
  have m1 : Mono addrOf K (fun s : PWorld U A => HoldsVal s p (addrOf (.fn f)) (.fn f) ∧
        HoldsVal s p (addrOf (.args (texts addrOf vals))) (.args (texts addrOf vals)) ∧
        HoldsAll addrOf s p vals ∧ DenKw addrOf s (sortKw args) vals) :=
    (mono_holds _ _ _).and ((mono_holds _ _ _).and ((mono_holdsAll _ _).and (mono_denKw _ _)))
  refine Sp.seq (sp_new_cur hinj (.sig f (addrOf (.fn f)) (addrOf (.args (texts addrOf vals)))) p)
    m1 (fun s h => ⟨trivial, h⟩) (fun _ _ h _ => h) fun i => ?_
  refine Sp.seq (sp_textOf i (callKey addrOf f vals).2) (m1.and (mono_holds p (callKey addrOf f vals).2
      (.sig f (addrOf (.fn f)) (addrOf (.args (texts addrOf vals))))))
    (fun s h => ⟨has_of_isAddr h.1.1, h.2, h.1.2⟩) (fun _ _ h _ => h) fun t => Sp.gain fun e => ?_
  subst e
  refine Sp.bind (Q := fun t s => s = t ∧ Backed addrOf s p f vals ∧ DenKw addrOf s (sortKw args) vals)
    (Sp.getS.conseq (fun s h => ⟨⟨h.2, h.1.1, h.1.2.1, h.1.2.2.1⟩, h.1.2.2.2⟩) (fun _ _ h => h) (fun _ _ h => h)) fun s0 => ?_
  refine Sp.bind (Q := fun _ s => RD addrOf s s0.ext.raddrs.length f vals p) (sp_modExt fun s hw h => ?_)
    fun _ => Sp.pure fun s h => h
  obtain ⟨rfl, hb, hd⟩ := h
  refine ⟨w_raddrs hw _ fun r o ho => ?_, ev_raddrs s _ fun r o ho => ?_, ?_⟩
  · rcases Nat.lt_trichotomy r s.ext.raddrs.length with h | h | h
    · rw [List.getElem?_append_left h] at ho
      exact hw.obj r o ho
    · subst h
      rw [List.getElem?_append_right (Nat.le_refl _)] at ho
      simp at ho
      subst ho
      exact ⟨texts addrOf vals, ⟨rfl, hd.match.sorted.2 (sortKw_sorted _)⟩, fun g hg => (by cases hg; rfl), fun l hl => (by cases hl; exact hd.match),
        fun u hu => (by cases hu), fun h => (by simp at h)⟩
    · rw [List.getElem?_eq_none (by simp; omega)] at ho; cases ho
  · have hr : r < s.ext.raddrs.length := by
      by_contra h
      rw [List.getElem?_eq_none (Nat.le_of_not_lt h)] at ho; cases ho
    exact ⟨o, by rw [List.getElem?_append_left hr]; exact ho, .refl _ _⟩
  · exact ⟨_, List.getElem?_concat_length, rfl, rfl, fun l hl => (by cases hl; exact hd), hb⟩

end Pyth.Pure
