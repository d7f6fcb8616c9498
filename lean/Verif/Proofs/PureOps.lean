import Verif.Proofs.PureBase
/-! Rules for the operations of the pure layer. -/
set_option linter.unusedSectionVars false
set_option linter.unusedVariables false
set_option linter.unusedSimpArgs false
namespace Pyth.Pure
open Pyth.World Pyth.Portal
open Pyth.ValueAddr (Grow growFree Integ integFree IsAddr HoldsVal Has)

variable {U A α β : Type} [DecidableEq U] [DecidableEq A] {addrOf : Val U A → A}
  {K : Accept U} {c : Option PortalId}
  {P P' F G : PWorld U A → Prop} {X X0 : Kind → PWorld U A → Prop}

/-! ### monotone assertions -/

theorem mono_true : Mono addrOf K (fun _ : PWorld U A => True) := fun _ _ _ _ _ => trivial
theorem mono_const (b : Prop) : Mono addrOf K (fun _ : PWorld U A => b) := fun _ _ _ _ h => h
theorem Mono.and (h : Mono addrOf K F) (h' : Mono addrOf K G) :
    Mono addrOf K (fun s => F s ∧ G s) := fun s s' e w x => ⟨h s s' e w x.1, h' s s' e w x.2⟩
theorem Mono.ex {ι : Type} {F : ι → PWorld U A → Prop} (h : ∀ i, Mono addrOf K (F i)) :
    Mono addrOf K (fun s => ∃ i, F i s) := fun s s' e w ⟨i, x⟩ => ⟨i, h i s s' e w x⟩
theorem mono_has (i : Nat) (a : A) : Mono addrOf K (fun s : PWorld U A => Has i a s) :=
  fun s s' e w h => ValueAddr.Has.grow h e.grow
theorem mono_isAddr (i : Nat) (a : A) (p : Option PortalId) :
    Mono addrOf K (fun s : PWorld U A => IsAddr s i a p) :=
  fun s s' e w h => h.grow e.grow
theorem mono_holds (p : PortalId) (a : A) (v : Val U A) :
    Mono addrOf K (fun s : PWorld U A => HoldsVal s p a v) :=
  fun s s' e w h => e.grow.store _ _ _ h
theorem mono_match (l : Kw U) (ts : List (String × A)) :
    Mono addrOf K (fun s : PWorld U A => Match addrOf s l ts) :=
  fun s s' e w h => h.grow e.grow
theorem mono_results (p : PortalId) (k : Key A) (a : A) :
    Mono addrOf K (fun s : PWorld U A => (s.ext.results p).data k = some a) :=
  fun s s' e w h => e.results _ _ _ h
theorem mono_resSome (p : PortalId) (k : Key A) :
    Mono addrOf K (fun s : PWorld U A => ((s.ext.results p).data k).isSome) := fun s s' e w h => by
  obtain ⟨a, ha⟩ := Option.isSome_iff_exists.1 h
  show ((s'.ext.results p).data k).isSome
  rw [e.results _ _ _ ha]; rfl
theorem Denotes.grow {s s' : PWorld U A} {a : Arg U} {u : U} (h : Denotes addrOf s a u)
    (hg : Grow s s') : Denotes addrOf s' a u := by
  cases a with
  | raw v => exact h
  | addr i =>
    obtain ⟨q, h1, h2⟩ := h
    exact ⟨q, h1.grow hg, hg.store _ _ _ h2⟩
theorem mono_denotes (a : Arg U) (u : U) : Mono addrOf K (fun s : PWorld U A => Denotes addrOf s a u) :=
  fun s s' e w h => h.grow e.grow
theorem mono_denKw (l : Kw U) (vals : List (String × U)) :
    Mono addrOf K (fun s : PWorld U A => DenKw addrOf s l vals) :=
  fun s s' e w h => List.Forall₂.imp (fun x y h => ⟨h.1, h.2.grow e.grow⟩) h

/-- object `r` is a result address with this text, bound to this portal -/
def RIs (s : PWorld U A) (r : Nat) (k : Key A) (p : PortalId) : Prop :=
  ∃ o : RObj U A, s.ext.raddrs[r]? = some o ∧ o.key = k ∧ o.portal = p
theorem mono_ris (r : Nat) (k : Key A) (p : PortalId) :
    Mono addrOf K (fun s : PWorld U A => RIs s r k p) := fun s s' e w ⟨o, h1, h2, h3⟩ => by
  obtain ⟨o', h4, h5⟩ := e.raddrs r o h1
  exact ⟨o', h4, h5.key.trans h2, h5.portal.trans h3⟩

/-- sequencing with a monotone assertion carried along -/
theorem Sp.seq {m : PM U A α} {k : α → PM U A β} {Q : α → PWorld U A → Prop}
    {R : β → PWorld U A → Prop} (hm : Sp addrOf K c P m Q X0) (hF : Mono addrOf K F)
    (hP : ∀ s, P' s → P s ∧ F s) (hX : ∀ k s, X0 k s → F s → X k s)
    (hk : ∀ a, Sp addrOf K c (fun s => Q a s ∧ F s) (k a) R X) : Sp addrOf K c P' (m >>= k) R X :=
  Sp.bind ((Sp.mono hm hF).conseq hP (fun _ _ h => h) (fun _ _ h => hX _ _ h.1 h.2)) hk

theorem Sp.true {m : PM U A α} {Q : α → PWorld U A → Prop} (h : Sp addrOf K c P m Q X) :
    Sp addrOf K c P m Q (fun _ _ => True) := h.conseq (fun _ h => h) (fun _ _ h => h) (fun _ _ _ => trivial)

theorem Sp.keep {m : PM U A α} {Q : α → PWorld U A → Prop} (h : Sp addrOf K c P m Q X)
    (hF : Mono addrOf K F) : Sp addrOf K c (fun s => P s ∧ F s) m (fun a s => Q a s ∧ F s) X :=
  (Sp.mono h hF).conseq (fun _ h => h) (fun _ _ h => h) (fun _ _ h => h.1)

/-! ### value layer -/

theorem sp_get_has (i : Nat) (a : A) : Sp addrOf K c (fun s => Has i a s)
    (ValueAddr.get i : PM U A (Val U A)) (fun v _ => addrOf v = a) (fun _ _ => True) :=
  Sp.ofGen (gen_vget i) fun s ho hw hc hp =>
    ⟨fun v hv => (ValueAddr.tri_get addrOf i a s ⟨hw.integ, hp⟩).2 v hv, fun _ _ => trivial⟩

theorem sp_get_held (hinj : Function.Injective addrOf) (i : Nat) (v : Val U A) (q : PortalId) :
    Sp addrOf K c (fun s => IsAddr s i (addrOf v) (some q) ∧ HoldsVal s q (addrOf v) v)
    (ValueAddr.get i : PM U A (Val U A)) (fun v' _ => v' = v) (fun _ _ => False) :=
  Sp.ofGen (gen_vget i) fun s ho hw hc hp => by
    obtain ⟨s', e⟩ := ValueAddr.get_held ho hw.integ (fun v' h => hinj h) hp.1 hp.2
    rw [e]
    exact ⟨fun v hv => (by cases hv; rfl), fun _ h => (by cases h)⟩

theorem sp_new (hinj : Function.Injective addrOf) (v : Val U A) :
    Sp addrOf K c (fun _ => True) (ValueAddr.new addrOf v none : PM U A Nat)
      (fun i s => ∃ q, IsAddr s i (addrOf v) (some q) ∧ HoldsVal s q (addrOf v) v ∧
        ∀ p, c = some p → q = p) (fun _ _ => False) :=
  Sp.ofGen (gen_new v none) fun s ho hw hc hp => by
    obtain ⟨q, s', e, ⟨o, h1, h2, h3, h4⟩, h5, _, h7⟩ := ValueAddr.new_ok addrOf v none s ho
      (ValueAddr.free_of hw.integ fun v' h => hinj h)
    rw [e]
    refine ⟨fun i hi => ?_, fun _ h => (by cases h)⟩
    cases hi
    refine ⟨q, ⟨o, h1, h2, h3⟩, h5, fun p hcp => ?_⟩
    have := hc p hcp
    cases hs : s.sys.stack with
    | nil => rw [hs] at this; cases this
    | cons x xs => rw [hs] at this; cases this; exact h7 rfl _ _ hs

theorem sp_new_cur (hinj : Function.Injective addrOf) (v : Val U A) (p : PortalId) :
    Sp addrOf K (some p) (fun _ => True) (ValueAddr.new addrOf v none : PM U A Nat)
      (fun i s => IsAddr s i (addrOf v) (some p) ∧ HoldsVal s p (addrOf v) v) (fun _ _ => False) :=
  (sp_new hinj v).conseq (fun _ h => h) (fun i s ⟨q, h1, h2, h3⟩ => by
    cases h3 p rfl; exact ⟨h1, h2⟩) (fun _ _ h => h)

theorem sp_textOf (i : Nat) (a : A) : Sp addrOf K c (fun s => Has i a s) (textOf i : PM U A A)
    (fun b _ => b = a) (fun _ _ => False) :=
  Sp.ofGen (gen_textOf i) fun s ho hw hc ⟨o, h1, h2⟩ => by
    have : textOf i s = (.ok o.chain, s) := by
      unfold textOf; rw [PyM.run_bind, ValueAddr.readObj_run i o s h1]; rfl
    rw [this]
    exact ⟨fun b hb => (by cases hb; exact h2), fun _ h => (by cases h)⟩

theorem sp_bestPortal (p : PortalId) : Sp addrOf K (some p) P
    (World.bestPortal none : PM U A PortalId) (fun q s => q = p ∧ P s) X := by
  intro s ho hw hc hp
  have := hc p rfl
  cases hs : s.sys.stack with
  | nil => rw [hs] at this; cases this
  | cons x xs =>
    rw [hs] at this; cases this
    have e : (World.bestPortal none : PM U A PortalId) s = (.ok p, s) := by
      unfold World.bestPortal; rw [hs]
    rw [e]
    exact ⟨.refl hw, fun b h => (by cases h; exact ⟨rfl, hp⟩), fun _ h => (by cases h)⟩

theorem sp_readObj (i : Nat) (a : A) (p : Option PortalId) : Sp addrOf K c (fun s => IsAddr s i a p)
    (readObj i : PM U A (AddrObj A (Val U A))) (fun o _ => o.chain = a ∧ o.portal = p)
    (fun _ _ => False) :=
  Sp.ofGen (gen_readObj i) fun s ho hw hc ⟨o, h1, h2⟩ => by
    rw [ValueAddr.readObj_run i o s h1]
    exact ⟨fun b hb => (by cases hb; exact h2), fun _ h => (by cases h)⟩

theorem sp_alloc (o : AddrObj A (Val U A)) (h : o.value = none) : Sp addrOf K c (fun _ => True)
    (alloc o : PM U A Nat) (fun i s => IsAddr s i o.chain o.portal) (fun _ _ => False) :=
  Sp.ofGen (gen_alloc o h) fun s ho hw hc _ =>
    ⟨fun b hb => (by cases hb; exact ⟨o, (ValueAddr.has_alloc o s).2, rfl, rfl⟩), fun _ h => (by cases h)⟩

theorem sp_storeHas (q : PortalId) (a : A) : Sp addrOf K c P (storeHas q a : PM U A Bool)
    (fun b s => P s ∧ b = ((s.store q).data a).isSome) X :=
  fun s ho hw hc hp => ⟨.refl hw, fun b h => (by cases h; exact ⟨hp, rfl⟩), fun _ h => (by cases h)⟩

theorem sp_storeSet (hinj : Function.Injective addrOf) (q : PortalId) (v : Val U A) :
    Sp addrOf K c (fun _ => True) (storeSet q (addrOf v) v : PM U A Unit)
      (fun _ s => HoldsVal s q (addrOf v) v) (fun _ _ => False) :=
  Sp.ofGen (fun s ho hw _ _ => ⟨⟨Keeps.storeSet q _ v s ho, hw.low (low_storeSet q _ v s)
      (ValueAddr.Resp.storeSetGrow q _ v s) (ValueAddr.integ_storeSet addrOf q _ v rfl s hw.integ),
      Ev.low (low_storeSet q _ v s) (ValueAddr.Resp.storeSetGrow q _ v s)⟩,
      fun _ _ => trivial, fun _ _ => trivial⟩) fun s ho hw hc _ => by
    have hf := ValueAddr.free_of (v := v) hw.integ (fun v' h => hinj h) q
    obtain ⟨s', e, hw'⟩ := ValueAddr.storeSet_ok q (addrOf v) v s hf
    rw [e]
    refine ⟨fun b h => ?_, fun _ h => (by cases h)⟩
    show (s'.store q).data _ = _
    rw [hw'.store]
    rcases hf with h | h <;> simp [h]

theorem sp_updReady (i : Nat) : Sp addrOf K c (fun _ => True)
    (updObj i (fun x => { x with ready := true }) : PM U A Unit) (fun _ _ => True) (fun _ _ => False) :=
  Sp.ofGen (gen_low (Keeps.updObj i _) (low_upd i _) (ValueAddr.Resp.readyGrow i)
    (fun s hs => ValueAddr.integ_upd addrOf i _ s hs (fun o ho v hv => hs.2 i o ho v hv)))
    fun s _ _ _ _ => ⟨fun _ _ => trivial, fun _ h => (by cases h)⟩

theorem fr_isAddr (i : Nat) (a : A) (p : Option PortalId) : Fr (fun s : PWorld U A => IsAddr s i a p) :=
  fun _ _ _ _ _ _ h => h
theorem fr_const (b : Prop) : Fr (fun s : PWorld U A => b) := fun _ _ _ _ _ _ h => h

/-- conversion keeps the text -/
theorem sp_conv_has (hinj : Function.Injective addrOf) (j : Nat) (a : A) (q : PortalId) :
    Sp addrOf K (some q) (fun s => Has j a s) (ValueAddr.conv j none : PM U A Nat)
      (fun i s => IsAddr s i a (some q)) (fun _ _ => True) := by
  refine Sp.bind (sp_bestPortal q (P := fun s => Has j a s)) fun q' => ?_
  refine (Sp.fact (G := q' = q) (P := fun s => Has j a s) fun e => ?_).pre fun s h => ⟨h.2, h.1⟩
  subst e
  refine Sp.withP (P := fun s => Has j a s) (Q := fun i s => IsAddr s i a (some q'))
    (fun _ _ _ _ _ _ h => h) (fun _ _ _ _ _ _ _ h => h) (fun _ => fr_true) ?_
  refine Sp.seq (F := fun s => Has j a s) (Q := fun d _ => d.chain = a) (X0 := fun _ _ => True)
    (P := fun s => Has j a s) ?_ (mono_has j a) (fun s h => ⟨h, h⟩) (fun _ _ _ _ => trivial) fun d => ?_
  · exact Sp.ofGen (gen_readObj j) fun s ho hw hc ⟨o, h1, h2⟩ => by
      rw [ValueAddr.readObj_run j o s h1]
      exact ⟨fun b hb => (by cases hb; exact h2), fun _ _ => trivial⟩
  refine (Sp.fact (G := d.chain = a) (P := fun s => Has j a s) fun e => ?_).pre fun s h => ⟨h.2, h.1⟩
  subst e
  refine Sp.seq (sp_alloc _ rfl) (mono_has j d.chain) (fun s h => ⟨trivial, h⟩)
    (fun _ _ h _ => h.elim) fun i => ?_
  refine Sp.bind (sp_storeHas q' d.chain) fun b => ?_
  refine Sp.ite (fun _ => ?_) (fun _ => ?_)
  · refine Sp.seq (sp_get_has j d.chain) (mono_isAddr i d.chain (some q')) (fun s h => ⟨h.1.2, h.1.1⟩)
      (fun _ _ _ _ => trivial) fun data => ?_
    refine (Sp.fact (G := addrOf data = d.chain) (P := fun s => IsAddr s i d.chain (some q')) fun e => ?_).pre fun s h => ⟨h.2, h.1⟩
    rw [← e]
    refine Sp.seq (sp_storeSet hinj q' data) (mono_isAddr i (addrOf data) (some q'))
      (fun s h => ⟨trivial, h⟩) (fun _ _ _ _ => trivial) fun _ => ?_
    refine Sp.seq (sp_updReady i) (mono_isAddr i (addrOf data) (some q'))
      (fun s h => ⟨trivial, h.2⟩) (fun _ _ _ _ => trivial) fun _ => ?_
    exact Sp.pure fun s h => h.2
  · refine Sp.seq (sp_updReady i) (mono_isAddr i d.chain (some q'))
      (fun s h => ⟨trivial, h.1.1⟩) (fun _ _ _ _ => trivial) fun _ => ?_
    exact Sp.pure fun s h => h.2

theorem sp_convBody_held (hinj : Function.Injective addrOf) (j : Nat) (v : Val U A) (dp q' : PortalId) :
    Sp addrOf K (some q') (fun s => IsAddr s j (addrOf v) (some dp) ∧ HoldsVal s dp (addrOf v) v)
      (ValueAddr.convBody j q' : PM U A Nat)
      (fun i s => IsAddr s i (addrOf v) (some q') ∧ HoldsVal s q' (addrOf v) v) (fun _ _ => False) := by
  have hmo : Mono addrOf K (fun s => IsAddr s j (addrOf v) (some dp) ∧ HoldsVal s dp (addrOf v) v) :=
    (mono_isAddr j _ _).and (mono_holds dp _ v)
  refine Sp.seq (sp_readObj j (addrOf v) (some dp)) hmo (fun s h => ⟨h.1, h⟩)
    (fun _ _ h _ => h) fun d => ?_
  refine (Sp.fact (G := d.chain = addrOf v ∧ d.portal = some dp)
    (P := fun s => IsAddr s j (addrOf v) (some dp) ∧ HoldsVal s dp (addrOf v) v) fun e => ?_).pre fun s h => ⟨h.2, h.1⟩
  rw [e.1, e.2]
  refine Sp.seq (sp_alloc _ rfl) hmo (fun s h => ⟨trivial, h⟩) (fun _ _ h _ => h.elim) fun i => ?_
  refine Sp.bind (sp_storeHas q' (addrOf v)) fun b => ?_
  refine Sp.ite (fun _ => ?_) (fun hb => ?_)
  · refine Sp.seq (sp_get_held hinj j v dp) (mono_isAddr i _ (some q')) (fun s h => ⟨h.1.2, h.1.1⟩)
      (fun _ _ h _ => h) fun data => ?_
    refine (Sp.fact (G := data = v) (P := fun s => IsAddr s i (addrOf v) (some q')) fun e => ?_).pre fun s h => ⟨h.2, h.1⟩
    subst e
    refine Sp.seq (sp_storeSet hinj q' data) (mono_isAddr i (addrOf data) (some q'))
      (fun s h => ⟨trivial, h⟩) (fun _ _ h _ => h) fun _ => ?_
    refine Sp.seq (sp_updReady i) ((mono_holds q' _ data).and (mono_isAddr i (addrOf data) (some q')))
      (fun s h => ⟨trivial, h⟩) (fun _ _ h _ => h) fun _ => ?_
    exact Sp.pure fun s h => ⟨h.2.2, h.2.1⟩
  · have : Sp addrOf K (some q') (fun s => IsAddr s i (addrOf v) (some q') ∧ HoldsVal s q' (addrOf v) v)
        (do updObj i (fun x => { x with ready := true }); pure i : PM U A Nat)
        (fun i s => IsAddr s i (addrOf v) (some q') ∧ HoldsVal s q' (addrOf v) v) (fun _ _ => False) :=
      Sp.seq (sp_updReady i) ((mono_isAddr i _ (some q')).and (mono_holds q' _ v))
        (fun s h => ⟨trivial, h⟩) (fun _ _ h _ => h) fun _ => Sp.pure fun s h => h.2
    intro s ho hw hc hp
    refine this s ho hw hc ⟨hp.1.1, ?_⟩
    by_cases hq : q' = dp
    · subst hq; exact hp.1.2.2
    · have hb' : b ≠ false := fun h => hb ⟨by simpa using hq, h⟩
      rw [hp.2] at hb'
      rcases ValueAddr.free_of (v := v) hw.integ (fun v' h => hinj h) q' with h | h
      · simp [h] at hb'
      · exact h

/-- an argument address whose value can be found is converted to one in the current portal -/
theorem sp_conv_held (hinj : Function.Injective addrOf) (j : Nat) (v : Val U A) (dp q : PortalId) :
    Sp addrOf K (some q) (fun s => IsAddr s j (addrOf v) (some dp) ∧ HoldsVal s dp (addrOf v) v)
      (ValueAddr.conv j none : PM U A Nat)
      (fun i s => IsAddr s i (addrOf v) (some q) ∧ HoldsVal s q (addrOf v) v) (fun _ _ => False) := by
  refine Sp.bind (sp_bestPortal q) fun q' => ?_
  refine (Sp.fact (G := q' = q) (P := fun s => IsAddr s j (addrOf v) (some dp) ∧ HoldsVal s dp (addrOf v) v) fun e => ?_).pre
    fun s h => ⟨h.2, h.1⟩
  subst e
  exact Sp.withP (fun _ _ _ _ _ _ h => h) (fun _ _ _ _ _ _ _ h => h) (fun _ => fr_false) (sp_convBody_held hinj j v dp q')

end Pyth.Pure
