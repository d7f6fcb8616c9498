import Verif.Proofs.PureRes
/-! Result addresses: function, arguments, readiness, requests. -/
set_option linter.unusedSectionVars false
set_option linter.unusedVariables false
set_option linter.unusedSimpArgs false
namespace Pyth.Pure
open Pyth.World Pyth.Portal
open Pyth.ValueAddr (Grow growFree Integ integFree IsAddr HoldsVal Has)

variable {U A α β : Type} [DecidableEq U] [DecidableEq A] {addrOf : Val U A → A}
  {K : Accept U} {c : Option PortalId}
  {P P' F G : PWorld U A → Prop} {X X0 : Kind → PWorld U A → Prop}

theorem Sp.useW {m : PM U A α} {Q : α → PWorld U A → Prop}
    (h : Sp addrOf K c (fun s => P' s) m Q X) (hp : ∀ s, W addrOf K s → P s → P' s) :
    Sp addrOf K c P m Q X := fun s a b d e => h s a b d (hp s b e)

theorem fr_ris (r : Nat) (k : Key A) (p : PortalId) : Fr (fun s : PWorld U A => RIs s r k p) :=
  fun _ _ _ _ _ _ h => h
theorem fr_rd (r : Nat) (f : FnId) (vals : List (String × U)) (p : PortalId) :
    Fr (fun s : PWorld U A => RD addrOf s r f vals p) := fun _ _ _ _ _ _ h => h

theorem ris_text {s : PWorld U A} {r : Nat} {k : Key A} {p : PortalId} (hw : W addrOf K s)
    (h : RIs s r k p) : ∃ ts, SigOf addrOf k ts := by
  obtain ⟨o, h1, h2, h3⟩ := h
  obtain ⟨ts, h4, _⟩ := hw.obj r o h1
  rw [h2] at h4
  exact ⟨ts, h4⟩

/-- reading the attributes of a known object -/
theorem sp_readK (r : Nat) (k : Key A) (p : PortalId) : Sp addrOf K c (fun s => RIs s r k p)
    (readR r : PM U A (RObj U A)) (fun o s => (o.key = k ∧ o.portal = p) ∧ ObjOK addrOf K s o ∧ RIs s r k p) X := by
  refine (sp_readR r fun s h => ?_).conseq (fun s h => h) (fun o s h => ?_) (fun _ _ h => h)
  · obtain ⟨o, h1, _⟩ := h; exact ⟨o, h1⟩
  · obtain ⟨o', h1, h2, h3⟩ := h.2.2
    have := h.1
    rw [h1] at this; cases this
    exact ⟨⟨h2, h3⟩, h.2.1, h.2.2⟩

theorem mono_objOK (o : RObj U A) : Mono addrOf K (fun s => ObjOK addrOf K s o) :=
  fun s s' e w h => h.ev e

theorem sp_rValueAddr (r : Nat) (k : Key A) (p : PortalId) : Sp addrOf K c (fun s => RIs s r k p)
    (rValueAddr r : PM U A Nat) (fun i s => IsAddr s i k.2 (some p)) (fun _ _ => True) := by
  refine Sp.bind (sp_readK r k p) fun o => Sp.gain fun e => ?_
  rw [e.1, e.2]
  exact Sp.withP (fun _ _ _ _ _ _ h => h) (fun _ _ _ _ _ _ _ h => h) (fun _ => fr_true)
    ((sp_fromStrings k.2 p).pre fun _ _ => trivial)

theorem sp_rValueAddr_held (r : Nat) (k : Key A) (p : PortalId) (v : Val U A) :
    Sp addrOf K c (fun s => RIs s r k p ∧ HoldsVal s p k.2 v)
    (rValueAddr r : PM U A Nat) (fun i s => IsAddr s i k.2 (some p)) (fun _ _ => False) := by
  refine Sp.seq (sp_readK (X := fun _ _ => False) r k p) (mono_holds p k.2 v) (fun s h => h) (fun _ _ h _ => h) fun o => ?_
  refine (Sp.gain (B := o.key = k ∧ o.portal = p) (P := fun s => HoldsVal s p k.2 v) fun e => ?_).pre
    fun s h => ⟨h.1.1, h.2⟩
  rw [e.1, e.2]
  exact Sp.withP (fun _ _ _ _ _ _ h => h) (fun _ _ _ _ _ _ _ h => h) (fun _ => fr_false)
    (sp_fromStrings_held k.2 p v)

theorem sp_capture (p : PortalId) : Sp addrOf K (some p) P (capturePortal : PM U A (Option PortalId))
    (fun q s => q = some p ∧ P s) X :=
  fun s ho hw hc hp => ⟨.refl hw, fun b h => (by
    cases h; exact ⟨hc p rfl, hp⟩), fun _ h => (by cases h)⟩

theorem sp_rSignature (hinj : Function.Injective addrOf) (r : Nat) (k : Key A) (p : PortalId) :
    Sp addrOf K (some p) (fun s => RIs s r k p) (rSignature r : PM U A (Nat × Nat))
      (fun x s => ∃ ts, SigOf addrOf k ts ∧ IsAddr s x.1 (addrOf (.fn k.1)) (some p) ∧
        IsAddr s x.2 (addrOf (.args ts)) (some p)) (fun _ _ => True) := by
  refine Sp.useW (P' := fun s => ∃ ts, SigOf addrOf k ts ∧ RIs s r k p) (Sp.exI fun ts => Sp.gain fun ek => ?_)
    fun s hw h => ⟨(ris_text hw h).choose, (ris_text hw h).choose_spec, h⟩
  refine Sp.bind (sp_rValueAddr r k p) fun sa => ?_
  refine Sp.bind ((sp_get_has sa k.2).pre fun s h => has_of_isAddr h) fun v => ?_
  refine (Sp.gain (B := addrOf v = k.2) (P := fun _ => True) fun e => ?_).pre fun s h => ⟨h, trivial⟩
  have hv : v = .sig k.1 (addrOf (.fn k.1)) (addrOf (.args ts)) := hinj (e.trans ek.1)
  subst hv
  refine Sp.bind (sp_capture p (P := fun _ => True)) fun q => Sp.gain fun e => ?_
  subst e
  refine Sp.bind (sp_alloc _ rfl).true fun i => ?_
  refine Sp.seq (sp_alloc { chain := addrOf (.args ts), portal := some p } rfl)
    (mono_isAddr i (addrOf (.fn k.1)) (some p)) (fun s h => ⟨trivial, h⟩) (fun _ _ _ _ => trivial) fun j => ?_
  exact Sp.pure fun s h => ⟨ts, ek, h.2, h.1⟩

theorem sp_rSignature_rd (hinj : Function.Injective addrOf) (r : Nat) (f : FnId)
    (vals : List (String × U)) (p : PortalId) :
    Sp addrOf K (some p) (fun s => RD addrOf s r f vals p) (rSignature r : PM U A (Nat × Nat))
      (fun x s => IsAddr s x.1 (addrOf (.fn f)) (some p) ∧
        IsAddr s x.2 (addrOf (.args (texts addrOf vals))) (some p)) (fun _ _ => False) := by
  refine Sp.seq (sp_rValueAddr_held r (callKey addrOf f vals) p
    (.sig f (addrOf (.fn f)) (addrOf (.args (texts addrOf vals))))) (mono_rd hinj r f vals p)
    (fun s h => ⟨⟨h.ris, h.choose_spec.2.2.2.2.1⟩, h⟩) (fun _ _ h _ => h) fun sa => ?_
  refine Sp.bind ((sp_get_held hinj sa (.sig f (addrOf (.fn f)) (addrOf (.args (texts addrOf vals)))) p).pre
    fun s h => ⟨h.1, h.2.choose_spec.2.2.2.2.1⟩) fun v => ?_
  refine (Sp.gain (B := v = .sig f (addrOf (.fn f)) (addrOf (.args (texts addrOf vals)))) (P := fun _ => True) fun e => ?_).pre
    fun s h => ⟨h, trivial⟩
  subst e
  refine Sp.bind (sp_capture p (P := fun _ => True)) fun q => Sp.gain fun e => ?_
  subst e
  refine Sp.bind (sp_alloc _ rfl) fun i => ?_
  refine Sp.seq (sp_alloc { chain := addrOf (.args (texts addrOf vals)), portal := some p } rfl)
    (mono_isAddr i (addrOf (.fn f)) (some p)) (fun s h => ⟨trivial, h⟩) (fun _ _ h _ => h) fun j => ?_
  exact Sp.pure fun s h => ⟨h.2, h.1⟩

theorem sp_rFunction (hinj : Function.Injective addrOf) (r : Nat) (k : Key A) (p : PortalId) :
    Sp addrOf K c (fun s => RIs s r k p) (rFunction r : PM U A FnId) (fun f _ => f = k.1)
      (fun _ _ => True) := by
  refine Sp.bind (sp_readK r k p) fun o => Sp.gain fun e => ?_
  obtain ⟨rfl, rfl⟩ := e
  cases ho : o.fn with
  | some f =>
    refine Sp.pure fun s h => ?_
    obtain ⟨ts, h1, h2, _⟩ := h.1
    exact h2 f ho
  | none =>
    refine Sp.withP (P := fun s => RIs s r o.key o.portal) (Q := fun f _ => f = o.key.1)
      (fr_ris _ _ _) (fun _ _ _ _ _ _ _ h => h) (fun _ => fr_true) ?_ |>.pre fun s h => h.2
    refine Sp.seq (sp_rSignature hinj r o.key o.portal) (mono_ris r o.key o.portal) (fun s h => ⟨h, h⟩)
      (fun _ _ _ _ => trivial) fun x => ?_
    obtain ⟨i, j⟩ := x
    refine Sp.seq (sp_get_has i (addrOf (.fn o.key.1))) (mono_ris r o.key o.portal)
      (fun s h => ⟨?_, h.2⟩) (fun _ _ _ _ => trivial) fun v => Sp.gain fun e => ?_
    · obtain ⟨⟨ts, _, h2, _⟩, _⟩ := h
      exact has_of_isAddr h2
    · cases hinj e
      exact Sp.bind (sp_updRFn r o.key o.portal).true fun _ => Sp.pure fun s h => rfl

theorem sp_rFunction_rd (hinj : Function.Injective addrOf) (r : Nat) (f : FnId)
    (vals : List (String × U)) (p : PortalId) :
    Sp addrOf K c (fun s => RD addrOf s r f vals p) (rFunction r : PM U A FnId) (fun g _ => g = f)
      (fun _ _ => False) := by
  refine Sp.seq (sp_readK (X := fun _ _ => False) r (callKey addrOf f vals) p) (mono_rd hinj r f vals p) (fun s h => ⟨h.ris, h⟩)
    (fun _ _ h _ => h) fun o => ?_
  refine (Sp.gain (B := o.key = callKey addrOf f vals ∧ o.portal = p)
    (P := fun s => ObjOK addrOf K s o ∧ RD addrOf s r f vals p) fun e => ?_).pre
    fun s h => ⟨h.1.1, h.1.2.1, h.2⟩
  rw [e.2]
  cases ho : o.fn with
  | some g =>
    refine Sp.pure fun s h => ?_
    obtain ⟨ts, h1, h2, _⟩ := h.1
    rw [h2 g ho, e.1]; rfl
  | none =>
    refine Sp.withP (P := fun s => RD addrOf s r f vals p) (Q := fun g _ => g = f)
      (fr_rd _ _ _ _) (fun _ _ _ _ _ _ _ h => h) (fun _ => fr_false) ?_ |>.pre fun s h => h.2
    refine Sp.seq (sp_rSignature_rd hinj r f vals p) (mono_rd hinj r f vals p) (fun s h => ⟨h, h⟩)
      (fun _ _ h _ => h) fun x => ?_
    obtain ⟨i, j⟩ := x
    refine Sp.seq (sp_get_held hinj i (.fn f) p) (mono_rd hinj r f vals p)
      (fun s h => ⟨⟨h.1.1, h.2.choose_spec.2.2.2.2.2.1⟩, h.2⟩) (fun _ _ h _ => h) fun v => Sp.gain fun e' => ?_
    subst e'
    exact Sp.bind ((sp_updRFn r (callKey addrOf f vals) p).pre fun s h => h.ris) fun _ => Sp.pure fun s h => rfl

/-- arguments restored from the store -/
theorem sp_allocArgs (p : PortalId) (ts : List (String × A)) :
    Sp addrOf K c (fun _ => True) (allocArgs (some p) ts : PM U A (Kw U))
      (fun l s => Match addrOf s l ts ∧ BoundTo s p l) (fun _ _ => False) := by
  induction ts with
  | nil => exact Sp.pure fun s _ => ⟨.nil, fun _ h => by simp at h⟩
  | cons x ts ih =>
    obtain ⟨k, a⟩ := x
    refine Sp.bind (sp_alloc _ rfl) fun i => ?_
    refine Sp.seq ih (mono_isAddr i a (some p)) (fun s h => ⟨trivial, h⟩) (fun _ _ h _ => h) fun l => ?_
    refine Sp.pure fun s h => ⟨.cons ⟨rfl, has_of_isAddr h.2⟩ h.1.1, fun x hx => ?_⟩
    rcases List.mem_cons.1 hx with rfl | hx
    · exact ⟨i, a, rfl, h.2⟩
    · exact h.1.2 x hx

theorem sp_updRArgs (r : Nat) (k : Key A) (p : PortalId) (l : Kw U) (ts : List (String × A))
    (hk : SigOf addrOf k ts) :
    Sp addrOf K c (fun s => RIs s r k p ∧ Match addrOf s l ts ∧ BoundTo s p l)
      (updR r (fun x => { x with args := some l }) : PM U A Unit) (fun _ _ => True) (fun _ _ => False) :=
  sp_updR r k p _ fun s o hw hp e1 e2 ⟨ts', h1, h2, h3, h4, h5⟩ =>
    ⟨⟨ts, by rw [e1]; exact hk, h2, fun l' hl => (by cases hl; exact hp.1), h4, h5⟩,
      ⟨rfl, rfl, id, fun _ => id, fun l' h => (by cases h; rw [e2]; exact .inr hp.2), id⟩⟩

/-- the arguments of a call address, as objects -/
theorem sp_rArguments (hinj : Function.Injective addrOf) (r : Nat) (k : Key A) (p : PortalId) :
    Sp addrOf K c (fun s => RIs s r k p) (rArguments r : PM U A (Kw U))
      (fun l s => ∃ ts, SigOf addrOf k ts ∧ Match addrOf s l ts) (fun _ _ => True) := by
  refine Sp.bind (sp_readK r k p) fun o => Sp.gain fun e => ?_
  obtain ⟨rfl, rfl⟩ := e
  cases ho : o.args with
  | some l =>
    refine Sp.pure fun s h => ?_
    obtain ⟨ts, h1, _, h3, _⟩ := h.1
    exact ⟨ts, h1, h3 l ho⟩
  | none =>
    refine Sp.withP (P := fun s => RIs s r o.key o.portal)
      (fr_ris _ _ _) (fun _ _ _ _ _ _ _ h => h) (fun _ => fr_true) ?_ |>.pre fun s h => h.2
    refine Sp.seq (sp_rSignature hinj r o.key o.portal) (mono_ris r o.key o.portal) (fun s h => ⟨h, h⟩)
      (fun _ _ _ _ => trivial) fun x => ?_
    obtain ⟨i, j⟩ := x
    refine (Sp.exI (P := fun ts s => SigOf addrOf o.key ts ∧ IsAddr s j (addrOf (.args ts)) (some o.portal) ∧
      RIs s r o.key o.portal) fun ts => Sp.gain fun ek => ?_).pre fun s ⟨⟨ts, h1, h2, h3⟩, h4⟩ => ⟨ts, h1, h3, h4⟩
    refine Sp.seq (sp_get_has j (addrOf (.args ts))) (mono_ris r o.key o.portal)
      (fun s h => ⟨has_of_isAddr h.1, h.2⟩) (fun _ _ _ _ => trivial) fun v => Sp.gain fun e => ?_
    cases hinj e
    refine Sp.bind (sp_capture o.portal) fun q => Sp.gain fun e => ?_
    subst e
    refine Sp.seq (sp_allocArgs o.portal ts) (mono_ris r o.key o.portal) (fun s h => ⟨trivial, h⟩)
      (fun _ _ _ _ => trivial) fun l => ?_
    refine Sp.seq (sp_updRArgs r o.key o.portal l ts ek) (mono_match l ts) (fun s h => ⟨⟨h.2, h.1⟩, h.1.1⟩)
      (fun _ _ _ _ => trivial) fun _ => Sp.pure fun s h => ⟨ts, ek, h.2⟩

theorem ris_sig (hinj : Function.Injective addrOf) {s : PWorld U A} {r : Nat} {f : FnId}
    {vals : List (String × U)} {p : PortalId} (hw : W addrOf K s)
    (h : RIs s r (callKey addrOf f vals) p) : SigOf addrOf (callKey addrOf f vals) (texts addrOf vals) := by
  obtain ⟨ts, e⟩ := ris_text hw h
  have := (sigText_inj hinj e.1).2
  rw [this]
  exact e

theorem sp_rArguments_rd (hinj : Function.Injective addrOf) (r : Nat) (f : FnId)
    (vals : List (String × U)) (p : PortalId) :
    Sp addrOf K c (fun s => RD addrOf s r f vals p) (rArguments r : PM U A (Kw U))
      (fun l s => DenKw addrOf s l vals) (fun _ _ => False) := by
  refine Sp.useW (P' := fun s => SigOf addrOf (callKey addrOf f vals) (texts addrOf vals) ∧ RD addrOf s r f vals p)
    (Sp.gain fun hsig => ?_) fun s hw h => ⟨ris_sig hinj hw h.ris, h⟩
  refine Sp.bind (Q := fun o s => (o.portal = p ∧ ∀ l, o.args = some l → DenKw addrOf s l vals) ∧ RD addrOf s r f vals p)
    ((sp_readR r fun s h => ⟨h.choose, h.choose_spec.1⟩).conseq (fun s h => h) (fun o s h => ?_) (fun _ _ h => h))
    fun o => ?_
  · obtain ⟨o', h1, h2, h3, h4, h5⟩ := h.2.2
    have := h.1
    rw [h1] at this; cases this
    exact ⟨⟨h3, h4⟩, h.2.2⟩
  refine (Sp.gain (B := o.portal = p)
    (P := fun s => (∀ l, o.args = some l → DenKw addrOf s l vals) ∧ RD addrOf s r f vals p) fun e => ?_).pre
    fun s h => ⟨h.1.1, h.1.2, h.2⟩
  subst e
  cases ho : o.args with
  | some l => exact Sp.pure fun s h => h.1 l rfl
  | none =>
    refine Sp.withP (P := fun s => RD addrOf s r f vals o.portal)
      (fr_rd _ _ _ _) (fun _ _ _ _ _ _ _ h => h) (fun _ => fr_false) ?_ |>.pre fun s h => h.2
    refine Sp.seq (sp_rSignature_rd hinj r f vals o.portal) (mono_rd hinj r f vals o.portal) (fun s h => ⟨h, h⟩)
      (fun _ _ h _ => h) fun x => ?_
    obtain ⟨i, j⟩ := x
    refine Sp.seq (sp_get_held hinj j (.args (texts addrOf vals)) o.portal) (mono_rd hinj r f vals o.portal)
      (fun s h => ⟨⟨h.1.2, h.2.choose_spec.2.2.2.2.2.2.1⟩, h.2⟩) (fun _ _ h _ => h) fun v => Sp.gain fun e' => ?_
    subst e'
    refine Sp.bind (sp_capture o.portal) fun q => Sp.gain fun e => ?_
    subst e
    refine Sp.seq (sp_allocArgs o.portal (texts addrOf vals)) (mono_rd hinj r f vals o.portal) (fun s h => ⟨trivial, h⟩)
      (fun _ _ h _ => h) fun l => ?_
    refine Sp.seq (sp_updRArgs r (callKey addrOf f vals) o.portal l (texts addrOf vals) hsig)
      (F := fun s => DenKw addrOf s l vals) (mono_denKw l vals)
      (fun s h => ⟨⟨h.2.ris, h.1⟩, denKw_bound h.1.2 h.1.1 h.2.choose_spec.2.2.2.2.2.2.2⟩)
      (fun _ _ h _ => h) fun _ => Sp.pure fun s h => h.2

/-! ### unpacking -/

theorem sp_getUser (hinj : Function.Injective addrOf) (i : Nat) : Sp addrOf K c (fun _ => True)
    (getUser i : PM U A U) (fun u s => Has i (addrOf (.user u)) s) (fun _ _ => True) := by
  refine Sp.em (P1 := fun s => ∃ a, Has i a s) (P2 := fun s => s.heap[i]? = none) (Sp.exI fun a => ?_) ?_ ?_
  · refine Sp.seq (sp_get_has i a) (mono_has i a) (fun s h => ⟨h, h⟩) (fun _ _ _ _ => trivial)
      fun v => Sp.gain fun e => ?_
    subst e
    cases v with
    | user u => exact Sp.pure fun s h => h
    | _ => exact Sp.raiseNew (fun _ _ _ _ _ _ h => h) fun _ _ => trivial
  · have hg : Gen addrOf K c (getUser i : PM U A U) := by
      refine Gen.bind (gen_vget i) fun v => ?_
      cases v with
      | user u => exact Gen.pure u
      | _ => exact Gen.raiseNew _
    refine Sp.ofGen hg fun s ho hw hc hp => ⟨fun u hu => ?_, fun _ _ => trivial⟩
    exfalso
    unfold getUser ValueAddr.get at hu
    rw [PyM.run_bind, PyM.run_bind, ValueAddr.readObj_none i s hp] at hu
    simp [World.raiseNew] at hu
  · intro s _
    cases h : s.heap[i]? with
    | none => exact .inr rfl
    | some o => exact .inl ⟨o.chain, o, h, rfl⟩

theorem sp_getUser_den (hinj : Function.Injective addrOf) (i : Nat) (u : U) :
    Sp addrOf K c (fun s => Denotes addrOf s (.addr i) u) (getUser i : PM U A U) (fun u' _ => u' = u)
      (fun _ _ => False) := by
  refine Sp.exI fun q => ?_
  refine Sp.bind (sp_get_held hinj i (.user u) q) fun v => ?_
  refine (Sp.gain (B := v = .user u) (P := fun _ => True) fun e => ?_).pre fun s h => ⟨h, trivial⟩
  subst e
  exact Sp.pure fun _ _ => rfl

theorem sp_unpack (hinj : Function.Injective addrOf) (kw : Kw U) : Sp addrOf K c (fun _ => True)
    (unpack kw : PM U A (List (String × U))) (fun vals s => Match addrOf s kw (texts addrOf vals))
    (fun _ _ => True) := by
  induction kw with
  | nil => exact Sp.pure fun s _ => .nil
  | cons x kw ih =>
    obtain ⟨k, v⟩ := x
    cases v with
    | raw u => exact Sp.bind ih fun r => Sp.pure fun s h => .cons ⟨rfl, rfl⟩ h
    | addr i =>
      refine Sp.bind (sp_getUser hinj i) fun u => ?_
      exact Sp.seq ih (mono_has i _) (fun s h => ⟨trivial, h⟩) (fun _ _ _ _ => trivial) fun r =>
        Sp.pure fun s h => .cons ⟨rfl, h.2⟩ h.1

theorem sp_unpack_den (hinj : Function.Injective addrOf) (kw : Kw U) : ∀ (vals : List (String × U)),
    Sp addrOf K c (fun s => DenKw addrOf s kw vals)
    (unpack kw : PM U A (List (String × U))) (fun r s => r = vals) (fun _ _ => False) := by
  induction kw with
  | nil =>
    intro vals
    exact Sp.pure fun s h => by cases h; rfl
  | cons x kw ih =>
    intro vals
    obtain ⟨k, v⟩ := x
    cases vals with
    | nil => exact fun s _ _ _ h => by cases h
    | cons y vals =>
    obtain ⟨k', u⟩ := y
    have hk : Sp addrOf K c (fun s => k = k' ∧ Denotes addrOf s v u ∧ DenKw addrOf s kw vals)
        (unpack ((k, v) :: kw) : PM U A (List (String × U))) (fun r s => r = (k', u) :: vals)
        (fun _ _ => False) := by
      refine Sp.gain fun e => ?_
      subst e
      cases v with
      | raw u' =>
        refine (Sp.gain (B := u' = u) (P := fun s => DenKw addrOf s kw vals) fun e => ?_).pre fun s h => h
        subst e
        exact Sp.bind (ih vals) fun r => Sp.pure fun s h => by rw [h]
      | addr i =>
        refine Sp.seq (sp_getUser_den hinj i u) (mono_denKw kw vals) (fun s h => h) (fun _ _ h _ => h)
          fun w => Sp.gain fun e => ?_
        subst e
        exact Sp.bind (ih vals) fun r => Sp.pure fun s h => by rw [h]
    refine hk.pre fun s h => ?_
    cases h with
    | cons a b => exact ⟨a.1, a.2, b⟩

theorem sp_rKwargs (hinj : Function.Injective addrOf) (r : Nat) (k : Key A) (p : PortalId) :
    Sp addrOf K c (fun s => RIs s r k p) (rKwargs r : PM U A (List (String × U)))
      (fun vals s => k = callKey addrOf k.1 vals) (fun _ _ => True) := by
  refine Sp.bind (sp_readK r k p) fun o => Sp.gain fun e => ?_
  obtain ⟨rfl, rfl⟩ := e
  refine Sp.withP (P := fun s => RIs s r o.key o.portal) (fr_ris _ _ _) (fun _ _ _ _ _ _ _ h => h) (fun _ => fr_true) ?_
    |>.pre fun s h => h.2
  refine Sp.bind (sp_rArguments hinj r o.key o.portal) fun l => Sp.exI fun ts => Sp.gain fun ek => ?_
  exact ((sp_unpack hinj l).keep (mono_match l ts)).conseq (fun s h => ⟨trivial, h⟩)
    (fun vals s h => by unfold callKey; rw [h.1.unique h.2, ← ek.1]) (fun _ _ h => trivial)

theorem sp_rKwargs_rd (hinj : Function.Injective addrOf) (r : Nat) (f : FnId)
    (vals : List (String × U)) (p : PortalId) :
    Sp addrOf K c (fun s => RD addrOf s r f vals p) (rKwargs r : PM U A (List (String × U)))
      (fun l s => l = vals) (fun _ _ => False) := by
  refine Sp.seq (sp_readK (X := fun _ _ => False) r (callKey addrOf f vals) p) (mono_rd hinj r f vals p) (fun s h => ⟨h.ris, h⟩)
    (fun _ _ h _ => h) fun o => ?_
  refine (Sp.gain (B := o.portal = p) (P := fun s => RD addrOf s r f vals p) fun e => ?_).pre
    fun s h => ⟨h.1.1.2, h.2⟩
  subst e
  refine Sp.withP (fr_rd _ _ _ _) (fun _ _ _ _ _ _ _ h => h) (fun _ => fr_false) ?_
  refine Sp.bind (sp_rArguments_rd hinj r f vals o.portal) fun l => ?_
  exact sp_unpack_den hinj l vals

end Pyth.Pure
