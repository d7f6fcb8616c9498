import Verif.Proofs.PurePureExec
import Verif.Spec.PureHistory
/-! Calls, execution through addresses, batches. -/
set_option linter.unusedSectionVars false
set_option linter.unusedVariables false
set_option linter.unusedSimpArgs false
namespace Pyth.Pure
open Pyth.World Pyth.Portal
open Pyth.ValueAddr (Grow growFree Integ integFree IsAddr HoldsVal Has)

variable {U A α β : Type} [DecidableEq U] [DecidableEq A] {addrOf : Val U A → A}
  {K : Accept U} {c : Option PortalId}
  {P P' F G : PWorld U A → Prop} {X X0 : Kind → PWorld U A → Prop} {E : Prop}
  {R S N : Prop} {prog : FnId → Fn U} {n : Nat}

/-- nested calls behave, at every depth -/
theorem recOK_exec (hinj : Function.Injective addrOf) (hm : Mode K E prog) (p : PortalId) :
    ∀ n, RecOK addrOf K E prog n (exec addrOf prog p n) := by
  intro n
  induction n with
  | zero =>
    intro c g kw vals hp
    exact Sp.raiseNew (P := fun s => E ∨ DenKw addrOf s kw vals) (fun _ _ _ _ _ _ h => h)
      fun s _ => .inr (.inl ⟨rfl, rfl⟩)
  | succ n ih =>
    intro c g kw vals hp
    show Sp addrOf K c _ (if (prog g).isPure then pureExec addrOf (exec addrOf prog p n) prog p g kw
      else autExec (exec addrOf prog p n) prog p g kw) _ _
    refine Sp.ite (fun hg => ?_) (fun hg => ?_)
    · refine (Sp.exI (P := fun H s => ((E ∨ DenKw addrOf s kw vals) ∧ (False → ∃ ts, Match addrOf s (sortKw kw) ts ∧
        ((s.ext.results p).data (g, sigText addrOf g ts)).isSome)) ∧ hist s = H) fun H =>
        (sp_pureExec (R := E) (S := False) (N := False) hinj hm ih id p g hg kw vals hp H).conseq (fun _ h => ⟨⟨h.1.1, h.1.2, fun h => h.elim⟩, h.2⟩) (fun u s h => ?_)
          (fun e s h => ?_)).pre fun s h => ⟨hist s, ⟨h, fun h => h.elim⟩, rfl⟩
      · refine h.1.imp id fun h => ?_
        rw [ref_pure hg]; exact h.step
      · rcases h with h | h
        · exact .inl h
        · refine h.1.imp id fun h => ?_
          rw [ref_pure hg]; exact h.step
    · have hg' : (prog g).isPure = false := by simpa using hg
      have hkw : E ∨ kw = rawKw vals := by
        rcases hp with h | h | h
        · exact .inl h
        · exact .inr h
        · rw [hg'] at h; exact absurd h.1 (by simp)
      have hdet : E ∨ ((prog g).body kw).Det := by
        rcases hkw with h | h
        · exact .inl h
        · rw [h]; exact hm.det.imp id fun h => h.det _ _
      refine (sp_autExec ih p g kw hdet).conseq (fun s _ h => (by rw [hg'] at h; cases h)) (fun u s h => ?_) (fun e s h => ?_)
      · rcases h with h | h
        · exact .inl h
        · refine hkw.imp id fun e => ?_
          rw [ref_aut hg']; rw [e] at h; exact h.step
      · rcases h with h | h
        · exact .inl h
        · refine hkw.imp id fun e => ?_
          rw [ref_aut hg']; rw [e] at h; exact h.step

/-- a call of a pure function -/
theorem sp_execPure (hinj : Function.Injective addrOf) (hm : Mode K E prog) (hRE : R → E) (p : PortalId) (f : FnId)
    (hpure : (prog f).isPure = true) (kw : Kw U) (vals : List (String × U)) (hplain : PlainCall E prog f kw vals)
    (n : Nat) (H : Hist U A) :
    Sp addrOf K c (fun s => ((R ∨ DenKw addrOf s kw vals) ∧
        (S → ∃ ts, Match addrOf s (sortKw kw) ts ∧ ((s.ext.results p).data (f, sigText addrOf f ts)).isSome) ∧ (N → Nowhere addrOf f kw s)) ∧ hist s = H)
      (exec addrOf prog p (n + 1) f kw)
      (CallPost addrOf prog E R S N H p f kw vals) (CallExc addrOf prog E R S n H p f kw vals) := by
  show Sp addrOf K c _ (if (prog f).isPure then pureExec addrOf (exec addrOf prog p n) prog p f kw
      else autExec (exec addrOf prog p n) prog p f kw) _ _
  rw [hpure]
  exact sp_pureExec hinj hm (recOK_exec hinj hm p n) hRE p f hpure kw vals hplain H

/-- any call of any program -/
theorem gen_exec (hinj : Function.Injective addrOf) (prog : FnId → Fn U) (p : PortalId) (n : Nat) (f : FnId) (kw : Kw U) :
    Gen addrOf (anything U) c (exec addrOf prog p n f kw) :=
  (recOK_exec hinj (mode_any prog) p n c f kw [] (.inl trivial)).conseq (fun _ _ => .inl trivial) (fun _ _ _ => trivial)
    (fun _ _ _ => trivial)

/-! ### execution through an address -/

theorem sp_rArguments_ir (hinj : Function.Injective addrOf) (vals : List (String × U)) (ri : Nat) (k : Key A) (p : PortalId) :
    Sp addrOf K c (IR addrOf R vals ri k p) (rArguments ri : PM U A (Kw U))
      (fun l s => R ∨ DenKw addrOf s l vals) (fun _ _ => R) := by
  by_cases hR : R
  · exact (sp_rArguments hinj ri k p).conseq (fun _ h => h.1) (fun _ _ _ => .inl hR) (fun _ _ _ => hR)
  · exact (sp_rArguments_rd hinj ri k.1 vals p).conseq (fun _ h => (h.2.resolve_left hR).2) (fun _ _ h => .inr h)
      (fun _ _ h => h.elim)

/-- a call with sorted arguments leaves a result under the key of the call -/
theorem sp_execStored (hinj : Function.Injective addrOf) (hm : Mode K E prog) (hRE : R → E) (p : PortalId) (f : FnId)
    (hpure : (prog f).isPure = true) (hg : E ∨ PureGuards prog) (l : Kw U) (vals : List (String × U)) (ts : List (String × A))
    (hl : l.Pairwise (fun a b => a.1 ≤ b.1)) (n : Nat) :
    Sp addrOf K c (fun s => (R ∨ DenKw addrOf s l vals) ∧ Match addrOf s l ts)
      (exec addrOf prog p n f l)
      (fun u s => (E ∨ Dn (refR prog f vals) (.ok u)) ∧ ((s.ext.results p).data (f, sigText addrOf f ts)).isSome)
      (fun e _ => E ∨ XAg (refR prog f vals) n e) := by
  cases n with
  | zero =>
    exact Sp.raiseNew (P := fun s => (R ∨ DenKw addrOf s l vals) ∧ Match addrOf s l ts) (fun _ _ _ _ _ _ h => h)
      fun s _ => .inr (.inl ⟨rfl, rfl⟩)
  | succ n =>
    refine (Sp.exI (P := fun H s => (((R ∨ DenKw addrOf s l vals) ∧ (False → ∃ ts, Match addrOf s (sortKw l) ts ∧
        ((s.ext.results p).data (f, sigText addrOf f ts)).isSome)) ∧ hist s = H) ∧ Match addrOf s l ts) fun H =>
        ((sp_execPure (R := R) (S := False) (N := False) hinj hm hRE p f hpure l vals (hg.imp id fun h => .inr ⟨hpure, h⟩) n H).keep
          (mono_match l ts)).conseq (fun _ h => ⟨⟨⟨h.1.1.1, h.1.1.2, fun h => h.elim⟩, h.1.2⟩, h.2⟩) (fun u s h => ?_)
          (fun e s h => ?_)).pre fun s h => ⟨hist s, ⟨⟨h.1, fun h => h.elim⟩, rfl⟩, h.2⟩
    · obtain ⟨⟨h1, ts', h2, _, h3, _⟩, h4⟩ := h
      rw [sortKw_of_sorted hl] at h2
      cases h2.unique h4
      refine ⟨h1.imp id fun h => ?_, h3⟩
      rw [ref_pure hpure]; exact h.step
    · rcases h with h | h
      · exact .inl (hRE h)
      · refine h.1.imp id fun h => ?_
        rw [ref_pure hpure]; exact h.step

theorem sp_rExecute (hinj : Function.Injective addrOf) (hm : Mode K E prog) (hRE : R → E) (vals : List (String × U))
    (ri : Nat) (k : Key A) (p : PortalId) (hpure : (prog k.1).isPure = true) (hg : E ∨ PureGuards prog) (n : Nat) :
    Sp addrOf K c (IR addrOf R vals ri k p) (rExecute addrOf prog n ri)
      (fun u s => (E ∨ Dn (refR prog k.1 vals) (.ok u)) ∧ ((s.ext.results p).data k).isSome)
      (fun e s => E ∨ XAg (refR prog k.1 vals) n e) := by
  have hroute := route_ir (K := K) (R := R) hinj vals ri k p
  refine Sp.seq (sp_readK (X := fun _ _ => False) ri k p) hroute.mono (fun s h => ⟨h.1, h⟩) (fun _ _ h _ => h.elim) fun o => ?_
  refine (Sp.gain (B := o.key = k ∧ o.portal = p) (P := fun s => ObjOK addrOf K s o ∧ IR addrOf R vals ri k p s) fun e => ?_).pre
    fun s h => ⟨h.1.1, h.1.2.1, h.2⟩
  obtain ⟨ek, ep⟩ := e
  cases hr : o.result with
  | some u =>
    refine Sp.pure fun s h => ?_
    obtain ⟨ts, _, _, _, h4, h5⟩ := h.1
    refine ⟨?_, by rw [← ek, ← ep]; exact h5 (.inr (by rw [hr]; rfl))⟩
    rcases h.2.2 with h' | h'
    · exact .inl (hRE h')
    · exact hm.elim _ _ _ (by rw [ek] at h4; exact h4 u hr vals h'.1)
  | none =>
    refine (Sp.withP (P := IR addrOf R vals ri k p) hroute.fr (fun _ _ _ _ _ _ _ h => h) (fun _ => fr_const _) ?_).pre fun s h => h.2
    rw [ep]
    refine Sp.seq (hroute.fn (some p)) hroute.mono (fun s h => ⟨h, h⟩) (fun _ _ h _ => .inl (hRE h)) fun f => Sp.gain fun e => ?_
    subst e
    refine Sp.seq ((sp_rArguments_ir hinj vals ri k p).and (sp_rArguments hinj ri k p)) hroute.mono (fun s h => ⟨⟨h, h.1⟩, h⟩)
      (fun _ _ h _ => .inl (hRE h.1)) fun l => ?_
    refine (Sp.exI (P := fun ts s => SigOf addrOf k ts ∧ ((R ∨ DenKw addrOf s l vals) ∧ Match addrOf s l ts) ∧ IR addrOf R vals ri k p s)
      fun ts => ?_).pre fun s ⟨⟨h1, ts, h2, h3⟩, h4⟩ => ⟨ts, h2, ⟨h1, h3⟩, h4⟩
    refine Sp.gain fun hk => ?_
    refine Sp.useW (P' := fun s => l.Pairwise (fun a b => a.1 ≤ b.1) ∧ ((R ∨ DenKw addrOf s l vals) ∧ Match addrOf s l ts) ∧ IR addrOf R vals ri k p s)
      (Sp.gain fun hl => ?_) fun s _ h => ⟨h.1.2.sorted.1 hk.2, h⟩
    refine Sp.seq (sp_execStored hinj hm hRE p k.1 hpure hg l vals ts hl n) hroute.mono
      (fun s h => h) (fun _ _ h _ => h) fun u => ?_
    have ek : (k.1, sigText addrOf k.1 ts) = k := by rw [← hk.1]
    rw [ek]
    refine (Sp.gain (B := E ∨ Dn (refR prog k.1 vals) (.ok u)) (P := fun s => ((s.ext.results p).data k).isSome ∧ IR addrOf R vals ri k p s)
      fun hu => ?_).pre fun s h => ⟨h.1.1, h.1.2, h.2⟩
    refine (Sp.gain (B := R ∨ k = callKey addrOf k.1 vals) (P := fun s => ((s.ext.results p).data k).isSome ∧ IR addrOf R vals ri k p s) fun hk => ?_).pre
      fun s h => ⟨h.2.2.imp id fun h => h.1, h⟩
    refine Sp.seq ((sp_updRResult ri k p u fun vals' hv => ?_).conseq (fun s h => h) (fun _ _ h => h) (fun _ _ h => h.elim))
      (mono_resSome p k) (fun s h => ⟨⟨h.2.1, h.1⟩, h.1⟩) (fun _ _ h _ => h)
      fun _ => Sp.pure fun _ h => ⟨hu, h.2⟩
    rcases hk with hk | hk
    · exact hm.intro _ _ _ (.inl (hRE hk))
    · have : vals' = vals := (callKey_inj hinj (hv.symm.trans hk)).2
      subst this
      exact hm.intro _ _ _ hu

theorem ir_gen {s : PWorld U A} {r : Nat} {k : Key A} {p : PortalId} (h : RIs s r k p) : IR addrOf True [] r k p s :=
  ⟨h, .inl trivial⟩

/-- any execution through any address of a pure function -/
theorem gen_rExecute (hinj : Function.Injective addrOf) (prog : FnId → Fn U) (n : Nat) (r : Nat) :
    Sp addrOf (anything U) c (fun s => ∀ o, s.ext.raddrs[r]? = some o → (prog o.key.1).isPure = true)
      (rExecute addrOf prog n r) (fun _ _ => True) (fun _ _ => True) := by
  refine Sp.em (P1 := fun s => ∃ k : Key A × PortalId, (prog k.1.1).isPure = true ∧ RIs s r k.1 k.2) (P2 := fun s => s.ext.raddrs[r]? = none) (Sp.exI fun k => ?_) ?_ ?_
  · refine Sp.gain fun hk => ?_
    exact (sp_rExecute (R := True) hinj (mode_any prog) id [] r k.1 k.2 hk (.inl trivial) n).conseq (fun s h => ir_gen h)
      (fun _ _ _ => trivial) (fun _ _ _ => trivial)
  · refine Sp.bind (Q := fun _ _ => False) (fun s ho hw hc hp => ?_) fun o s _ _ _ h => h.elim
    have e : (readR r : PM U A (RObj U A)) s = World.raiseNew .attributeError s := by unfold readR; rw [hp]
    rw [e]
    exact ⟨(Gen.raiseNew (c := c) (α := RObj U A) .attributeError s ho hw hc trivial).1, fun a h => (by cases h), fun _ _ => trivial⟩
  · intro s hs
    cases h : s.ext.raddrs[r]? with
    | none => exact .inr rfl
    | some o => exact .inl ⟨(o.key, o.portal), hs o h, o, h, rfl, rfl⟩

/-! ### addresses and requests -/

/-- an address object for a call of `f` with arguments `kw` -/
def AddrFor (addrOf : Val U A → A) (R : Prop) (f : FnId) (p : PortalId) (kw : Kw U) (vals : List (String × U))
    (r : Nat) (s : PWorld U A) : Prop :=
  ∃ ts, Match addrOf s (sortKw kw) ts ∧ IR addrOf R (sortKw vals) r (f, sigText addrOf f ts) p s ∧
    (R ∨ ts = texts addrOf (sortKw vals))

theorem mono_addrFor (hinj : Function.Injective addrOf) (f : FnId) (p : PortalId) (kw : Kw U) (vals : List (String × U)) (r : Nat) :
    Mono addrOf K (AddrFor addrOf R f p kw vals r) := fun s s' e w ⟨ts, h1, h2, h3⟩ =>
  ⟨ts, mono_match _ _ s s' e w h1, (route_ir (K := K) hinj _ _ _ _).mono s s' e w h2, h3⟩

theorem fr_addrFor (f : FnId) (p : PortalId) (kw : Kw U) (vals : List (String × U)) (r : Nat) :
    Fr (AddrFor addrOf R f p kw vals r) := fun _ _ _ _ _ _ h => h

theorem sp_getAddress (hinj : Function.Injective addrOf) (p : PortalId) (f : FnId) (kw : Kw U) (vals : List (String × U)) :
    Sp addrOf K c (fun s => R ∨ DenKw addrOf s kw vals) (getAddress addrOf p f kw)
      (fun r s => AddrFor addrOf R f p kw vals r s) (fun _ _ => R) := by
  refine Sp.withP (fun _ _ _ _ _ _ h => h) (fun _ => fr_addrFor _ _ _ _ _) (fun _ => fr_const _) ?_
  refine Sp.bind (sp_pack_mode hinj p kw vals) fun packed => Sp.exI fun ts => ?_
  exact (sp_mkRAddr_mode hinj f p kw vals packed ts).conseq (fun _ h => h)
    (fun r s h => ⟨ts, h.2.2.1, h.1, h.2.2.2.imp id fun h => h.1⟩) (fun _ _ h => h)

theorem sp_rRequest_for (hinj : Function.Injective addrOf) (f : FnId) (p : PortalId) (kw : Kw U) (vals : List (String × U))
    (r : Nat) : Sp addrOf K c (AddrFor addrOf R f p kw vals r) (rRequest addrOf r)
      (fun _ s => ∃ ts, Match addrOf s (sortKw kw) ts ∧ Pending s p (f, sigText addrOf f ts)) (fun _ _ => R) := by
  refine Sp.exI fun ts => ?_
  have hroute := route_ir (K := K) (R := R) hinj (sortKw vals) r (f, sigText addrOf f ts) p
  exact ((sp_rRequest hroute hinj).keep (mono_match _ _)).conseq (fun s h => ⟨h.2.1, h.1⟩)
    (fun _ s h => ⟨ts, h.2, h.1⟩) (fun _ _ h => h)

theorem sp_swarm (hinj : Function.Injective addrOf) (p : PortalId) (f : FnId) (kw : Kw U) (vals : List (String × U)) :
    Sp addrOf K c (fun s => R ∨ DenKw addrOf s kw vals) (swarm addrOf p f kw)
      (fun r s => (∃ ts, Match addrOf s (sortKw kw) ts ∧ Pending s p (f, sigText addrOf f ts)) ∧ AddrFor addrOf R f p kw vals r s)
      (fun _ _ => R) := by
  refine Sp.withP (fun _ _ _ _ _ _ h => h) (fun _ _ _ _ _ _ _ h => h) (fun _ => fr_const _) ?_
  refine Sp.bind (sp_getAddress hinj p f kw vals) fun r => ?_
  exact Sp.seq (sp_rRequest_for hinj f p kw vals r) (mono_addrFor hinj f p kw vals r) (fun s h => ⟨h, h⟩) (fun _ _ h _ => h)
    fun _ => Sp.pure fun s h => h

/-- a result is stored for the call -/
def Avail (addrOf : Val U A → A) (p : PortalId) (f : FnId) (kw : Kw U) (s : PWorld U A) : Prop :=
  ∃ ts, Match addrOf s (sortKw kw) ts ∧ ((s.ext.results p).data (f, sigText addrOf f ts)).isSome

theorem mono_avail (p : PortalId) (f : FnId) (kw : Kw U) : Mono addrOf K (Avail addrOf p f kw) :=
  fun s s' e w ⟨ts, h1, h2⟩ => ⟨ts, mono_match _ _ s s' e w h1, mono_resSome (addrOf := addrOf) (K := K) p _ s s' e w h2⟩

theorem sp_rExecute_for (hinj : Function.Injective addrOf) (hm : Mode K E prog) (hRE : R → E) (f : FnId) (p : PortalId) (kw : Kw U)
    (vals : List (String × U)) (r : Nat) (hpure : (prog f).isPure = true) (hg : E ∨ PureGuards prog) (n : Nat) :
    Sp addrOf K c (AddrFor addrOf R f p kw vals r) (rExecute addrOf prog n r)
      (fun u s => (E ∨ Dn (refR prog f vals) (.ok u)) ∧ Avail addrOf p f kw s) (fun e _ => E ∨ XAg (refR prog f vals) n e) := by
  refine Sp.exI fun ts => ?_
  refine ((sp_rExecute hinj hm hRE (sortKw vals) r (f, sigText addrOf f ts) p hpure hg n).keep (mono_match (sortKw kw) ts)).conseq
    (fun s h => ⟨h.2.1, h.1⟩) (fun u s h => ⟨?_, ts, h.2, h.1.2⟩) (fun e s h => ?_)
  · have h := h.1.1
    rcases hm.det with hd | hd
    · exact .inl hd
    · rw [refR_sort hd] at h; exact h
  · rcases hm.det with hd | hd
    · exact .inl hd
    · rw [refR_sort hd] at h; exact h

theorem sp_run (hinj : Function.Injective addrOf) (hm : Mode K E prog) (hRE : R → E) (p : PortalId) (f : FnId) (kw : Kw U)
    (vals : List (String × U)) (hpure : (prog f).isPure = true) (hg : E ∨ PureGuards prog) (n : Nat) :
    Sp addrOf K c (fun s => R ∨ DenKw addrOf s kw vals) (Pure.run addrOf prog n p f kw)
      (fun r s => (E ∨ ∃ u, Dn (refR prog f vals) (.ok u)) ∧ Avail addrOf p f kw s ∧ AddrFor addrOf R f p kw vals r s)
      (fun e _ => E ∨ XAg (refR prog f vals) n e) := by
  refine Sp.withP (fun _ _ _ _ _ _ h => h) (fun _ _ _ _ _ _ _ h => h) (fun _ => fr_const _) ?_
  refine Sp.bind ((sp_getAddress hinj p f kw vals).conseq (fun _ h => h) (fun _ _ h => h) (fun _ _ h => .inl (hRE h))) fun r => ?_
  exact Sp.seq (sp_rExecute_for hinj hm hRE f p kw vals r hpure hg n) (mono_addrFor hinj f p kw vals r) (fun s h => ⟨h, h⟩) (fun _ _ h _ => h)
    fun u => Sp.pure fun s h => ⟨h.1.1.imp id fun h => ⟨u, h⟩, h.1.2, h.2⟩

/-! ### batches -/

/-- one address per argument set, in the same order -/
def AddrsFor (addrOf : Val U A → A) (R : Prop) (f : FnId) (p : PortalId) (l : List (Kw U)) (vs : List (List (String × U)))
    (rs : List Nat) (s : PWorld U A) : Prop :=
  List.Forall₂ (fun (x : Kw U × List (String × U)) r => AddrFor addrOf R f p x.1 x.2 r s) (l.zip vs) rs

theorem mono_addrsFor (hinj : Function.Injective addrOf) (f : FnId) (p : PortalId) (l : List (Kw U)) (vs : List (List (String × U)))
    (rs : List Nat) : Mono addrOf K (AddrsFor addrOf R f p l vs rs) := fun s s' e w h =>
  List.Forall₂.imp (fun x r h => mono_addrFor hinj f p x.1 x.2 r s s' e w h) h

theorem mono_dens (l : List (Kw U)) (vs : List (List (String × U))) :
    Mono addrOf K (fun s : PWorld U A => R ∨ List.Forall₂ (fun kw vals => DenKw addrOf s kw vals) l vs) :=
  fun s s' e w => Or.imp id (List.Forall₂.imp fun kw vals h => mono_denKw kw vals s s' e w h)

theorem sp_mkRAddr_raw (hinj : Function.Injective addrOf) (f : FnId) (p : PortalId) (kw : Kw U) (vals : List (String × U)) :
    Sp addrOf K (some p) (fun s => R ∨ DenKw addrOf s kw vals) (mkRAddr addrOf f p kw)
      (AddrFor addrOf R f p kw vals) (fun _ _ => R) := by
  by_cases hR : R
  · exact (sp_mkRAddr hinj f p kw).conseq (fun _ _ => trivial) (fun r s ⟨ts, h1, h2⟩ => ⟨ts, h2, ⟨h1, .inl hR⟩, .inl hR⟩) (fun _ _ _ => hR)
  · refine ((sp_mkRAddr_den hinj f p kw (sortKw vals)).keep (mono_denKw kw vals)).conseq
      (fun s h => ⟨denKw_sort (h.resolve_left hR), h.resolve_left hR⟩) (fun r s h => ?_) (fun _ _ h => h.elim)
    exact ⟨_, (denKw_sort h.2).match, ⟨h.1.ris, .inr ⟨rfl, h.1⟩⟩, .inr rfl⟩

theorem sp_addrLoop (hinj : Function.Injective addrOf) (p : PortalId) (f : FnId) (l : List (Kw U)) :
    ∀ vs : List (List (String × U)), l.length = vs.length →
    Sp addrOf K (some p) (fun s => R ∨ List.Forall₂ (fun kw vals => DenKw addrOf s kw vals) l vs) (addrLoop addrOf p f l)
      (AddrsFor addrOf R f p l vs) (fun _ _ => R) := by
  induction l with
  | nil => intro vs _; exact Sp.pure fun s _ => by simpa [AddrsFor] using List.Forall₂.nil
  | cons kw l ih =>
    intro vs hl
    cases vs with
    | nil => cases hl
    | cons v vs =>
      have hl' : l.length = vs.length := by simpa using hl
      refine Sp.seq (sp_mkRAddr_raw hinj f p kw v) (mono_dens (R := R) l vs) (fun s h => ⟨h.imp id fun h => ?_, h.imp id fun h => ?_⟩)
        (fun _ _ h _ => h) fun r => ?_
      · cases h; assumption
      · cases h; assumption
      refine Sp.seq (ih vs hl') (mono_addrFor hinj f p kw v r) (fun s h => ⟨h.2, h.1⟩) (fun _ _ h _ => h) fun rs => ?_
      exact Sp.pure fun s h => .cons h.2 h.1

/-- each of the addresses is the address of some call -/
def SomeAddr (addrOf : Val U A → A) (R : Prop) (V : List (String × U) → Prop) (f : FnId) (p : PortalId) (r : Nat) (s : PWorld U A) : Prop :=
  ∃ kw vals, V vals ∧ AddrFor addrOf R f p kw vals r s

theorem mono_someAddr (hinj : Function.Injective addrOf) (V : List (String × U) → Prop) (f : FnId) (p : PortalId) (r : Nat) :
    Mono addrOf K (SomeAddr addrOf R V f p r) := fun s s' e w ⟨kw, v, hv, h⟩ => ⟨kw, v, hv, mono_addrFor hinj f p kw v r s s' e w h⟩

end Pyth.Pure
