import Verif.Model.World
import Verif.Proofs.PortalStack
/-! Reasoning rules for session computations. -/
set_option linter.unusedSectionVars false
set_option linter.unusedVariables false
set_option linter.unusedSimpArgs false
namespace Pyth.World
open Pyth.Portal (PortalId Sys Rep)

variable {A V E α β : Type} [DecidableEq A] [DecidableEq V]

/-- reflexive and transitive -/
structure PreOrd {σ : Type} (R : σ → σ → Prop) : Prop where
  refl : ∀ s, R s s
  trans : ∀ {a b c}, R a b → R b c → R a c

/-- every execution of `m`, successful or not, relates the state before to the state after -/
def Resp {ε σ : Type} (R : σ → σ → Prop) (m : PyM ε σ α) : Prop := ∀ s, R s (m s).2

section
variable {ε σ : Type} {R : σ → σ → Prop}

theorem Resp.ret (h : PreOrd R) (a : α) : Resp R (PyM.ret a : PyM ε σ α) := fun s => h.refl s
theorem Resp.pure (h : PreOrd R) (a : α) : Resp R (Pure.pure a : PyM ε σ α) := fun s => h.refl s
theorem Resp.get (h : PreOrd R) : Resp R (PyM.get : PyM ε σ σ) := fun s => h.refl s
theorem Resp.raise (h : PreOrd R) (e : ε) : Resp R (PyM.raise e : PyM ε σ α) := fun s => h.refl s

theorem Resp.bind (h : PreOrd R) {m : PyM ε σ α} {k : α → PyM ε σ β} (hm : Resp R m)
    (hk : ∀ a, Resp R (k a)) : Resp R (m >>= k) := by
  intro s
  have h1 := hm s
  rw [PyM.run_bind]
  cases hms : m s with
  | mk r s' =>
    rw [hms] at h1
    cases r with
    | ok a => exact h.trans h1 (hk a s')
    | error e => exact h1

theorem Resp.ite {c : Prop} [Decidable c] {m m' : PyM ε σ α} (hm : Resp R m) (hm' : Resp R m') :
    Resp R (if c then m else m') := by
  split
  · exact hm
  · exact hm'
end

/-- a relation that only looks at parts not touched by the portal context and the logs -/
structure CtxFree (R : World A V E → World A V E → Prop) : Prop extends PreOrd R where
  frame : ∀ s sys handling nextExc marked crashes, R s { s with
    sys := sys, handling := handling, nextExc := nextExc, marked := marked, crashes := crashes }

section
variable {R : World A V E → World A V E → Prop}

theorem Resp.raiseNew (h : CtxFree R) (k : Kind) : Resp R (raiseNew k : M A V E α) :=
  fun s => h.frame s s.sys s.handling _ s.marked s.crashes

theorem Resp.enterP (h : CtxFree R) (p : PortalId) : Resp R (enterP p : M A V E Unit) := by
  intro s
  unfold World.enterP
  cases Portal.enter p s.sys with
  | ok sys => exact h.frame s sys s.handling s.nextExc s.marked s.crashes
  | error e => exact Resp.raiseNew h _ s

theorem CtxFree.log (h : CtxFree R) (pre : List (Option Nat)) (e : Exc) (s : World A V E) :
    R s (persistExc pre e s) := by
  unfold persistExc
  split
  · exact h.refl s
  · exact h.frame s s.sys s.handling s.nextExc _ _

theorem CtxFree.logger (h : CtxFree R) (s : World A V E) : R s (exceptionLogger s) := by
  unfold exceptionLogger
  cases s.handling with
  | nil => exact h.refl s
  | cons e _ => exact h.log _ e s

theorem Resp.exitP (h : CtxFree R) (p : PortalId) : Resp R (exitP p : M A V E Unit) := by
  intro s
  unfold World.exitP
  have h1 := h.logger s
  simp only
  cases Portal.exit p (exceptionLogger s).sys with
  | ok sys =>
    exact h.trans h1 (h.frame (exceptionLogger s) sys (exceptionLogger s).handling
      (exceptionLogger s).nextExc (exceptionLogger s).marked (exceptionLogger s).crashes)
  | error e => exact h.trans h1 (Resp.raiseNew (α := Unit) h _ _)

theorem Resp.handlingE (h : CtxFree R) (e : Exc) {m : M A V E α} (hm : Resp R m) :
    Resp R (handlingE e m) := by
  intro s
  have h1 := hm { s with handling := e :: s.handling }
  unfold World.handlingE
  cases hms : m { s with handling := e :: s.handling } with
  | mk r s' =>
    rw [hms] at h1
    exact h.trans (h.frame s s.sys (e :: s.handling) s.nextExc s.marked s.crashes)
      (h.trans h1 (h.frame s' s'.sys _ s'.nextExc s'.marked s'.crashes))

theorem Resp.tryE (h : CtxFree R) {m : M A V E α} {k : Exc → M A V E α} (hm : Resp R m)
    (hk : ∀ e, Resp R (k e)) : Resp R (tryE m k) := by
  intro s
  have h1 := hm s
  unfold World.tryE
  cases hms : m s with
  | mk r s' =>
    rw [hms] at h1
    cases r with
    | ok a => exact h1
    | error e => exact h.trans h1 (Resp.handlingE h e (hk e) s')

theorem Resp.withP (h : CtxFree R) (p : PortalId) {m : M A V E α} (hm : Resp R m) :
    Resp R (withP p m) := by
  intro s
  have h1 := Resp.enterP h p s
  unfold World.withP
  cases hen : World.enterP p s with
  | mk r s' =>
    rw [hen] at h1
    cases r with
    | error e => exact h1
    | ok _ =>
      have h2 := hm s'
      simp only
      cases hms : m s' with
      | mk r s2 =>
        rw [hms] at h2
        cases r with
        | ok a =>
          have h3 := Resp.exitP h p s2
          simp only
          cases hex : World.exitP p s2 with
          | mk r s3 =>
            rw [hex] at h3
            cases r <;> exact h.trans h1 (h.trans h2 h3)
        | error e =>
          have h3 := Resp.handlingE h e (Resp.exitP h p) s2
          simp only
          cases hex : World.handlingE e (World.exitP p) s2 with
          | mk r s3 =>
            rw [hex] at h3
            cases r <;> exact h.trans h1 (h.trans h2 h3)

theorem Resp.withOpt (h : CtxFree R) (p : Option PortalId) {m : PortalId → M A V E α}
    (hm : ∀ q, Resp R (m q)) : Resp R (withOpt p m) := by
  cases p with
  | none => exact Resp.raiseNew h _
  | some q => exact Resp.withP h q (hm q)

theorem Resp.needPortal (h : CtxFree R) (p : Option PortalId) :
    Resp R (needPortal p : M A V E PortalId) := by
  cases p with
  | none => exact Resp.raiseNew h _
  | some q => exact Resp.ret h.toPreOrd q

theorem Resp.bestPortal (h : CtxFree R) (p : Option PortalId) :
    Resp R (bestPortal p : M A V E PortalId) := by
  intro s
  unfold World.bestPortal
  cases p with
  | some q => exact h.refl s
  | none =>
    simp only
    split
    · exact h.refl s
    · split
      · exact h.refl s
      · exact h.frame s _ s.handling s.nextExc s.marked s.crashes

theorem Resp.storeGet (h : CtxFree R) (p : PortalId) (a : A) :
    Resp R (storeGet p a : M A V E V) := by
  intro s
  unfold World.storeGet
  split
  · exact h.refl s
  · exact Resp.raiseNew h _ s

theorem Resp.storeHas (h : CtxFree R) (p : PortalId) (a : A) :
    Resp R (storeHas p a : M A V E Bool) := fun s => h.refl s

theorem Resp.readObj (h : CtxFree R) (i : Nat) : Resp R (readObj i : M A V E (AddrObj A V)) := by
  intro s
  unfold World.readObj
  split
  · exact h.refl s
  · exact Resp.raiseNew h _ s
end

/-! ### the context is kept -/

/-- same entered portals, same exceptions being handled; portals are only added -/
structure Ctx (s s' : World A V E) : Prop where
  stack : s'.sys.stack = s.sys.stack
  counters : s'.sys.counters = s.sys.counters
  handling : s'.handling = s.handling
  all : s.sys.all <+: s'.sys.all

theorem Ctx.refl (s : World A V E) : Ctx s s := ⟨rfl, rfl, rfl, List.prefix_rfl⟩
theorem Ctx.trans {a b c : World A V E} (h : Ctx a b) (h' : Ctx b c) : Ctx a c :=
  ⟨h'.stack.trans h.stack, h'.counters.trans h.counters, h'.handling.trans h.handling,
    h.all.trans h'.all⟩

/-- well-formed portal context (holds in every reachable state, `Portal.sim_reach`) -/
def Ok (s : World A V E) : Prop := Rep s.sys.stack s.sys.counters

theorem Ctx.ok {s s' : World A V E} (h : Ctx s s') (hs : Ok s) : Ok s' := by
  unfold Ok; rw [h.stack, h.counters]; exact hs

/-- `m` leaves the context as found, however it ends -/
def Keeps (m : M A V E α) : Prop := ∀ s, Ok s → Ctx s (m s).2

theorem Keeps.ret (a : α) : Keeps (PyM.ret a : M A V E α) := fun s _ => .refl s
theorem Keeps.pure (a : α) : Keeps (Pure.pure a : M A V E α) := fun s _ => .refl s
theorem Keeps.get : Keeps (PyM.get : M A V E (World A V E)) := fun s _ => .refl s
theorem Keeps.raiseNew (k : Kind) : Keeps (raiseNew k : M A V E α) :=
  fun _ _ => ⟨rfl, rfl, rfl, List.prefix_rfl⟩

theorem Keeps.bind {m : M A V E α} {k : α → M A V E β} (hm : Keeps m) (hk : ∀ a, Keeps (k a)) :
    Keeps (m >>= k) := by
  intro s hs
  have h1 := hm s hs
  rw [PyM.run_bind]
  cases hms : m s with
  | mk r s' =>
    rw [hms] at h1
    cases r with
    | ok a => exact h1.trans (hk a s' (h1.ok hs))
    | error e => exact h1

theorem Keeps.ite {c : Prop} [Decidable c] {m m' : M A V E α} (hm : Keeps m) (hm' : Keeps m') :
    Keeps (if c then m else m') := by
  split
  · exact hm
  · exact hm'

theorem Keeps.handlingE (e : Exc) {m : M A V E α} (hm : Keeps m) : Keeps (handlingE e m) := by
  intro s hs
  have h1 := hm { s with handling := e :: s.handling } hs
  unfold World.handlingE
  cases hms : m { s with handling := e :: s.handling } with
  | mk r s' =>
    rw [hms] at h1
    exact ⟨h1.stack, h1.counters, congrArg List.tail h1.handling, h1.all⟩

theorem Keeps.tryE {m : M A V E α} {k : Exc → M A V E α} (hm : Keeps m) (hk : ∀ e, Keeps (k e)) :
    Keeps (tryE m k) := by
  intro s hs
  have h1 := hm s hs
  unfold World.tryE
  cases hms : m s with
  | mk r s' =>
    rw [hms] at h1
    cases r with
    | ok a => exact h1
    | error e => exact h1.trans (Keeps.handlingE e (hk e) s' (h1.ok hs))

theorem persistExc_sys (pre : List (Option Nat)) (e : Exc) (s : World A V E) :
    (persistExc pre e s).sys = s.sys ∧ (persistExc pre e s).handling = s.handling := by
  unfold persistExc; split <;> simp

theorem logger_sys (s : World A V E) :
    (exceptionLogger s).sys = s.sys ∧ (exceptionLogger s).handling = s.handling := by
  unfold exceptionLogger
  split
  · exact ⟨rfl, rfl⟩
  · exact persistExc_sys _ _ s

/-- the state inside the block `with p:` -/
def inside (p : PortalId) (s : World A V E) : World A V E := (enterP p s).2

theorem enterP_ok (p : PortalId) (s : World A V E) (hs : Ok s) :
    ∃ sys', enterP p s = (.ok (), { s with sys := sys' }) ∧ Rep sys'.stack sys'.counters ∧
      sys'.all = s.sys.all ∧ sys'.stack.head? = some p ∧ Portal.exit p sys' = .ok s.sys ∧
      inside p s = { s with sys := sys' } := by
  obtain ⟨sys', h1, h2, h3, _, h5, h6⟩ := Portal.enter_spec s.sys p hs
  have : enterP p s = (.ok (), { s with sys := sys' }) := by simp [enterP, h1]
  exact ⟨sys', this, h2, h3, h5, h6, by simp [inside, this]⟩

theorem exit_frame {p : PortalId} {sys s0 : Sys} (h : Portal.exit p sys = .ok s0) (al : List PortalId) :
    Portal.exit p { sys with all := al } = .ok { s0 with all := al } := by
  revert h
  unfold Portal.exit
  cases sys.stack with
  | nil => simp
  | cons q st =>
    simp only
    split
    · simp
    · cases sys.counters with
      | nil => simp
      | cons c cs =>
        simp only
        split
        · intro h; injection h with h; subst h; rfl
        · intro h; injection h with h; subst h; rfl

/-- leaving a block whose body kept the context -/
theorem exitP_ok (p : PortalId) (s s' : World A V E) (hs : Ok s) (hc : Ctx (inside p s) s') :
    exitP p s' = (.ok (), { exceptionLogger s' with
      sys := { s.sys with all := s'.sys.all } }) := by
  obtain ⟨sys', h1, h2, h3, h4, h5, h6⟩ := enterP_ok p s hs
  rw [h6] at hc
  have hl := logger_sys s'
  have he : s'.sys = { sys' with all := s'.sys.all } := by
    have a := hc.stack; have b := hc.counters
    simp only at a b
    cases hsys : s'.sys with
    | mk al st cs =>
      rw [hsys] at a b
      simp only at a b
      subst a b
      rfl
  have hx : Portal.exit p (exceptionLogger s').sys = .ok { s.sys with all := s'.sys.all } := by
    rw [hl.1, he]
    exact exit_frame h5 s'.sys.all
  unfold exitP
  simp only [hx]

/-- outcome and final state of a block whose body keeps the context -/
theorem withP_eq (p : PortalId) (m : M A V E α) (s : World A V E) (hs : Ok s) (hm : Keeps m) :
    withP p m s = match m (inside p s) with
      | (.ok a, s') => (.ok a, { exceptionLogger s' with
          sys := { s.sys with all := s'.sys.all } })
      | (.error e, s') => (.error e, { exceptionLogger { s' with handling := e :: s'.handling } with
          sys := { s.sys with all := s'.sys.all }, handling := s'.handling }) := by
  obtain ⟨sys', h1, h2, h3, h4, h5, h6⟩ := enterP_ok p s hs
  have hin : Ok (inside p s) := by rw [h6]; exact h2
  have hc := hm (inside p s) hin
  unfold withP
  rw [h1, ← h6]
  simp only
  cases hms : m (inside p s) with
  | mk r s' =>
    rw [hms] at hc
    cases r with
    | ok a =>
      simp only
      rw [exitP_ok p s s' hs hc]
    | error e =>
      simp only [handlingE]
      have hc' : exitP p { s' with handling := e :: s'.handling } =
          (.ok (), { exceptionLogger { s' with handling := e :: s'.handling } with
            sys := { s.sys with all := s'.sys.all } }) := by
        have := (logger_sys (A := A) (V := V) (E := E) { s' with handling := e :: s'.handling })
        have hx := exitP_ok p s s' hs hc
        unfold exitP at hx ⊢
        simp only at hx ⊢
        have e1 : Portal.exit p (exceptionLogger s').sys = .ok { s.sys with all := s'.sys.all } := by
          have a := hc.stack; have b := hc.counters
          rw [(logger_sys s').1]
          rw [h6] at a b
          have he : s'.sys = { sys' with all := s'.sys.all } := by
            cases hsys : s'.sys with
            | mk al st cs =>
              rw [hsys] at a b
              simp only at a b
              subst a b
              rfl
          rw [he]; exact exit_frame h5 s'.sys.all
        rw [this.1]
        rw [(logger_sys s').1] at e1
        simp only [e1]
      rw [hc']
      have := (logger_sys (A := A) (V := V) (E := E) { s' with handling := e :: s'.handling }).2
      simp only [this, List.tail_cons]

theorem inside_ok (p : PortalId) (s : World A V E) (hs : Ok s) :
    Ok (inside p s) ∧ (inside p s).handling = s.handling ∧ (inside p s).sys.all = s.sys.all ∧
    (inside p s).sys.stack.head? = some p ∧ (inside p s).store = s.store ∧
    (inside p s).heap = s.heap ∧ (inside p s).ext = s.ext ∧ (inside p s).draws = s.draws ∧
    (inside p s).nd = s.nd ∧ (inside p s).dflt = s.dflt := by
  obtain ⟨sys', h1, h2, h3, h4, h5, h6⟩ := enterP_ok p s hs
  rw [h6]
  exact ⟨h2, rfl, h3, h4, rfl, rfl, rfl, rfl, rfl, rfl⟩

theorem Keeps.withP (p : PortalId) {m : M A V E α} (hm : Keeps m) : Keeps (withP p m) := by
  intro s hs
  rw [withP_eq p m s hs hm]
  obtain ⟨h1, h2, h3, _⟩ := inside_ok p s hs
  have hc := hm _ h1
  cases hms : m (inside p s) with
  | mk r s' =>
    rw [hms] at hc
    have hl := (logger_sys s').2
    cases r with
    | ok a =>
      exact ⟨rfl, rfl, hl.trans (hc.handling.trans h2), by rw [← h3]; exact hc.all⟩
    | error e =>
      exact ⟨rfl, rfl, hc.handling.trans h2, by rw [← h3]; exact hc.all⟩

theorem Keeps.withOpt (p : Option PortalId) {m : PortalId → M A V E α} (hm : ∀ q, Keeps (m q)) :
    Keeps (withOpt p m) := by
  cases p with
  | none => exact Keeps.raiseNew _
  | some q => exact Keeps.withP q (hm q)

theorem Keeps.needPortal (p : Option PortalId) : Keeps (needPortal p : M A V E PortalId) := by
  cases p with
  | none => exact Keeps.raiseNew _
  | some q => exact Keeps.ret q

theorem Keeps.bestPortal (p : Option PortalId) : Keeps (bestPortal p : M A V E PortalId) := by
  intro s _
  unfold World.bestPortal
  cases p with
  | some q => exact .refl s
  | none =>
    simp only
    split
    · exact .refl s
    · split
      · exact .refl s
      · unfold Portal.register
        split
        · exact .refl s
        · exact ⟨rfl, rfl, rfl, List.prefix_append _ _⟩

theorem Keeps.storeGet (p : PortalId) (a : A) : Keeps (storeGet p a : M A V E V) := by
  intro s hs
  unfold World.storeGet
  split
  · exact .refl s
  · exact Keeps.raiseNew _ s hs

theorem Keeps.storeHas (p : PortalId) (a : A) : Keeps (storeHas p a : M A V E Bool) :=
  fun s _ => .refl s

theorem Keeps.storeSet (p : PortalId) (a : A) (v : V) : Keeps (storeSet p a v : M A V E Unit) := by
  intro s hs
  unfold World.storeSet
  simp only
  split
  · exact ⟨rfl, rfl, rfl, List.prefix_rfl⟩
  · exact ⟨rfl, rfl, rfl, List.prefix_rfl⟩

theorem Keeps.alloc (o : AddrObj A V) : Keeps (alloc o : M A V E Nat) :=
  fun _ _ => ⟨rfl, rfl, rfl, List.prefix_rfl⟩
theorem Keeps.updObj (i : Nat) (f : AddrObj A V → AddrObj A V) : Keeps (updObj i f : M A V E Unit) :=
  fun _ _ => ⟨rfl, rfl, rfl, List.prefix_rfl⟩
theorem Keeps.readObj (i : Nat) : Keeps (readObj i : M A V E (AddrObj A V)) := by
  intro s hs
  unfold World.readObj
  split
  · exact .refl s
  · exact Keeps.raiseNew _ s hs

end Pyth.World
