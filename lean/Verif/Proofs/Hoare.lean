import Verif.Proofs.World
/-! Hoare triples for session computations. -/
set_option linter.unusedSectionVars false
set_option linter.unusedVariables false
namespace Pyth.World
open Pyth.Portal (PortalId Sys Rep)

variable {A V E α β : Type} [DecidableEq A] [DecidableEq V]

/-- from a state satisfying `P`, `m` either returns with `Q` or raises with `X` -/
def Hoare (P : World A V E → Prop) (m : M A V E α) (Q : α → World A V E → Prop)
    (X : World A V E → Prop) : Prop :=
  ∀ s, P s → (∀ a s', m s = (.ok a, s') → Q a s') ∧ (∀ e s', m s = (.error e, s') → X s')

/-- the property does not look at the portal context, the exceptions and the logs -/
def Fr (P : World A V E → Prop) : Prop := ∀ s sys handling nextExc marked crashes, P s → P { s with
    sys := sys, handling := handling, nextExc := nextExc, marked := marked, crashes := crashes }

theorem Fr.free {P : World A V E → Prop} (h : Fr P) : CtxFree (fun s s' => P s → P s') where
  refl _ x := x
  trans a b x := b (a x)
  frame s a b c d e x := h s a b c d e x

theorem Hoare.conseq {P P' : World A V E → Prop} {m : M A V E α} {Q Q' : α → World A V E → Prop}
    {X X' : World A V E → Prop} (h : Hoare P m Q X) (hp : ∀ s, P' s → P s)
    (hq : ∀ a s, Q a s → Q' a s) (hx : ∀ s, X s → X' s) : Hoare P' m Q' X' :=
  fun s hs => ⟨fun a s' e => hq a s' ((h s (hp s hs)).1 a s' e),
    fun e s' h' => hx s' ((h s (hp s hs)).2 e s' h')⟩

theorem Hoare.pure {P : World A V E → Prop} {Q : α → World A V E → Prop} {X : World A V E → Prop}
    {a : α} (h : ∀ s, P s → Q a s) : Hoare P (Pure.pure a : M A V E α) Q X := by
  intro s hs
  refine ⟨fun b s' e => ?_, fun e s' h' => ?_⟩
  · cases e; exact h s hs
  · cases h'

theorem Hoare.raiseNew {P : World A V E → Prop} {Q : α → World A V E → Prop} {X : World A V E → Prop}
    (k : Kind) (hP : Fr P) (h : ∀ s, P s → X s) : Hoare P (raiseNew k : M A V E α) Q X := by
  intro s hs
  refine ⟨fun b s' e => (by cases e), fun e s' h' => ?_⟩
  cases h'
  exact h _ (hP s s.sys s.handling _ s.marked s.crashes hs)

theorem Hoare.bind {P : World A V E → Prop} {m : M A V E α} {k : α → M A V E β}
    {Q : α → World A V E → Prop} {Q' : β → World A V E → Prop} {X : World A V E → Prop}
    (hm : Hoare P m Q X) (hk : ∀ a, Hoare (Q a) (k a) Q' X) : Hoare P (m >>= k) Q' X := by
  intro s hs
  have h1 := hm s hs
  rw [PyM.run_bind]
  cases hms : m s with
  | mk r s' =>
    cases r with
    | ok a => exact hk a s' (h1.1 a s' hms)
    | error e =>
      refine ⟨fun b t h => (by cases h), fun e' t h => ?_⟩
      cases h
      exact h1.2 e s' hms

theorem Hoare.ite {P : World A V E → Prop} {c : Prop} [Decidable c] {m m' : M A V E α}
    {Q : α → World A V E → Prop} {X : World A V E → Prop} (hm : c → Hoare P m Q X)
    (hm' : ¬ c → Hoare P m' Q X) : Hoare P (if c then m else m') Q X := by
  split
  · rename_i h; exact hm h
  · rename_i h; exact hm' h

theorem Hoare.get {P : World A V E → Prop} {X : World A V E → Prop} :
    Hoare P (PyM.get : M A V E _) (fun _ s => P s) X := by
  intro s hs
  refine ⟨fun b s' e => ?_, fun e s' h' => ?_⟩
  · cases e; exact hs
  · cases h'

theorem Hoare.withP {P : World A V E → Prop} {m : M A V E α} {Q : α → World A V E → Prop}
    {X : World A V E → Prop} (p : PortalId) (hP : Fr P) (hQ : ∀ a, Fr (Q a)) (hX : Fr X)
    (hPX : ∀ s, P s → X s) (hQX : ∀ a s, Q a s → X s) (hm : Hoare P m Q X) :
    Hoare P (withP p m) Q X := by
  intro s hs
  have h1 := Resp.enterP hP.free p s hs
  unfold World.withP
  cases hen : World.enterP p s with
  | mk r s' =>
    rw [hen] at h1
    cases r with
    | error e =>
      refine ⟨fun b t h => (by cases h), fun e' t h => ?_⟩
      cases h; exact hPX _ h1
    | ok _ =>
      have h2 := hm s' h1
      simp only
      cases hms : m s' with
      | mk r s2 =>
        cases r with
        | ok a =>
          have q := h2.1 a s2 hms
          have h3 := Resp.exitP (hQ a).free p s2 q
          simp only
          cases hex : World.exitP p s2 with
          | mk r s3 =>
            rw [hex] at h3
            cases r with
            | ok _ =>
              refine ⟨fun b t h => ?_, fun e' t h => (by cases h)⟩
              cases h; exact h3
            | error e =>
              refine ⟨fun b t h => (by cases h), fun e' t h => ?_⟩
              cases h; exact hQX a _ h3
        | error e =>
          have q := h2.2 e s2 hms
          have h3 := Resp.handlingE hX.free e (Resp.exitP hX.free p) s2 q
          simp only
          cases hex : World.handlingE e (World.exitP p) s2 with
          | mk r s3 =>
            rw [hex] at h3
            cases r <;>
            · refine ⟨fun b t h => (by cases h), fun e' t h => ?_⟩
              cases h; exact h3

theorem Hoare.withOpt {P : World A V E → Prop} {m : PortalId → M A V E α}
    {Q : α → World A V E → Prop} {X : World A V E → Prop} (p : Option PortalId) (hP : Fr P)
    (hQ : ∀ a, Fr (Q a)) (hX : Fr X) (hPX : ∀ s, P s → X s) (hQX : ∀ a s, Q a s → X s)
    (hm : ∀ q, p = some q → Hoare P (m q) Q X) : Hoare P (withOpt p m) Q X := by
  cases p with
  | none => exact Hoare.raiseNew _ hP hPX
  | some q => exact Hoare.withP q hP hQ hX hPX hQX (hm q rfl)

theorem Hoare.handlingE {P : World A V E → Prop} {m : M A V E α} {Q : α → World A V E → Prop}
    {X : World A V E → Prop} (e : Exc) (hP : Fr P) (hQ : ∀ a, Fr (Q a)) (hX : Fr X)
    (hm : Hoare P m Q X) : Hoare P (handlingE e m) Q X := by
  intro s hs
  have h1 := hm { s with handling := e :: s.handling } (hP s s.sys _ s.nextExc s.marked s.crashes hs)
  unfold World.handlingE
  cases hms : m { s with handling := e :: s.handling } with
  | mk r s' =>
    refine ⟨fun b t h => ?_, fun e' t h => ?_⟩
    · cases h
      exact hQ b s' s'.sys _ s'.nextExc s'.marked s'.crashes (h1.1 b s' hms)
    · cases h
      exact hX s' s'.sys _ s'.nextExc s'.marked s'.crashes (h1.2 e' s' hms)

theorem Hoare.tryE {P : World A V E → Prop} {m : M A V E α} {k : Exc → M A V E α}
    {Q : α → World A V E → Prop} {X Y : World A V E → Prop} (hX : Fr X) (hY : Fr Y)
    (hQ : ∀ a, Fr (Q a)) (hm : Hoare P m Q X) (hk : ∀ e, Hoare X (k e) Q Y) :
    Hoare P (tryE m k) Q Y := by
  intro s hs
  have h1 := hm s hs
  unfold World.tryE
  cases hms : m s with
  | mk r s' =>
    cases r with
    | ok a =>
      refine ⟨fun b t h => ?_, fun e' t h => (by cases h)⟩
      cases h; exact h1.1 a s' hms
    | error e => exact Hoare.handlingE e hX hQ hY (hk e) s' (h1.2 e s' hms)

end Pyth.World
