import Verif.Spec.Faults
import Verif.Proofs.SwarmKeep
import Verif.Proofs.SwarmLive
/-!
# Failing accesses keep the invariants (for C105)
-/
namespace Pyth.Parts
open Pyth.Pure (Val FnId)

variable {U A P : Type} {h : Val U A → A} {code : FnId → List (String × Val U A) → Code U A P} {T : Prop}
  {knows : P → List P → Prop} {N : P → A → Prop}

/-- the value of code that catches nothing is the value it has when nothing fails -/
theorem Outcome.sure (un : ∀ f kw, Uncaught (code f kw)) {c : Code U A P} {r : Reply U A P} (x : Outcome h code False c r) :
    ∀ v, r = .val v → Uncaught c → Outcome h code True c (.val v) := by
  induction x with
  | ret v => intro w e _; cases e; exact .ret _
  | raise => intro w e _; cases e
  | call c next f vs v r e x y ih1 ih2 =>
    intro w e' u
    cases u with
    | op _ _ _ _ rest => exact .call c next f vs v _ e (ih1 v rfl (un f vs)) (ih2 w e' (rest _))
  | callRaise c next f vs r e x y _ ih2 =>
    intro w e' u
    cases u with
    | op _ _ _ hr rest =>
      rw [hr] at y
      cases y
      cases e'
  | other c next r0 r e y ih =>
    intro w e' u
    cases u with
    | op _ _ _ _ rest => exact .other c next r0 _ e (ih w e' (rest _))
  | missing c next r hs y ih =>
    intro w e' u
    cases u with
    | op _ _ hf _ rest =>
      rw [hf] at y
      cases y
      cases e'
  | clash c next f vs v w r e x x' ne y ih1 ih2 ih3 =>
    intro z e' u
    cases u with
    | op _ _ _ _ rest =>
      exact .clash c next f vs v w _ e (ih1 v rfl (un f vs)) (ih2 w rfl (un f vs)) ne (ih3 z e' (rest _))

theorem Correct.sure (un : ∀ f kw, Uncaught (code f kw)) {a r : A} (x : Correct h code False a r) : Correct h code True a r := by
  obtain ⟨f, kw, v, e1, e2, e3⟩ := x
  exact ⟨f, kw, v, e1, e2, e3.sure un v rfl (un f kw)⟩

variable [DecidableEq P] [DecidableEq A]

theorem le_of_result {s : Shared U A P} {p : P} {a r : A} (hr : (s.results p a).isSome = true) : Le (s.setResult p a r) s := by
  refine ⟨fun _ _ _ x => x, fun q b x => ?_⟩
  by_cases e : q = p
  · subst e
    by_cases e' : b = a
    · subst e'; exact hr
    · simpa [Shared.setResult, Function.update_of_ne e'] using x
  · simpa [Shared.setResult, Function.update_of_ne e] using x

theorem StackOk.missing {job : Option A} {s : Shared U A P} {st : List (Frame U A P)} {Q : Reply U A P → Prop}
    (x : StackOk h code T False job s true st Q) : Q .missing := by
  cases x with
  | worker => exact fun e => (nomatch e)
  | inCode _ _ _ _ _ _ _ _ hm => exact hm id

theorem fstep_ok (inj : Function.Injective h) {i : Nat} {s t : State U A P} (o : AllOk h code T False s)
    (x : FStep h code T knows i s t) : AllOk h code T False t := by
  have stay : ∀ {y : Io U A P} (Q : Reply U A P → Prop),
      StackOk h code T False (s.procs i).job s.sh true (s.procs i).stack Q →
      Ok h code T False (Mine (s.procs i).job (s.procs i).stack) (fun r _ => Q r) y s.sh → AllOk h code T False (s.goto i (.io y)) :=
    fun Q hst hy => o.set i ⟨Q, hst, hy⟩
  cases x with
  | step _ x => exact step_ok inj (fun y => y.elim) o x
  | fail x hm =>
    obtain ⟨Q, h1, _⟩ := o.io i hm
    exact stay Q h1 (ok_missing (fun _ _ => h1.missing) id)
  | unread p a k hm =>
    obtain ⟨Q, h1, hx⟩ := o.io i hm
    exact stay Q h1 ((hx s.sh (.refl _) o.inv).2 id)
  | retried p a r k hm hr =>
    obtain ⟨Q, h1, hx⟩ := o.io i hm
    exact stay Q h1 ((hx s.sh (.refl _) o.inv).2.2.2.mono (le_of_result hr))

theorem FReachable.ok (inj : Function.Injective h) {s : State U A P} (x : FReachable h code T knows s) :
    AllOk h code T False s := by
  unfold FReachable at x
  generalize e : (init : State U A P) = s0 at x
  induction x with
  | refl => subst e; exact allOk_init
  | step i x y ih => exact fstep_ok inj ih y

theorem fstep_le (inj : Function.Injective h) {i : Nat} {s t : State U A P} (o : AllOk h code T False s)
    (x : FStep h code T knows i s t) : Le s.sh t.sh := by
  cases x with
  | step _ x => exact step_le inj o x
  | fail | unread | retried => exact .refl _

/-! ### requests -/

theorem after_missing (c : Cmd U A P) (t : Shared U A P) : After h N c .missing t := by
  cases c <;> first | trivial | (intro _ _ e; cases e) | (intro e; cases e)

theorem topQ_missing (st : List (Frame U A P)) (t : Shared U A P) : topQ h N st .missing t := by
  unfold topQ
  split
  · exact after_missing _ _
  · trivial

theorem leN_of_result {s : Shared U A P} {p : P} {a r : A} (hr : (s.results p a).isSome = true) : LeN N (s.setResult p a r) s := by
  have key := (le_of_result (r := r) hr).results
  exact ⟨key, fun q b _ y => y.imp id (key q b)⟩

theorem fstep_safe {i : Nat} {s t : State U A P} (o : ∀ j, ProcSafe h N s.sh (s.procs j)) (x : FStep h code T knows i s t)
    (calm : (∀ p a next, N p a → (s.procs i).mode ≠ .code (.op (.dropAddr p a) next)) ∨ t = s.setProc i {}) :
    LeN N s.sh t.sh ∧ ∀ j, ProcSafe h N t.sh (t.procs j) := by
  have upd : ∀ {y : Io U A P}, Safe N (topQ h N (s.procs i).stack) y s.sh →
      ∀ j, ProcSafe h N (s.goto i (.io y)).sh ((s.goto i (.io y)).procs j) := by
    intro y hy j
    by_cases e : j = i
    · subst e
      simp only [State.goto, Function.update_self]
      exact ⟨fun z e => by cases e; exact .inl hy, (o j).2⟩
    · simp only [State.goto, Function.update_of_ne e]
      exact o j
  have safe : ∀ {y : Io U A P}, (s.procs i).mode = .io y → (∀ p a k, y ≠ .drop p a k) →
      Safe N (topQ h N (s.procs i).stack) y s.sh := by
    intro y e no
    rcases (o i).1 y e with z | ⟨_, _, _, _, e, _, _⟩
    · exact z
    · exact absurd e (no _ _ _)
  cases x with
  | step _ x => exact step_safe o x calm
  | fail x hm => exact ⟨.refl _, upd fun t _ => topQ_missing _ t⟩
  | unread p a k hm => exact ⟨.refl _, upd (safe hm nofun _ (.refl _) _)⟩
  | retried p a r k hm hr => exact ⟨.refl _, upd ((safe hm nofun _ (.refl _)).mono (leN_of_result hr))⟩

theorem FReachable.safe {s : State U A P} (hs : FReachable h code T knows s) (j : Nat) :
    ProcSafe h (fun _ _ => False) s.sh (s.procs j) := by
  suffices ∀ j, ProcSafe h (fun _ _ => False) s.sh (s.procs j) from this j
  unfold FReachable at hs
  generalize e : (init : State U A P) = s0 at hs
  induction hs with
  | refl => subst e; exact init_safe
  | step i x y ih => exact (fstep_safe ih y (.inl fun _ _ _ n => n.elim)).2

end Pyth.Parts
