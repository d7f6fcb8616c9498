import Verif.Props.PureCalls
/-!
# Guards of pure functions: C29, C30

The trace of a session records the start of every function body with its arguments
(`Event.start f kw isPure`), and the outcome of every evaluation of the guards of a function with the
arguments handed to the guards (`Event.guards f kw ok`).
-/
set_option linter.unusedSectionVars false
set_option linter.unusedVariables false
namespace Pyth.Pure
open Pyth.World Pyth.Portal
open Pyth.ValueAddr (IsAddr HoldsVal)

variable {U A : Type} [DecidableEq U] [DecidableEq A] {addrOf : Val U A → A}

/-- the calls `g(**kw)` of all guards `g` in the list, one after the other, return normally, and take
the state from the first to the second one -/
inductive AllReturn (call : FnId → Kw U → PM U A U) (kw : Kw U) : List FnId → PWorld U A → PWorld U A → Prop
  | nil (s) : AllReturn call kw [] s s
  | cons {g gs s s1 s2 u} (h : call g kw s = (.ok u, s1)) (hs : AllReturn call kw gs s1 s2) :
      AllReturn call kw (g :: gs) s s2

theorem guardLoop_true {call : FnId → Kw U → PM U A U} {kw : Kw U} {gs : List FnId} {s s' : PWorld U A} {b : Bool}
    (h : guardLoop call kw gs s = (.ok b, s')) : b = true ∧ AllReturn call kw gs s s' := by
  induction gs generalizing s with
  | nil => cases h; exact ⟨rfl, .nil _⟩
  | cons g gs ih =>
    simp only [guardLoop] at h
    rw [PyM.run_bind] at h
    rcases hc : call g kw s with ⟨r, s1⟩
    rw [hc] at h
    cases r with
    | error e => cases h
    | ok u => exact ⟨(ih h).1, .cons hc (ih h).2⟩

theorem allReturn_true {call : FnId → Kw U → PM U A U} {kw : Kw U} {gs : List FnId} {s s' : PWorld U A}
    (h : AllReturn call kw gs s s') : guardLoop call kw gs s = (.ok true, s') := by
  induction h with
  | nil s => rfl
  | cons h _ ih =>
    simp only [guardLoop]
    rw [PyM.run_bind, h]
    exact ih

/-- **C29** The check of the guards says yes exactly if all of them, called with the given arguments one after the
other, returned normally (arbitrary program; `t`: the state after the portal was entered). -/
theorem C29_check_is_all_guards (prog : FnId → Fn U) (p : PortalId) (n : Nat) (f : FnId) (kw : Kw U) (s : PWorld U A) :
    (∀ s', canBeExecuted (exec addrOf prog p n) prog p f kw s = (.ok true, s') →
      ∃ t t', enterP p s = (.ok (), t) ∧ AllReturn (exec addrOf prog p n) kw (prog f).guards t t' ∧ exitP p t' = (.ok (), s')) ∧
    ∀ s', canBeExecuted (exec addrOf prog p n) prog p f kw s = (.ok false, s') →
      ∃ t, enterP p s = (.ok (), t) ∧ ∀ t', ¬ AllReturn (exec addrOf prog p n) kw (prog f).guards t t' := by
  have key : ∀ b s', canBeExecuted (exec addrOf prog p n) prog p f kw s = (.ok b, s') →
      ∃ t t', enterP p s = (.ok (), t) ∧ exitP p t' = (.ok (), s') ∧
        tryE (guardLoop (exec addrOf prog p n) kw (prog f).guards)
          (fun e => if e.kind = diverge then PyM.raise e else pure false) t = (.ok b, t') := by
    intro b s' h
    unfold canBeExecuted withP at h
    split at h
    · cases h
    · rename_i t he
      split at h
      · rename_i a t' hb
        split at h
        · rename_i t'' hx
          cases h
          exact ⟨t, t', he, hx, hb⟩
        · cases h
      · split at h <;> cases h
  refine ⟨fun s' h => ?_, fun s' h => ?_⟩
  · obtain ⟨t, t', h1, h2, h3⟩ := key _ _ h
    unfold tryE at h3
    split at h3
    · rename_i a t1 hl
      cases h3
      exact ⟨t, t', h1, (guardLoop_true hl).2, h2⟩
    · rename_i e t1 hl
      unfold handlingE at h3
      split at h3
      cases h3
      rename_i hx
      simp only at hx
      split at hx <;> cases hx
  · obtain ⟨t, t', h1, h2, h3⟩ := key _ _ h
    refine ⟨t, h1, fun t2 h4 => ?_⟩
    unfold tryE at h3
    rw [allReturn_true h4] at h3
    cases h3

/-- **C29** In every session, of any program, each start of the body of a pure function is directly preceded by a
check of its guards that succeeded, on arguments with the same names and, where the caller passed
plain values, the same values. -/
theorem C29_body_starts_after_guards (hinj : Function.Injective addrOf) (prog : FnId → Fn U) {s : PWorld U A}
    (hs : Reached addrOf prog s) (pre post : List (Event U)) (f : FnId) (kw : Kw U)
    (ht : s.ext.trace = pre ++ Event.start f kw true :: post) :
    ∃ pre' kw0, pre = pre' ++ [Event.guards f kw0 true] ∧
      List.Forall₂ (fun x y => x.1 = y.1 ∧ ∃ v, y.2 = Arg.raw v ∧ ∀ u, x.2 = Arg.raw u → v = u) (sortKw kw0) kw :=
  (hs.good hinj).w.trace.1 pre f kw post ht

/-- **C29** In a session of a deterministic program the body of a pure function only ever runs on arguments for
which every guard of the function, evaluated directly, returns normally. -/
theorem C29_body_only_if_guards_hold (hinj : Function.Injective addrOf) {prog : FnId → Fn U} (hd : DetProg prog)
    {s : PWorld U A} (hs : ReachedDet addrOf prog s) {f : FnId} {vals : List (String × U)}
    (hst : Event.start f (rawKw vals) true ∈ s.ext.trace) : ∀ g ∈ (prog f).guards, ∃ v, Den prog g vals (.ok v) :=
  (hs.good hinj hd).w.trace.2 f vals hst

theorem refGuards_ok {rec : FnId → List (String × U) → Except Kind U} {vals : List (String × U)} {gs : List FnId}
    (h : refGuards rec vals gs = .ok ()) : ∀ g ∈ gs, ∃ v, rec g vals = .ok v := by
  induction gs with
  | nil => simp
  | cons g gs ih =>
    unfold refGuards at h
    split at h
    · rename_i v hv
      intro g' hg'
      rcases List.mem_cons.1 hg' with rfl | hg'
      · exact ⟨v, hv⟩
      · exact ih h g' hg'
    · cases h

/-- **C29** A call of a deterministic program that some guard rejects: it raises (`AssertionError`, unless it is
cut off), nothing is stored, and the body of the function is not and never was run on these arguments. -/
theorem C29_rejected_call (hinj : Function.Injective addrOf) {prog : FnId → Fn U} (hd : DetProg prog)
    {s : PWorld U A} (hs : ReachedDet addrOf prog s) (p : PortalId) (n : Nat) {f : FnId} (hf : (prog f).isPure = true)
    (vals : List (String × U)) {g : FnId} (hg : g ∈ (prog f).guards) {k : Kind} (hk : Den prog g vals (.error k)) :
    ∃ e s', exec addrOf prog p (n + 1) f (rawKw vals) s = (.error e, s') ∧ (e.kind = .assertionError ∨ e.kind = diverge) ∧
      NoResult addrOf s' p f vals ∧ Event.start f (rawKw (sortKw vals)) true ∉ s'.ext.trace := by
  have hno : ∀ u, ¬ Den prog f vals (.ok u) := by
    rintro u ⟨_, m, hm⟩
    cases m with
    | zero => cases hm
    | succ m =>
      unfold ref at hm
      rw [if_pos hf] at hm
      split at hm
      · rename_i x hx
        obtain ⟨v, hv⟩ := refGuards_ok (show refGuards (ref prog m) vals (prog f).guards = .ok () from hx) g hg
        have : Den prog g vals (.ok v) := ⟨by simp, m, hv⟩
        cases this.unique hk
      · split at hm <;> cases hm
  have hnk : ∀ e, Den prog f vals (.error e) → e = .assertionError := by
    rintro e ⟨h0, m, hm⟩
    cases m with
    | zero => cases hm; exact absurd rfl h0
    | succ m =>
      unfold ref at hm
      rw [if_pos hf] at hm
      split at hm
      · rename_i x hx
        obtain ⟨v, hv⟩ := refGuards_ok (show refGuards (ref prog m) vals (prog f).guards = .ok () from hx) g hg
        have : Den prog g vals (.ok v) := ⟨by simp, m, hv⟩
        cases this.unique hk
      · split at hm
        · rename_i hx; subst hx; cases hm; exact absurd rfl h0
        · cases hm; rfl
  have hreach : ReachedDet addrOf prog (exec addrOf prog p (n + 1) f (rawKw vals) s).2 :=
    hs.session (ops := [.call p (n + 1) f (rawKw vals)]) ⟨trivial, trivial⟩ ⟨⟨vals, .inl rfl⟩, trivial⟩
  have hc := C23_memoization_transparent hinj hd hs p (n + 1) f (kw := rawKw vals) (vals := vals) (.inl rfl)
  rcases he : exec addrOf prog p (n + 1) f (rawKw vals) s with ⟨r, s'⟩
  rw [he] at hc hreach
  cases r with
  | ok u => exact absurd hc (hno u)
  | error e =>
    refine ⟨e, s', rfl, ?_, ?_, fun h => ?_⟩
    · rcases hc with h | h
      · exact .inr h.1
      · exact .inl (hnk _ h)
    · unfold NoResult
      by_contra hne
      obtain ⟨u, _, hu⟩ := Stored.of_isSome (hreach.good hinj hd) (Option.isSome_iff_ne_none.2 hne)
      obtain ⟨a, m, b⟩ := (show Den prog f (sortKw vals) (.ok u) from hu)
      exact hno u ⟨a, m, by rw [ref_sort hd] at b; exact b⟩
    · obtain ⟨v, a, m, b⟩ := C29_body_only_if_guards_hold hinj hd hreach h g hg
      rw [ref_sort hd] at b
      have : Den prog g vals (.ok v) := ⟨a, m, b⟩
      cases this.unique hk

/-! ### C30 -/

theorem forall₂_raw {kw kw' : Kw U} (hraw : ∀ x ∈ kw, ∃ u, x.2 = Arg.raw u)
    (h : List.Forall₂ (fun x y : String × Arg U => x.1 = y.1 ∧ ∃ v, y.2 = Arg.raw v ∧ ∀ u, x.2 = Arg.raw u → v = u) kw kw') : kw' = kw := by
  induction h with
  | nil => rfl
  | @cons x y l l' h _ ih =>
    rw [ih fun z hz => hraw z (by simp [hz])]
    obtain ⟨u, hu⟩ := hraw x (by simp)
    obtain ⟨h1, v, h2, h3⟩ := h
    rw [show y = x from Prod.ext h1.symm (by rw [h2, h3 u hu, hu])]

/-- **C30** (part) Whenever the guards were handed plain values - a direct call `f(**kw)` with plain values, in
particular - the body then runs on exactly the same arguments, sorted by name.  What is missing: calls
executed through an address, where it is false (`C30_counterexample`). -/
theorem C30_plain_arguments_partial (hinj : Function.Injective addrOf) (prog : FnId → Fn U) {s : PWorld U A}
    (hs : Reached addrOf prog s) (pre post : List (Event U)) (f : FnId) (kw0 kw : Kw U)
    (ht : s.ext.trace = pre ++ Event.guards f kw0 true :: Event.start f kw true :: post)
    (hraw : ∀ x ∈ kw0, ∃ u, x.2 = Arg.raw u) : kw = sortKw kw0 := by
  obtain ⟨pre', kw1, h1, h2⟩ := C29_body_starts_after_guards hinj prog hs (pre ++ [Event.guards f kw0 true]) post f kw (by simp [ht])
  have := List.append_inj_right' h1 rfl
  simp only [List.cons.injEq, Event.guards.injEq, and_true, true_and] at this
  subst this
  exact forall₂_raw (fun x hx => hraw x ((sortKw_perm _).subset hx)) h2

end Pyth.Pure

namespace Pyth.Pure.Ex
open Pyth.World Pyth.Portal

deriving instance DecidableEq for Event

/-- outcome of the last check of guards, with the arguments handed to the guards -/
def lastGuards (t : List (Event Nat)) : Option (FnId × Kw Nat × Bool) :=
  t.foldl (fun r e => match e with | .guards f kw ok => some (f, kw, ok) | _ => r) none

/-- **C30** Counterexample: function 4 has the autonomous guard 3, which rejects `x = 0`.  The direct call `f4(x=5)`
is accepted and returns 6; `f4.run(x=5)` in the same fresh session executes the call through its
address and fails: the guard was handed the address of 5 instead of 5. -/
theorem C30_counterexample :
    Reached addrOf prog (start none fun _ => 0) ∧
    out (exec addrOf prog 0 9 4 [("x", .raw 5)] (start none fun _ => 0)) = .ok 6 ∧
    out (run addrOf prog 9 0 4 [("x", .raw 5)] (start none fun _ => 0)) = .error .assertionError ∧
    lastGuards (run addrOf prog 9 0 4 [("x", .raw 5)] (start none fun _ => 0)).2.ext.trace = some (4, [("x", .addr 0)], false) :=
  ⟨Reached.start (start_ok _ _ _), by decide +kernel, by decide +kernel, by decide +kernel⟩

/-- C29: function 4 of the deterministic program is pure and guarded by function 3, which raises for `x = 0` and
returns for `x = 5` -/
example : (detProg 4).isPure = true ∧ 3 ∈ (detProg 4).guards ∧ Den detProg 3 [("x", 0)] (.error (.user 8)) ∧
    Den detProg 3 [("x", 5)] (.ok 1) :=
  ⟨rfl, by decide, ⟨by decide, 1, by decide +kernel⟩, ⟨by decide, 1, by decide +kernel⟩⟩

/-- C29, C30: the trace of a session in which function 4 was called with `x = 5` -/
example : (session addrOf detProg (start none fun _ => 0) [.call 0 9 4 [("x", .raw 5)]]).ext.trace =
    [.start 3 [("x", .raw 5)] false, .guards 4 [("x", .raw 5)] true, .start 4 [("x", .raw 5)] true] := by decide +kernel

end Pyth.Pure.Ex
