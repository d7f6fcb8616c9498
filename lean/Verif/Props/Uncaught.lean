import Verif.Props.Logging
import Verif.Props.Events
import Verif.Model.Uncaught
/-!
# C76: uncaught exceptions

"An exception that leaves the program while portals are entered is shown to the user and has exactly one record in the
crash history of each entered portal."  True in notebooks, false in scripts: there it is not recorded by the handler.
-/
namespace Pyth.Pure
open Pyth.World Pyth.Portal Pyth.Events

variable {U A : Type} [DecidableEq U] [DecidableEq A] {addrOf : Val U A → A} {prog : FnId → Fn U}

theorem runTop_error {h : HookSt} {a : UProg U A} {s s1 : PWorld U A} {e : Exc}
    (hb : a.run addrOf prog s = (.error e, s1)) :
    runTop addrOf prog h a s = (some (uncaught h e s1).1, (uncaught h e s1).2) := by
  unfold runTop
  rw [hb]

theorem handled_logger (e : Exc) (s : PWorld U A) :
    (pthExceptHandler e s).2 = persistExc [none] e s := by
  unfold pthExceptHandler handlingE exceptionLogger persistExc
  simp only
  split
  · rename_i h; simp only [h, if_true]; cases s; rfl
  · rename_i h; simp only [h, if_false]; cases s; rfl

/-- C76 (notebooks): whatever the program did, an uncaught exception (not logged before the program) has exactly one
record in every entered portal, whether or not it passed through `with` blocks and library functions before.
Missing: programs outside notebooks, see the counterexample. -/
theorem C76_notebook_partial {s s1 : PWorld U A} (h : InSession addrOf prog s) (a : UProg U A) {e : Exc}
    (hb : a.run addrOf prog s = (.error e, s1)) (hne : ¬ Logged s e) (hk : HookSt) (henv : hk.env = .notebook)
    (hreg : hk.custom = true) :
    (runTop addrOf prog hk a s).1 = some (.traceback e.id) ∧
    ∀ q, Entered s q → recordsOf (runTop addrOf prog hk a s).2 q e = 1 := by
  rw [runTop_error hb]
  have hu : uncaught hk e s1 = pthExceptHandler e s1 := by
    unfold uncaught; rw [henv]; simp only [hreg, if_true]
  rw [hu]
  refine ⟨rfl, fun q hq => ?_⟩
  rw [handled_logger]
  have h1 := tidy_prog addrOf prog a s h.inv.1
  rw [hb] at h1
  have h2 := h1.logError (pre := [none]) (List.mem_singleton.2 rfl) (List.nodup_singleton _)
  refine count_one ((h2.inv h.inv.2).nodup q) ?_
  rcases h2.fresh e.id (persistExc_marked _ _ _) with hm' | hm'
  · exact absurd hm' hne
  · exact hm'.2 q hq

/-- the environment of the hooks never changes -/
theorem hook_env (l : List HookOp) (s : HookSt) : (l.foldl HookOp.step s).env = s.env := by
  induction l generalizing s with
  | nil => rfl
  | cons o l ih =>
    rw [List.foldl_cons, ih]
    cases o with
    | setHook h => rfl
    | createPortal => simp only [HookOp.step, Events.register]; split <;> [rfl; split <;> rfl]
    | clearAll =>
      simp only [HookOp.step, unregister]
      split
      · cases s.saved with
        | none => simp only; split <;> rfl
        | some h => simp only; split <;> rfl
      · rfl

/-- outside notebooks IPython's handler is never installed -/
theorem hook_custom (l : List HookOp) (s : HookSt) (h : s.env = .script) (hc : s.custom = false) :
    (l.foldl HookOp.step s).custom = false := by
  induction l generalizing s with
  | nil => exact hc
  | cons o l ih =>
    rw [List.foldl_cons]
    refine ih _ ((hook_env [o] s).trans h) ?_
    cases o with
    | setHook h => exact hc
    | createPortal => simp only [HookOp.step, Events.register, h]; split <;> exact hc
    | clearAll =>
      simp only [HookOp.step, unregister, h]
      split
      · cases s.saved <;> simp only [h] <;> exact hc
      · exact hc

/-- C76: in notebooks the handler of the theorem above is installed from the creation of a portal until everything is
cleared, whatever the program does with `sys.excepthook`. -/
theorem C76_notebook_registered (hook : Hook) (l : List HookOp)
    (hr : (l.foldl HookOp.step (hookStart .notebook hook)).registered = true) :
    (l.foldl HookOp.step (hookStart .notebook hook)).env = .notebook ∧
    (l.foldl HookOp.step (hookStart .notebook hook)).custom = true := by
  refine ⟨hook_env _ _, ?_⟩
  suffices ∀ s : HookSt, s.env = .notebook → (s.registered = true → s.custom = true) →
      (l.foldl HookOp.step s).registered = true → (l.foldl HookOp.step s).custom = true from
    this _ rfl (fun h => by cases h) hr
  clear hr
  induction l with
  | nil => exact fun s _ h => h
  | cons o l ih =>
    intro s he hs
    rw [List.foldl_cons]
    refine ih _ ((hook_env [o] s).trans he) ?_
    cases o with
    | setHook h => exact hs
    | createPortal =>
      intro _
      simp only [HookOp.step, Events.register, he]
      split
      · rename_i hr; exact hs hr
      · rfl
    | clearAll => intro h; cases h

/-- C76: wherever the program runs, as long as it does not replace the hook itself and a portal exists, an uncaught
exception is shown to the user as its traceback. -/
theorem C76_shown {s s1 : PWorld U A} (a : UProg U A) {e : Exc} (hb : a.run addrOf prog s = (.error e, s1)) (env : Env)
    (hook : Hook) (l : List HookOp) (hl : ∀ h', .setHook h' ∉ l) (hr : (l.foldl HookOp.step (hookStart env hook)).registered = true) :
    (runTop addrOf prog (l.foldl HookOp.step (hookStart env hook)) a s).1 = some (.traceback e.id) := by
  rw [runTop_error hb]
  have henv : (l.foldl HookOp.step (hookStart env hook)).env = env := hook_env _ _
  unfold uncaught
  cases env with
  | script =>
    rw [henv]
    rcases C60_handled_while_registered_partial _ hook l hl hr with h | h
    · simp only [h]; rfl
    · rw [hook_custom l _ rfl rfl] at h; cases h
  | notebook =>
    rw [henv]
    simp only [(C76_notebook_registered hook l hr).2, if_true]
    rfl
  | broken => rw [henv]

/-- C76: a program that ends normally shows nothing and is not touched by the hooks. -/
theorem C76_normal_end {s s1 : PWorld U A} (a : UProg U A) (hb : a.run addrOf prog s = (.ok (), s1)) (hk : HookSt) :
    runTop addrOf prog hk a s = (none, s1) := by
  unfold runTop; rw [hb]

/-- C76 is false in scripts: whatever the program, the portals, the hook and the exception, no handler records the
exception; an exception that left no `with` block and no function of the library has no record anywhere, although
portals are entered. -/
theorem C76_script_counterexample {s s1 : PWorld U A} (h : InSession addrOf prog s) (hex : ¬ InExcept s) (a : UProg U A) {e : Exc}
    (hb : a.run addrOf prog s = (.error e, s1)) (hk : HookSt) (henv : hk.env = .script) :
    (runTop addrOf prog hk a s).2.crashes = s1.crashes ∧
    (¬ Logged s1 e → ∀ q, recordsOf (runTop addrOf prog hk a s).2 q e = 0) := by
  have h1 := tidy_prog addrOf prog a s h.inv.1
  rw [hb] at h1
  have hh : s1.handling = [] := h1.ctx.handling.trans (not_not.1 hex)
  have hc : (runTop addrOf prog hk a s).2.crashes = s1.crashes := by
    rw [runTop_error hb]
    unfold uncaught
    rw [henv]
    cases hk.hook with
    | pth =>
      simp only [pthExceptHook]
      unfold exceptionLogger
      rw [hh]
    | other n => rfl
  refine ⟨hc, fun hne q => ?_⟩
  unfold recordsOf
  rw [hc]
  exact List.count_eq_zero.2 fun hm => hne ((h1.inv h.inv.2).marked q _ hm)

end Pyth.Pure

namespace Pyth.Pure.Ex
open Pyth.World Pyth.Portal Pyth.Pure Pyth.Events

/-- a program that fails after a call; portal 0 is entered at the top level -/
def top : UProg Nat T := .seq (.op (.call 1 9 2 [("n", .raw 3)])) (.raise .keyError)

def afterTop (env : Env) : Option Shown × PWorld Nat T :=
  runTop addrOf prog (HookOp.step (hookStart env (.other 7)) .createPortal) top two

example : Entered two 0 ∧ ¬ InExcept two ∧ (afterTop .notebook).1.isSome = true ∧ ((afterTop .notebook).2.crashes 0).length = 1 ∧
    (afterTop .script).1.isSome = true ∧ (afterTop .script).2.crashes 0 = [] := by
  refine ⟨?_, ?_, ?_, ?_, ?_, ?_⟩
  · unfold Entered; decide +kernel
  · unfold InExcept; decide +kernel
  · decide +kernel
  · decide +kernel
  · decide +kernel
  · decide +kernel

end Pyth.Pure.Ex
