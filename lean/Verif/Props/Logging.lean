import Verif.Proofs.LogProg
import Verif.Spec.Logging
import Verif.Examples.Pure
/-!
# Crash logs: C56, C58

`InSession addrOf prog s`: `s` is a state of some session, after any history of API operations, entered
and left portals, `except` clauses and activities of other processes.  User programs `UProg` consist of
API operations, `raise`, `try`, `with` and sequencing.
-/
set_option linter.unusedSectionVars false
set_option linter.unusedVariables false
namespace Pyth.Pure
open Pyth.World Pyth.Portal

variable {U A α : Type} [DecidableEq U] [DecidableEq A] {addrOf : Val U A → A} {prog : FnId → Fn U}

/-! ### proof support -/

theorem InSession.inv {s : PWorld U A} (h : InSession addrOf prog s) : Ok s ∧ LogInv s := by
  obtain ⟨s0, ops, h0, rfl⟩ := h
  refine session_log addrOf prog s0 ?_ ?_ ops
  · unfold Ok; rw [h0.stack, h0.counters]; exact .nil
  · refine ⟨fun q => ?_, fun q c hc => ?_, fun x hx => ?_, fun e he => ?_⟩
    · rw [h0.crashes]; exact List.nodup_nil
    · rw [h0.crashes] at hc; cases hc
    · rw [h0.marked] at hx; cases hx
    · rw [h0.handling] at he; cases he

theorem inside_logs (p : PortalId) (s : PWorld U A) (hs : Ok s) :
    (inside p s).marked = s.marked ∧ (inside p s).crashes = s.crashes ∧ (inside p s).nextExc = s.nextExc := by
  obtain ⟨sys', h1, h2, h3, h4, h5, h6⟩ := enterP_ok p s hs
  rw [h6]; exact ⟨rfl, rfl, rfl⟩

theorem enter_mem {p : PortalId} {sys sys' : Sys} (h : Portal.enter p sys = .ok sys') (q : PortalId) :
    q ∈ sys'.stack ↔ q = p ∨ q ∈ sys.stack := by
  unfold Portal.enter at h
  cases hst : sys.stack with
  | nil => rw [hst] at h; injection h with h; rw [← h]; simp [hst]
  | cons a st =>
    rw [hst] at h
    simp only at h
    split at h
    · injection h with h; rw [← h]; simp [hst]
    · rename_i hap
      have hap : a = p := not_not.1 hap
      cases hcs : sys.counters with
      | nil => rw [hcs] at h; cases h
      | cons c cs =>
        rw [hcs] at h; injection h with h
        rw [← h]
        show q ∈ a :: st ↔ _
        rw [hap]
        simp

theorem inside_stack (p : PortalId) (s : PWorld U A) (hs : Ok s) (q : PortalId) :
    q ∈ (inside p s).sys.stack ↔ q = p ∨ q ∈ s.sys.stack := by
  obtain ⟨sys', h1, _⟩ := Portal.enter_spec s.sys p hs
  have : inside p s = { s with sys := sys' } := by unfold inside enterP; rw [h1]
  rw [this]
  exact enter_mem h1 q

theorem within_error {a : UProg U A} {p : PortalId} {s s1 : PWorld U A} (hs : Ok s) {e : Exc}
    (h : a.run addrOf prog (enterP p s).2 = (.error e, s1)) :
    (UProg.within p a).run addrOf prog s =
      (.error e, { persistExc [none] e s1 with sys := { s.sys with all := (persistExc [none] e s1).sys.all } }) := by
  show withP p (a.run addrOf prog) s = _
  rw [withP_eq p _ s hs (tidy_prog addrOf prog a).keeps]
  have h : a.run addrOf prog (inside p s) = (.error e, s1) := h
  rw [h]
  simp only
  rw [withP_error_state p]

theorem within_ok {a : UProg U A} {p : PortalId} {s s1 : PWorld U A} (hs : Ok s)
    (h : a.run addrOf prog (enterP p s).2 = (.ok (), s1)) :
    (UProg.within p a).run addrOf prog s = (.ok (), { exceptionLogger s1 with sys := { s.sys with all := s1.sys.all } }) := by
  show withP p (a.run addrOf prog) s = _
  rw [withP_eq p _ s hs (tidy_prog addrOf prog a).keeps]
  have h : a.run addrOf prog (inside p s) = (.ok (), s1) := h
  rw [h]

theorem count_one {l : List CrashRec} (hn : l.Nodup) {c : CrashRec} (h : c ∈ l) : l.count c = 1 :=
  List.count_eq_one_of_mem hn h

theorem withP_failure {m : PM U A α} (hm : Tidy m) {p : PortalId} {s s2 : PWorld U A} (hs : Ok s) (hl : LogInv s) {e : Exc}
    (h : withP p m s = (.error e, s2)) (hne : ¬ Logged s e) (q : PortalId) (hq : q = p ∨ Entered s q) : recordsOf s2 q e = 1 := by
  have hw := (Tidy.withP p hm) s hs
  rw [h] at hw
  refine count_one ((hw.inv hl).nodup q) ?_
  rw [withP_eq p _ s hs hm.keeps] at h
  have hin := (inside_ok p s hs).1
  have h1 := hm _ hin
  cases hms : m (inside p s) with
  | mk r s1 =>
    rw [hms] at h1 h
    cases r with
    | ok a => injection h with h _; cases h
    | error e' =>
      simp only at h
      rw [withP_error_state p] at h
      injection h with ha hb
      injection ha with ha
      subst ha
      have h2 := h1.logError (pre := [none]) (List.mem_singleton.2 rfl) (List.nodup_singleton _)
      rcases h2.fresh e'.id (persistExc_marked _ _ _) with hm' | hm'
      · rw [(inside_logs p s hs).1] at hm'; exact absurd hm' hne
      · have := hm'.2 q ((inside_stack p s hs q).2 hq)
        rw [← hb]
        exact this

/-! ### C56 -/

/-- C56: in every state of every session, no crash history has two records of the same exception under
the same path. -/
theorem C56_logged_once {s : PWorld U A} (h : InSession addrOf prog s) (q : PortalId) : (s.crashes q).Nodup :=
  h.inv.2.nodup q

/-- C56: the same after any program, run in any such state, whether it fails or not. -/
theorem C56_logged_once_program {s : PWorld U A} (h : InSession addrOf prog s) (a : UProg U A) (q : PortalId) :
    ((a.run addrOf prog s).2.crashes q).Nodup :=
  ((tidy_prog addrOf prog a s h.inv.1).inv h.inv.2).nodup q

/-- C56: the innermost logging point.  When the body of a `with` block raises an exception that was not
logged yet, the exception leaves the block, each portal that is entered there gets one record at the
end of its history, and no other portal gets any. -/
theorem C56_logging_point {s s1 : PWorld U A} (h : InSession addrOf prog s) (p : PortalId) (a : UProg U A) {e : Exc}
    (hb : a.run addrOf prog (enterP p s).2 = (.error e, s1)) (hne : ¬ Logged s1 e) :
    ∃ s2, (UProg.within p a).run addrOf prog s = (.error e, s2) ∧ Logged s2 e ∧
      (∀ q, q = p ∨ Entered s q → s2.crashes q = s1.crashes q ++ [⟨e.id, none⟩]) ∧
      (∀ q, ¬ (q = p ∨ Entered s q) → s2.crashes q = s1.crashes q) := by
  refine ⟨_, within_error h.inv.1 hb, persistExc_marked _ _ _, ?_⟩
  have hst : s1.sys.stack = (inside p s).sys.stack := by
    have := (tidy_prog addrOf prog a _ (inside_ok p s h.inv.1).1).ctx.stack
    have hb' : a.run addrOf prog (inside p s) = (.error e, s1) := hb
    rw [hb'] at this; exact this
  have key : ∀ q, q ∈ enteredList s1 ↔ q = p ∨ Entered s q := fun q => by
    rw [mem_enteredList, hst]; exact inside_stack p s h.inv.1 q
  have hcr : ∀ q, (persistExc [none] e s1).crashes q = if q ∈ enteredList s1 then s1.crashes q ++ [⟨e.id, none⟩] else s1.crashes q := by
    intro q
    unfold persistExc
    rw [if_neg (show ¬ e.id ∈ s1.marked from hne)]
    rfl
  refine ⟨fun q hq => ?_, fun q hq => ?_⟩
  · exact (hcr q).trans (if_pos ((key q).2 hq))
  · exact (hcr q).trans (if_neg (fun x => hq ((key q).1 x)))

/-- C56: an exception that was logged already passes through a `with` block without any record. -/
theorem C56_passing_through {s s1 : PWorld U A} (h : InSession addrOf prog s) (p : PortalId) (a : UProg U A) {e : Exc}
    (hb : a.run addrOf prog (enterP p s).2 = (.error e, s1)) (hl : Logged s1 e) :
    ∃ s2, (UProg.within p a).run addrOf prog s = (.error e, s2) ∧ s2.crashes = s1.crashes := by
  refine ⟨_, within_error h.inv.1 hb, ?_⟩
  unfold persistExc
  rw [if_pos (show e.id ∈ s1.marked from hl)]

/-- C56: whatever happens inside the block — nested blocks, failing functions, caught and re-raised
exceptions — when an exception that had not been logged before the block leaves it, every portal
entered there has exactly one record of it. -/
theorem C56_block_failure_logged {s s2 : PWorld U A} (h : InSession addrOf prog s) (p : PortalId) (a : UProg U A) {e : Exc}
    (hb : (UProg.within p a).run addrOf prog s = (.error e, s2)) (hne : ¬ Logged s e) (q : PortalId) (hq : q = p ∨ Entered s q) :
    recordsOf s2 q e = 1 :=
  withP_failure (tidy_prog addrOf prog a) h.inv.1 h.inv.2 hb hne q hq

/-- C56: an exception that leaves a function of portal `p` (and was not logged before the call) has
exactly one record in `p` and in every other portal that is entered. -/
theorem C56_call_failure_logged {s s2 : PWorld U A} (h : InSession addrOf prog s) (p : PortalId) (n : Nat) (f : FnId) (kw : Kw U)
    {e : Exc} (hb : exec addrOf prog p (n + 1) f kw s = (.error e, s2)) (hne : ¬ Logged s e) (q : PortalId) (hq : q = p ∨ Entered s q) :
    recordsOf s2 q e = 1 := by
  have ih : ∀ f kw, Tidy (exec addrOf prog p n f kw) := fun f kw => tidy_exec addrOf prog p n f kw
  unfold exec at hb
  split at hb
  · refine withP_failure (p := p) ?_ h.inv.1 h.inv.2 hb hne q hq
    exact Tidy.bind (tidy_pack _ _ _) fun _ => Tidy.bind (tidy_mkRAddr _ _ _ _) fun ri => Tidy.bind tidy_drawR fun x =>
      Tidy.bind Tidy.get fun s => Tidy.bind (tidy_rReady _ _) fun rd => Tidy.ite (tidy_rGet _ _) (tidy_withFrame _ _ fun n =>
        tidy_frameBody addrOf ih _ _ _ _ _ _ _ _ _)
  · exact withP_failure (p := p) (tidy_ordExec ih _ _ _ _) h.inv.1 h.inv.2 hb hne q hq

/-! ### C58 -/

/-- C58 (what holds): outside of `except` clauses, a program during which no exception is raised ends
normally and adds no crash record anywhere.  Missing for the full claim: operations that return
normally although exceptions were raised and caught inside, and operations inside `except` clauses. -/
theorem C58_quiet_partial {s : PWorld U A} (h : InSession addrOf prog s) (hex : ¬ InExcept s) (a : UProg U A)
    (hq : ¬ Raised s (a.run addrOf prog s).2) :
    (∃ s', a.run addrOf prog s = (.ok (), s')) ∧ (a.run addrOf prog s).2.crashes = s.crashes := by
  have ht := tidy_prog addrOf prog a s h.inv.1
  have hinv := ht.inv h.inv.2
  have hex : s.handling = [] := not_not.1 hex
  have hq : s.nextExc = (a.run addrOf prog s).2.nextExc := not_not.1 hq
  have hmine : ∀ x, Mine s x → s.nextExc ≤ x := by
    intro x hx
    rcases hx with hx | ⟨e, he, _⟩
    · exact hx
    · rw [hex] at he; cases he
  constructor
  · cases hr : a.run addrOf prog s with
    | mk r s' =>
      cases r with
      | ok u => exact ⟨s', rfl⟩
      | error e =>
        rw [hr] at ht hq
        have h1 := hmine _ (ht.err e rfl)
        have h2 := ht.errlt h.inv.2 e rfl
        rw [← hq] at h2
        omega
  · funext q
    have hg := ht.grow q
    obtain ⟨l, hl⟩ := hg
    cases l with
    | nil => rw [← hl, List.append_nil]
    | cons c l =>
      exfalso
      have hc : c ∈ (a.run addrOf prog s).2.crashes q := by rw [← hl]; simp
      have hn : c ∉ s.crashes q := by
        intro hin
        have := hinv.nodup q
        rw [← hl, List.nodup_append] at this
        exact this.2.2 c hin c (List.mem_cons_self ..) rfl
      rcases ht.recs q c hc with h1 | h1
      · exact hn h1
      · have h2 := hmine _ h1.2
        have h3 := hinv.old _ (hinv.marked q c hc)
        rw [← hq] at h3
        omega

/-- C58 (what holds): crash records added by a program belong to exceptions raised during the program,
or being handled when it started. -/
theorem C58_origin_partial {s : PWorld U A} (h : InSession addrOf prog s) (a : UProg U A) (q : PortalId) (c : CrashRec)
    (hc : c ∈ (a.run addrOf prog s).2.crashes q) :
    c ∈ s.crashes q ∨ (s.nextExc ≤ c.exc ∧ c.exc < (a.run addrOf prog s).2.nextExc) ∨ ∃ e ∈ s.handling, e.id = c.exc := by
  have ht := tidy_prog addrOf prog a s h.inv.1
  have hinv := ht.inv h.inv.2
  rcases ht.recs q c hc with h1 | ⟨h1, h2 | h2⟩
  · exact .inl h1
  · exact .inr (.inl ⟨h2, hinv.old _ (hinv.marked q c hc)⟩)
  · exact .inr (.inr h2)

/-- C58 (what holds): leaving a `with` block normally, outside of `except` clauses, adds no record. -/
theorem C58_block_partial {s s1 : PWorld U A} (h : InSession addrOf prog s) (hex : ¬ InExcept s) (p : PortalId) (a : UProg U A)
    (hb : a.run addrOf prog (enterP p s).2 = (.ok (), s1)) :
    ∃ s2, (UProg.within p a).run addrOf prog s = (.ok (), s2) ∧ s2.crashes = s1.crashes := by
  refine ⟨_, within_ok h.inv.1 hb, ?_⟩
  have hh : s1.handling = [] := by
    have := (tidy_prog addrOf prog a _ (inside_ok p s h.inv.1).1).ctx.handling
    have hb' : a.run addrOf prog (inside p s) = (.ok (), s1) := hb
    rw [hb', (inside_ok p s h.inv.1).2.1] at this
    exact this.trans (not_not.1 hex)
  unfold exceptionLogger
  rw [hh]

end Pyth.Pure

namespace Pyth.Pure.Ex
open Pyth.World Pyth.Portal Pyth.Pure

theorem start_fresh (c : Option Rat) (d : Nat → Rat) : FreshLogs (start c d) := ⟨rfl, rfl, rfl, rfl, fun _ => rfl⟩

theorem start_inSession (c : Option Rat) (d : Nat → Rat) (ops : List (POp Nat T)) :
    InSession addrOf prog (session addrOf prog (start c d) ops) := ⟨_, _, start_fresh c d, rfl⟩

/-- two portals; value 5 is stored in portal 1; object 1 is an address of it in portal 0; portal 0 is entered -/
def two : PWorld Nat T := session addrOf prog (start none fun _ => 0)
  [.val (.newPortal 0), .val (.newPortal 1), .val (.new (.user 5) (some 1)), .val (.fromStrings (addrOf (.user 5)) (some 0) false),
    .val (.enter 0)]

/-- C56, concrete case: a failing function (number 5) in portal 1, called inside a block of portal 2, with
portal 0 entered outside.  One record in each portal; two more blocks and a handler that raises the
exception again add none. -/
def failing : UProg Nat T :=
  .within 2 (.tryExcept (.seq .pass (.op (.call 1 3 5 []))) (.within 3 .reraise))

def outcome (a : UProg Nat T) : Bool := match (a.run addrOf prog two).1 with
  | .ok _ => true
  | .error _ => false

example : outcome failing = false ∧ ((failing.run addrOf prog two).2.crashes 0).map (·.fn) = [some 5, none] ∧
    ((failing.run addrOf prog two).2.crashes 1).map (·.fn) = [some 5, none] ∧
    ((failing.run addrOf prog two).2.crashes 2).map (·.fn) = [some 5, none] ∧
    (failing.run addrOf prog two).2.crashes 3 = [] := by decide +kernel

/-- C58, concrete case: a call that computes Fibonacci numbers recursively raises nothing inside and adds
no record -/
example : ¬ InExcept two ∧ ¬ Raised two ((UProg.within 1 (.op (.call 1 9 2 [("n", .raw 3)]))).run addrOf prog two).2 := by
  constructor
  · unfold InExcept; decide +kernel
  · unfold Raised; decide +kernel

end Pyth.Pure.Ex

namespace Pyth.Pure
open Pyth.World Pyth.Portal Ex

/-- C58 fails: reading a value that is held only by a portal other than the one of the address returns it, and leaves
a crash record of the internal KeyError in the entered portal. -/
theorem C58_fallback_counterexample :
    InSession addrOf prog two ∧ ¬ InExcept two ∧
    outcome (.op (.val (.get 1))) = true ∧ two.crashes 0 = [] ∧
    ((UProg.op (.val (.get 1))).run addrOf prog two).2.crashes 0 = [⟨0, none⟩] := by
  refine ⟨start_inSession _ _ _, ?_, ?_, ?_, ?_⟩
  · unfold InExcept; decide +kernel
  · decide +kernel
  · decide +kernel
  · decide +kernel

/-- C58 fails: a `with` block that is completed normally inside an `except` clause leaves a crash record
of the handled exception, which has nothing to do with the block. -/
theorem C58_handler_counterexample :
    outcome (.tryExcept (.raise .keyError) (.within 1 .pass)) = true ∧ two.crashes 1 = [] ∧
    ((UProg.tryExcept (.raise .keyError) (.within 1 .pass)).run addrOf prog two).2.crashes 1 = [⟨0, none⟩] := by
  refine ⟨?_, ?_, ?_⟩ <;> decide +kernel

end Pyth.Pure
