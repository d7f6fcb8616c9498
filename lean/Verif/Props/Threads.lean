import Verif.Proofs.Threads
import Mathlib.Logic.Function.Iterate
/-!
# Portal blocks in several threads (C109)

The entered portals are kept in lists that all threads share.  Blocks in different threads work if they do not overlap in time;
they do not work otherwise, not even if all threads use the same portal.
-/
namespace Pyth.Threads
open Pyth.Portal (PortalId Err Sys Rep expand)

/-- **C109.** If blocks of different threads do not overlap in time (a lock), then, in every schedule, however the steps inside
of entering and leaving are ordered: no thread fails, every look finds the portal of the innermost block around it in the code of
its thread, and when all threads are outside of their blocks no portal is entered. -/
theorem C109_locked_partial (progs : List Prog) (sched : List Nat) (hl : Locked (start progs) sched) :
    (∀ (i : Nat) (t : Thread), (run (start progs) sched).threads[i]? = some t → (∀ e, t.pc ≠ .failed e) ∧
      ∃ P : Prog, progs[i]? = some P ∧ t.seen <+: P.views none ∧ (Finished t → t.seen = P.views none ∧ Outside t)) ∧
    ((∀ t ∈ (run (start progs) sched).threads, Outside t) → (run (start progs) sched).sys.stack = [] ∧
      (run (start progs) sched).sys.counters = []) := by
  have h := good_run sched _ (good_start progs) hl
  generalize run (start progs) sched = s at h
  refine ⟨fun i t ht => ?_, fun ho => ?_⟩
  · obtain ⟨P, hP, h1⟩ := h.threads i t ht
    refine ⟨fun e he => ?_, P, hP, ⟨_, h1.views⟩, fun hf => ?_⟩
    · rcases h.lists.1 i t ht with h2 | h2
      · unfold SysInv at h2; rw [he] at h2; exact h2
      · have h3 := h2.2; rw [he] at h3; cases h3
    · obtain ⟨h2, h3⟩ := h1
      have ha : after t = t.inside := by unfold after; rw [hf.2]
      rw [hf.1, ha] at h2 h3
      exact ⟨by rw [← h3]; exact (List.append_nil _).symm, h2, hf.2⟩
  · rcases h.lists.2 with ⟨i, t, h1, h2, _⟩ | h1
    · exact inv_outside h2 (ho t (List.mem_of_getElem? h1))
    · exact h1

/-- the code of a thread: `look; with p: (look; with q: look); look` -/
def sample (p q : PortalId) : Prog := .look (.block p (.look (.block q (.look .done) .done)) (.look .done))

/-- a check of `Locked` -/
def lockedB (s : St) : List Nat → Bool
  | [] => true
  | i :: r => (List.range s.threads.length).all (fun j => j == i || (s.threads[j]?.map fun t => t.inside.isEmpty && t.pc == .idle).getD true) &&
    lockedB (stepAt s i) r

theorem lockedB_sound : ∀ (l : List Nat) (s : St), lockedB s l = true → Locked s l
  | [], _, _ => trivial
  | i :: r, s, h => by
    simp only [lockedB, Bool.and_eq_true] at h
    refine ⟨fun j t hj ht => ?_, lockedB_sound r _ h.2⟩
    have h1 := List.all_eq_true.1 h.1 j (List.mem_range.2 (List.getElem?_eq_some_iff.1 ht).1)
    rw [ht] at h1
    simp only [Option.map_some, Option.getD_some, Bool.or_eq_true, beq_iff_eq, hj, false_or, Bool.and_eq_true,
      List.isEmpty_iff] at h1
    exact h1

/-- non-vacuity: two threads with different portals, one after the other -/
example : Locked (start [sample 1 2, sample 2 2]) (List.replicate 19 1 ++ List.replicate 19 0) ∧
    ((run (start [sample 1 2, sample 2 2]) (List.replicate 19 1 ++ List.replicate 19 0)).threads.map fun t => (t.todo, t.seen)) =
      [([], [none, some 1, some 2, none]), ([], [none, some 2, some 2, none])] := by
  refine ⟨lockedB_sound _ _ ?_, ?_⟩ <;> decide +kernel

/-- Whole commands are what `__enter__` and `__exit__` do if nothing comes in between: running the steps of a command in one go
gives the result of the command, its exception included. -/
theorem C109_whole_commands (s : St) (i : Nat) (t : Thread) (c : Cmd) (r : List Cmd) (hi : s.threads[i]? = some t) (hp : t.pc = .idle)
    (hc : t.todo = c :: r) : ∃ n, run s (List.replicate n i) = wholeAt s i := by
  have hlt : i < s.threads.length := (List.getElem?_eq_some_iff.1 hi).1
  -- the steps of one thread alone
  have key : ∀ (n : Nat) (sys : Sys) (l : List Thread) (u : Thread), l[i]? = some u →
      run ⟨sys, l⟩ (List.replicate n i) =
        ⟨((fun x : Sys × Thread => move x.1 x.2)^[n] (sys, u)).1, l.set i ((fun x : Sys × Thread => move x.1 x.2)^[n] (sys, u)).2⟩ := by
    intro n
    induction n with
    | zero =>
      intro sys l u hu
      obtain ⟨h1, h2⟩ := List.getElem?_eq_some_iff.1 hu
      show (⟨sys, l⟩ : St) = ⟨sys, l.set i u⟩
      rw [← h2, List.set_getElem_self]
    | succ n ih =>
      intro sys l u hu
      have h1 : i < l.length := (List.getElem?_eq_some_iff.1 hu).1
      show run (stepAt ⟨sys, l⟩ i) (List.replicate n i) = _
      simp only [stepAt, hu]
      rw [ih _ _ _ (List.getElem?_set_self h1), List.set_set]
      rfl
  obtain ⟨sys, threads⟩ := s
  simp only at hi hlt
  suffices hk : ∃ n, (fun x : Sys × Thread => move x.1 x.2)^[n] (sys, t) = whole sys t by
    obtain ⟨n, hn⟩ := hk
    refine ⟨n, ?_⟩
    rw [key n sys threads t hi, hn]
    simp only [wholeAt, hi]
  obtain ⟨todo, pc, inside, seen⟩ := t
  obtain ⟨all, st, cs⟩ := sys
  simp only at hp hc
  subst hp hc
  cases c with
  | look => exact ⟨1, rfl⟩
  | enter p =>
    cases st with
    | nil => exact ⟨3, rfl⟩
    | cons q st =>
      by_cases hq : q = p
      · subst hq
        cases cs with
        | nil => exact ⟨3, by simp [Function.iterate_succ, move, begin, whole, Portal.enter]⟩
        | cons c cs => exact ⟨4, by simp [Function.iterate_succ, move, begin, whole, Portal.enter]⟩
      · exact ⟨4, by simp [Function.iterate_succ, move, begin, whole, Portal.enter, hq]⟩
  | exit p =>
    cases st with
    | nil => exact ⟨1, rfl⟩
    | cons q st =>
      by_cases hq : q = p
      · subst hq
        cases cs with
        | nil => exact ⟨2, by simp [Function.iterate_succ, move, begin, whole, Portal.exit]⟩
        | cons c cs =>
          by_cases h1 : c = 1
          · exact ⟨4, by simp [Function.iterate_succ, move, begin, whole, Portal.exit, h1]⟩
          · exact ⟨4, by simp [Function.iterate_succ, move, begin, whole, Portal.exit, h1]⟩
      · exact ⟨1, by simp [move, begin, whole, Portal.exit, hq]⟩

/-- If all threads use one and the same portal and switch only between commands, blocks may overlap in any way: no thread fails,
a look inside of a block finds the portal, and the portal is entered exactly as long as some thread is in a block. -/
theorem C109_one_portal_partial (p : PortalId) (progs : List Prog) (ho : ∀ P ∈ progs, P.Only p) (sched : List Nat) :
    (∀ (i : Nat) (t : Thread), (runWhole (start progs) sched).threads[i]? = some t → (∀ e, t.pc ≠ .failed e) ∧
      ∃ P : Prog, progs[i]? = some P ∧ t.seen.length ≤ (P.views none).length ∧
        ∀ (k : Nat) (a : Option PortalId), t.seen[k]? = some a → (P.views none)[k]? = some (some p) → a = some p) ∧
    ((runWhole (start progs) sched).sys.stack = [p] ∨ (runWhole (start progs) sched).sys.stack = []) ∧
    ((runWhole (start progs) sched).sys.stack = [] ↔ ∀ t ∈ (runWhole (start progs) sched).threads, t.inside = []) := by
  have h := goodO_run sched _ (goodO_start progs ho)
  generalize runWhole (start progs) sched = s at h
  have hz : total s.threads = 0 ↔ ∀ t ∈ s.threads, t.inside = [] := by
    generalize s.threads = l
    clear h
    induction l with
    | nil => exact ⟨fun _ t ht => (List.not_mem_nil ht).elim, fun _ => rfl⟩
    | cons a l ih =>
      have hs : total (a :: l) = a.inside.length + total l := by simp [total]
      rw [hs, Nat.add_eq_zero_iff, ih, List.forall_mem_cons, List.length_eq_zero_iff]
  refine ⟨fun i t ht => ?_, ?_, ?_⟩
  · obtain ⟨P, hP, h1, _, _, _, l, h5, h6⟩ := h.threads i t ht
    refine ⟨fun e he => (by rw [h1] at he; cases he), P, hP, ?_, fun k a ha hb => ?_⟩
    · rw [← h5, h6.length_eq, List.length_append]; omega
    · have hk : k < l.length := by rw [← h6.length_eq]; exact (List.getElem?_eq_some_iff.1 ha).1
      rw [← h5, List.getElem?_append_left hk] at hb
      obtain ⟨k1, e1⟩ := List.getElem?_eq_some_iff.1 ha
      obtain ⟨k2, e2⟩ := List.getElem?_eq_some_iff.1 hb
      have := (List.forall₂_iff_get.1 h6).2 k k1 k2 p
      simp only [List.get_eq_getElem] at this
      rw [← e1]; exact this e2
  · rcases h.lists with ⟨_, h2, _⟩ | ⟨_, h2, _⟩
    · exact .inr h2
    · exact .inl h2
  · rw [← hz]
    rcases h.lists with ⟨h1, h2, _⟩ | ⟨h1, h2, _⟩
    · exact ⟨fun _ => h1, fun _ => h2⟩
    · rw [h2]; exact ⟨fun h => (nomatch h), fun h => (by omega)⟩

/-- non-vacuity: the blocks of two threads overlap: thread 0 enters, thread 1 enters, thread 0 leaves, thread 1 looks -/
example : (∀ P ∈ [sample 1 1, sample 1 1], P.Only 1) ∧
    (runWhole (start [.block 1 (.look .done) .done, .block 1 (.look .done) .done]) [0, 1, 0, 0, 1]).sys.stack = [1] ∧
    ((runWhole (start [.block 1 (.look .done) .done, .block 1 (.look .done) .done]) [0, 1, 0, 0, 1]).threads.map fun t => t.seen) =
      [[some 1], [some 1]] := by
  refine ⟨fun P hP => ?_, ?_, ?_⟩
  · rcases List.mem_cons.1 hP with rfl | hP
    · exact ⟨rfl, ⟨rfl, trivial, trivial⟩, trivial⟩
    · rw [List.mem_singleton.1 hP]; exact ⟨rfl, ⟨rfl, trivial, trivial⟩, trivial⟩
  · decide +kernel
  · decide +kernel

/-- Without a lock, two portals, switching between commands only: a thread finds the portal of another thread instead of its own,
so that what it stores goes there; and it cannot leave its block. -/
theorem C109_other_portal_counterexample :
    let s := runWhole (start [.block 1 (.look .done) .done, .block 2 (.look .done) .done]) [0, 1, 0, 0]
    (s.threads.map fun t => (t.inside, t.pc, t.seen)) = [([1], .failed .assertionError, [some 2]), ([2], .idle, [])] ∧
    (runWhole s [1, 1]).sys.stack = [1] ∧ ((runWhole s [1, 1]).threads.map fun t => t.todo) = [[], []] := by
  decide +kernel

/-- Without a lock, one portal: entering it raises IndexError if another thread leaves it in between. -/
theorem C109_enter_counterexample :
    let s := run (start [.block 1 .done .done, .block 1 .done .done]) [0, 0, 0, 1, 1, 0, 0, 0, 0, 1]
    (s.threads.map fun t => (t.inside, t.pc)) = [([], .idle), ([], .failed .indexError)] := by
  decide +kernel

/-- Without a lock, one portal: entering is lost if two threads enter at the same time; when one of them leaves its block, the
other one, still in its block, finds no portal. -/
theorem C109_lost_counterexample :
    let s := run (start [.block 1 (.block 1 .done .done) .done, .block 1 (.look .done) .done])
      [0, 0, 0, 0, 0, 1, 1, 0, 1, 0, 1, 0, 0, 0, 0, 0, 0, 0, 0, 1]
    (s.threads.map fun t => (t.inside, t.pc, t.seen)) = [([], .idle, []), ([1], .idle, [none])] ∧ s.sys.stack = [] := by
  decide +kernel

end Pyth.Threads
