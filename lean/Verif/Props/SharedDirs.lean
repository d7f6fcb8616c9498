import Verif.Proofs.SharedDirs
/-!
# C85: portal objects entered together, their directories and classes
-/
namespace Pyth.Shared
open Pyth.Portal (PortalId Sys)
open Pyth.World (Exc Kind)

variable (conf : Conf)

/-- C85 (what holds): after any session, a program all of whose entered portals write logs and have
different directories runs as in plain Python without any portals — the same outcome, the very same
exception object — and leaves the portal context as it was. -/
theorem C85_compatible_portals_partial (l : List Cmd) (a : Prog)
    (hc : Compatible conf ((session conf l).sys.stack ++ a.enters)) :
    let s := session conf l
    (a.run conf s).1 = (a.plain s.next).1 ∧
    (a.run conf s).2.sys.stack = s.sys.stack ∧ (a.run conf s).2.sys.counters = s.sys.counters := by
  obtain ⟨h1, _, h3, h4⟩ := run_plain (conf := conf) a (session conf l) (inv_session l) hc
  exact ⟨h1, h3, h4⟩

/-- C85 (exactly): after any session, logging an event succeeds if and only if all portals entered write
logs and no two of them share a directory. -/
theorem C85_event_iff_partial (l : List Cmd) :
    (Prog.logEvent.run conf (session conf l)).1 = .ok () ↔ Compatible conf (session conf l).sys.stack := by
  have hs := inv_session (conf := conf) l
  generalize session conf l = s at *
  show (logEvent conf s).1 = .ok () ↔ _
  unfold logEvent
  simp only
  by_cases h1 : ∀ p ∈ s.sys.stack, 1 ≤ conf.level p
  · rw [entered_ok h1]
    simp only
    by_cases h2 : ((s.sys.stack.foldl Portal.dictInsert []).map conf.dirOf).Nodup
    · rw [putAll_ok s.sig _ _ (fun p _ h => absurd (hs.3 _ _ h) (Nat.lt_irrefl _)) h2]
      exact ⟨fun _ => ⟨h1, dirs_nodup.1 h2⟩, fun _ => rfl⟩
    · have := putAll_fail (conf := conf) s.sig _ s.events h2
      cases hp : putAll conf s.sig (s.sys.stack.foldl Portal.dictInsert []) s.events with
      | mk b t =>
        rw [hp] at this
        simp only at this
        subst this
        exact ⟨fun h => (nomatch h), fun h => absurd (dirs_nodup.2 h.2) h2⟩
  · rw [entered_error h1]
    exact ⟨fun h => (nomatch h), fun h => absurd h.1 h1⟩

/-- C85: when it succeeds, the event gets one record, new, in the directory of every entered portal, and
nothing else is written. -/
theorem C85_event_written_partial (l : List Cmd) (hc : Compatible conf (session conf l).sys.stack) :
    let s := session conf l
    (∀ p ∈ s.sys.stack, (Prog.logEvent.run conf s).2.events (conf.dirOf p) = s.events (conf.dirOf p) ++ [s.sig] ∧
      s.sig ∉ s.events (conf.dirOf p)) ∧
    (∀ d, (∀ p ∈ s.sys.stack, conf.dirOf p ≠ d) → (Prog.logEvent.run conf s).2.events d = s.events d) ∧
    (Prog.logEvent.run conf s).2.crash = s.crash := by
  have hs := inv_session (conf := conf) l
  generalize session conf l = s at *
  intro s'
  show (∀ p ∈ s.sys.stack, (logEvent conf s).2.events (conf.dirOf p) = _ ∧ _) ∧
    (∀ d, _ → (logEvent conf s).2.events d = _) ∧ (logEvent conf s).2.crash = _
  unfold logEvent
  simp only
  rw [entered_ok hc.1]
  simp only
  rw [putAll_ok s.sig _ _ (fun p _ h => absurd (hs.3 _ _ h) (Nat.lt_irrefl _)) (dirs_nodup.2 hc.2)]
  have hmem : ∀ x, x ∈ s.sys.stack.foldl Portal.dictInsert [] ↔ x ∈ s.sys.stack := fun x => by
    rw [Portal.mem_foldl_dictInsert]; simp
  refine ⟨fun p hp => ⟨?_, fun h => absurd (hs.3 _ _ h) (Nat.lt_irrefl _)⟩, fun d hd => ?_, rfl⟩
  · simp only
    rw [if_pos (List.mem_map_of_mem ((hmem p).2 hp))]
  · simp only
    rw [if_neg]
    intro h
    obtain ⟨p, hp, he⟩ := List.mem_map.1 h
    exact hd p ((hmem p).1 hp) he

/-- C85 (exactly): after any session, the user's exception leaves a block of a logging portal — as the
object that was raised — if and only if all portals entered then write logs and no two of them share a
directory.  Otherwise another, new exception takes its place, and the block is not left: its portal is
still the current one. -/
theorem C85_block_iff_partial (l : List Cmd) (p : PortalId) (hp : 1 ≤ conf.level p) (k : Kind) :
    let s := session conf l
    let r := (Prog.within p (.raise k)).run conf s
    (Compatible conf (p :: s.sys.stack) → r.1 = .error ⟨s.next, k⟩ ∧ r.2.sys.stack = s.sys.stack ∧ r.2.sys.counters = s.sys.counters) ∧
    (¬ Compatible conf (p :: s.sys.stack) →
      (∃ e, r.1 = .error e ∧ s.next < e.id ∧ (e.kind = .keyError ∨ e.kind = .assertionError)) ∧ r.2.sys.stack.head? = some p ∧
      ∃ s1, Portal.enter p s.sys = .ok s1 ∧ r.2.sys = s1) := by
  have hs := inv_session (conf := conf) l
  have hnew : ∀ e : Nat, e ∈ (session conf l).marked → e < (session conf l).next := marked_old l
  have hh : (session conf l).handling = [] := handling_session l
  generalize session conf l = s at *
  intro s0 r
  constructor
  · intro hc
    obtain ⟨h1, _, h3, h4⟩ := run_plain (conf := conf) (.within p (.raise k)) s hs (hc.mono fun q hq => by
      unfold Prog.enters Prog.enters at hq
      simp only [List.mem_append, List.mem_cons, List.not_mem_nil, or_false] at hq ⊢
      rcases hq with h | h
      · exact .inr h
      · exact .inl h)
    exact ⟨h1, h3, h4⟩
  · intro hc
    obtain ⟨sys', he, h1, h2, h3⟩ := enterP_eq hs p
    have hst := enter_stack he
    have hhead : sys'.stack.head? = some p := by
      obtain ⟨x, hx, _, _, _, h5, _⟩ := Portal.enter_spec s.sys p hs.1
      rw [he] at hx; injection hx with hx; rw [hx]; exact h5
    have hcomp : ¬ Compatible conf sys'.stack := fun h => hc (h.mono fun q hq => (hst q).2 (by simpa using hq))
    have hr : r = (withP conf p (raiseNew k) s) := rfl
    rw [hr]
    unfold withP
    rw [h1]
    simp only [raiseNew]
    unfold handlingE exitP
    rw [if_pos hp]
    unfold PyM.bind exceptionLogger persist
    simp only
    rw [if_neg (fun h => absurd (hnew _ h) (Nat.lt_irrefl _))]
    by_cases hl : ∀ q ∈ sys'.stack, 1 ≤ conf.level q
    · rw [entered_ok hl]
      simp only
      have hn : ¬ ((sys'.stack.foldl Portal.dictInsert []).map conf.dirOf).Nodup := fun h => hcomp ⟨hl, dirs_nodup.1 h⟩
      have hf := putAll_fail (conf := conf) s.sig _ s.crash hn
      cases hq : putAll conf s.sig (sys'.stack.foldl Portal.dictInsert []) s.crash with
      | mk b t =>
        rw [hq] at hf
        simp only at hf
        subst hf
        exact ⟨⟨_, rfl, Nat.lt_succ_self _, .inl rfl⟩, hhead, sys', he, rfl⟩
    · rw [entered_error hl]
      exact ⟨⟨_, rfl, Nat.lt_succ_self _, .inr rfl⟩, hhead, sys', he, rfl⟩

theorem nest_enters (ps : List PortalId) (k : Kind) : (nest ps (.raise k)).enters = ps := by
  induction ps with
  | nil => rfl
  | cons p ps ih => show p :: (nest ps (.raise k)).enters = _; rw [ih]

/-- crash records of an exception that leaves nested blocks -/
theorem nest_records (k : Kind) : ∀ (ps : List PortalId) (s : St), Inv s → (∀ e ∈ s.marked, e < s.next) →
    Compatible conf (s.sys.stack ++ ps) →
    let r := (nest ps (.raise k)).run conf s
    (ps = [] → r.2.crash = s.crash ∧ r.2.marked = s.marked ∧ r.2.sig = s.sig) ∧
    (ps ≠ [] → s.next ∈ r.2.marked ∧
      ∀ d, r.2.crash d = if d ∈ (ps ++ s.sys.stack).map conf.dirOf then s.crash d ++ [s.sig] else s.crash d) := by
  intro ps
  induction ps with
  | nil => intro s _ _ _; exact ⟨fun _ => ⟨rfl, rfl, rfl⟩, fun h => absurd rfl h⟩
  | cons p ps ih =>
    intro s hs hm hc r
    refine ⟨fun h => (nomatch h), fun _ => ?_⟩
    obtain ⟨sys', he, h1, h2, h3⟩ := enterP_eq hs p
    have hs1 : Inv { s with sys := sys' } := ⟨h2, hs.2, hs.3⟩
    have hst := enter_stack he
    have hc1 : Compatible conf (sys'.stack ++ ps) := hc.mono fun q hq => by
      simp only [List.mem_append, List.mem_cons] at hq ⊢
      rcases hq with h | h
      · rcases (hst q).1 h with h | h
        · exact .inr (.inl h)
        · exact .inl h
      · exact .inr (.inr h)
    obtain ⟨i1, i2⟩ := ih { s with sys := sys' } hs1 hm hc1
    obtain ⟨b1, b2, b3, b4⟩ := run_plain (conf := conf) (nest ps (.raise k)) { s with sys := sys' } hs1 (by rw [nest_enters]; exact hc1)
    have hk := keeps_run (conf := conf) (nest ps (.raise k)) _ hs1
    have hplain : ∀ (ps : List PortalId) (n : Nat), ((nest ps (.raise k)).plain n).1 = .error ⟨n, k⟩ := by
      intro ps
      induction ps with
      | nil => intro n; rfl
      | cons _ _ ih => exact ih
    have hp : 1 ≤ conf.level p := hc.1 p (by simp)
    have hr : r = withP conf p ((nest ps (.raise k)).run conf) s := rfl
    rw [hr]
    unfold withP
    rw [h1]
    simp only
    cases hb : (nest ps (.raise k)).run conf { s with sys := sys' } with
    | mk x s2 =>
      rw [hb] at b1 b2 b3 b4 hk i1 i2
      simp only at b1 b2 b3 b4 hk i1 i2
      rw [hplain] at b1
      subst b1
      simp only
      have hx : Portal.exit p s2.sys = .ok { s.sys with all := s2.sys.all } := by
        have := World.exit_frame h3 s2.sys.all
        have he : s2.sys = { sys' with all := s2.sys.all } := by
          cases hh : s2.sys with
          | mk al st cs => rw [hh] at b3 b4; simp only at b3 b4; rw [b3, b4]
        rw [he]; exact this
      unfold handlingE exitP
      rw [if_pos hp]
      unfold PyM.bind exceptionLogger persist
      simp only
      have hiff : ∀ (l : List PortalId) (d : Dir), d ∈ (l ++ sys'.stack).map conf.dirOf ↔
          d ∈ ((p :: l) ++ s.sys.stack).map conf.dirOf := by
        intro l d
        rw [List.mem_map, List.mem_map]
        refine exists_congr fun q => and_congr_left fun _ => ?_
        rw [List.mem_append, List.mem_append, hst q, List.mem_cons]
        constructor
        · rintro (h | h | h)
          · exact .inl (.inr h)
          · exact .inl (.inl h)
          · exact .inr h
        · rintro ((h | h) | h)
          · exact .inr (.inl h)
          · exact .inl h
          · exact .inr (.inr h)
      cases ps with
      | cons a l =>
        obtain ⟨j1, j2⟩ := i2 (by simp)
        rw [if_pos j1]
        simp only [baseExit, hx]
        refine ⟨j1, fun d => ?_⟩
        rw [j2 d]
        simp only [hiff (a :: l) d]
      | nil =>
        obtain ⟨j1, j2, j3⟩ := i1 rfl
        rw [j2, if_neg (fun h => absurd (hm _ h) (Nat.lt_irrefl _)), entered_ok (by rw [b3]; exact fun q hq => hc1.1 q (by simp [hq]))]
        simp only
        rw [j1, j3, b3, putAll_ok s.sig _ _ (fun q _ h => absurd (hs.2 _ _ h) (Nat.lt_irrefl _))
          (dirs_nodup.2 (hc1.mono fun q hq => by simp [hq]).2)]
        simp only [baseExit, hx]
        refine ⟨by simp, fun d => ?_⟩
        have hd : d ∈ (sys'.stack.foldl Portal.dictInsert []).map conf.dirOf ↔ d ∈ ([p] ++ s.sys.stack).map conf.dirOf := by
          rw [← hiff [] d, List.mem_map, List.mem_map]
          refine exists_congr fun q => and_congr_left fun _ => ?_
          rw [Portal.mem_foldl_dictInsert]; simp
        simp only [hd]

/-- C85: after any session, an exception raised inside nested blocks of such portals leaves exactly one
record, with a new id, in the directory of every portal entered then, and none elsewhere. -/
theorem C85_one_record_partial (l : List Cmd) (k : Kind) (ps : List PortalId) (hps : ps ≠ [])
    (hc : Compatible conf ((session conf l).sys.stack ++ ps)) (d : Dir) :
    let s := session conf l
    ((nest ps (.raise k)).run conf s).2.crash d =
      (if d ∈ (ps ++ s.sys.stack).map conf.dirOf then s.crash d ++ [s.sig] else s.crash d) ∧ s.sig ∉ s.crash d :=
  ⟨((nest_records conf k ps _ (inv_session l) (marked_old l) hc).2 hps).2 d,
    fun h => absurd ((inv_session (conf := conf) l).2 _ _ h) (Nat.lt_irrefl _)⟩

/-- C85 fails for portals that share a directory: for every two portal objects of one directory, in a
new session, an exception raised inside both blocks is replaced by a `KeyError` of the log, both portals
stay entered for the rest of the session, and `log_event` inside both blocks fails. -/
theorem C85_shared_directory_counterexample (p q : PortalId) (hpq : p ≠ q) (hp : 1 ≤ conf.level p) (hq : 1 ≤ conf.level q)
    (hd : conf.dirOf p = conf.dirOf q) (k : Kind) :
    let r := (Prog.within p (.within q (.raise k))).run conf {}
    (∃ e, r.1 = .error e ∧ e.id ≠ 0 ∧ e.kind = .keyError) ∧ r.2.sys.stack = [q, p] ∧
    ((Prog.within p (.within q (.raise k))).plain 0).1 = .error ⟨0, k⟩ ∧
    (∃ e, ((Prog.within p (.within q .logEvent)).run conf {}).1 = .error e ∧ e.kind = .keyError) := by
  refine ⟨⟨⟨2, .keyError⟩, ?_, ?_, rfl⟩, ?_, rfl, ⟨⟨2, .keyError⟩, ?_, rfl⟩⟩
  · simp [Prog.run, withP, enterP, Portal.enter, hpq, raiseNew, handlingE, exitP, hp, hq, PyM.bind, exceptionLogger,
      persist, Portal.entered, Portal.dictInsert, putAll, hd]
  · simp
  · simp [Prog.run, withP, enterP, Portal.enter, hpq, raiseNew, handlingE, exitP, hp, hq, PyM.bind, exceptionLogger,
      persist, Portal.entered, Portal.dictInsert, putAll, hd]
  · simp [Prog.run, withP, enterP, Portal.enter, hpq, raiseNew, handlingE, exitP, hp, hq, PyM.bind, exceptionLogger, logEvent,
      persist, Portal.entered, Portal.dictInsert, putAll, hd]

/-- C85 fails for portals that write no logs: inside a block of a plain `BasicPortal`, an exception that
leaves the block of a logging portal is replaced by an `AssertionError`, and both portals stay entered. -/
theorem C85_basic_portal_counterexample (p q : PortalId) (hp : 1 ≤ conf.level p) (hq : conf.level q = 0) (k : Kind) :
    let r := (Prog.within q (.within p (.raise k))).run conf {}
    (∃ e, r.1 = .error e ∧ e.id ≠ 0 ∧ e.kind = .assertionError) ∧ r.2.sys.stack = [p, q] := by
  have hpq : p ≠ q := fun h => by rw [h, hq] at hp; exact absurd hp (by decide)
  refine ⟨⟨⟨2, .assertionError⟩, ?_, ?_, rfl⟩, ?_⟩
  · simp [Prog.run, withP, enterP, Portal.enter, raiseNew, handlingE, exitP, hp, hq, PyM.bind, exceptionLogger, Portal.exit, baseExit,
      persist, Portal.entered, Portal.dictInsert, hpq, hpq.symm, World.ctxKind]
  · simp
  · simp [Prog.run, withP, enterP, Portal.enter, raiseNew, handlingE, exitP, hp, hq, PyM.bind, exceptionLogger, Portal.exit, baseExit,
      persist, Portal.entered, Portal.dictInsert, hpq, hpq.symm, World.ctxKind]

/-! ### examples -/

/-- three logging portals; 0 and 2 share directory 5 -/
def exConf : Conf := ⟨fun p => if p = 1 then 6 else 5, fun p => p + 1⟩

/-- a session in which portal 1 is entered and an earlier program failed -/
def exSession : List Cmd := [.enter 1, .prog (.within 1 (.raise .typeError))]

theorem exSession_stack : (session exConf exSession).sys.stack = [1] := by decide +kernel

/-- the hypothesis of `C85_compatible_portals_partial` is met by a program that re-enters, raises and
catches … -/
example : Compatible exConf ((session exConf exSession).sys.stack ++
    (Prog.tryExcept (.within 0 (.within 1 (.seq .logEvent (.raise (.user 3))))) (.within 0 (.raise .keyError))).enters) := by
  rw [exSession_stack]
  refine ⟨?_, ?_⟩
  · intro p hp; simp [exConf]
  · intro p hp q hq h
    simp only [Prog.enters, List.cons_append, List.nil_append, List.mem_cons, List.not_mem_nil, or_false] at hp hq
    rcases hp with rfl | rfl | rfl | rfl <;> rcases hq with rfl | rfl | rfl | rfl <;> first | rfl | (revert h; decide)

/-- … and its outcome is the second exception -/
example : ((Prog.tryExcept (.within 0 (.within 1 (.seq .logEvent (.raise (.user 3))))) (.within 0 (.raise .keyError))).run exConf
    (session exConf exSession)).1 = .error ⟨2, .keyError⟩ := by decide +kernel

/-- the two cases of `C85_block_iff_partial` -/
example : Compatible exConf (0 :: (session exConf exSession).sys.stack) ∧
    ¬ Compatible exConf (0 :: (session exConf (exSession ++ [.enter 2])).sys.stack) := by
  refine ⟨?_, ?_⟩
  · rw [exSession_stack]
    refine ⟨fun p _ => by simp [exConf], fun p hp q hq h => ?_⟩
    simp only [List.mem_cons, List.not_mem_nil, or_false] at hp hq
    rcases hp with rfl | rfl <;> rcases hq with rfl | rfl <;> first | rfl | (revert h; decide)
  · intro h
    have h2 : (2 : Nat) ∈ (session exConf (exSession ++ [.enter 2])).sys.stack := by decide +kernel
    exact absurd (h.2 0 (by simp) 2 (by simp [h2]) rfl) (by decide)

end Pyth.Shared
