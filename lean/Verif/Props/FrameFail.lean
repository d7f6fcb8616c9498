import Verif.Proofs.FrameOut
/-!
# Storage failures around pure calls (C103)

A block that is left puts back what it changed: the entered portals, the streams, the running frames.  With
storage failures this holds as long as the records of frames themselves and the crash records written on
leaving a portal get written, whatever else fails.  If one of those fails, the portal stays entered for good.
-/
namespace Pyth.FrameFail
open Pyth.Portal (PortalId Sys)
open Pyth.World (Exc Kind ctxKind)

/-- **C103.** If the records of frames and the crash records of portals can be written, a program leaves the
portals, streams and frames as it found them, whichever other writes fail and whatever exceptions are raised. -/
theorem C103_restored_partial (a : Prog) (h : a.Sound) (s : St) (hs : Valid s) : Restored s (a.run s).2 :=
  (sound_keeps a h s hs).toRestored

/-- non-vacuity: `with 1: try: f() except: …`, where the code of `f` raises, its crash record and another
write fail -/
example : Prog.Sound (.within 1 true (.tryExcept
      (call 2 7 true true false {} .skip .skip (.seq (.print "x") (.raise 3)) (.store true)) (.store false))) ∧
    Valid {} ∧
    ((Prog.within 1 true (.tryExcept
      (call 2 7 true true false {} .skip .skip (.seq (.print "x") (.raise 3)) (.store true)) (.store false))).run {}).1 =
        .error ⟨2, .storageError⟩ ∧
    ((Prog.within 1 true (.tryExcept
      (call 2 7 true true false {} .skip .skip (.seq (.print "x") (.raise 3)) (.store true)) (.store false))).run {}).2.screen.length = 2 := by
  refine ⟨⟨rfl, ⟨rfl, trivial, rfl, trivial, ⟨rfl, trivial, trivial⟩, trivial⟩, trivial⟩, .nil, ?_, ?_⟩
  · decide +kernel
  · decide +kernel

/-- If the attempt or the source codes cannot be recorded on entering a frame, the body is not run, the call
raises the error of the storage, and the portal stays entered, the output captured, the frame on the stack. -/
theorem C103_enter_failure (p : PortalId) (f : Nat) (io : Io) (hio : io.attempt = false ∨ io.source = false)
    (a : Prog) (s : St) (hs : Valid s) : ∃ s', (Prog.frame p f io a).run s = (.error ⟨s.nextExc, .storageError⟩, s') ∧
      StillEntered p s s' ∧ s'.out = s.nextBuf :: s.out ∧ s'.stacks f = s.nextRun :: s.stacks f ∧
      (∀ g, g ≠ f → s'.stacks g = s.stacks g) ∧ s'.screen = s.screen ∧ s'.outputs = s.outputs := by
  obtain ⟨sys', h1, h2, h3, h4⟩ := enterP_eq p (newFrame p f s).2 hs
  have hen := frame_opened (newFrame p f s).1 io (newFrame p f s).2 h1
  simp only [Prog.run, withFrame, withM, hen, PyM.bind, PyM.modify]
  cases ha : io.attempt with
  | false =>
    refine ⟨_, rfl, ⟨h4, h3⟩, rfl, ?_, fun g hg => ?_, rfl, rfl⟩
    · exact if_pos rfl
    · exact if_neg hg
  | true =>
    cases hb : io.source with
    | true => rw [ha, hb] at hio; rcases hio with h | h <;> cases h
    | false =>
      refine ⟨_, rfl, ⟨h4, h3⟩, rfl, ?_, fun g hg => ?_, rfl, rfl⟩
      · exact if_pos rfl
      · exact if_neg hg

/-- If the output of a call cannot be stored on leaving its frame, the call raises the error of the storage,
whether its code returned or raised; streams are as before, but the portal stays entered and the frame stays
on the stack.  The run has no record of its output. -/
theorem C103_output_failure (p : PortalId) (f : Nat) (io : Io) (h1 : io.attempt = true) (h2 : io.source = true)
    (h3 : io.output = false) (a : Prog) (ha : a.Sound) (s : St) (hs : Valid s) :
    ∃ n s', (Prog.frame p f io a).run s = (.error ⟨n, .storageError⟩, s') ∧
      StillEntered p s s' ∧ s'.out = s.out ∧ s'.stacks f = s.nextRun :: s.stacks f ∧
      (∀ g, g ≠ f → s'.stacks g = s.stacks g) ∧ s.nextRun ∈ s'.attempts ∧
      ∀ o, (s.nextRun, o) ∈ s'.outputs → (s.nextRun, o) ∈ s.outputs := by
  obtain ⟨sys', e1, e2, e3, e4⟩ := enterP_eq p (newFrame p f s).2 hs
  have hen := frame_entered (newFrame p f s).1 io h1 h2 (newFrame p f s).2 e1
  simp only [Prog.run, withFrame, withM, hen]
  have hk := sound_keeps a ha _ (show Valid (opened (newFrame p f s).1 sys' (newFrame p f s).2) from e2)
  have hl := lates a (opened (newFrame p f s).1 sys' (newFrame p f s).2)
  have key : ∀ (s2 : St), Kept (opened (newFrame p f s).1 sys' (newFrame p f s).2) s2 →
      Later (opened (newFrame p f s).1 sys' (newFrame p f s).2) s2 → ∀ s', s'.sys = s2.sys → s'.out = s.out → s'.stacks = s2.stacks →
        s'.attempts = s2.attempts → s'.outputs = s2.outputs →
      StillEntered p s s' ∧ s'.out = s.out ∧ s'.stacks f = s.nextRun :: s.stacks f ∧
      (∀ g, g ≠ f → s'.stacks g = s.stacks g) ∧ s.nextRun ∈ s'.attempts ∧
      ∀ o, (s.nextRun, o) ∈ s'.outputs → (s.nextRun, o) ∈ s.outputs := by
    intro s2 hk hl s' q1 q2 q3 q4 q5
    have hsys : s'.sys = sys' := q1.trans hk.portals
    have hst := q3.trans hk.frames
    refine ⟨⟨by rw [hsys]; exact e4, by rw [hsys]; exact e3⟩, q2, ?_, fun g hg => ?_, ?_, fun o ho => ?_⟩
    · rw [hst]; exact if_pos rfl
    · rw [hst]; exact if_neg hg
    · rw [q4]; exact hl.attempts _ (List.mem_append_right _ (List.mem_singleton.2 rfl))
    · rw [q5] at ho
      exact (hl.outputs _ ho).elim id fun h => absurd h (Nat.not_succ_le_self _)
  generalize (opened (newFrame p f s).1 sys' (newFrame p f s).2) = s1 at hk hl key ⊢
  cases hm : a.run s1 with
  | mk r s2 =>
    rw [hm] at hk hl
    cases r with
    | ok x =>
      simp only [frame_exit_fail _ io h3]
      exact ⟨_, _, rfl, key s2 hk hl _ rfl rfl rfl rfl rfl⟩
    | error e =>
      simp only [handlingE, frame_exit_fail _ io h3]
      exact ⟨_, _, rfl, key s2 hk hl _ rfl rfl rfl rfl rfl⟩

/-- non-vacuity: the code of the call returns, or raises; the output is stored under no run id -/
example : ((Prog.frame 2 7 { output := false } (.print "x")).run {}).1 = .error ⟨0, .storageError⟩ ∧
    ((Prog.frame 2 7 { output := false } (.raise 3)).run {}).1 = .error ⟨1, .storageError⟩ ∧
    ((Prog.frame 2 7 { output := false } (.print "x")).run {}).2.sys.stack = [2] ∧
    ((Prog.frame 2 7 { attempt := false } (.print "x")).run {}).2.out = [0] := by
  refine ⟨?_, ?_, ?_, ?_⟩ <;> decide +kernel

/-- If a `with` block is left by an exception that has not been recorded yet and cannot be recorded, the error
of the storage replaces it, and the portal stays entered. -/
theorem C103_log_failure (p : PortalId) (a : Prog) (ha : a.Sound) (s s1 s2 : St) (hs : Valid s) (e : Exc)
    (hen : enterP p s = (.ok (), s1)) (hr : a.run s1 = (.error e, s2)) (hu : e.id ∉ s2.marked) :
    ∃ s', (Prog.within p false a).run s = (.error ⟨s2.nextExc, .storageError⟩, s') ∧ StillEntered p s s' ∧
      s'.out = s.out ∧ s'.stacks = s.stacks := by
  obtain ⟨sys', h1, h2, h3, h4⟩ := enterP_eq p s hs
  rw [h1] at hen
  cases hen
  have hk := sound_keeps a ha _ (show Valid { s with sys := sys' } from h2)
  rw [hr] at hk
  simp only [Prog.run, withP, withM, h1, hr, handlingE, exitP, PyM.bind, logger, persist, if_neg hu, raiseNew]
  refine ⟨_, rfl, ⟨?_, ?_⟩, hk.output, hk.frames⟩
  · show s2.sys.stack.head? = some p
    rw [show s2.sys = sys' from hk.portals]; exact h4
  · show Portal.exit p s2.sys = .ok s.sys
    rw [show s2.sys = sys' from hk.portals]; exact h3

/-- non-vacuity -/
example : ∃ s1 s2, enterP 2 {} = (.ok (), s1) ∧ (Prog.raise 3).run s1 = (.error ⟨0, .user 3⟩, s2) ∧ 0 ∉ s2.marked :=
  ⟨_, _, rfl, rfl, List.not_mem_nil⟩

/-- If there is nothing to record, because the block returns or the exception has been recorded already, the
block is left properly even if crash records cannot be written. -/
theorem C103_nothing_to_record (p : PortalId) (a : Prog) (ha : a.Sound) (s s1 s2 : St) (hs : Valid s)
    (hh : s.handling = []) (r : Except Exc Unit)
    (hen : enterP p s = (.ok (), s1)) (hr : a.run s1 = (r, s2)) (hu : ∀ e, r = .error e → e.id ∈ s2.marked) :
    ∃ s', (Prog.within p false a).run s = (r, s') ∧ Restored s s' := by
  obtain ⟨sys', h1, h2, h3, h4⟩ := enterP_eq p s hs
  rw [h1] at hen
  cases hen
  have hk := sound_keeps a ha _ (show Valid { s with sys := sys' } from h2)
  rw [hr] at hk
  have hx : Portal.exit p s2.sys = .ok s.sys := by rw [show s2.sys = sys' from hk.portals]; exact h3
  have h0 : s2.handling = [] := hk.handling.trans hh
  cases r with
  | ok x =>
    simp only [Prog.run, withP, withM, h1, hr, exitP, PyM.bind, logger, h0, baseExit, hx]
    exact ⟨_, rfl, rfl, hk.output, hk.frames⟩
  | error e =>
    simp only [Prog.run, withP, withM, h1, hr, handlingE, exitP, PyM.bind, logger, persist, if_pos (hu e rfl), baseExit, hx]
    exact ⟨_, rfl, rfl, hk.output, hk.frames⟩

/-- non-vacuity: a failing function called in a block, whose exception was recorded by the function -/
example : ((Prog.within 2 false (.logged true (.raise 3))).run {}).1 = .error ⟨0, .user 3⟩ ∧
    ((Prog.within 2 false (.logged true (.raise 3))).run {}).2.sys.stack = [] ∧
    ((Prog.logged true (.raise 3)).run {}).2.marked = [0] := by
  refine ⟨?_, ?_, ?_⟩ <;> decide +kernel

/-- An enclosing block of another portal cannot be left any more: leaving it raises AssertionError, and both
portals stay entered. -/
theorem C103_enclosing (q p : PortalId) (hq : q ≠ p) (a : Prog) (s s1 : St) (hen : enterP q s = (.ok (), s1))
    (hp : (a.run s1).2.sys.stack.head? = some p) :
    ∃ n s', (Prog.within q true a).run s = (.error ⟨n, .assertionError⟩, s') ∧ s'.sys = (a.run s1).2.sys := by
  have hx : ∀ s2 : St, s2.sys.stack.head? = some p →
      ∃ m, exitP true q s2 = (.error ⟨s2.nextExc, .assertionError⟩, { s2 with marked := m, nextExc := s2.nextExc + 1 }) := by
    intro s2 h
    obtain ⟨m, hm⟩ := logger_true s2
    refine ⟨m, ?_⟩
    have he : Portal.exit q s2.sys = .error .assertionError := by
      unfold Portal.exit
      cases hst : s2.sys.stack with
      | nil => rw [hst] at h; cases h
      | cons x l =>
        rw [hst] at h
        cases h
        exact if_pos fun h => hq h.symm
    simp only [exitP, PyM.bind, hm, baseExit, he, raiseNew, ctxKind]
  simp only [Prog.run, withP, withM, hen]
  cases hm : a.run s1 with
  | mk r s2 =>
    rw [hm] at hp
    have hp : s2.sys.stack.head? = some p := hp
    cases r with
    | ok x =>
      obtain ⟨m, h⟩ := hx s2 hp
      exact ⟨_, _, h, rfl⟩
    | error e =>
      obtain ⟨m, h⟩ := hx { s2 with handling := e :: s2.handling } hp
      simp only [handlingE, h]
      exact ⟨_, _, rfl, rfl⟩

/-- An enclosing block of the same portal takes back one entering, not both. -/
theorem C103_enclosing_same (p : PortalId) (a : Prog) (s s1 : St) (hs : Valid s) (hen : enterP p s = (.ok (), s1))
    (hp : StillEntered p s1 (a.run s1).2) : StillEntered p s ((Prog.within p true a).run s).2 := by
  obtain ⟨sys', h1, h2, h3, h4⟩ := enterP_eq p s hs
  rw [h1] at hen
  cases hen
  simp only [Prog.run, withP, withM, h1]
  cases hm : a.run { s with sys := sys' } with
  | mk r s2 =>
    rw [hm] at hp
    have hp2 : Portal.exit p s2.sys = .ok sys' := hp.missing
    cases r with
    | ok x =>
      obtain ⟨m, h⟩ := exitP_true p s2 hp2
      simp only [h]
      exact ⟨h4, h3⟩
    | error e =>
      obtain ⟨m, h⟩ := exitP_true p { s2 with handling := e :: s2.handling } hp2
      simp only [handlingE, h]
      exact ⟨h4, h3⟩

/-- A whole call whose output cannot be stored: it raises the error of the storage whatever its code does, and
its portal stays the current one.  (`pre`: the writes before the frame, which succeed.) -/
theorem C103_call_output_failure (p : PortalId) (f : Nat) (l3 : Bool) (io : Io) (h1 : io.attempt = true)
    (h2 : io.source = true) (h3 : io.output = false) (pre guards code post : Prog) (hpre : pre.Sound)
    (hok : ∀ s, ∃ s', pre.run s = (.ok (), s')) (hg : guards.Sound) (hc : code.Sound) (hpost : post.Sound) (s : St) (hs : Valid s) :
    ∃ n s', (call p f true true l3 io pre guards code post).run s = (.error ⟨n, .storageError⟩, s') ∧
      StillEntered p s s' := by
  obtain ⟨sys', e1, e2, e3, e4⟩ := enterP_eq p s hs
  obtain ⟨s2, hs2⟩ := hok { s with sys := sys' }
  have hk := sound_keeps pre hpre { s with sys := sys' } e2
  rw [hs2] at hk
  obtain ⟨n, s3, h4, h5, _⟩ := C103_output_failure p f io h1 h2 h3
    (.seq guards (.seq (.within p true (.logged l3 code)) post)) ⟨hg, ⟨rfl, hc⟩, hpost⟩ s2 (hk.valid e2)
  have hrun : (Prog.seq pre (.frame p f io (.seq guards (.seq (.within p true (.logged l3 code)) post)))).run
      { s with sys := sys' } = (.error ⟨n, .storageError⟩, s3) := by
    rw [show (Prog.seq pre (.frame p f io (.seq guards (.seq (.within p true (.logged l3 code)) post)))).run =
      PyM.bind pre.run (fun _ => (Prog.frame p f io (.seq guards (.seq (.within p true (.logged l3 code)) post))).run) from rfl]
    simp only [PyM.bind, hs2, h4]
  have hst : StillEntered p { s with sys := sys' } s3 := ⟨h5.current, h5.missing.trans (congrArg _ hk.portals)⟩
  have hx := C103_enclosing_same p _ s _ hs e1 (by rw [hrun]; exact hst)
  obtain ⟨m, hm⟩ := exitP_true p { s3 with handling := ⟨n, .storageError⟩ :: s3.handling } (sys0 := sys')
    (h5.missing.trans (congrArg _ hk.portals))
  have hr : ∃ s', (call p f true true l3 io pre guards code post).run s = (.error ⟨n, .storageError⟩, s') := by
    rw [show (call p f true true l3 io pre guards code post).run = withP true p
      (Prog.seq pre (.frame p f io (.seq guards (.seq (.within p true (.logged l3 code)) post)))).run from rfl]
    simp only [withP, withM, e1, hrun, handlingE, hm]
    exact ⟨_, rfl⟩
  obtain ⟨s', hs'⟩ := hr
  refine ⟨n, s', hs', ?_⟩
  have := hx
  rw [show (Prog.within p true (Prog.seq pre (.frame p f io (.seq guards (.seq (.within p true (.logged l3 code)) post))))).run s
    = (call p f true true l3 io pre guards code post).run s from rfl, hs'] at this
  exact this

/-- non-vacuity: a call that stores its arguments, prints and raises -/
example : (Prog.store true).Sound ∧ (∀ s, ∃ s', (Prog.store true).run s = (.ok (), s')) ∧
    ((call 2 7 true true true { output := false } (.store true) .skip (.seq (.print "x") (.raise 3)) .skip).run {}).1 =
      .error ⟨1, .storageError⟩ ∧
    ((call 2 7 true true true { output := false } (.store true) .skip (.seq (.print "x") (.raise 3)) .skip).run {}).2.sys.stack = [2] ∧
    ((call 2 7 true true true { output := false } (.store true) .skip (.seq (.print "x") (.raise 3)) .skip).run {}).2.sys.counters = [1] := by
  refine ⟨trivial, fun s => ⟨s, rfl⟩, ?_, ?_, ?_⟩ <;> decide +kernel

/-- Nothing repairs it: whatever sound program runs afterwards, the portal is still the current one, and output
that was captured is still captured. -/
theorem C103_stays (p : PortalId) (s s' : St) (hp : StillEntered p s s') (hv : Valid s') (a : Prog) (ha : a.Sound) :
    StillEntered p s (a.run s').2 ∧ (a.run s').2.out = s'.out ∧ (a.run s').2.stacks = s'.stacks := by
  have h := C103_restored_partial a ha s' hv
  exact ⟨⟨by rw [h.portals]; exact hp.current, by rw [h.portals]; exact hp.missing⟩, h.output, h.frames⟩

/-- What is stored as the output of a call is everything that was printed during it: by its code, by the calls
made from it, by blocks that fail in any way, and the traceback of the exception it raises.  Every text is also
shown on the screen.  This holds whichever other writes fail. -/
theorem C103_output_complete (p : PortalId) (f : Nat) (io : Io) (h1 : io.attempt = true) (h2 : io.source = true)
    (h3 : io.output = true) (a : Prog) (s : St) (hs : Valid s) (hc : Clean s) :
    ∃ d, ((Prog.frame p f io a).run s).2.screen = s.screen ++ d ∧
      (s.nextRun, d) ∈ ((Prog.frame p f io a).run s).2.outputs := by
  obtain ⟨sys', e1, e2, e3, e4⟩ := enterP_eq p (newFrame p f s).2 hs
  have hen := frame_entered (newFrame p f s).1 io h1 h2 (newFrame p f s).2 e1
  simp only [Prog.run, withFrame, withM, hen]
  obtain ⟨d, ht⟩ := tees a (opened (newFrame p f s).1 sys' (newFrame p f s).2)
  have hb0 : (opened (newFrame p f s).1 sys' (newFrame p f s).2).buffers s.nextBuf = [] := hc.unused _ (Nat.le_refl _)
  have hin : s.nextBuf ∈ (opened (newFrame p f s).1 sys' (newFrame p f s).2).out := List.mem_cons_self
  have hsc : (opened (newFrame p f s).1 sys' (newFrame p f s).2).screen = s.screen := rfl
  have key : ∀ (s2 : St) (e : Option Exc), Tee d (opened (newFrame p f s).1 sys' (newFrame p f s).2) s2 →
      ∃ d', (closing (newFrame p f s).1 e s2).screen = s.screen ++ d' ∧
        (closing (newFrame p f s).1 e s2).buffers (newFrame p f s).1.buffer = d' := by
    intro s2 e ht
    cases e with
    | none =>
      exact ⟨d, ht.screen, (ht.captured _ hin).trans (by rw [hb0]; rfl)⟩
    | some e =>
      have h5 := ht.trans (print_tee (traceback e.kind) s2)
      exact ⟨_, h5.screen, (h5.captured _ hin).trans (by rw [hb0]; rfl)⟩
  generalize (opened (newFrame p f s).1 sys' (newFrame p f s).2) = s1 at ht key
  cases hm : a.run s1 with
  | mk r s2 =>
    rw [hm] at ht
    have ht : Tee d s1 s2 := ht
    cases r with
    | ok x =>
      obtain ⟨d', k1, k2⟩ := key s2 none ht
      have h6 := exit_stores (newFrame p f s).1 io h3 none s2
      rw [k2] at h6
      exact ⟨d', (exit_streams (newFrame p f s).1 io none s2).screen.trans k1, h6⟩
    | error e =>
      obtain ⟨d', k1, k2⟩ := key { s2 with handling := e :: s2.handling } (some e)
        ⟨ht.screen, ht.captured, ht.others, ht.next, ht.stay, ht.new, fun h => ⟨(ht.clean h).unused, (ht.clean h).used⟩⟩
      have h6 := exit_stores (newFrame p f s).1 io h3 (some e) { s2 with handling := e :: s2.handling }
      have h7 := (exit_streams (newFrame p f s).1 io (some e) { s2 with handling := e :: s2.handling }).screen.trans k1
      rw [k2] at h6
      simp only [handlingE]
      cases hm3 : (newFrame p f s).1.exit io (some e) { s2 with handling := e :: s2.handling } with
      | mk r3 s3 =>
        rw [hm3] at h6 h7
        cases r3 <;> exact ⟨d', h7, h6⟩

/-- Every program, whatever fails: the capturers in force when it starts get all that it prints, in order and
nothing else; the output of calls that were finished earlier is left alone. -/
theorem C103_captured (a : Prog) (s : St) : ∃ d, (a.run s).2.screen = s.screen ++ d ∧
    (∀ b ∈ s.out, (a.run s).2.buffers b = s.buffers b ++ d) ∧
    (∀ b, b < s.nextBuf → b ∉ s.out → (a.run s).2.buffers b = s.buffers b) := by
  obtain ⟨d, h⟩ := tees a s
  exact ⟨d, h.screen, h.captured, h.others⟩

/-- `Clean` holds at the start and after every program. -/
theorem C103_clean : Clean {} ∧ ∀ (a : Prog) (s : St), Clean s → Clean (a.run s).2 :=
  ⟨⟨fun _ _ => rfl, fun _ h => (List.not_mem_nil h).elim⟩, fun a s hc => (tees a s).elim fun _ h => h.clean hc⟩

/-- non-vacuity: a call whose code calls another function and then raises; the inner call has an output of its own -/
example : ((Prog.frame 2 7 {} (.seq (.print "a") (.seq (.frame 2 8 {} (.print "b")) (.raise 3)))).run {}).2.outputs =
      [(1, ["b"]), (0, ["a", "b", traceback (.user 3)])] ∧
    ((Prog.frame 2 7 {} (.seq (.print "a") (.seq (.frame 2 8 {} (.print "b")) (.raise 3)))).run {}).2.screen =
      ["a", "b", traceback (.user 3)] := by
  exact ⟨rfl, rfl⟩

/-- The unrestricted claim is false: after `with 1: f()`, where the output of the call cannot be stored, the
portals of both blocks are still entered, outside of all blocks. -/
theorem C103_counterexample : ¬ ∀ (a : Prog) (s : St), Valid s → Restored s (a.run s).2 := by
  intro h
  have h1 := (h (.within 1 true (call 2 7 true true true { output := false } .skip .skip (.print "x") .skip)) {} .nil).portals
  have h2 : ((Prog.within 1 true (call 2 7 true true true { output := false } .skip .skip (.print "x") .skip)).run {}).2.sys.stack = [2, 1] := by
    decide +kernel
  rw [h1] at h2
  cases h2

end Pyth.FrameFail
