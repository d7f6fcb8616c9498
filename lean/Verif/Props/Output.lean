import Verif.Proofs.Output
/-! # C61 (faithful capturing), C62 (redirections are undone) -/
namespace Pyth.Output

/-- A block that is run under a capturer: its end state and the captured text.
(`with OutputCapturer() as c: body`, then `c.get_output()`) -/
def captured (fmt : Fmt) (tb : Nat → String) (P : Prog) (s : Out) : String :=
  (newCapturer s).1.getOutput (run fmt tb (.capture P) s).2

/-- **C61** (captured text): everything a block says while it is captured - written to stdout or
stderr or logged, directly or inside nested captures, together with the traceback if it fails - is
in the captured text, exactly once and in order. -/
theorem C61_captured_text (fmt : Fmt) (tb : Nat → String) (P : Prog) (hp : Plain P) (s : Out)
    (hw : WF s) :
    captured fmt tb P s = String.join ((says tb (.capture P)).1.map Ev.text) := by
  have ih := sim fmt tb P (capState s) hp (capState_wf hw) (fun _ => capState_unfiltered s)
  obtain ⟨-, -, h3, -⟩ := capture_end fmt tb P s ih
  unfold captured Capturer.getOutput
  rw [show (newCapturer s).1.buffer = s.next from rfl, h3 s.next (Nat.le_refl _),
    capState_buffer fmt hw]

/-- **C61** (originals): if no root handler filters by level and there is one, the real streams,
and the buffers of surrounding captures, receive exactly what they would have received without any
capturing: the pieces of output are performed directly. (An exception leaving a captured block
additionally prints its traceback.) -/
theorem C61_originals_partial (fmt : Fmt) (tb : Nat → String) (P : Prog) (hp : Plain P) (s : Out)
    (hw : WF s) (hu : (∃ ev ∈ (says tb P).1, ev.isLog = true) → Unfiltered s) :
    (run fmt tb P s).1 = (says tb P).2 ∧
    (∀ k, (run fmt tb P s).2.bases k = (perform fmt (says tb P).1 s).bases k) ∧
    (∀ b, b < s.next → (run fmt tb P s).2.buffers b = (perform fmt (says tb P).1 s).buffers b) := by
  obtain ⟨h1, h2, -⟩ := sim fmt tb P s hp hw hu
  exact ⟨h1, h2.bases, h2.buffers⟩

/-- **C61**: putting a block that ends normally under a capturer makes no difference to the real
streams and to surrounding captures. -/
theorem C61_capture_invisible (fmt : Fmt) (tb : Nat → String) (P : Prog) (hp : Plain P) (s : Out)
    (hw : WF s) (hu : (∃ ev ∈ (says tb P).1, ev.isLog = true) → Unfiltered s)
    (hok : (run fmt tb P s).1 = none) :
    (run fmt tb (.capture P) s).1 = none ∧
    (∀ k, (run fmt tb (.capture P) s).2.bases k = (run fmt tb P s).2.bases k) ∧
    (∀ b, b < s.next →
      (run fmt tb (.capture P) s).2.buffers b = (run fmt tb P s).2.buffers b) := by
  obtain ⟨h1, h2, h3⟩ := C61_originals_partial fmt tb P hp s hw hu
  have hn : (says tb P).2 = none := by rw [← h1]; exact hok
  have e : says tb (.capture P) = says tb P := by
    rw [says_capture]
    refine Prod.ext ?_ rfl
    simp [hn]
  obtain ⟨g1, g2, g3⟩ := C61_originals_partial fmt tb (.capture P) hp s hw (by rw [e]; exact hu)
  rw [e] at g1 g2 g3
  exact ⟨by rw [g1, hn], fun k => by rw [g2, h2], fun b hb => by rw [g3 b hb, h3 b hb]⟩

/-- **C61** fails for handlers with a level of their own: the capturer forwards records with
`handler.emit`, which does not check the level, so a message the original handler would have
ignored reaches its stream. -/
theorem C61_handler_levels_counterexample :
    let s : Out := { out := .base 0, err := .base 1, handlers := [.base 0 40 (.base 1)] }
    let fmt : Fmt := fun _ m => m ++ "\n"
    let tb : Nat → String := fun _ => ""
    let P := Prog.log 30 "careful"
    (run fmt tb P s).2.bases 1 = [] ∧ (run fmt tb (.capture P) s).2.bases 1 = ["careful\n"] := by
  decide +kernel

/-- **C61** fails without root handlers: a warning that would have been printed to stderr does not
reach it while capturing. -/
theorem C61_last_resort_counterexample :
    let s : Out := { out := .base 0, err := .base 1, handlers := [] }
    let fmt : Fmt := fun _ m => m ++ "\n"
    let tb : Nat → String := fun _ => ""
    let P := Prog.log 30 "careful"
    (run fmt tb P s).2.bases 1 = ["careful\n"] ∧ (run fmt tb (.capture P) s).2.bases 1 = [] := by
  decide +kernel

/-- **C62**: after a capturing block, ended normally or by an exception and whatever the block did
to the streams and handlers itself, stdout, stderr and the log handlers are the ones in place when
it started. -/
theorem C62_capture_restores (fmt : Fmt) (tb : Nat → String) (P : Prog) (s : Out) :
    (run fmt tb (.capture P) s).2.out = s.out ∧ (run fmt tb (.capture P) s).2.err = s.err ∧
    (run fmt tb (.capture P) s).2.handlers = s.handlers :=
  ⟨rfl, rfl, rfl⟩

/-- **C62**: after a suppressing block stdout and stderr are the ones in place when it started,
whatever the block did. -/
theorem C62_suppress_restores (fmt : Fmt) (tb : Nat → String) (P : Prog) (s : Out) :
    (run fmt tb (.suppress P) s).2.out = s.out ∧ (run fmt tb (.suppress P) s).2.err = s.err :=
  ⟨rfl, rfl⟩

/-- handlers are only changed by `addHandler` -/
theorem handlers_plain (fmt : Fmt) (tb : Nat → String) : ∀ (P : Prog) (s : Out), Plain P →
    (run fmt tb P s).2.handlers = s.handlers ∧ (run fmt tb P s).2.out = s.out ∧
    (run fmt tb P s).2.err = s.err
  | .skip, _, _ => ⟨rfl, rfl, rfl⟩
  | .raise _, _, _ => ⟨rfl, rfl, rfl⟩
  | .print t, s, _ => by
    rw [run, write_eq]
    exact ⟨(apply_spec _ _).2.2.1, (apply_spec _ _).1, (apply_spec _ _).2.1⟩
  | .eprint t, s, _ => by
    rw [run, write_eq]
    exact ⟨(apply_spec _ _).2.2.1, (apply_spec _ _).1, (apply_spec _ _).2.1⟩
  | .log l m, s, _ => by
    rw [run, log_eq]
    exact ⟨(apply_spec _ _).2.2.1, (apply_spec _ _).1, (apply_spec _ _).2.1⟩
  | .setOut _, _, h => h.elim
  | .setErr _, _, h => h.elim
  | .addHandler _ _, _, h => h.elim
  | .seq a b, s, h => by
    have ha := handlers_plain fmt tb a s h.1
    rw [run]
    generalize run fmt tb a s = r at ha
    obtain ⟨r1, r2⟩ := r
    cases r1 with
    | some n => exact ha
    | none =>
      have hb := handlers_plain fmt tb b r2 h.2
      exact ⟨hb.1.trans ha.1, hb.2.1.trans ha.2.1, hb.2.2.trans ha.2.2⟩
  | .tryExcept a b, s, h => by
    have ha := handlers_plain fmt tb a s h.1
    rw [run]
    generalize run fmt tb a s = r at ha
    obtain ⟨r1, r2⟩ := r
    cases r1 with
    | none => exact ha
    | some n =>
      have hb := handlers_plain fmt tb b r2 h.2
      exact ⟨hb.1.trans ha.1, hb.2.1.trans ha.2.1, hb.2.2.trans ha.2.2⟩
  | .capture P, s, _ => ⟨rfl, rfl, rfl⟩
  | .suppress P, s, h => by
    have := handlers_plain fmt tb P { s with out := .null, err := .null } h
    exact ⟨this.1, rfl, rfl⟩

/-- **C62**: a program that only uses the context managers, however nested and however it ends,
leaves stdout, stderr and the log handlers as it found them. -/
theorem C62_programs_restore (fmt : Fmt) (tb : Nat → String) (P : Prog) (hp : Plain P) (s : Out) :
    (run fmt tb P s).2.out = s.out ∧ (run fmt tb P s).2.err = s.err ∧
    (run fmt tb P s).2.handlers = s.handlers := by
  have := handlers_plain fmt tb P s hp
  exact ⟨this.2.1, this.2.2, this.1⟩

/-- **C62** (silence): if a suppressed block logs nothing, nothing it does reaches any real stream
or surrounding capture. -/
theorem C62_suppress_silent_partial (fmt : Fmt) (tb : Nat → String) (P : Prog) (hp : Plain P)
    (s : Out) (hw : WF s) (hlog : ∀ ev ∈ (says tb P).1, ev.isLog = false) :
    (∀ k, (run fmt tb (.suppress P) s).2.bases k = s.bases k) ∧
    (∀ b, b < s.next → (run fmt tb (.suppress P) s).2.buffers b = s.buffers b) := by
  have e : (says tb (.suppress P)).1 = [] := by
    rw [says]
    rw [List.filter_eq_nil_iff]
    intro ev hev; simp [hlog ev hev]
  obtain ⟨-, h2, h3⟩ := C61_originals_partial fmt tb (.suppress P) hp s hw
    (by rw [e]; rintro ⟨x, hx, -⟩; cases hx)
  rw [e] at h2 h3
  exact ⟨h2, h3⟩

/-- **C62** (silence), with logging: a suppressed block reaches the real streams through the log
handlers, and through nothing else. -/
theorem C62_suppress_only_logs (fmt : Fmt) (tb : Nat → String) (P : Prog) (hp : Plain P)
    (s : Out) (hw : WF s) (hu : Unfiltered s) (k : Nat) :
    (run fmt tb (.suppress P) s).2.bases k
      = (perform fmt ((says tb P).1.filter Ev.isLog) s).bases k :=
  (C61_originals_partial fmt tb (.suppress P) hp s hw (fun _ => hu)).2.1 k

/-- **C62** fails for logging: a message logged while suppressing is printed. -/
theorem C62_suppress_log_counterexample :
    let s : Out := { out := .base 0, err := .base 1, handlers := [.base 0 0 (.base 1)] }
    let fmt : Fmt := fun _ m => m ++ "\n"
    (run fmt (fun _ => "") (.suppress (.log 30 "careful")) s).2.bases 1 = ["careful\n"] := by
  decide +kernel

/-- **C62** fails for a capturer created before its block starts, or entered twice: what is
restored is what was in place when the *object* was created. First: stdout is replaced between the
creation of a capturer and its block; after the block stdout is the old one. Second: after an inner
block of the same capturer, the rest of the outer block is not captured. -/
theorem C62_creation_time_counterexample :
    let s : Out := { out := .base 0, err := .base 1, handlers := [] }
    let c := (newCapturer s).1
    let s1 := (newCapturer s).2
    let s2 : Out := { s1 with out := .base 7 }
    let s3 := c.exit none (c.enter s2)
    let t1 := c.exit none (c.enter (c.enter s1))
    let t2 := c.exit none (write t1.out "lost" t1)
    s2.out = .base 7 ∧ s3.out = .base 0 ∧ c.getOutput t2 = "" ∧ t2.bases 0 = ["lost"] := by
  decide +kernel

namespace Ex

/-- a configured program: one handler on stderr -/
def s0 : Out := { out := .base 0, err := .base 1, handlers := [.base 0 0 (.base 1)] }
def fmt : Fmt := fun _ m => "LOG " ++ m ++ "\n"
def tb : Nat → String := fun n => "Traceback " ++ toString n

/-- print, log, a nested capture that fails and is caught, a suppressed part -/
def P : Prog := .seq (.print "a") (.seq (.tryExcept (.capture (.seq (.eprint "b") (.seq (.log 30 "c")
  (.raise 5)))) (.print "d")) (.suppress (.seq (.print "e") (.log 20 "f"))))

theorem s0_wf : WF s0 :=
  ⟨trivial, trivial, by
    show Handler.BelowL 0 [.base 0 0 (.base 1)]
    rw [Handler.BelowL, Handler.BelowL, Handler.Below]; exact ⟨trivial, trivial⟩⟩
theorem s0_unfiltered : Unfiltered s0 := by
  refine ⟨by simp [s0], ?_⟩
  intro h hh
  simp only [s0, List.mem_singleton] at hh
  subst hh; rfl
theorem P_plain : Plain P := by simp [P, Plain]

example : captured fmt tb P s0 = "abc\nTraceback 5df\n" := by
  rw [C61_captured_text fmt tb P P_plain s0 s0_wf]; decide +kernel

example : (run fmt tb (.capture P) s0).2.bases 1 = ["b", "LOG c\n", "Traceback 5", "LOG f\n"] := by
  rw [(C61_originals_partial fmt tb (.capture P) P_plain s0 s0_wf (fun _ => s0_unfiltered)).2.1]
  decide +kernel

example : (run fmt tb P s0).1 = none := by decide +kernel

-- a suppressed block without logging, containing a capture
example : ∀ ev ∈ (says tb (.capture (.seq (.print "x") (.eprint "y")))).1, ev.isLog = false := by
  decide

end Ex

end Pyth.Output
