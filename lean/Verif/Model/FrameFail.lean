import Verif.Model.World
/-!
# Storage failures around the code of pure functions

`PureFnExecutionFrame` (pure_core_classes.py:918-985), `with portal:` (logging_portals.py:309-329,
foundation.py:112-132), `OrdinaryFn.execute` (ordinary_core_classes.py:175-196) and `OutputCapturer`
(output_capturer.py:75-114) when writing to storage may fail: a full disk, missing permissions, a broken
connection, or a text that cannot be encoded.  `Verif.Model.PureFn` assumes that these writes succeed.

What is kept of the state is what a block has to put back when it is left: the entered portals, the
streams, and the stacks of running frames.  Every write that a program makes is marked in the program as
succeeding or failing.
-/
namespace Pyth.FrameFail
open Pyth.Portal (PortalId Sys)
open Pyth.World (Exc Kind ctxKind)

/-- run-time state.  `out` is `sys.stdout` (and `sys.stderr`, and the log handlers, which are redirected
together with it): the buffers of the capturers that a text passes on its way to the screen, innermost
first.  `stacks` is `fn.call_stack` of each function, innermost frame first.
(logging_portals.py:223-330, output_capturer.py:75-114, pure_core_classes.py:918-1010) -/
structure St where
  sys : Sys := {}
  out : List Nat := []
  buffers : Nat → List String := fun _ => []
  screen : List String := []
  nextBuf : Nat := 0
  stacks : Nat → List Nat := fun _ => []
  nextRun : Nat := 0
  /-- stored: run ids of attempts, run ids with their output -/
  attempts : List Nat := []
  outputs : List (Nat × List String) := []
  handling : List Exc := []
  marked : List Nat := []
  nextExc : Nat := 0

/-- a Python computation over this state (logging_portals.py:223-330, pure_core_classes.py:918-1010) -/
abbrev M := PyM Exc St Unit

/-- `raise` of a new exception object (`raise` in pure_core_classes.py:918-1010 or user code) -/
def raiseNew (k : Kind) : M := fun s => (.error ⟨s.nextExc, k⟩, { s with nextExc := s.nextExc + 1 })

/-- while `m` runs, `sys.exc_info()` is `e` (read by logging_portals.py:310-330) -/
def handlingE (e : Exc) (m : M) : M := fun s =>
  match m { s with handling := e :: s.handling } with
  | (r, s') => (r, { s' with handling := s'.handling.tail })

/-- a write to storage that succeeds or fails (the writes of pure_core_classes.py:955-967 and logging_portals.py:223-265) -/
def write (ok : Bool) : M := fun s => if ok then (.ok (), s) else raiseNew .storageError s

/-- `_persist_exception_information` (logging_portals.py:222-258): nothing for a marked exception, otherwise
the crash records are written and the exception is marked -/
def persist (ok : Bool) (e : Exc) : M := fun s =>
  if e.id ∈ s.marked then (.ok (), s)
  else if ok then (.ok (), { s with marked := e.id :: s.marked })
  else raiseNew .storageError s

/-- `_exception_logger` (logging_portals.py:309-323) -/
def logger (ok : Bool) : M := fun s =>
  match s.handling with
  | [] => (.ok (), s)
  | e :: _ => persist ok e s

/-- `BasicPortal.__enter__` (foundation.py:112-120) -/
def enterP (p : PortalId) : M := fun s =>
  match Portal.enter p s.sys with
  | .ok sys => (.ok (), { s with sys := sys })
  | .error e => raiseNew (ctxKind e) s

/-- `BasicPortal.__exit__` (foundation.py:122-132) -/
def baseExit (p : PortalId) : M := fun s =>
  match Portal.exit p s.sys with
  | .ok sys => (.ok (), { s with sys := sys })
  | .error e => raiseNew (ctxKind e) s

/-- `LoggingPortal.__exit__` (logging_portals.py:326-329): the logger, then `BasicPortal.__exit__` -/
def exitP (log : Bool) (p : PortalId) : M := PyM.bind (logger log) fun _ => baseExit p

/-- a `with` statement: `exit` runs on both paths, with the exception of the body as `sys.exc_info()`; an
exception raised by it replaces that of the body.  `exit` is told which exception it is called for.
(the `with` statements of pure_core_classes.py:425, ordinary_core_classes.py:175-197) -/
def withM (enter : M) (exit : Option Exc → M) (body : M) : M := fun s =>
  match enter s with
  | (.error e, s1) => (.error e, s1)
  | (.ok _, s1) => match body s1 with
    | (.ok _, s2) => exit none s2
    | (.error e, s2) => match handlingE e (exit (some e)) s2 with
      | (.ok _, s3) => (.error e, s3)
      | (.error e', s3) => (.error e', s3)

/-- `with portal: body`; `log`: writing a crash record succeeds, should there be an exception to record
(foundation.py:112-133, logging_portals.py:326-330) -/
def withP (log : Bool) (p : PortalId) (body : M) : M := withM (enterP p) (fun _ => exitP log p) body

/-- `print`, through the capturers in force (output_capturer.py:32-39) -/
def print (t : String) (s : St) : St :=
  { s with buffers := fun b => if b ∈ s.out then s.buffers b ++ [t] else s.buffers b, screen := s.screen ++ [t] }

/-- the text of a traceback: only the class of the exception (output_capturer.py:100-107) -/
def traceback (k : Kind) : String := "Traceback (most recent call last): " ++ toString (repr k)

/-- which of the writes made by a frame itself succeed: the record of the attempt, the source codes
(pure_core_classes.py:955-963), the output (line 977), the crash record when its portal is left (line 982) -/
structure Io where
  attempt : Bool := true
  source : Bool := true
  output : Bool := true
  log : Bool := true
  deriving DecidableEq, Repr

/-- a frame object as made by `__init__` (pure_core_classes.py:924-934): the function, the run id, the
capturer with its buffer and the streams it found -/
structure Frame where
  portal : PortalId
  fn : Nat
  run : Nat
  buffer : Nat
  saved : List Nat

/-- `PureFnExecutionFrame.__init__` (pure_core_classes.py:926-936) -/
def newFrame (p : PortalId) (f : Nat) (s : St) : Frame × St :=
  (⟨p, f, s.nextRun, s.nextBuf, s.out⟩, { s with nextRun := s.nextRun + 1, nextBuf := s.nextBuf + 1 })

/-- `PureFnExecutionFrame.__enter__` (pure_core_classes.py:941-963): the portal is entered, the output
captured, the frame put on the stack, and then the attempt is registered -/
def Frame.enter (fr : Frame) (io : Io) : M :=
  PyM.bind (enterP fr.portal) fun _ =>
  PyM.bind (PyM.modify fun s => { s with
    out := fr.buffer :: fr.saved
    stacks := fun g => if g = fr.fn then fr.run :: s.stacks g else s.stacks g }) fun _ =>
  PyM.bind (write io.attempt) fun _ =>
  PyM.bind (PyM.modify fun s => { s with attempts := s.attempts ++ [fr.run] }) fun _ =>
  write io.source

/-- `PureFnExecutionFrame.__exit__` (pure_core_classes.py:972-983): the capturer is closed (printing the
traceback of an exception first, output_capturer.py:101-108), the output is stored, the portal left, the
frame taken from the stack -/
def Frame.exit (fr : Frame) (io : Io) (e : Option Exc) : M :=
  PyM.bind (PyM.modify fun s => { (match e with
      | some e => print (traceback e.kind) s
      | none => s) with out := fr.saved }) fun _ =>
  PyM.bind (write io.output) fun _ =>
  PyM.bind (PyM.modify fun s => { s with outputs := s.outputs ++ [(fr.run, s.buffers fr.buffer)] }) fun _ =>
  PyM.bind (exitP io.log fr.portal) fun _ =>
  PyM.modify fun s => { s with stacks := fun g => if g = fr.fn then (s.stacks g).tail else s.stacks g }

/-- `with PureFnExecutionFrame(addr) as frame: body` (pure_core_classes.py:941-981) -/
def withFrame (p : PortalId) (f : Nat) (io : Io) (body : M) : M := fun s =>
  withM ((newFrame p f s).1.enter io) ((newFrame p f s).1.exit io) body (newFrame p f s).2

/-- the exception handling of `OrdinaryFn.execute` (ordinary_core_classes.py:175-196): the failure is
recorded and raised again; if it cannot be recorded, the error of the storage is raised -/
def logged (ok : Bool) (body : M) : M := fun s =>
  match body s with
  | (.ok _, s1) => (.ok (), s1)
  | (.error e, s1) => match handlingE e (persist ok e) s1 with
    | (.ok _, s2) => (.error e, s2)
    | (.error e', s2) => (.error e', s2)

/-- programs (user code with blocks of logging_portals.py:326-330 and pure_core_classes.py:918-1010) -/
inductive Prog
  | skip
  | raise (n : Nat)
  | print (t : String)
  /-- any other access to storage: values, results, requests, result records -/
  | store (ok : Bool)
  | seq (a b : Prog)
  /-- `try: a except: b` -/
  | tryExcept (a b : Prog)
  /-- `with portal: a` -/
  | within (p : PortalId) (log : Bool) (a : Prog)
  /-- `with PureFnExecutionFrame(addr): a` for a call of function `f` of portal `p` -/
  | frame (p : PortalId) (f : Nat) (io : Io) (a : Prog)
  /-- the code of a function, as run by `OrdinaryFn.execute` -/
  | logged (ok : Bool) (a : Prog)

/-- execution (logging_portals.py:326-330, pure_core_classes.py:918-1010) -/
def Prog.run : Prog → M
  | .skip => PyM.ret ()
  | .raise n => raiseNew (.user n)
  | .print t => PyM.modify (FrameFail.print t)
  | .store ok => write ok
  | .seq a b => PyM.bind a.run fun _ => b.run
  | .tryExcept a b => PyM.tryExcept a.run fun e => handlingE e b.run
  | .within p log a => withP log p a.run
  | .frame p f io a => withFrame p f io a.run
  | .logged ok a => FrameFail.logged ok a.run

/-- The call of pure function `f` of portal `p` that has no result yet (pure_core_classes.py:404-442,
autonomous_core_classes.py:314-316, ordinary_core_classes.py:175-196): `pre` are the writes before the frame
(arguments, signature), `guards` what happens in the frame before the code, `post` the writes after it; `l1`,
`l2`, `l3`: the crash records of the two blocks of the portal and of the function are written. -/
def call (p : PortalId) (f : Nat) (l1 l2 l3 : Bool) (io : Io) (pre guards code post : Prog) : Prog :=
  .within p l1 (.seq pre (.frame p f io (.seq guards (.seq (.within p l2 (.logged l3 code)) post))))

/-- the writes by which blocks enter and leave their context succeed: the records of frames, and the crash
records written when a portal is left.  Everything else may fail.
(about the writes of pure_core_classes.py:955-967 and logging_portals.py:223-265) -/
def Prog.Sound : Prog → Prop
  | .skip => True
  | .raise _ => True
  | .print _ => True
  | .store _ => True
  | .seq a b => a.Sound ∧ b.Sound
  | .tryExcept a b => a.Sound ∧ b.Sound
  | .within _ log a => log = true ∧ a.Sound
  | .frame _ _ io a => io = {} ∧ a.Sound
  | .logged _ a => a.Sound

end Pyth.FrameFail
