import Verif.Model.Output
import Verif.Spec.Output
/-!
# Output capturers used by several threads

`sys.stdout`, `sys.stderr` and `logging.root.handlers` are shared by all threads of a process
(`pythagoras/_810_output_manipulators/output_capturer.py`, used by every execution of a pure function,
pure_core_classes.py:926-981).  A schedule is a list of commands of threads.
Simplification: threads switch only between the commands below, not inside of them.
-/
namespace Pyth.Output

/-- What a thread does (output_capturer.py:75-107): `OutputCapturer()`, `__enter__` and `__exit__` of capturer
number `k` (with the text of the traceback, if there is an exception), printing or logging. -/
inductive Cmd
  | create
  | enter (k : Nat)
  | exit (k : Nat) (tb : Option String)
  | say (ev : Ev)
  deriving DecidableEq, Repr

/-- the shared state and the capturers that were created, in order (output_capturer.py:75-90) -/
structure Shared where
  out : Out
  caps : List Capturer := []

/-- printing and logging (output_capturer.py:32-39, 64-73) -/
def sayEv (fmt : Fmt) : Ev → Out → Out
  | .out t, s => write s.out t s
  | .err t, s => write s.err t s
  | .log l m, s => log fmt l m s

/-- one command (output_capturer.py:75-107); capturers that do not exist are not entered or left -/
def Cmd.step (fmt : Fmt) (s : Shared) : Cmd → Shared
  | .create => { out := (newCapturer s.out).2, caps := s.caps ++ [(newCapturer s.out).1] }
  | .enter k => match s.caps[k]? with
    | some c => { s with out := c.enter s.out }
    | none => s
  | .exit k tb => match s.caps[k]? with
    | some c => { s with out := c.exit tb s.out }
    | none => s
  | .say ev => { s with out := sayEv fmt ev s.out }

/-- a schedule: which thread executes which command (output_capturer.py:75-107) -/
abbrev Sched := List (Nat × Cmd)

/-- execution of a schedule (output_capturer.py:75-107) -/
def runSched (fmt : Fmt) (sched : Sched) (s : Shared) : Shared := sched.foldl (fun s c => c.2.step fmt s) s

/-- `get_output()` of capturer number `k` (output_capturer.py:109-114) -/
def Shared.outputOf (s : Shared) (k : Nat) : Option String := (s.caps[k]?).map fun c => c.getOutput s.out

end Pyth.Output
