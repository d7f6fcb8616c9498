/-!
# One pure function executed by several threads

`PureFn.call_stack` (pure_core_classes.py:138, 147, 159, 300) is one list for a function, shared by all its handles and by
all threads of the process; frames are put on it and taken off it by `PureFnExecutionFrame.__enter__` and `__exit__`
(lines 941-980), and its last entry says under which execution an exception is filed (lines 336-361).
Simplification: threads switch only between the commands below, not inside of them.
-/
namespace Pyth.FrameThreads

/-- a `PureFnExecutionFrame`: the address of the call and the session id (pure_core_classes.py:926-935) -/
structure Frame where
  addr : Nat
  session : Nat
  deriving DecidableEq, Repr

/-- what a thread does with this function (pure_core_classes.py:404-442, 941-980, 346-361): an execution begins, an
exception that is not recorded yet leaves the code, the execution in which the thread is ends -/
inductive Cmd
  | start (f : Frame)
  | fail (exc : Nat)
  | finish
  deriving DecidableEq, Repr

/-- a record of an exception: who failed, with which exception, and the frame under which it is filed, with the
number that makes its name unique (pure_core_classes.py:336-344, 988-992); `none`: not filed under any execution -/
structure Filed where
  thread : Nat
  exc : Nat
  place : Option (Frame × Nat)
  deriving DecidableEq, Repr

/-- `fn.call_stack` (the last entry first), the exception counters of the frames, the records, and a `KeyError`-like mark:
`pop` from an empty list (pure_core_classes.py:147, 933, 980, 988-992) -/
structure St where
  stack : List Frame := []
  counter : Frame → Nat := fun _ => 0
  filed : List Filed := []
  popEmpty : Bool := false

/-- `_exception_id` and `_persist_exception_information` (pure_core_classes.py:336-361, 988-992): filed under the last frame
of the list, whoever put it there -/
def St.file (s : St) (i exc : Nat) : St :=
  match s.stack with
  | [] => { s with filed := s.filed ++ [⟨i, exc, none⟩] }
  | f :: _ => { s with
      filed := s.filed ++ [⟨i, exc, some (f, s.counter f)⟩]
      counter := fun g => if g = f then s.counter f + 1 else s.counter g }

/-- `self.fn.call_stack.pop()` (pure_core_classes.py:980) -/
def St.pop (s : St) : St :=
  match s.stack with
  | [] => { s with popEmpty := true }
  | _ :: l => { s with stack := l }

/-- one command of thread `i` (pure_core_classes.py:346-361, 941-980) -/
def step (s : St) (c : Nat × Cmd) : St :=
  match c.2 with
  | .start f => { s with stack := f :: s.stack }
  | .fail e => s.file c.1 e
  | .finish => s.pop

/-- a schedule: which thread executes which command (pure_core_classes.py:404-442) -/
abbrev Sched := List (Nat × Cmd)

/-- execution of a schedule (pure_core_classes.py:404-442) -/
def run (sched : Sched) (s : St) : St := sched.foldl step s

end Pyth.FrameThreads
