import Verif.Model.FrameThreads
/-!
# Specification for C115: where the user expects the records

Every thread knows by itself in which executions it is.
-/
namespace Pyth.FrameThreads

/-- the executions in which the threads are, innermost first -/
abbrev Inside := Nat → List Frame

/-- the executions in which they are after a command -/
def Inside.after (o : Inside) (c : Nat × Cmd) : Inside := fun j =>
  if j = c.1 then
    match c.2 with
    | .start f => f :: o j
    | .fail _ => o j
    | .finish => (o j).tail
  else o j

/-- Threads end only executions that they have begun, and fail only inside of an execution. -/
def Possible : Inside → Sched → Prop
  | _, [] => True
  | o, c :: l => (match c.2 with | .start _ => True | _ => o c.1 ≠ []) ∧ Possible (o.after c) l

/-- who failed, with which exception, in which execution -/
def failures : Inside → Sched → List (Nat × Nat × Option Frame)
  | _, [] => []
  | o, c :: l => (match c.2 with | .fail e => [(c.1, e, (o c.1).head?)] | _ => []) ++ failures (o.after c) l

/-- who failed, with which exception, and under which execution that was filed -/
def recorded (l : List Filed) : List (Nat × Nat × Option Frame) := l.map fun r => (r.thread, r.exc, r.place.map (·.1))

/-- the frames of all executions that are begun -/
def begun (sched : Sched) : List Frame := sched.filterMap fun c => match c.2 with | .start f => some f | _ => none

/-- The executions of all threads together are properly nested (a function that calls itself, or threads that
wait for each other): while one is open, only executions that were begun later are ended. `st` are the open executions,
innermost first, with their threads. -/
def Nested : List (Nat × Frame) → Sched → Prop
  | _, [] => True
  | st, (i, .start f) :: l => Nested ((i, f) :: st) l
  | st, (i, .fail _) :: l => (∃ f r, st = (i, f) :: r) ∧ Nested st l
  | st, (i, .finish) :: l => ∃ f r, st = (i, f) :: r ∧ Nested r l

/-- nobody is inside of an execution -/
def nobody : Inside := fun _ => []

end Pyth.FrameThreads
