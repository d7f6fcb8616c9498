import Verif.Model.OutThreads
/-!
# Specification for C113
-/
namespace Pyth.Output

/-- What is said by a command: leaving a block because of an exception prints the traceback. -/
def Cmd.said : Cmd → List Ev
  | .say ev => [ev]
  | .exit _ (some t) => [.err t]
  | _ => []

/-- everything that is said by all threads, in order -/
def saidBy (sched : Sched) : List Ev := sched.flatMap fun c => c.2.said

/-- Only capturers that were created before are entered and left; `n` capturers exist at the start. -/
def Valid : Nat → Sched → Prop
  | _, [] => True
  | n, (_, .create) :: l => Valid (n + 1) l
  | n, (_, .enter k) :: l => k < n ∧ Valid n l
  | n, (_, .exit k _) :: l => k < n ∧ Valid n l
  | n, (_, .say _) :: l => Valid n l

/-- The blocks of all threads together are properly nested: whatever other threads begin while a block is open
(or is about to be opened) they also end before it is closed (or opened). `n` capturers exist at the start, `m` at
the end. -/
inductive Nested : Nat → Sched → Nat → Prop
  | nil (n : Nat) : Nested n [] n
  | say {n m : Nat} {rest : Sched} (i : Nat) (ev : Ev) (h : Nested n rest m) : Nested n ((i, .say ev) :: rest) m
  | block {n p q m : Nat} {btw mid rest : Sched} (i : Nat) (tb : Option String) (h1 : Nested (n + 1) btw p)
      (h2 : Nested p mid q) (h3 : Nested q rest m) :
      Nested n ((i, .create) :: (btw ++ (i, .enter n) :: (mid ++ (i, .exit n tb) :: rest))) m

/-- what a thread does that runs a program alone, when `n` capturers exist already: its commands, how many capturers exist
afterwards, and the exception that left the program (`tb`: texts of tracebacks) -/
def commandsOf (tb : Nat → String) : Prog → Nat → List Cmd × Nat × Option Nat
  | .raise e, n => ([], n, some e)
  | .print t, n => ([.say (.out t)], n, none)
  | .eprint t, n => ([.say (.err t)], n, none)
  | .log l m, n => ([.say (.log l m)], n, none)
  | .seq a b, n => match commandsOf tb a n with
    | (la, m, none) => ((la ++ (commandsOf tb b m).1), (commandsOf tb b m).2)
    | (la, m, some e) => (la, m, some e)
  | .tryExcept a b, n => match commandsOf tb a n with
    | (la, m, none) => (la, m, none)
    | (la, m, some _) => ((la ++ (commandsOf tb b m).1), (commandsOf tb b m).2)
  | .capture body, n =>
    (.create :: .enter n :: ((commandsOf tb body (n + 1)).1 ++ [.exit n ((commandsOf tb body (n + 1)).2.2.map tb)]),
      (commandsOf tb body (n + 1)).2)
  | _, n => ([], n, none)

/-- programs that do not change the streams or handlers themselves and use no suppressors -/
def OnlyBlocks : Prog → Prop
  | .setOut _ | .setErr _ | .addHandler _ _ | .suppress _ => False
  | .seq a b => OnlyBlocks a ∧ OnlyBlocks b
  | .tryExcept a b => OnlyBlocks a ∧ OnlyBlocks b
  | .capture b => OnlyBlocks b
  | _ => True

/-- what one thread does -/
def ofThread (i : Nat) (sched : Sched) : List Cmd := (sched.filter fun c => c.1 == i).map (·.2)

end Pyth.Output
