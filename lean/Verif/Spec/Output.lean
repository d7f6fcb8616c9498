import Verif.Model.Output
/-!
# What a program says, independently of capturing
-/
namespace Pyth.Output

/-- One piece of output: written to stdout, written to stderr, logged -/
inductive Ev
  | out (t : String)
  | err (t : String)
  | log (lvl : Nat) (m : String)
  deriving DecidableEq, Repr

/-- The text of a piece of output as a reader of the captured text sees it -/
def Ev.text : Ev → String
  | .out t => t
  | .err t => t
  | .log _ m => m ++ "\n"

def Ev.isLog : Ev → Bool
  | .log _ _ => true
  | _ => false

/-- What a program says to its surroundings, in order, and how it ends. Capturing is transparent,
except that the traceback of an exception leaving the captured block is written to stderr;
suppressing silences stdout and stderr, but not the log. -/
def says (tb : Nat → String) : Prog → List Ev × Option Nat
  | .skip => ([], none)
  | .raise n => ([], some n)
  | .print t => ([.out t], none)
  | .eprint t => ([.err t], none)
  | .log l m => ([.log l m], none)
  | .setOut _ => ([], none)
  | .setErr _ => ([], none)
  | .addHandler _ _ => ([], none)
  | .seq a b => match (says tb a).2 with
    | none => ((says tb a).1 ++ (says tb b).1, (says tb b).2)
    | some n => ((says tb a).1, some n)
  | .tryExcept a b => match (says tb a).2 with
    | none => ((says tb a).1, none)
    | some _ => ((says tb a).1 ++ (says tb b).1, (says tb b).2)
  | .capture body => match (says tb body).2 with
    | none => ((says tb body).1, none)
    | some n => ((says tb body).1 ++ [.err (tb n)], some n)
  | .suppress body => ((says tb body).1.filter Ev.isLog, (says tb body).2)

/-- Directly perform pieces of output in a state: the program without any redirection. -/
def perform (fmt : Fmt) : List Ev → Out → Out
  | [], s => s
  | .out t :: es, s => perform fmt es (write s.out t s)
  | .err t :: es, s => perform fmt es (write s.err t s)
  | .log l m :: es, s => perform fmt es (log fmt l m s)

/-- The program does not itself replace streams or add handlers. -/
def Plain : Prog → Prop
  | .setOut _ => False
  | .setErr _ => False
  | .addHandler _ _ => False
  | .seq a b => Plain a ∧ Plain b
  | .tryExcept a b => Plain a ∧ Plain b
  | .capture b => Plain b
  | .suppress b => Plain b
  | _ => True

/-- The logging configuration capturing is transparent for: there is a root handler, and no root
handler has a level of its own. -/
def Unfiltered (s : Out) : Prop := s.handlers ≠ [] ∧ ∀ h ∈ s.handlers, h.level = 0

/-- buffers mentioned by a stream exist -/
def Stream.Below (n : Nat) : Stream → Prop
  | .base _ => True
  | .tee o b => o.Below n ∧ b < n
  | .null => True

mutual
/-- buffers mentioned by a handler exist -/
def Handler.Below (n : Nat) : Handler → Prop
  | .base _ _ st => st.Below n
  | .capture b hs => b < n ∧ Handler.BelowL n hs
def Handler.BelowL (n : Nat) : List Handler → Prop
  | [] => True
  | h :: hs => h.Below n ∧ Handler.BelowL n hs
end

/-- All buffers in use were created before. -/
def WF (s : Out) : Prop := s.out.Below s.next ∧ s.err.Below s.next ∧ Handler.BelowL s.next s.handlers

end Pyth.Output
