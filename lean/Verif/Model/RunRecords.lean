import Verif.Model.Base32
import Mathlib.Data.List.Infix
import Mathlib.Data.Nat.Digits.Defs
/-!
# Run history of a call and execution records (pure_core_classes.py:820-1088)

The run history of one call address: four dictionaries (`attempts`, `outputs`, `results`, `crashes`), written by any
number of executions (sessions) of the call, in any number of processes.  Texts are lists of characters; a
dictionary is a list of items in arbitrary order.  Time stamps of the items are not modelled here.
-/
namespace Pyth.RunRecords

/-- session id (pure_core_classes.py:921, random_signatures.py:8-12): `"run" + get_random_signature()`, for the random
number `n` -/
def sessionId (n : Nat) : List Char := "run".toList ++ (Base32.convertIntToBase32 n).take 22

/-- a dictionary of files: the last component of the key, and the value (`portal.run_history`, pure_core_classes.py:52-88) -/
abbrev Dict (α : Type) := List (List Char × α)

/-- the run history of one call address: contexts of attempts, printed outputs, returned values, crash data
(pure_core_classes.py:52-88, 834-885) -/
structure Hist (C V E : Type) where
  attempts : Dict C := []
  outputs : Dict (List Char) := []
  results : Dict V := []
  crashes : Dict E := []
  /-- `frame.exception_counter` of each session (kept by the running process) -/
  counter : List Char → Nat := fun _ => 0

variable {C V E : Type}

/-- decimal digits of a number: `str(n)` (pure_core_classes.py:926-936) -/
def decimal (n : Nat) : List Char := ((Nat.digits 10 n).reverse.map fun d => Char.ofNat (48 + d))

/-- `str(n)`; `Nat.digits` of 0 is empty (pure_core_classes.py:926-936) -/
def str (n : Nat) : List Char := if n = 0 then ['0'] else decimal n

/-- `register_execution_attempt` (pure_core_classes.py:955-964) -/
def Hist.attempt (h : Hist C V E) (sid : List Char) (c : C) : Hist C V E :=
  { h with attempts := h.attempts ++ [(sid ++ "_a".toList, c)] }

/-- `register_execution_result` (pure_core_classes.py:966-968) -/
def Hist.result (h : Hist C V E) (sid : List Char) (v : V) : Hist C V E :=
  { h with results := h.results ++ [(sid, v)] }

/-- the output is stored in `PureFnExecutionFrame.__exit__` (pure_core_classes.py:973-975) -/
def Hist.output (h : Hist C V E) (sid : List Char) (o : List Char) : Hist C V E :=
  { h with outputs := h.outputs ++ [(sid ++ "_output".toList, o)] }

/-- `PureFn._exception_id` (pure_core_classes.py:336-344): `base` is the class of the exception with the names of the
function and the island -/
def exceptionId (base sid : List Char) (counter : Nat) : List Char :=
  base ++ '_' :: (sid ++ '_' :: str counter)

/-- `register_exception` (pure_core_classes.py:988-992) with the id above -/
def Hist.crash (h : Hist C V E) (sid base : List Char) (e : E) : Hist C V E :=
  { h with
    crashes := h.crashes ++ [(exceptionId base sid (h.counter sid), e)]
    counter := fun x => if x = sid then h.counter sid + 1 else h.counter x }

/-! ### reading -/

/-- `PureFnExecutionResultAddr.execution_records` (pure_core_classes.py:823-830): `run_id = k[-1][:-2]`; the session ids
of the records, in the order of the dictionary -/
def recordIds (attempts : Dict C) : List (List Char) := attempts.map fun k => k.1.take (k.1.length - 2)

/-- `session_id in k[-1]` (pure_core_classes.py:1038-1084) -/
def inKey (sid key : List Char) : Bool := decide (sid <:+: key)

/-- the loop of `PureFnExecutionRecord.output`, `.attempt_context` and `.result`: first item whose key contains the
session id (pure_core_classes.py:1038-1054, 1076-1083) -/
def readFirst {α : Type} (d : Dict α) (sid : List Char) : Option α := (d.find? fun k => inKey sid k.1).map (·.2)

/-- `PureFnExecutionRecord.crashes` (pure_core_classes.py:1056-1064) -/
def readAll {α : Type} (d : Dict α) (sid : List Char) : List α := (d.filter fun k => inKey sid k.1).map (·.2)

end Pyth.RunRecords
