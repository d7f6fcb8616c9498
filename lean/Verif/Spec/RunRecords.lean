import Verif.Model.RunRecords
/-!
# What is recorded about the executions of one call, independently of keys and dictionaries
-/
namespace Pyth.RunRecords

/-- One thing that is recorded during an execution: `s` is the session (the execution), in the order of time; sessions
of different processes interleave in any way. -/
inductive Ev (C V E : Type)
  | attempt (s : List Char) (context : C)
  | result (s : List Char) (value : V)
  | output (s : List Char) (text : List Char)
  | crash (s : List Char) (base : List Char) (data : E)

variable {C V E : Type}

/-- the run history after these events, in the model of the code -/
def step (h : Hist C V E) : Ev C V E → Hist C V E
  | .attempt s c => h.attempt s c
  | .result s v => h.result s v
  | .output s o => h.output s o
  | .crash s b e => h.crash s b e

def history (evs : List (Ev C V E)) : Hist C V E := evs.foldl step {}

/-- the sessions that began, in the order of time -/
def begun (evs : List (Ev C V E)) : List (List Char) := evs.filterMap fun | .attempt s _ => some s | _ => none
/-- the sessions that stored their output -/
def printed (evs : List (Ev C V E)) : List (List Char) := evs.filterMap fun | .output s _ => some s | _ => none
/-- the sessions that stored a result -/
def returned (evs : List (Ev C V E)) : List (List Char) := evs.filterMap fun | .result s _ => some s | _ => none
/-- the crash data of a session, in the order of time -/
def crashesOf (s : List Char) (evs : List (Ev C V E)) : List E :=
  evs.filterMap fun | .crash s' _ e => if s' = s then some e else none | _ => none

/-- a session id made from a random number of at least 106 bits (of the 122 random bits of a version 4 UUID) -/
def IsSid (s : List Char) : Prop := ∃ n, 32 ^ 21 ≤ n ∧ s = sessionId n

/-- the session an event belongs to -/
def Ev.session : Ev C V E → List Char
  | .attempt s _ => s
  | .result s _ => s
  | .output s _ => s
  | .crash s _ _ => s

/-- What is known of real histories: session ids come from random numbers, each session begins once and stores its
output and its result at most once.  (Session ids of different executions are different, because `begun` has no
repetitions.) -/
structure Proper (evs : List (Ev C V E)) : Prop where
  ids : ∀ e ∈ evs, IsSid e.session
  once : (begun evs).Nodup
  output : (printed evs).Nodup
  result : (returned evs).Nodup

/-- the names of the exceptions, functions and islands do not happen to contain the session id `s` -/
def Unrelated (s : List Char) (evs : List (Ev C V E)) : Prop :=
  ∀ s' b e, Ev.crash s' b e ∈ evs → ¬ s <:+: b

end Pyth.RunRecords
