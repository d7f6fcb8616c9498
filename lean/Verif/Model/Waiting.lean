import Mathlib.Algebra.Order.Ring.Rat
/-!
# Waiting for a result: `PureFnExecutionResultAddr.get` (pure_core_classes.py:671-718)

Times are exact rational numbers of seconds (the code uses floats).  What the environment does is given by functions
of the number of the round: what the poll sees, how much time passes besides sleeping, and the random number drawn.
-/
namespace Pyth.Waiting

/-- the environment of one `get` (pure_core_classes.py:671-718) -/
structure Env (V : Type) where
  /-- `time.time()` when waiting starts (line 695) -/
  start : Rat
  /-- the `n`-th check of `self.ready` finds this result (lines 688, 703) -/
  look : Nat → Option V
  /-- time passing in round `n` besides the requested sleep (polling, scheduling, suspended computer …) -/
  over : Nat → Rat
  /-- `portal.entropy_infuser.uniform(-0.5, 0.5)` in round `n` (line 711) -/
  noise : Nat → Rat

/-- a state of the loop of lines 702-718 -/
inductive Status (V : Type)
  /-- about to check `ready`; the time, and the next pause -/
  | waiting (now pause : Rat)
  /-- returned this value -/
  | got (v : V)
  /-- raised `TimeoutError` at this time -/
  | timedOut (now : Rat)
deriving DecidableEq

variable {V : Type}

/-- `stop_time` (lines 696-699) -/
def stopTime (e : Env V) (timeout : Option Rat) : Option Rat := timeout.map (e.start + ·)

/-- lines 712-718, after the pause was doubled and randomised to `b`: the clock shows `now` -/
def adjust (stop : Option Rat) (now b : Rat) : Status V :=
  match stop with
  | none => .waiting now (max 1 b)
  | some t =>
    if t = 0 then .waiting now (max 1 b)      -- `if stop_time:` is false for 0.0
    else if t < now then .timedOut now
    else .waiting now (max 1 (if t < now + b then t - now else b))

/-- one round of the loop (lines 702-718) -/
def round (e : Env V) (stop : Option Rat) (n : Nat) : Status V → Status V
  | .waiting now pause =>
    match e.look n with
    | some v => .got v
    | none => adjust stop (now + pause + e.over n) (pause * 2 + e.noise n)
  | s => s

/-- the state after `n` rounds; the first pause is 1 second (line 695) -/
def run (e : Env V) (timeout : Option Rat) : Nat → Status V
  | 0 => .waiting e.start 1
  | n + 1 => round e (stopTime e timeout) n (run e timeout n)

/-- the pause made in round `n`, if the loop sleeps in that round (line 709) -/
def pauseIn (e : Env V) (timeout : Option Rat) (n : Nat) : Option Rat :=
  match run e timeout n, e.look n with
  | .waiting _ p, none => some p
  | _, _ => none

/-- is the call requested, `n` rounds after `request_execution` (line 693): the request is dropped when the result is
there (line 706), nothing else in `get` touches it -/
def requestedAfter (e : Env V) (timeout : Option Rat) (n : Nat) : Bool :=
  match run e timeout n with
  | .got _ => false
  | _ => true

end Pyth.Waiting
