import Verif.Model.Retry
/-!
# How a worker chooses a request (swarming_portals.py:198-226, `_process_random_execution_request`)

One job of a worker: it scans the requests, collects those that need execution and can be executed, chooses one of them
and executes it.  An exception during the scan ends the job (the process that was started for it dies; the worker
starts another one, lines 187-195).

Simplifications: the requests do not change during one scan; the outcome of the executed call is given from outside.
-/
namespace Pyth.Scan
open Pyth.Retry

/-- `new_address.can_be_executed` (pure_core_classes.py:781-791): restores the function and the arguments, and runs the
guards -/
inductive Can
  | yes
  | no
  /-- restoring the function or the arguments, or a guard, raises an exception -/
  | raises
  deriving DecidableEq, Repr

/-- what the workers of one portal see (swarming_portals.py:198-226) -/
structure Queue (K : Type) where
  /-- the keys of `portal.execution_requests` -/
  requests : List K
  /-- whether a call has a result -/
  ready : K → Bool
  /-- the time stamps of the stored attempts of a call -/
  attempts : K → List Rat
  /-- whether a call can be executed in this environment -/
  can : K → Can

variable {K : Type} [DecidableEq K]

/-- `new_address.needs_execution` at time `now` (line 216) -/
def Queue.needs (q : Queue K) (now : Rat) (k : K) : Bool := needsExecution (q.ready k) (q.attempts k) now

/-- the loop of lines 212-222: `addrs` are the requests in the order of the iteration, `cands` the candidates so far;
`none`: an exception -/
def scan (q : Queue K) (now : Rat) (limit : Nat) : List K → List K → Option (List K)
  | [], cands => some cands
  | k :: addrs, cands =>
    if q.needs now k then
      match q.can k with
      | .raises => none
      | .no => scan q now limit addrs cands
      | .yes =>
        if (cands ++ [k]).length > limit then some (cands ++ [k])
        else scan q now limit addrs (cands ++ [k])
    else scan q now limit addrs cands

/-- the execution of a call at time `now`: the attempt is recorded; `ok`: it returns, its result is stored and the
request dropped (pure_core_classes.py:425-442) -/
def Queue.execute (q : Queue K) (now : Rat) (k : K) (ok : Bool) : Queue K :=
  { q with
    attempts := fun x => if x = k then q.attempts k ++ [now] else q.attempts x
    ready := fun x => if x = k then ok || q.ready k else q.ready x
    requests := if ok then q.requests.filter (· ≠ k) else q.requests }

/-- what came of one scan (swarming_portals.py:198-226) -/
inductive Outcome (K : Type)
  /-- the process died during the scan -/
  | died
  /-- no candidates: the process waits and scans again (lines 223-224) -/
  | again
  /-- this call was executed -/
  | executed (k : K)
  deriving DecidableEq, Repr

/-- one scan of one worker: `order` is the order in which the dictionary is iterated, `limit` the random number of line
205, `choice` the random choice of line 225, `ok` the outcome of the call -/
def job (q : Queue K) (now : Rat) (order : List K) (limit choice : Nat) (ok : Bool) : Queue K × Outcome K :=
  match scan q now limit order [] with
  | none => (q, .died)
  | some cands => match cands[choice]? with
    | none => (q, .again)
    | some k => (q.execute now k ok, .executed k)

end Pyth.Scan
