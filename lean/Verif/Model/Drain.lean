import Verif.Model.WorkerScan
import Mathlib.Logic.Function.Basic
/-!
# Workers emptying the queue of a portal, look by look
(swarming_portals.py:177-226, pure_core_classes.py:404-442, 637-661, 794-819)

`Verif.Model.WorkerScan` treats one scan of the requests as indivisible.  Here every single look at a request is a step of its
own, any number of workers scan at the same time, and clients file and drop requests, store results and call functions
meanwhile.  Choices of random numbers and the order in which a dictionary is iterated are arbitrary.

Simplifications: a request is listed at the moment the iteration starts; the test of the runtime id (C39) is left out: as long as
it succeeds it changes nothing.  What happens while a call runs is reduced to its end.
-/
namespace Pyth.Drain
open Pyth.Retry Pyth.Scan

/-- where a worker is (swarming_portals.py:177-226) -/
inductive Busy (K : Type)
  /-- between two scans -/
  | idle
  /-- in the loop of lines 212-222 (swarming_portals.py): the requests not looked at yet, the candidates found -/
  | looking (rest cands : List K) (limit : Nat)
  /-- a call was chosen (line 225), about to execute it -/
  | chosen (k : K)
  /-- the call runs (line 226) -/
  | running (k : K)
  deriving DecidableEq

/-- the queue, what each worker is doing, the clock, and the executions so far (swarming_portals.py:177-226) -/
structure Sys (K : Type) where
  /-- requests, results, attempts, and which calls can be executed (`can`) -/
  q : Queue K
  busy : Nat → Busy K
  /-- `time.time()`, and the time stamps that files get -/
  clock : Rat
  /-- history: the calls executed by workers so far -/
  runs : List K

/-- what happens (swarming_portals.py:198-226) -/
inductive Ev (K : Type)
  | list (i : Nat) (order : List K) (limit : Nat)
  | look (i : Nat)
  | pick (i : Nat) (choice : Nat)
  | start (i : Nat)
  | finish (i : Nat) (ok : Bool)
  | kill (i : Nat)
  /-- a client calls the function itself: an attempt is recorded -/
  | attempt (k : K)
  | request (k : K)
  | drop (k : K)
  /-- a client stores the result (its own call has returned, or a result was found in another portal) -/
  | store (k : K)
  /-- time passes -/
  | pass (t : Rat)

variable {K : Type} [DecidableEq K]

/-- worker `w` goes on in this way (swarming_portals.py:198-226) -/
def Sys.setBusy (s : Sys K) (i : Nat) (b : Busy K) : Sys K := { s with busy := Function.update s.busy i b }

/-- `portal.execution_requests[self] = True` (pure_core_classes.py:654-655) -/
def Sys.addRequest (s : Sys K) (k : K) : Sys K :=
  { s with q := { s.q with requests := if k ∈ s.q.requests then s.q.requests else s.q.requests ++ [k] } }

/-- `drop_execution_request` (pure_core_classes.py:658-661) -/
def Sys.dropRequest (s : Sys K) (k : K) : Sys K :=
  { s with q := { s.q with requests := s.q.requests.filter (· ≠ k) } }

/-- `execution_results[addr] = …` (pure_core_classes.py:435) -/
def Sys.store (s : Sys K) (k : K) : Sys K :=
  { s with q := { s.q with ready := fun x => if x = k then true else s.q.ready x } }

/-- `register_execution_attempt` (pure_core_classes.py:955-963) -/
def Sys.attempt (s : Sys K) (k : K) : Sys K :=
  { s with q := { s.q with attempts := fun x => if x = k then s.q.attempts k ++ [s.clock] else s.q.attempts x } }

/-- the look at request `k` (swarming_portals.py:212-222): `needs_execution`, `can_be_executed`; an exception ends the process,
`_background_worker` starts another one (lines 187-195) -/
def lookAt (s : Sys K) (k : K) (rest cands : List K) (limit : Nat) : Busy K :=
  if s.q.needs s.clock k then
    match s.q.can k with
    | .raises => .idle
    | .no => .looking rest cands limit
    | .yes => .looking (if (cands ++ [k]).length > limit then [] else rest) (cands ++ [k]) limit
  else .looking rest cands limit

/-- the choice among the candidates (swarming_portals.py:223-225): if there are none, the worker waits and scans again -/
def choose (cands : List K) (choice : Nat) : Busy K :=
  match cands[choice]? with
  | none => .idle
  | some k => .chosen k

/-- `random_address.execute()` up to the start of the code (pure_core_classes.py:637-645, 419-426): if there is a result
by now, it is returned; otherwise the attempt is recorded and the request made (again) -/
def startRun (s : Sys K) (i : Nat) (k : K) : Sys K :=
  if s.q.ready k then s.setBusy i .idle
  else { ((s.attempt k).addRequest k).setBusy i (.running k) with runs := s.runs ++ [k] }

/-- the end of the call (pure_core_classes.py:430-442): the result is stored and the request dropped, or an exception
leaves the request as it is -/
def finishRun (s : Sys K) (i : Nat) (k : K) (ok : Bool) : Sys K :=
  if ok then ((s.store k).dropRequest k).setBusy i .idle else s.setBusy i .idle

/-- the values of `random.randint(200, 5000)` (swarming_portals.py:205) -/
def Limit (l : Nat) : Prop := 200 ≤ l ∧ l ≤ 5000

/-- one event: a step of a scan or of an execution by a worker, a change of the queue by others, or the passing of time (swarming_portals.py:198-226) -/
inductive Step (s : Sys K) : Ev K → Sys K → Prop
  /-- swarming_portals.py:205, 212: a random number, and the requests in some order -/
  | list (i order limit) (hi : s.busy i = .idle) (ho : order.Perm s.q.requests) (hl : Limit limit) :
      Step s (.list i order limit) (s.setBusy i (.looking order [] limit))
  | look (i k rest cands limit) (hi : s.busy i = .looking (k :: rest) cands limit) :
      Step s (.look i) (s.setBusy i (lookAt s k rest cands limit))
  /-- `choice` is one of the positions -/
  | pick (i cands limit choice) (hi : s.busy i = .looking [] cands limit) (hc : cands ≠ [] → choice < cands.length) :
      Step s (.pick i choice) (s.setBusy i (choose cands choice))
  | start (i k) (hi : s.busy i = .chosen k) : Step s (.start i) (startRun s i k)
  | finish (i k ok) (hi : s.busy i = .running k) : Step s (.finish i ok) (finishRun s i k ok)
  /-- the process dies; `_background_worker` starts another one, or another worker takes the number -/
  | kill (i) : Step s (.kill i) (s.setBusy i .idle)
  | attempt (k) : Step s (.attempt k) (s.attempt k)
  | request (k) : Step s (.request k) (s.addRequest k)
  | drop (k) : Step s (.drop k) (s.dropRequest k)
  | store (k) : Step s (.store k) (s.store k)
  | pass (t) (ht : s.clock ≤ t) : Step s (.pass t) { s with clock := t }

end Pyth.Drain
