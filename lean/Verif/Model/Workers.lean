import Mathlib.Logic.Function.Basic
/-!
# Life of background workers (swarming_portals.py:59-79, 101-147, 177-243)

Programs and their background workers share the `compute_nodes` dictionary of one portal.  It contains one record per
node: the `runtime_id` of the program started last on that node.  Each step is one access to the record or local.
Which requested call a worker chooses is left open (see `Verif.Model.Swarm` for what happens to requests and results).

Simplifications: random signatures are taken from a counter (they are never repeated); a worker is given the identity
`w : Nat`; its process and the process that it spawns for each job run one after the other (`p.start(); p.join()`),
so they are one thread of control here; a worker can be killed at any time.
-/
namespace Pyth.Workers

/-- where a worker is; `K`: calls (swarming_portals.py:177-226) -/
inductive Mode (K : Type)
  /-- in the loop of `_background_worker`, about to call `parent_runtime_is_live` (line 188) -/
  | loop
  /-- job spawned (lines 190-194); in `_process_random_execution_request`, about to call `parent_runtime_is_live` (line 210) -/
  | job
  /-- looking for candidates (lines 212-222) -/
  | scan
  /-- candidate chosen, about to execute it (lines 225-226) -/
  | chosen (k : K)
  /-- executing it -/
  | running (k : K)
  /-- the process has ended (`return` in line 189, or killed) -/
  | stopped

/-- a worker: its node, the runtime id it was started with, and where it is (swarming_portals.py:177-195) -/
structure Worker (K : Type) where
  node : Nat
  rid : Nat
  mode : Mode K

/-- the shared records and the workers (swarming_portals.py:101-119, 177-226) -/
structure State (K : Type) where
  /-- `compute_nodes.pkl[node_id, "runtime_id"]` -/
  record : Nat → Option Nat
  /-- random signatures generated so far -/
  fresh : Nat
  workers : Nat → Option (Worker K)
  /-- calls started by workers so far -/
  started : List (Nat × K)

variable {K : Type}

/-- worker `w` goes on in mode `m` (control flow of swarming_portals.py:177-226) -/
def State.goto (s : State K) (w : Nat) (x : Worker K) (m : Mode K) : State K :=
  { s with workers := Function.update s.workers w (some { x with mode := m }) }

/-- `parent_runtime_is_live` (lines 101-118) -/
def live (s : State K) (x : Worker K) : Prop := s.record x.node = some x.rid

/-- a step of a program, or of the operating system (not of a worker) (swarming_portals.py:58-80, 229-242) -/
inductive ProgStep (s : State K) : State K → Prop
  /-- a `SwarmingPortal` is created without a `runtime_id` on node `n`: new id, record written (lines 59-63) -/
  | create (n) : ProgStep s { s with record := Function.update s.record n (some s.fresh), fresh := s.fresh + 1 }
  /-- the worker is killed -/
  | kill (w x) (h : s.workers w = some x) : ProgStep s (s.goto w x .stopped)
  /-- a program launches a worker with its runtime id (lines 78-79, 121-128); `r` is an id generated before -/
  | launch (n r w) (hr : r < s.fresh) (hw : s.workers w = none) :
      ProgStep s { s with workers := Function.update s.workers w (some ⟨n, r, .loop⟩) }
  /-- a portal is cleared or a program ends on node `n`: the record is removed (lines 131-135, 229-243) -/
  | remove (n) : ProgStep s { s with record := Function.update s.record n none }

/-- a step of worker `w` (swarming_portals.py:177-226) -/
inductive WorkStep (w : Nat) (s : State K) : State K → Prop
  /-- lines 188, 190-193 -/
  | loopLive (x) (h : s.workers w = some x) (hm : x.mode = .loop) (hl : live s x) : WorkStep w s (s.goto w x .job)
  /-- line 189 -/
  | loopDead (x) (h : s.workers w = some x) (hm : x.mode = .loop) (hl : ¬ live s x) : WorkStep w s (s.goto w x .stopped)
  /-- line 210, true -/
  | jobLive (x) (h : s.workers w = some x) (hm : x.mode = .job) (hl : live s x) : WorkStep w s (s.goto w x .scan)
  /-- line 211: the job process ends -/
  | jobDead (x) (h : s.workers w = some x) (hm : x.mode = .job) (hl : ¬ live s x) : WorkStep w s (s.goto w x .loop)
  /-- no candidates (lines 223-224), back to line 210 -/
  | scanNone (x) (h : s.workers w = some x) (hm : x.mode = .scan) : WorkStep w s (s.goto w x .job)
  /-- a candidate is chosen (line 225) -/
  | scanSome (x k) (h : s.workers w = some x) (hm : x.mode = .scan) : WorkStep w s (s.goto w x (.chosen k))
  /-- `random_address.execute()` (line 226) -/
  | start (x k) (h : s.workers w = some x) (hm : x.mode = .chosen k) :
      WorkStep w s ({ s with started := s.started ++ [(w, k)] }.goto w x (.running k))
  /-- it returned or raised; the job process ends, `p.join()` returns -/
  | finish (x k) (h : s.workers w = some x) (hm : x.mode = .running k) : WorkStep w s (s.goto w x .loop)

/-- a step of a program or of a worker (swarming_portals.py:58-80, 177-242) -/
inductive Step (s t : State K) : Prop
  | prog (h : ProgStep s t)
  | work (w) (h : WorkStep w s t)

/-- any number of steps (swarming_portals.py:58-80, 177-242) -/
inductive Steps : State K → State K → Prop
  | refl (s) : Steps s s
  | step {s t u} (h : Steps s t) (h' : Step t u) : Steps s u

end Pyth.Workers
