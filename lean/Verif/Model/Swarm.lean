import Mathlib.Logic.Function.Basic
/-!
# A swarm of processes sharing one portal (swarming_portals.py, pure_core_classes.py)

Any number of processes work on the dictionaries of one portal.  Each step below is one access to one of the
dictionaries (a file operation, atomic) or a purely local step; the steps of all processes are interleaved
arbitrarily, and a process may crash between any two of its steps.

Simplifications.  A call is identified with its address `k : K`; the code of a call is a deterministic program
`Code` which may make further calls and catch their exceptions; the guards of a function are part of its code
(calls made first).  A result record is identified with the value it points to, the presence of the value in
the value store is tracked separately.  The run history is reduced to the number of attempts (`needs_execution`
is modelled in `Verif.Model.Retry`).  Caches inside address objects are not modelled: they only skip reads.
-/
namespace Pyth.Swarm

/-- deterministic code of a call: return, raise, or call `k` and go on with its outcome (`none`: it raised)
(executed by pure_core_classes.py:429) -/
inductive Code (K V : Type)
  | ret (v : V)
  | raise
  | call (k : K) (next : Option V → Code K V)

/-- what follows `request_execution`: end of a client's request, the body of a running call, or polling in `get`
(pure_core_classes.py:648-655, called from lines 425-429 and 693) -/
inductive After
  | done | body | poll

/-- where a process is; `k` is the call it is working on (pure_core_classes.py:404-442, 648-718, swarming_portals.py:198-226) -/
inductive Mode (K V : Type)
  /-- between operations -/
  | idle
  /-- worker: found request `k`, about to evaluate `needs_execution` (swarming_portals.py:212-217) -/
  | pick (k : K)
  /-- `execute`: about to check `ready` (pure_core_classes.py:419) -/
  | start (k : K)
  /-- entering the frame: about to store the attempt (pure_core_classes.py:951) -/
  | attempt (k : K)
  /-- `request_execution`: about to check `ready` (pure_core_classes.py:651) -/
  | reqCheck (k : K) (a : After)
  /-- about to delete the request (line 652) -/
  | reqDrop (k : K) (a : After)
  /-- about to store the request (lines 654-655) -/
  | reqSet (k : K) (a : After)
  /-- running code (line 429) -/
  | run (k : K) (c : Code K V)
  /-- about to store the value (line 430, data_portals.py) -/
  | storeVal (k : K) (v : V)
  /-- `execution_results[addr] = …`: about to look whether there is an entry (first_entry_dict.py) -/
  | checkRes (k : K) (v : V)
  /-- about to write the entry -/
  | writeRes (k : K) (v : V)
  /-- about to drop the request (line 441) -/
  | dropReq (k : K) (v : V)
  /-- result seen, about to read it (lines 688-691) -/
  | read (k : K)
  /-- the call ended with this outcome -/
  | ret (k : K) (r : Option V)
  /-- `get`: about to check `ready` (line 688) -/
  | getCheck (k : K)
  /-- `get`: polling (lines 702-718) -/
  | poll (k : K)
  /-- `get`: result seen while polling, about to read it (lines 704-705) -/
  | pollRead (k : K)
  /-- `get`: about to drop the request (line 706) -/
  | getDrop (k : K) (v : V)

/-- a call waiting for the outcome of a call made by its code (pure_core_classes.py:404-442) -/
structure Frame (K V : Type) where
  key : K
  next : Option V → Code K V

/-- a process: what it does, and the calls that wait for it (swarming_portals.py:177-226, or a user's program) -/
structure Proc (K V : Type) where
  mode : Mode K V := .idle
  stack : List (Frame K V) := []

/-- the shared portal and all processes (pure_core_classes.py:52-88) -/
structure State (K V : Type) where
  /-- `portal.execution_results` -/
  results : K → Option V
  /-- `portal.value_store` -/
  values : V → Bool
  /-- `portal.execution_requests` -/
  requests : K → Bool
  /-- number of stored attempts (`execution_attempts`) -/
  attempts : K → Nat
  procs : Nat → Proc K V
  /-- values that `f(…)`, `addr.execute()` and `addr.get()` returned: process, call, value -/
  log : List (Nat × K × V)

variable {K V : Type} [DecidableEq K] [DecidableEq V]

/-- process `p` goes on in mode `m` (control flow of pure_core_classes.py:404-442, 648-718) -/
def State.goto (s : State K V) (p : Nat) (m : Mode K V) : State K V :=
  { s with procs := Function.update s.procs p { s.procs p with mode := m } }

/-- mode after `request_execution` (pure_core_classes.py:425-429, 693-702) -/
def after (prog : K → Code K V) (k : K) : After → Mode K V
  | .done => .idle
  | .body => .run k (prog k)
  | .poll => .poll k

/-- one step of process `p`; `checks`: consistency checks may be due (then a call with a result may be run again)
(pure_core_classes.py:404-442, 648-718, swarming_portals.py:198-226) -/
inductive Step (prog : K → Code K V) (checks : Bool) (p : Nat) (s : State K V) : State K V → Prop
  /-- `f(…)` or `addr.execute()` -/
  | beginExec (k) (h : (s.procs p).mode = .idle) : Step prog checks p s (s.goto p (.start k))
  /-- `f.swarm(…)` or `addr.request_execution()` -/
  | beginRequest (k) (h : (s.procs p).mode = .idle) : Step prog checks p s (s.goto p (.reqCheck k .done))
  /-- `addr.get()` -/
  | beginGet (k) (h : (s.procs p).mode = .idle) : Step prog checks p s (s.goto p (.getCheck k))
  /-- a worker finds a request (swarming_portals.py:212) -/
  | beginWork (k) (h : (s.procs p).mode = .idle) (hr : s.requests k = true) : Step prog checks p s (s.goto p (.pick k))
  /-- the worker does not take the request: there is a result, too many attempts, another candidate is chosen … -/
  | pickSkip (k) (h : (s.procs p).mode = .pick k) : Step prog checks p s (s.goto p .idle)
  /-- the worker saw no result and takes the request (pure_core_classes.py:794-802) -/
  | pickGo (k) (h : (s.procs p).mode = .pick k) (hn : s.results k = none) : Step prog checks p s (s.goto p (.start k))
  | startReady (k v) (h : (s.procs p).mode = .start k) (hv : s.results k = some v) : Step prog checks p s (s.goto p (.read k))
  | startGo (k) (h : (s.procs p).mode = .start k) (hn : s.results k = none ∨ checks = true) :
      Step prog checks p s (s.goto p (.attempt k))
  | attempt (k) (h : (s.procs p).mode = .attempt k) :
      Step prog checks p s ({ s with attempts := Function.update s.attempts k (s.attempts k + 1) }.goto p (.reqCheck k .body))
  | reqYes (k a v) (h : (s.procs p).mode = .reqCheck k a) (hv : s.results k = some v) : Step prog checks p s (s.goto p (.reqDrop k a))
  | reqNo (k a) (h : (s.procs p).mode = .reqCheck k a) (hn : s.results k = none) : Step prog checks p s (s.goto p (.reqSet k a))
  | reqDrop (k a) (h : (s.procs p).mode = .reqDrop k a) :
      Step prog checks p s ({ s with requests := Function.update s.requests k false }.goto p (after prog k a))
  | reqSet (k a) (h : (s.procs p).mode = .reqSet k a) :
      Step prog checks p s ({ s with requests := Function.update s.requests k true }.goto p (after prog k a))
  | runRet (k v) (h : (s.procs p).mode = .run k (.ret v)) : Step prog checks p s (s.goto p (.storeVal k v))
  | runRaise (k) (h : (s.procs p).mode = .run k .raise) : Step prog checks p s (s.goto p (.ret k none))
  | runCall (k k' next) (h : (s.procs p).mode = .run k (.call k' next)) :
      Step prog checks p s { s with procs := Function.update s.procs p ⟨.start k', ⟨k, next⟩ :: (s.procs p).stack⟩ }
  | storeVal (k v) (h : (s.procs p).mode = .storeVal k v) :
      Step prog checks p s ({ s with values := Function.update s.values v true }.goto p (.checkRes k v))
  | resNew (k v) (h : (s.procs p).mode = .checkRes k v) (hn : s.results k = none) : Step prog checks p s (s.goto p (.writeRes k v))
  /-- there is an entry: no check, or a check that succeeds -/
  | resOld (k v w) (h : (s.procs p).mode = .checkRes k v) (hw : s.results k = some w) : Step prog checks p s (s.goto p (.dropReq k v))
  /-- there is an entry: the check fails -/
  | resBad (k v w) (h : (s.procs p).mode = .checkRes k v) (hw : s.results k = some w) (hne : w ≠ v) :
      Step prog checks p s (s.goto p (.ret k none))
  | writeRes (k v) (h : (s.procs p).mode = .writeRes k v) :
      Step prog checks p s ({ s with results := Function.update s.results k (some v) }.goto p (.dropReq k v))
  /-- transient failure of the file system: try again -/
  | writeFail (k v) (h : (s.procs p).mode = .writeRes k v) : Step prog checks p s (s.goto p (.checkRes k v))
  | dropReq (k v) (h : (s.procs p).mode = .dropReq k v) :
      Step prog checks p s ({ s with requests := Function.update s.requests k false }.goto p (.ret k (some v)))
  | read (k v) (h : (s.procs p).mode = .read k) (hv : s.results k = some v) (hs : s.values v = true) :
      Step prog checks p s (s.goto p (.ret k (some v)))
  /-- the value is missing from the store -/
  | readFail (k v) (h : (s.procs p).mode = .read k) (hv : s.results k = some v) (hs : s.values v = false) :
      Step prog checks p s (s.goto p (.ret k none))
  | retNested (k r f st) (h : s.procs p = ⟨.ret k r, f :: st⟩) :
      Step prog checks p s { s with procs := Function.update s.procs p ⟨.run f.key (f.next r), st⟩ }
  | retValue (k v) (h : s.procs p = ⟨.ret k (some v), []⟩) :
      Step prog checks p s ({ s with log := s.log ++ [(p, k, v)] }.goto p .idle)
  | retRaise (k) (h : s.procs p = ⟨.ret k none, []⟩) : Step prog checks p s (s.goto p .idle)
  | getReady (k v) (h : (s.procs p).mode = .getCheck k) (hv : s.results k = some v) : Step prog checks p s (s.goto p (.read k))
  | getWait (k) (h : (s.procs p).mode = .getCheck k) (hn : s.results k = none) : Step prog checks p s (s.goto p (.reqCheck k .poll))
  | pollReady (k v) (h : (s.procs p).mode = .poll k) (hv : s.results k = some v) : Step prog checks p s (s.goto p (.pollRead k))
  /-- `TimeoutError` -/
  | pollTimeout (k) (h : (s.procs p).mode = .poll k) : Step prog checks p s (s.goto p .idle)
  | pollRead (k v) (h : (s.procs p).mode = .pollRead k) (hv : s.results k = some v) (hs : s.values v = true) :
      Step prog checks p s (s.goto p (.getDrop k v))
  | pollFail (k v) (h : (s.procs p).mode = .pollRead k) (hv : s.results k = some v) (hs : s.values v = false) :
      Step prog checks p s (s.goto p .idle)
  | getDrop (k v) (h : (s.procs p).mode = .getDrop k v) :
      Step prog checks p s ({ s with requests := Function.update s.requests k false }.goto p (.ret k (some v)))
  /-- the process dies; another process may be started under the same number -/
  | crash : Step prog checks p s { s with procs := Function.update s.procs p {} }

/-- any number of steps of any processes (pure_core_classes.py:404-442, 648-718, swarming_portals.py:198-226) -/
inductive Steps (prog : K → Code K V) (checks : Bool) : State K V → State K V → Prop
  | refl (s) : Steps prog checks s s
  | step {s t u} (p) (h : Steps prog checks s t) (h' : Step prog checks p t u) : Steps prog checks s u

end Pyth.Swarm
