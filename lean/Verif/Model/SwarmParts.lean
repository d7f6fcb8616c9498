import Verif.Model.PureFn
import Mathlib.Logic.Function.Basic
/-!
# What a call leaves in the portals, file operation by file operation
(pure_core_classes.py, kw_args.py, value_addresses.py, swarming_portals.py)

`Verif.Model.Swarm` treats a call as an indivisible key.  Here the key is taken apart: a call is found through
its stored *signature*, which points to the stored function and to the stored packed arguments, which point to
the stored argument values.  Any number of processes work on any number of shared portals; every step is one
access to one dictionary of one portal, the steps of all processes are interleaved arbitrarily, and a process may
crash between any two of its steps.

The operations are programs (`Io`) over these accesses, in continuation-passing style.  `p` is the portal in
which an operation works (the portal of the function or address object), `os` the other portals this process
knows (`get_noncurrent_portals`).

Simplifications.  The text of a result address is identified with the text of its signature's address (same hash;
the prefix is determined by the function).  Cache attributes of address objects only skip reads and are not
modelled.  The body of a function is an arbitrary program `Code` that may use every operation; its guards are part
of its body.  Run history and crash records are written to other dictionaries and are left out.  Whether a consistency
check takes place is an arbitrary choice each time (`Io.toss`), whatever `p_consistency_checks` is: without checks it is always
`false`.  Checks of stored values against values with the same address are left out: they find no difference (C16).
Results of functions are plain values, not address objects.
-/
namespace Pyth.Parts
open Pyth.Pure (Val FnId sortKw)

variable {U A P : Type}

/-- an argument: a plain value, or an address object with its portal (`home`) and text (kw_args.py:15-39) -/
inductive Arg (U A P : Type)
  | raw (u : U)
  | addr (home : P) (a : A)

/-- how an operation ends (pure_core_classes.py:374-461, 637-718, value_addresses.py:26-61, 142-153) -/
inductive Reply (U A P : Type)
  | unit
  | flag (b : Bool)
  | val (v : Val U A)
  /-- value `v`, as the result of the call with address `a` -/
  | got (a : A) (v : Val U A)
  /-- an address object of a value, of portal `p` -/
  | addr (p : P) (a : A)
  /-- an address object of the result of a call, of portal `p` -/
  | call (p : P) (a : A)
  /-- address objects of the results of calls, of portal `p` -/
  | calls (p : P) (l : List A)
  /-- something that should be stored is not found (`KeyError`, `AssertionError`), or is of the wrong kind -/
  | missing
  /-- `TimeoutError` -/
  | timeout
  /-- the code of a function raised -/
  | raised
  /-- a consistency check found two different results of a call (`AssertionError`, first_entry_dict.py:55-69) -/
  | clash

/-- a program over single accesses to the dictionaries of the portals
(pure_core_classes.py:374-461, 637-718, value_addresses.py:26-61, 142-153) -/
inductive Io (U A P : Type)
  | done (r : Reply U A P)
  /-- `p.value_store[a] = v` -/
  | put (p : P) (a : A) (v : Val U A) (k : Io U A P)
  /-- `p.value_store[a]` -/
  | load (p : P) (a : A) (k : Option (Val U A) → Io U A P)
  /-- `p.execution_results[a]` -/
  | result (p : P) (a : A) (k : Option A → Io U A P)
  /-- write of an entry of `p.execution_results`, after the look that found none (first_entry_dict.py:40-44; the
  immutable dictionary wrapped looks once more, also in a separate file operation) -/
  | setResult (p : P) (a r : A) (k : Io U A P)
  /-- `p.execution_requests[a] = True` -/
  | request (p : P) (a : A) (k : Io U A P)
  /-- `p.execution_requests.delete_if_exists(a)` -/
  | drop (p : P) (a : A) (k : Io U A P)
  /-- run the code of `f` with these argument values, as the execution of address `a` -/
  | body (a : A) (f : FnId) (kw : List (String × Val U A)) (k : Reply U A P → Io U A P)
  /-- the next round of the loop of `addr.get()` without a timeout, for the address `a` of portal `p` -/
  | wait (p : P) (os : List P) (a : A)
  /-- `random() < p_consistency_checks` (pure_core_classes.py:422, first_entry_dict.py:56) -/
  | toss (k : Bool → Io U A P)

/-- the operations of the API (pure_core_classes.py:374-461, 637-779, value_addresses.py:26-61, 142-153) -/
inductive Cmd (U A P : Type)
  /-- `ValueAddr(v)` -/
  | store (p : P) (v : Val U A)
  /-- `addr.get()` of a value address -/
  | fetch (p : P) (os : List P) (a : A)
  /-- `f.get_address(**kw)` -/
  | getAddress (p : P) (os : List P) (f : FnId) (kw : List (String × Arg U A P))
  /-- `f.swarm(**kw)` -/
  | swarm (p : P) (os : List P) (f : FnId) (kw : List (String × Arg U A P))
  /-- `f.swarm_list(kws)`; `shuffle`: the order in which the requests are made -/
  | swarmList (p : P) (os : List P) (f : FnId) (kws : List (List (String × Arg U A P)))
      (shuffle : List A → List A)
  /-- `f(**kw)` -/
  | execute (p : P) (os : List P) (f : FnId) (kw : List (String × Arg U A P))
  /-- `addr.execute()` -/
  | executeAddr (p : P) (os : List P) (a : A)
  /-- `addr.request_execution()` -/
  | requestAddr (p : P) (os : List P) (a : A)
  /-- `addr.drop_execution_request()` -/
  | dropAddr (p : P) (a : A)
  /-- `addr.ready` -/
  | isReady (p : P) (os : List P) (a : A)
  /-- `addr.get(timeout)`, polling `rounds` times; `none`: no timeout -/
  | getResult (p : P) (os : List P) (a : A) (rounds : Option Nat)
  /-- `addr.function`, `addr.kwargs` -/
  | lookAt (p : P) (os : List P) (a : A)

/-- the same operation in a process where `p` is the portal of the function and `os` are the other known portals: a
function belongs to a portal of its process (portal_aware_classes.py:20-37), an address object carries its own -/
def Cmd.at (p : P) (os : List P) : Cmd U A P → Cmd U A P
  | .store _ v => .store p v
  | .fetch q _ a => .fetch q os a
  | .getAddress _ _ f kw => .getAddress p os f kw
  | .swarm _ _ f kw => .swarm p os f kw
  | .swarmList _ _ f kws shuffle => .swarmList p os f kws shuffle
  | .execute _ _ f kw => .execute p os f kw
  | .executeAddr q _ a => .executeAddr q os a
  | .requestAddr q _ a => .requestAddr q os a
  | .dropAddr q a => .dropAddr q a
  | .isReady q _ a => .isReady q os a
  | .getResult q _ a n => .getResult q os a n
  | .lookAt q _ a => .lookAt q os a

/-- code of a function or of a user's script (executed by pure_core_classes.py:429) -/
inductive Code (U A P : Type)
  | ret (v : Val U A)
  | raise
  | op (c : Cmd U A P) (next : Reply U A P → Code U A P)

section progs
variable [DecidableEq P] [DecidableEq A] (h : Val U A → A)

/-- the loop of `get_from_noncurrent_portals` (value_addresses.py:126-139) -/
def valueGetOthers (p : P) (a : A) (k : Option (Val U A) → Io U A P) : List P → Io U A P
  | [] => k none
  | q :: os => .load q a fun
    | some v => .put p a v (k (some v))
    | none => valueGetOthers p a k os

/-- `get` of a value address in portal `p` (value_addresses.py:142-153) -/
def valueGet (p : P) (os : List P) (a : A) (k : Option (Val U A) → Io U A P) : Io U A P :=
  .load p a fun
    | some v => k (some v)
    | none => valueGetOthers p a k os

/-- `ValueAddr(v)` for an argument (value_addresses.py:26-61); an address object is only looked up when it belongs
to another portal (lines 43-46) -/
def packOne (p : P) (os : List P) (k : Option A → Io U A P) : Arg U A P → Io U A P
  | .raw u => .put p (h (.user u)) (.user u) (k (some (h (.user u))))
  | .addr home a =>
    if home = p then k (some a)
    else .load p a fun
      | some _ => k (some a)
      | none => valueGet home os a fun
        | none => k none
        | some v => .put p a v (k (some a))

/-- `pack` (kw_args.py:33-39) -/
def packAll (p : P) (os : List P) : List (String × Arg U A P) →
    (Option (List (String × A)) → Io U A P) → Io U A P
  | [], k => k (some [])
  | (n, x) :: kw, k => packOne h p os (fun
    | none => k none
    | some a => packAll p os kw fun
      | none => k none
      | some l => k (some ((n, a) :: l))) x

/-- address of the call of `f` with packed arguments `l` (pure_core_classes.py:504-513, 549-559) -/
def callAddr (f : FnId) (l : List (String × A)) : A := h (.sig f (h (.fn f)) (h (.args l)))

/-- `PureFnExecutionResultAddr(f, kw)` (pure_core_classes.py:549-559) with `PureFnCallSignature(f, kw)` (lines
504-513): store the function, the argument values, the packed arguments, and the signature -/
def mkAddr (p : P) (os : List P) (f : FnId) (kw : List (String × Arg U A P))
    (k : Option A → Io U A P) : Io U A P :=
  .put p (h (.fn f)) (.fn f) (packAll h p os (sortKw kw) fun
    | none => k none
    | some l =>
      .put p (h (.args l)) (.args l)
        (.put p (callAddr h f l) (.sig f (h (.fn f)) (h (.args l))) (k (some (callAddr h f l)))))

/-- packed arguments as arguments: address objects of portal `p` (kw_args.py:33-39) -/
def asArgs (p : P) (l : List (String × A)) : List (String × Arg U A P) := l.map fun x => (x.1, .addr p x.2)

/-- `get_address` (pure_core_classes.py:374-378): pack, then make the address -/
def getAddress (p : P) (os : List P) (f : FnId) (kw : List (String × Arg U A P))
    (k : Option (A × List (String × A)) → Io U A P) : Io U A P :=
  packAll h p os (sortKw kw) fun
    | none => k none
    | some l => mkAddr h p os f (asArgs p l) fun
      | none => k none
      | some a => k (some (a, l))

/-- `unpack` (kw_args.py:23-31) -/
def unpackAll (p : P) (os : List P) : List (String × A) → (Option (List (String × Val U A)) → Io U A P) → Io U A P
  | [], k => k (some [])
  | (n, a) :: l, k => valueGet p os a fun
    | none => k none
    | some v => unpackAll p os l fun
      | none => k none
      | some r => k (some ((n, v) :: r))

/-- `function` of a result address (pure_core_classes.py:720-730) -/
def getFunction (p : P) (os : List P) (a : A) (k : Option FnId → Io U A P) : Io U A P :=
  valueGet p os a fun
    | some (.sig _ fa _) => valueGet p os fa fun
      | some (.fn f) => k (some f)
      | _ => k none
    | _ => k none

/-- `arguments` of a result address (pure_core_classes.py:763-772) -/
def getArguments (p : P) (os : List P) (a : A) (k : Option (List (String × A)) → Io U A P) : Io U A P :=
  valueGet p os a fun
    | some (.sig _ _ aa) => valueGet p os aa fun
      | some (.args l) => k (some l)
      | _ => k none
    | _ => k none

/-- `kwargs` of a result address (pure_core_classes.py:775-779) -/
def getKwargs (p : P) (os : List P) (a : A) (k : Option (List (String × Val U A)) → Io U A P) : Io U A P :=
  getArguments p os a fun
    | none => k none
    | some l => unpackAll p os l k

/-- the check of a new result against the one that was found to be stored already, if it takes place (`check`): the stored one
is read again (first_entry_dict.py:55-69); an exception ends the whole operation -/
def compare (p : P) (a : A) (check : Bool) (new : A) (k : Io U A P) : Io U A P :=
  if check then .result p a fun
    | none => .done .missing
    | some old => if old = new then k else .done .clash
  else k

/-- the loop of `_ready_in_noncurrent_portals` (pure_core_classes.py:606-622): the value and the result are copied
first, the signature, the function and the arguments afterwards -/
def readyOthers (p : P) (all : List P) (a : A) (k : Option Bool → Io U A P) : List P → Io U A P
  | [] => k (some false)
  | q :: os => .result q a fun
    | none => readyOthers p all a k os
    | some r => .load q r fun
      | none => k none
      | some v => .put p (h v) v (.result p a fun
        | some _ => .toss fun check => compare p a check (h v) rest
        | none => .setResult p a (h v) rest)
where rest : Io U A P := getFunction p all a fun
  | none => k none
  | some _ => getKwargs p all a fun
    | none => k none
    | some _ => k (some true)

/-- `ready` (pure_core_classes.py:624-635); `none`: an exception -/
def ready (p : P) (os : List P) (a : A) (k : Option Bool → Io U A P) : Io U A P :=
  .result p a fun
    | some _ => k (some true)
    | none => readyOthers h p os a k os

/-- `request_execution` (pure_core_classes.py:648-655) -/
def requestExec (p : P) (os : List P) (a : A) (k : Bool → Io U A P) : Io U A P :=
  ready h p os a fun
    | none => k false
    | some true => .drop p a (k true)
    | some false => .request p a (k true)

/-- reading a result that is ready (pure_core_classes.py:688-691) -/
def readResult (p : P) (a : A) (k : Option (Val U A) → Io U A P) : Io U A P :=
  .result p a fun
    | none => k none
    | some r => .load p r k

/-- a value, or the report that it is missing (value_addresses.py:142-153) -/
def replyVal : Option (Val U A) → Io U A P
  | none => .done .missing
  | some v => .done (.val v)

/-- the result of call `a`, or the report that it is missing (pure_core_classes.py:688-691) -/
def replyGot (a : A) : Option (Val U A) → Io U A P
  | none => .done .missing
  | some v => .done (.got a v)

/-- the end of `execute` (pure_core_classes.py:430-442): store the value `v` and the result of the call, check it against
a result that is there already – for sure (`sure`, line 434) or by chance – and drop the request -/
def register (p : P) (a : A) (v : Val U A) (sure : Bool) : Io U A P :=
  .put p (h v) v (.result p a fun
    | some _ =>
      if sure then compare p a true (h v) (.drop p a (.done (.got a v)))
      else .toss fun check => compare p a check (h v) (.drop p a (.done (.got a v)))
    | none => .setResult p a (h v) (.drop p a (.done (.got a v))))

/-- the execution proper (pure_core_classes.py:425-442); `sure`: `conduct_consistency_checks` -/
def runAt (p : P) (os : List P) (f : FnId) (a : A) (l : List (String × A)) (sure : Bool) : Io U A P :=
  requestExec h p os a fun
    | false => .done .missing
    | true => unpackAll p os l fun
      | none => .done .missing
      | some vals => .body a f vals fun
        | .val v => register h p a v sure
        | _ => .done .raised

/-- the part of `execute` after the address is made (pure_core_classes.py:416-442): a call with a result is run again if
the consistency check says so (lines 419-424) -/
def executeAt (p : P) (os : List P) (f : FnId) (a : A) (l : List (String × A)) : Io U A P :=
  ready h p os a fun
    | none => .done .missing
    | some true => .toss fun
      | false => readResult p a (replyGot a)
      | true => runAt h p os f a l true
    | some false => runAt h p os f a l false

/-- `execute` (pure_core_classes.py:404-442) -/
def execute (p : P) (os : List P) (f : FnId) (kw : List (String × Arg U A P)) : Io U A P :=
  getAddress h p os f kw fun
    | none => .done .missing
    | some (a, l) => executeAt h p os f a l

/-- `addr.execute()` (pure_core_classes.py:637-645) -/
def executeAddr (p : P) (os : List P) (a : A) : Io U A P :=
  getFunction p os a fun
    | none => .done .missing
    | some f => getArguments p os a fun
      | none => .done .missing
      | some l => execute h p os f (asArgs p l)

/-- what a worker does with a request it found (swarming_portals.py:212-226) -/
def work (p : P) (os : List P) (a : A) : Io U A P :=
  ready h p os a fun
    | none => .done .missing
    | some true => .done .unit
    | some false => getFunction p os a fun
      | none => .done .missing
      | some _ => getKwargs p os a fun
        | none => .done .missing
        | some _ => executeAddr h p os a

/-- one round of the loop of `addr.get()` (pure_core_classes.py:702-718); `again`: the following rounds -/
def round (p : P) (os : List P) (a : A) (again : Io U A P) : Io U A P :=
  ready h p os a fun
    | none => .done .missing
    | some true => readResult p a fun
      | none => .done .missing
      | some v => .drop p a (.done (.got a v))
    | some false => again

/-- the loop of `addr.get()` with a timeout (pure_core_classes.py:702-718): `TimeoutError` after some number of rounds -/
def poll (p : P) (os : List P) (a : A) : Nat → Io U A P
  | 0 => .done .timeout
  | n + 1 => round h p os a (poll p os a n)

/-- the loop of `addr.get()` (pure_core_classes.py:695-718), with or without a timeout -/
def pollLoop (p : P) (os : List P) (a : A) : Option Nat → Io U A P
  | some n => poll h p os a n
  | none => .wait p os a

/-- the first loop of `swarm_list` (pure_core_classes.py:454-457): make all addresses -/
def mkAddrs (p : P) (os : List P) (f : FnId) : List (List (String × Arg U A P)) →
    (Option (List A) → Io U A P) → Io U A P
  | [], k => k (some [])
  | kw :: kws, k => mkAddr h p os f kw fun
    | none => k none
    | some a => mkAddrs p os f kws fun
      | none => k none
      | some l => k (some (a :: l))

/-- the second loop of `swarm_list` (pure_core_classes.py:458-460): request all -/
def requestAll (p : P) (os : List P) (k : Bool → Io U A P) : List A → Io U A P
  | [] => k true
  | a :: l => requestExec h p os a fun
    | false => k false
    | true => requestAll p os k l

/-- the program of an operation (pure_core_classes.py:374-461, 637-779, value_addresses.py:26-61, 142-153) -/
def prog : Cmd U A P → Io U A P
  | .store p v => .put p (h v) v (.done (.addr p (h v)))
  | .fetch p os a => valueGet p os a replyVal
  | .getAddress p os f kw => getAddress h p os f kw fun
    | none => .done .missing
    | some (a, _) => .done (.call p a)
  /- pure_core_classes.py:381-390 -/
  | .swarm p os f kw => getAddress h p os f kw fun
    | none => .done .missing
    | some (a, _) => requestExec h p os a fun
      | false => .done .missing
      | true => .done (.call p a)
  /- pure_core_classes.py:444-461 -/
  | .swarmList p os f kws shuffle => mkAddrs h p os f kws fun
    | none => .done .missing
    | some l => requestAll h p os (fun
      | false => .done .missing
      | true => .done (.calls p l)) (shuffle l)
  | .execute p os f kw => execute h p os f kw
  | .executeAddr p os a => executeAddr h p os a
  | .requestAddr p os a => requestExec h p os a fun
    | false => .done .missing
    | true => .done .unit
  | .dropAddr p a => .drop p a (.done .unit)
  | .isReady p os a => ready h p os a fun
    | none => .done .missing
    | some b => .done (.flag b)
  /- pure_core_classes.py:671-718 -/
  | .getResult p os a rounds => ready h p os a fun
    | none => .done .missing
    | some true => readResult p a (replyGot a)
    | some false => requestExec h p os a fun
      | false => .done .missing
      | true => pollLoop h p os a rounds
  | .lookAt p os a => getFunction p os a fun
    | none => .done .missing
    | some _ => getKwargs p os a fun
      | none => .done .missing
      | some _ => .done .unit

end progs

/-! ### processes -/

/-- the dictionaries of all portals (data_portals.py:35-53, pure_core_classes.py:52-88) -/
structure Shared (U A P : Type) where
  /-- `portal.value_store` -/
  store : P → A → Option (Val U A)
  /-- `portal.execution_results` -/
  results : P → A → Option A
  /-- `portal.execution_requests` -/
  requests : P → A → Bool

/-- what a process does at the moment (control flow of pure_core_classes.py:404-442 and of user code) -/
inductive Mode (U A P : Type)
  | idle
  /-- inside an operation -/
  | io (x : Io U A P)
  /-- inside the code of a function or script -/
  | code (c : Code U A P)

/-- what waits for the present activity: an operation that runs the code of a function, or code that called
operation `c` (control flow of pure_core_classes.py:404-442 and of user code) -/
inductive Frame (U A P : Type)
  | inOp (k : Reply U A P → Io U A P)
  | inCode (c : Cmd U A P) (next : Reply U A P → Code U A P)

/-- a process: what it does, what waits for it, and the request it works on, if it is a worker (swarming_portals.py:177-226) -/
structure Proc (U A P : Type) where
  mode : Mode U A P := .idle
  stack : List (Frame U A P) := []
  /-- a worker: the request it works on -/
  job : Option A := none

/-- all portals and processes; and which address objects exist (data_portals.py:35-53, pure_core_classes.py:52-88) -/
structure State (U A P : Type) where
  sh : Shared U A P
  procs : Nat → Proc U A P
  /-- the value addresses (portal and text) that operations have returned so far, in any process -/
  vaddrs : List (P × A)
  /-- the result addresses (portal and text) that operations have returned so far, in any process -/
  raddrs : List (P × A)

variable [DecidableEq P] [DecidableEq A]

/-- `p.value_store[a] = v` (data_portals.py:35-53) -/
def Shared.put (s : Shared U A P) (p : P) (a : A) (v : Val U A) : Shared U A P :=
  { s with store := Function.update s.store p (Function.update (s.store p) a (some v)) }

/-- write of a result (pure_core_classes.py:435, 606-622) -/
def Shared.setResult (s : Shared U A P) (p : P) (a r : A) : Shared U A P :=
  { s with results := Function.update s.results p (Function.update (s.results p) a (some r)) }

/-- write or removal of a request (pure_core_classes.py:648-663) -/
def Shared.setRequest (s : Shared U A P) (p : P) (a : A) (b : Bool) : Shared U A P :=
  { s with requests := Function.update s.requests p (Function.update (s.requests p) a b) }

/-- an address object of portal `p` with text `a` was obtained from operations (of any process): as it is, or, if
address objects `travel`, by pickling one of whatever portal and unpickling it while `p` is the current portal
(portal_aware_classes.py:49-58) -/
def Held (travel : Prop) (l : List (P × A)) (p : P) (a : A) : Prop :=
  (p, a) ∈ l ∨ (travel ∧ ∃ q, (q, a) ∈ l)

/-- the address objects used as arguments are held; both kinds of addresses can be arguments, a result address
stands for its signature (kw_args.py:33-39) -/
def ArgsKnown (travel : Prop) (vs rs : List (P × A)) (kw : List (String × Arg U A P)) : Prop :=
  ∀ n home a, (n, Arg.addr home a) ∈ kw → Held travel vs home a ∨ Held travel rs home a

/-- a user's operation uses only address objects obtained from operations, and works in a portal `p` together with
other portals `os` that its process may know (pure_core_classes.py:374-461, 637-779, value_addresses.py:26-61, 142-153) -/
def Legal (travel : Prop) (knows : P → List P → Prop) (vs rs : List (P × A)) : Cmd U A P → Prop
  | .store _ _ => True
  | .fetch p os a => knows p os ∧ (Held travel vs p a ∨ Held travel rs p a)
  | .getAddress p os _ kw => knows p os ∧ ArgsKnown travel vs rs kw
  | .swarm p os _ kw => knows p os ∧ ArgsKnown travel vs rs kw
  | .swarmList p os _ kws shuffle =>
    knows p os ∧ (∀ kw ∈ kws, ArgsKnown travel vs rs kw) ∧ ∀ l, (shuffle l).Perm l
  | .execute p os _ kw => knows p os ∧ ArgsKnown travel vs rs kw
  | .executeAddr p os a => knows p os ∧ Held travel rs p a
  | .requestAddr p os a => knows p os ∧ Held travel rs p a
  | .dropAddr p a => Held travel rs p a
  | .isReady p os a => knows p os ∧ Held travel rs p a
  | .getResult p os a _ => knows p os ∧ Held travel rs p a
  | .lookAt p os a => knows p os ∧ Held travel rs p a

/-- value addresses in a reply (value_addresses.py:26-61) -/
def Reply.vaddrs : Reply U A P → List (P × A)
  | .addr p a => [(p, a)]
  | _ => []

/-- result addresses in a reply (pure_core_classes.py:374-390, 444-461) -/
def Reply.raddrs : Reply U A P → List (P × A)
  | .call p a => [(p, a)]
  | .calls p l => l.map fun a => (p, a)
  | _ => []

/-- process `i` goes on in mode `m` (control flow of pure_core_classes.py:374-461, 637-779) -/
def State.goto (s : State U A P) (i : Nat) (m : Mode U A P) : State U A P :=
  { s with procs := Function.update s.procs i { s.procs i with mode := m } }

/-- process `i` goes on in mode `m` and the dictionaries become `sh` (control flow of pure_core_classes.py:374-461, 637-779) -/
def State.next (s : State U A P) (sh : Shared U A P) (i : Nat) (m : Mode U A P) : State U A P :=
  { s with sh := sh, procs := Function.update s.procs i { s.procs i with mode := m } }

/-- process `i` becomes `x` (control flow of pure_core_classes.py:374-461, 637-779) -/
def State.setProc (s : State U A P) (i : Nat) (x : Proc U A P) : State U A P :=
  { s with procs := Function.update s.procs i x }

/-- one step of process `i`, unless it dies; `code f kw`: the body of function `f` on argument values `kw`; `travel`: address objects
are passed between portals (pure_core_classes.py:374-461, 637-779, value_addresses.py:26-61, 142-153, swarming_portals.py:198-226) -/
inductive Act (h : Val U A → A) (code : FnId → List (String × Val U A) → Code U A P)
    (travel : Prop) (knows : P → List P → Prop) (i : Nat) (s : State U A P) : State U A P → Prop
  /-- a script starts -/
  | script (c) (hm : s.procs i = {}) : Act h code travel knows i s (s.setProc i ⟨.code c, [], none⟩)
  /-- a worker finds a request in its portal -/
  | found (p os a) (hm : s.procs i = {}) (hk : knows p os) (hr : s.sh.requests p a = true) :
      Act h code travel knows i s (s.setProc i ⟨.io (work h p os a), [], some a⟩)
  /-- code performs an operation, in the portals its process happens to use -/
  | op (c next p os) (hm : (s.procs i).mode = .code (.op c next))
      (hl : Legal travel knows s.vaddrs s.raddrs (c.at p os)) :
      Act h code travel knows i s (s.setProc i ⟨.io (prog h (c.at p os)), .inCode (c.at p os) next :: (s.procs i).stack, (s.procs i).job⟩)
  /-- an operation ends; the code that called it goes on -/
  | done (r c next st job) (hm : s.procs i = ⟨.io (.done r), .inCode c next :: st, job⟩) :
      Act h code travel knows i s { s.setProc i ⟨.code (next r), st, job⟩ with
        vaddrs := r.vaddrs ++ s.vaddrs, raddrs := r.raddrs ++ s.raddrs }
  /-- a worker is through with a request -/
  | workDone (r job) (hm : s.procs i = ⟨.io (.done r), [], job⟩) : Act h code travel knows i s (s.setProc i {})
  | put (p a v k) (hm : (s.procs i).mode = .io (.put p a v k)) :
      Act h code travel knows i s (s.next (s.sh.put p a v) i (.io k))
  | load (p a k) (hm : (s.procs i).mode = .io (.load p a k)) :
      Act h code travel knows i s (s.goto i (.io (k (s.sh.store p a))))
  | result (p a k) (hm : (s.procs i).mode = .io (.result p a k)) :
      Act h code travel knows i s (s.goto i (.io (k (s.sh.results p a))))
  | setResult (p a r k) (hm : (s.procs i).mode = .io (.setResult p a r k)) :
      Act h code travel knows i s (s.next (s.sh.setResult p a r) i (.io k))
  | request (p a k) (hm : (s.procs i).mode = .io (.request p a k)) :
      Act h code travel knows i s (s.next (s.sh.setRequest p a true) i (.io k))
  | drop (p a k) (hm : (s.procs i).mode = .io (.drop p a k)) :
      Act h code travel knows i s (s.next (s.sh.setRequest p a false) i (.io k))
  /-- one more round of the loop of `addr.get()` without a timeout -/
  | wait (p os a) (hm : (s.procs i).mode = .io (.wait p os a)) :
      Act h code travel knows i s (s.goto i (.io (round h p os a (.wait p os a))))
  /-- whether a consistency check takes place -/
  | toss (k b) (hm : (s.procs i).mode = .io (.toss k)) : Act h code travel knows i s (s.goto i (.io (k b)))
  /-- the code of a function is started -/
  | body (a f kw k) (hm : (s.procs i).mode = .io (.body a f kw k)) :
      Act h code travel knows i s (s.setProc i ⟨.code (code f kw), .inOp k :: (s.procs i).stack, (s.procs i).job⟩)
  /-- the code of a function returns -/
  | ret (v k st job) (hm : s.procs i = ⟨.code (.ret v), .inOp k :: st, job⟩) :
      Act h code travel knows i s (s.setProc i ⟨.io (k (.val v)), st, job⟩)
  /-- the code of a function raises -/
  | raise (k st job) (hm : s.procs i = ⟨.code .raise, .inOp k :: st, job⟩) :
      Act h code travel knows i s (s.setProc i ⟨.io (k .raised), st, job⟩)

/-- one step of process `i` (pure_core_classes.py:374-461, 637-779, value_addresses.py:26-61, 142-153, swarming_portals.py:198-226) -/
inductive Step (h : Val U A → A) (code : FnId → List (String × Val U A) → Code U A P)
    (travel : Prop) (knows : P → List P → Prop) (i : Nat) (s : State U A P) : State U A P → Prop
  | act (t) (x : Act h code travel knows i s t) : Step h code travel knows i s t
  /-- a script ends, or the process dies; another process may be started under the same number -/
  | crash : Step h code travel knows i s (s.setProc i {})

/-- any number of steps of any processes
(pure_core_classes.py:374-461, 637-779, value_addresses.py:26-61, 142-153, swarming_portals.py:198-226) -/
inductive Steps (h : Val U A → A) (code : FnId → List (String × Val U A) → Code U A P)
    (travel : Prop) (knows : P → List P → Prop) : State U A P → State U A P → Prop
  | refl (s) : Steps h code travel knows s s
  | step {s t u} (i) (x : Steps h code travel knows s t) (y : Step h code travel knows i t u) : Steps h code travel knows s u

/-- empty portals, no process (after data_portals.py:35-53, pure_core_classes.py:52-88) -/
def init : State U A P where
  sh := { store := fun _ _ => none, results := fun _ _ => none, requests := fun _ _ => false }
  procs := fun _ => {}
  vaddrs := []
  raddrs := []

end Pyth.Parts
