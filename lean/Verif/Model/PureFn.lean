import Verif.Model.ValueAddr
import Mathlib.Data.List.Sort
import Mathlib.Data.String.Basic
/-!
# Pure functions (`pythagoras/_070_pure_functions/kw_args.py`, `pure_core_classes.py`) and the
execution part of ordinary / autonomous functions

The code of a function is a program in a small language (`Body`): it returns, raises, prints, draws
random numbers (nondeterminism), and calls other functions of the same portal and island, with or
without catching their exceptions.  A function is identified by an `FnId` (island + name + source);
`prog` gives its code.  Names in a function body are resolved among the functions known to the
function's own portal (autonomous_core_classes.py:295-312), so a nested call runs in the same portal.

Simplifications.
* Nested calls pass plain values; a value passed by the user is a plain value or a `ValueAddr`
  object (`Arg`).  Addresses of results as arguments or as results: see `Verif.Model.AddrInfo`.
* The function objects of one function in one portal share one stack of running frames.
* Recursion is cut by `fuel`.  Running out of fuel is signalled by the exception kind `diverge`, which
  no handler catches: it means "the real program is still running" (or hits Python's recursion
  limit), and the theorems say nothing about states reached that way unless stated.
* Registration, source code and the execution environment summary are not part of this state (see
  `Verif.Model.Registry`).  Waiting for a result that is not ready is modelled in
  `Verif.Model.Waiting`; here `get` on a result that is not ready raises `TimeoutError`.
* Storage operations do not fail.
-/
namespace Pyth.Pure
open Pyth.World Pyth.Portal

/-- a function (pure_core_classes.py:134-150) -/
abbrev FnId := Nat

/-- signals that the fuel is used up; not a Python exception (bounds the nesting of pure_core_classes.py:404-442) -/
def diverge : Kind := .user 0

/-- code of a function (executed by ordinary_core_classes.py:175-197) -/
inductive Body (U : Type)
  /-- `return u` -/
  | ret (u : U)
  /-- `raise` a new exception of class `n` -/
  | raise (n : Nat)
  /-- `x = g(**kw)`, exceptions propagate -/
  | call (g : FnId) (kw : List (String × U)) (k : U → Body U)
  /-- `try: x = g(**kw) except Exception as e: x = type(e)`, then continue -/
  | tryCall (g : FnId) (kw : List (String × U)) (k : Except Kind U → Body U)
  /-- `print(s)` -/
  | print (s : String) (k : Body U)
  /-- `random.random()` or any other source of nondeterminism -/
  | draw (k : Rat → Body U)

/-- an argument as passed by the caller: a plain value or a `ValueAddr` object (kw_args.py:15-39) -/
inductive Arg (U : Type)
  | raw (u : U)
  | addr (i : Nat)
  deriving DecidableEq, Repr

/-- keyword arguments, in the order of the dictionary (kw_args.py:6-21) -/
abbrev Kw (U : Type) := List (String × Arg U)

/-- a function: `pure` = `PureFn`, otherwise an autonomous function; `guards` is the sorted list of
its guards (pure_core_classes.py:162-186) -/
structure Fn (U : Type) where
  isPure : Bool
  guards : List FnId
  body : Kw U → Body U

/-- storable values: user data, a function, packed keyword arguments (names and addresses), a call
signature (pure_core_classes.py:494-534) -/
inductive Val (U A : Type)
  | user (u : U)
  | fn (f : FnId)
  | args (l : List (String × A))
  | sig (f : FnId) (fnAddr argsAddr : A)
  deriving DecidableEq

/-- text of a result address: function name and island, and the hash of the call signature
(pure_core_classes.py:549-559); the prefix of a signature's `ValueAddr` is constant, so its text
stands for its hash -/
abbrev Key (A : Type) := FnId × A

/-- a `PureFnExecutionResultAddr` object with its cache attributes (pure_core_classes.py:549-573) -/
structure RObj (U A : Type) where
  key : Key A
  portal : PortalId
  ready : Bool := false
  result : Option U := none
  fn : Option FnId := none
  args : Option (Kw U) := none

/-- what happened, for stating properties about running code
(bodies run by ordinary_core_classes.py:175-197, executions of pure_core_classes.py:404-442) -/
inductive Event (U : Type)
  /-- the body of `f` starts with these arguments; `isPure`: `f` is a pure function -/
  | start (f : FnId) (kw : Kw U) (isPure : Bool)
  /-- the guards of `f` were evaluated with this outcome, on these arguments -/
  | guards (f : FnId) (kw : Kw U) (ok : Bool)

/-- the dictionaries, counters and objects that pure functions add to a session (pure_core_classes.py:52-88, 549-573) -/
structure Ext (U A : Type) where
  /-- `portal.execution_results` -/
  results : PortalId → FirstEntry.Dict (Key A) A
  /-- `portal.execution_requests` -/
  requests : PortalId → Key A → Bool
  /-- run history: attempts (run ids), printed output, result records, crashes (exception ids) -/
  attempts : PortalId → Key A → List Nat
  outputs : PortalId → Key A → List (Nat × List String)
  resultRecs : PortalId → Key A → List (Nat × A)
  crashRecs : PortalId → Key A → List (Nat × Nat)
  /-- `fn.call_stack`: run ids and addresses, innermost first -/
  frames : PortalId → FnId → List (Nat × Key A)
  /-- what each open output capturer has recorded, innermost first -/
  caps : List (List String)
  /-- what reached the real output -/
  screen : List String
  nextRun : Nat
  raddrs : List (RObj U A)
  /-- `portal.p_consistency_checks` -/
  pCfg : PortalId → Option Rat
  trace : List (Event U)

variable {U A α : Type} [DecidableEq U] [DecidableEq A]

/-- a Python computation over a session with pure functions (pure_core_classes.py:404-718) -/
abbrev PM (U A α : Type) := M A (Val U A) (Ext U A) α
/-- a session with pure functions (pure_core_classes.py:52-88) -/
abbrev PWorld (U A : Type) := World A (Val U A) (Ext U A)

/-- change the state of the pure layer (for pure_core_classes.py:404-718) -/
def modExt (f : Ext U A → Ext U A) : PM U A Unit := fun s => (.ok (), { s with ext := f s.ext })

/-- replace one entry of a two-argument table (for the dictionaries of pure_core_classes.py:52-88) -/
def upd2 {B γ : Type} [DecidableEq B] (t : PortalId → B → γ) (p : PortalId) (k : B) (x : γ) :
    PortalId → B → γ := fun q k' => if q = p ∧ k' = k then x else t q k'

/-! ### `SortedKwArgs` (kw_args.py) -/

/-- `SortedKwArgs(**kw)` (kw_args.py:15-21): the entries sorted by name -/
def sortKw {γ : Type} (kw : List (String × γ)) : List (String × γ) :=
  kw.insertionSort (fun a b => a.1 ≤ b.1)

variable (addrOf : Val U A → A)

/-- `ValueAddr(v)` for an argument (kw_args.py:38) -/
def packOne : Arg U → PM U A Nat
  | .raw u => ValueAddr.new addrOf (.user u) none
  | .addr i => ValueAddr.conv i none

/-- the loop of `pack` (kw_args.py:36-38) -/
def packLoop : Kw U → PM U A (List (String × Nat))
  | [] => pure []
  | (k, v) :: kw => do
    let i ← packOne addrOf v
    let r ← packLoop kw
    pure ((k, i) :: r)

/-- `pack` (kw_args.py:33-39) -/
def pack (p : PortalId) (kw : Kw U) : PM U A (List (String × Nat)) := withP p (packLoop addrOf kw)

/-- packed arguments as arguments (kw_args.py:33-39) -/
def asKw (l : List (String × Nat)) : Kw U := l.map fun x => (x.1, .addr x.2)

/-- the value of an argument address, as user data (kw_args.py:23-31) -/
def getUser (i : Nat) : PM U A U := do
  let v ← ValueAddr.get i
  match v with
  | .user u => pure u
  | _ => raiseNew .typeError

/-- `unpack` (kw_args.py:23-31) -/
def unpack : Kw U → PM U A (List (String × U))
  | [] => pure []
  | (k, .raw u) :: kw => do
    let r ← unpack kw
    pure ((k, u) :: r)
  | (k, .addr i) :: kw => do
    let u ← getUser i
    let r ← unpack kw
    pure ((k, u) :: r)

/-! ### result addresses -/

/-- text of an address object (kw_args.py:33-39, value_addresses.py:26-61) -/
def textOf (i : Nat) : PM U A A := do
  let o ← readObj i
  pure o.chain

/-- the texts of packed arguments: what is stored for a `SortedKwArgs` of addresses (kw_args.py:33-39) -/
def textsOf : List (String × Nat) → PM U A (List (String × A))
  | [] => pure []
  | (k, i) :: l => do
    let a ← textOf i
    let r ← textsOf l
    pure ((k, a) :: r)

/-- `PureFnCallSignature(fn, arguments)` (pure_core_classes.py:504-513) -/
def mkSignature (f : FnId) (p : PortalId) (args : Kw U) : PM U A (Val U A) := withP p (do
  let fa ← ValueAddr.new addrOf (.fn f) none
  let packed ← pack addrOf p args
  let texts ← textsOf packed
  let aa ← ValueAddr.new addrOf (.args texts) none
  let ft ← textOf fa
  let at' ← textOf aa
  pure (.sig f ft at'))

/-- `PureFnExecutionResultAddr(fn, arguments)` (pure_core_classes.py:549-559) -/
def mkRAddr (f : FnId) (p : PortalId) (args : Kw U) : PM U A Nat := do
  let args := sortKw args
  let sig ← mkSignature addrOf f p args
  let tmp ← ValueAddr.new addrOf sig none
  let t ← textOf tmp
  let s ← PyM.get
  modExt fun x => { x with
    raddrs := x.raddrs ++ [{ key := (f, t), portal := p, fn := some f, args := some args }] }
  pure s.ext.raddrs.length

/-- a result address object made from its text, e.g. by a background worker from the keys of
`portal.execution_requests` (swarming_portals.py:212-215, hash_addresses.py:73-89) -/
def rFromKey (p : PortalId) (k : Key A) : PM U A Nat := do
  let s ← PyM.get
  modExt fun x => { x with raddrs := x.raddrs ++ [{ key := k, portal := p }] }
  pure s.ext.raddrs.length

/-- read a result address object (`AttributeError` for an object that does not exist) (pure_core_classes.py:549-573) -/
def readR (r : Nat) : PM U A (RObj U A) := fun s =>
  match s.ext.raddrs[r]? with
  | some o => (.ok o, s)
  | none => raiseNew .attributeError s

/-- assign attributes of a result address object (pure_core_classes.py:565-573) -/
def updR (r : Nat) (f : RObj U A → RObj U A) : PM U A Unit :=
  modExt fun x => { x with raddrs := x.raddrs.modify r f }

/-- `self in portal.execution_results` (pure_core_classes.py:596-604) -/
def resHas (p : PortalId) (k : Key A) : PM U A Bool := fun s =>
  (.ok ((s.ext.results p).data k).isSome, s)

/-- `portal.execution_results[self]` (pure_core_classes.py:688-691) -/
def resGet (p : PortalId) (k : Key A) : PM U A A := fun s =>
  match (s.ext.results p).data k with
  | some a => (.ok a, s)
  | none => raiseNew .keyError s

/-- `portal.execution_results[self] = addr` (`FirstEntryDict.__setitem__`) (pure_core_classes.py:435, first_entry_dict.py:33-70) -/
def resSet (p : PortalId) (k : Key A) (a : A) : PM U A Unit := fun s =>
  let o : FirstEntry.Op (Key A) A := ⟨k, a, s.draws s.nd, .none, .none⟩
  match FirstEntry.setItem o (s.ext.results p) with
  | (r, d) =>
    let s := { s with
      nd := s.nd + 1
      ext := { s.ext with results := fun q => if q = p then d else s.ext.results q } }
    match r with
    | .ok _ => (.ok (), s)
    | .error e => raiseNew (storeKind e) s

/-- assignment to `portal.execution_results._p_consistency_checks` (pure_core_classes.py:432-440) -/
def setPCheck (p : PortalId) (c : Option Rat) : PM U A Unit :=
  modExt fun x => { x with
    results := fun q => if q = p then { x.results q with pCheck := c } else x.results q }

/-- the portal captured by an object that is unpickled now (portal_aware_classes.py:31-37, 49-58) -/
def capturePortal : PM U A (Option PortalId) := do
  let s ← PyM.get
  pure s.sys.stack.head?

/-- `get_ValueAddr` of a result address (pure_core_classes.py:576-582) -/
def rValueAddr (r : Nat) : PM U A Nat := do
  let o ← readR r
  withP o.portal (ValueAddr.fromStrings o.key.2 (some o.portal) true)

/-- the stored call signature: function address and argument address objects
(pure_core_classes.py:726-728, 776-778) -/
def rSignature (r : Nat) : PM U A (Nat × Nat) := do
  let sa ← rValueAddr r
  let v ← ValueAddr.get sa
  match v with
  | .sig _ fa aa => do
    let p ← capturePortal
    let i ← alloc { chain := fa, portal := p }
    let j ← alloc { chain := aa, portal := p }
    pure (i, j)
  | _ => raiseNew .attributeError

/-- `function` (pure_core_classes.py:720-730) -/
def rFunction (r : Nat) : PM U A FnId := do
  let o ← readR r
  match o.fn with
  | some f => pure f
  | none => withP o.portal (do
      let (i, _) ← rSignature r
      let v ← ValueAddr.get i
      match v with
      | .fn f => do
        updR r (fun x => { x with fn := some f })
        pure f
      | _ => raiseNew .attributeError)

/-- the address objects inside an unpickled `SortedKwArgs` (kw_args.py:6-39, portal_aware_classes.py:49-58) -/
def allocArgs (p : Option PortalId) : List (String × A) → PM U A (Kw U)
  | [] => pure []
  | (k, a) :: l => do
    let i ← alloc { chain := a, portal := p }
    let r ← allocArgs p l
    pure ((k, .addr i) :: r)

/-- `arguments` (pure_core_classes.py:763-772) -/
def rArguments (r : Nat) : PM U A (Kw U) := do
  let o ← readR r
  match o.args with
  | some l => pure l
  | none => withP o.portal (do
      let (_, j) ← rSignature r
      let v ← ValueAddr.get j
      match v with
      | .args l => do
        let p ← capturePortal
        let kw ← allocArgs p l
        updR r (fun x => { x with args := some kw })
        pure kw
      | _ => raiseNew .attributeError)

/-- `kwargs` (pure_core_classes.py:775-779) -/
def rKwargs (r : Nat) : PM U A (List (String × U)) := do
  let o ← readR r
  withP o.portal (do
    let l ← rArguments r
    unpack l)

/-- `_ready_in_current_portal` (pure_core_classes.py:596-605) -/
def rReadyCurrent (r : Nat) : PM U A Bool := do
  let o ← readR r
  if o.ready then pure true
  else withP o.portal (do
    let h ← resHas o.portal o.key
    if h then do
      updR r (fun x => { x with ready := true })
      pure true
    else pure false)

/-- copying a result found in portal `q` (pure_core_classes.py:611-622) -/
def rCopyFrom (r : Nat) (o : RObj U A) (q : PortalId) : PM U A Unit := do
  let a ← resGet q o.key
  let data ← storeGet q a
  withP o.portal (do
    let i ← ValueAddr.new addrOf data none
    let t ← textOf i
    resSet o.portal o.key t
    let _ ← rFunction r
    let _ ← rKwargs r
    pure ())
  updR r (fun x => { x with ready := true })

/-- `_ready_in_noncurrent_portals` (pure_core_classes.py:606-622): the loop -/
def rReadyLoop (r : Nat) (o : RObj U A) : List PortalId → PM U A Bool
  | [] => pure false
  | q :: qs => do
    let found ← withP q (do
      let h ← resHas q o.key
      if h then do
        rCopyFrom addrOf r o q
        pure true
      else pure false)
    if found then pure true else rReadyLoop r o qs

/-- `ready` (pure_core_classes.py:626-635) -/
def rReady (r : Nat) : PM U A Bool := do
  let o ← readR r
  if o.ready then pure true
  else do
    let c ← rReadyCurrent r
    if c then do
      updR r (fun x => { x with ready := true })
      pure true
    else do
      let s ← PyM.get
      let n ← rReadyLoop addrOf r o (noncurrentList s)
      if n then do
        updR r (fun x => { x with ready := true })
        pure true
      else pure false

/-- `drop_execution_request` (pure_core_classes.py:658-661) -/
def rDrop (r : Nat) : PM U A Unit := do
  let o ← readR r
  withP o.portal (modExt fun x => { x with requests := upd2 x.requests o.portal o.key false })

/-- `request_execution` (pure_core_classes.py:648-655) -/
def rRequest (r : Nat) : PM U A Unit := do
  let o ← readR r
  withP o.portal (do
    let rd ← rReady addrOf r
    if rd then rDrop r
    else modExt fun x => { x with requests := upd2 x.requests o.portal o.key true })

/-- `get` when the result is ready (pure_core_classes.py:682-691); otherwise see
`Verif.Model.Waiting` -/
def rGet (r : Nat) : PM U A U := do
  let o ← readR r
  match o.result with
  | some u => pure u
  | none => withP o.portal (do
      let rd ← rReady addrOf r
      if rd then do
        let a ← resGet o.portal o.key
        let v ← storeGet o.portal a
        match v with
        | .user u => do
          updR r (fun x => { x with result := some u })
          pure u
        | _ => raiseNew .typeError
      else do
        rRequest addrOf r
        raiseNew .timeoutError)

/-! ### execution -/

/-- `print` under the open capturers: each records the text and passes it on
(output_capturer.py:31-48) -/
def printOut (t : String) : PM U A Unit :=
  modExt fun x => { x with caps := x.caps.map (· ++ [t]), screen := x.screen ++ [t] }

/-- the code of a function; `rec` runs nested calls (ordinary_core_classes.py:175-197) -/
def runBody (rec : FnId → Kw U → PM U A U) : Body U → PM U A U
  | .ret u => pure u
  | .raise n => raiseNew (.user (n + 1))
  | .call g kw k => do
    let u ← rec g (kw.map fun x => (x.1, .raw x.2))
    runBody rec (k u)
  | .tryCall g kw k => fun s =>
    match rec g (kw.map fun x => (x.1, .raw x.2)) s with
    | (.ok u, s') => runBody rec (k (.ok u)) s'
    | (.error e, s') => if e.kind = diverge then (.error e, s') else runBody rec (k (.error e.kind)) s'
  | .print t b => do
    printOut t
    runBody rec b
  | .draw k => fun s => runBody rec (k (s.draws s.nd)) { s with nd := s.nd + 1 }

/-- `_persist_exception_information` of a function object: crash records in every entered portal
(ordinary_core_classes.py:175-196, logging_portals.py:222-258) and, for a running pure function, in
the run history of the call (pure_core_classes.py:346-361, 966-971) -/
def logFailure (p : PortalId) (f : FnId) (e : Exc) (s : PWorld U A) : PWorld U A :=
  if e.id ∈ s.marked then s
  else
    let s' := persistExc [some f, none] e s
    match s.ext.frames p f with
    | [] => s'
    | (run, k) :: _ => { s' with ext := { s'.ext with
        crashRecs := upd2 s'.ext.crashRecs p k (s'.ext.crashRecs p k ++ [(run, e.id)]) } }

/-- `OrdinaryFn.execute` (ordinary_core_classes.py:175-196) -/
def ordExec (rec : FnId → Kw U → PM U A U) (prog : FnId → Fn U) (p : PortalId) (f : FnId)
    (kw : Kw U) : PM U A U := fun s =>
  let s := { s with ext := { s.ext with trace := s.ext.trace ++ [.start f kw (prog f).isPure] } }
  match runBody rec ((prog f).body kw) s with
  | (.ok u, s') => (.ok u, s')
  | (.error e, s') => (.error e, logFailure p f e s')

/-- `AutonomousFn.execute` (autonomous_core_classes.py:314-316) -/
def autExec (rec : FnId → Kw U → PM U A U) (prog : FnId → Fn U) (p : PortalId) (f : FnId)
    (kw : Kw U) : PM U A U := withP p (ordExec rec prog p f kw)

/-- the loop over the guards (pure_core_classes.py:194-197) -/
def guardLoop (rec : FnId → Kw U → PM U A U) (kw : Kw U) : List FnId → PM U A Bool
  | [] => pure true
  | g :: gs => do
    let _ ← rec g kw
    guardLoop rec kw gs

/-- `can_be_executed` (pure_core_classes.py:189-200) -/
def canBeExecuted (rec : FnId → Kw U → PM U A U) (prog : FnId → Fn U) (p : PortalId) (f : FnId)
    (kw : Kw U) : PM U A Bool := withP p (tryE (guardLoop rec kw (prog f).guards)
      (fun e => if e.kind = diverge then PyM.raise e else pure false))

/-- `PureFnExecutionFrame.__enter__` (pure_core_classes.py:941-963) after the portal was entered -/
def openFrame (r : RObj U A) (f : FnId) (x : Ext U A) : Ext U A :=
  { x with
    nextRun := x.nextRun + 1
    caps := [] :: x.caps
    frames := upd2 x.frames r.portal f ((x.nextRun, r.key) :: x.frames r.portal f)
    attempts := upd2 x.attempts r.portal r.key (x.attempts r.portal r.key ++ [x.nextRun]) }

/-- `PureFnExecutionFrame.__exit__` (pure_core_classes.py:969-980) before the portal is left: the
capturer is closed and its record is stored -/
def storeOutput (r : RObj U A) (run : Nat) (x : Ext U A) : Ext U A :=
  { x with
    caps := x.caps.tail
    outputs := upd2 x.outputs r.portal r.key
      (x.outputs r.portal r.key ++ [(run, x.caps.headD [])]) }

/-- the text of the traceback of an exception.  Simplification: only the class of the exception is in it. (output_capturer.py:100-107) -/
def tracebackOf (k : Kind) : String := "Traceback (most recent call last): " ++ toString (repr k)

/-- what `OutputCapturer.__exit__` does before it puts the streams back (output_capturer.py:104-105): the
traceback of an exception leaving the block is printed, to the capturer that is being closed and to all
outer streams -/
def printTraceback (m : PM U A α) : PM U A α := fun s =>
  match m s with
  | (.ok a, s') => (.ok a, s')
  | (.error e, s') => (.error e, { s' with ext := { s'.ext with
      caps := s'.ext.caps.map (· ++ [tracebackOf e.kind]), screen := s'.ext.screen ++ [tracebackOf e.kind] } })

/-- the last step of `__exit__`: `self.fn.call_stack.pop()` (pure_core_classes.py:969-981) -/
def popFrame (r : RObj U A) (f : FnId) (x : Ext U A) : Ext U A :=
  { x with frames := upd2 x.frames r.portal f (x.frames r.portal f).tail }

/-- `with PureFnExecutionFrame(addr) as frame: body` (pure_core_classes.py:918-985).  `__init__`
accesses `addr.fn` under `with portal` (lines 926-929). -/
def withFrame (ri : Nat) (body : Nat → PM U A α) : PM U A α := do
  let r ← readR ri
  let f ← withP r.portal (rFunction ri)
  let s0 ← PyM.get
  let run := s0.ext.nextRun
  enterP r.portal
  modExt (openFrame r f)
  fun s => match printTraceback (body run) s with
    | (.ok a, s1) =>
      let s1 := { s1 with ext := storeOutput r run s1.ext }
      match exitP r.portal s1 with
      | (.ok _, s2) => (.ok a, { s2 with ext := popFrame r f s2.ext })
      | (.error e, s2) => (.error e, s2)
    | (.error e, s1) =>
      let s1 := { s1 with ext := storeOutput r run s1.ext }
      match handlingE e (exitP r.portal) s1 with
      | (.ok _, s2) => (.error e, { s2 with ext := popFrame r f s2.ext })
      | (.error e', s2) => (.error e', s2)

/-- `register_execution_result` (pure_core_classes.py:965-967) -/
def registerResult (r : RObj U A) (run : Nat) (a : A) : PM U A Unit :=
  modExt fun x => { x with
    resultRecs := upd2 x.resultRecs r.portal r.key (x.resultRecs r.portal r.key ++ [(run, a)]) }

/-- `portal.entropy_infuser.random()` (pure_core_classes.py:419-424) -/
def drawR : PM U A Rat := fun s => (.ok (s.draws s.nd), { s with nd := s.nd + 1 })

/-- storing the result, with the consistency check forced if `conduct`
(pure_core_classes.py:432-440): the configured probability is restored in any case -/
def storeResult (p : PortalId) (k : Key A) (a : A) (conduct : Bool) (cfg : Option Rat) :
    PM U A Unit := fun s =>
  match (do
      if conduct then setPCheck p (some 1) else pure ()
      resSet p k a : PM U A Unit) s with
  | (res, s') => match setPCheck p cfg s' with
    | (_, s'') => (res, s'')

/-- the part of `execute` under the frame (pure_core_classes.py:425-442) -/
def frameBody (rec : FnId → Kw U → PM U A U) (prog : FnId → Fn U) (p : PortalId) (f : FnId)
    (kw : Kw U) (packed : List (String × Nat)) (ri : Nat) (conduct : Bool) (cfg : Option Rat)
    (run : Nat) : PM U A U := do
  rRequest addrOf ri
  let ok ← canBeExecuted rec prog p f kw
  modExt fun x => { x with trace := x.trace ++ [.guards f kw ok] }
  if ok then do
    let un ← unpack (sortKw (asKw packed))
    let u ← autExec rec prog p f (un.map fun x => (x.1, .raw x.2))
    let ra ← ValueAddr.new addrOf (.user u) none
    let t ← textOf ra
    let o ← readR ri
    registerResult o run t
    storeResult p o.key t conduct cfg
    rDrop ri
    pure u
  else raiseNew .assertionError

/-- `PureFn.execute` (pure_core_classes.py:404-442) -/
def pureExec (rec : FnId → Kw U → PM U A U) (prog : FnId → Fn U) (p : PortalId) (f : FnId)
    (kw : Kw U) : PM U A U := withP p (do
  let packed ← pack addrOf p (sortKw kw)
  let ri ← mkRAddr addrOf f p (asKw packed)
  let x ← drawR
  let s ← PyM.get
  let cfg := s.ext.pCfg p
  let rd ← rReady addrOf ri
  if rd = true ∧ (cfg = none ∨ cfg = some 0 ∨ ∀ c, cfg = some c → ¬ x < c) then rGet addrOf ri
  else withFrame ri (frameBody addrOf rec prog p f kw packed ri rd cfg))

/-- a call of a function of portal `p` (`__call__`, ordinary_core_classes.py:128-132) -/
def exec (prog : FnId → Fn U) (p : PortalId) : Nat → FnId → Kw U → PM U A U
  | 0, _, _ => raiseNew diverge
  | n + 1, f, kw =>
    if (prog f).isPure then pureExec addrOf (exec prog p n) prog p f kw
    else autExec (exec prog p n) prog p f kw

/-! ### other routes to execution (pure_core_classes.py:374-401, 444-490, 637-645) -/

/-- `addr.execute()` (pure_core_classes.py:637-645) -/
def rExecute (prog : FnId → Fn U) (n : Nat) (r : Nat) : PM U A U := do
  let o ← readR r
  match o.result with
  | some u => pure u
  | none => withP o.portal (do
      let f ← rFunction r
      let args ← rArguments r
      let u ← exec addrOf prog o.portal n f args
      updR r (fun x => { x with result := some u })
      pure u)

/-- `get_address` (pure_core_classes.py:374-378) -/
def getAddress (p : PortalId) (f : FnId) (kw : Kw U) : PM U A Nat := withP p (do
  let packed ← pack addrOf p (sortKw kw)
  mkRAddr addrOf f p (asKw packed))

/-- `swarm` (pure_core_classes.py:383-391) -/
def swarm (p : PortalId) (f : FnId) (kw : Kw U) : PM U A Nat := withP p (do
  let r ← getAddress addrOf p f kw
  rRequest addrOf r
  pure r)

/-- `run` (pure_core_classes.py:393-401) -/
def run (prog : FnId → Fn U) (n : Nat) (p : PortalId) (f : FnId) (kw : Kw U) : PM U A Nat :=
  withP p (do
    let r ← getAddress addrOf p f kw
    let _ ← rExecute addrOf prog n r
    pure r)

/-- the first loop of `swarm_list` (pure_core_classes.py:452-457) -/
def addrLoop (p : PortalId) (f : FnId) : List (Kw U) → PM U A (List Nat)
  | [] => pure []
  | kw :: l => do
    let r ← mkRAddr addrOf f p kw
    let rs ← addrLoop p f l
    pure (r :: rs)

/-- `for an_addr in l: an_addr.request_execution()` (pure_core_classes.py:458-460) -/
def requestLoop : List Nat → PM U A Unit
  | [] => pure ()
  | r :: l => do
    rRequest addrOf r
    requestLoop l

/-- `for an_addr in l: an_addr.execute()` (pure_core_classes.py:463-472) -/
def executeLoop (prog : FnId → Fn U) (n : Nat) : List Nat → PM U A Unit
  | [] => pure ()
  | r :: l => do
    let _ ← rExecute addrOf prog n r
    executeLoop prog n l

/-- `swarm_list` (pure_core_classes.py:444-461); `shuffle` is the effect of
`entropy_infuser.shuffle` (a rearrangement of the list) -/
def swarmList (shuffle : List Nat → List Nat) (p : PortalId) (f : FnId) (l : List (Kw U)) :
    PM U A (List Nat) := withP p (do
  let rs ← addrLoop addrOf p f l
  requestLoop addrOf (shuffle rs)
  pure rs)

/-- `run_list` (pure_core_classes.py:463-473) -/
def runList (prog : FnId → Fn U) (n : Nat) (shuffle1 shuffle2 : List Nat → List Nat) (p : PortalId)
    (f : FnId) (l : List (Kw U)) : PM U A (List Nat) := withP p (do
  let rs ← swarmList addrOf shuffle1 p f l
  executeLoop addrOf prog n (shuffle2 rs)
  pure rs)

end Pyth.Pure
