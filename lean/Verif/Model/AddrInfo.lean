import Verif.Model.PureHistory
/-!
# What the address of a call tells about the call, and addresses of results as data

`pythagoras/_070_pure_functions/pure_core_classes.py:576-582, 664-668, 720-787` (attributes of
`PureFnExecutionResultAddr`), `value_addresses.py:26-49` for an object with `get_ValueAddr`, and the end of
`PureFn.execute` (`pure_core_classes.py:428-442`) for code that returns an address object.

Simplifications: a function is identified by its number; its name, island and source code are given by
`FnInfo`.  An object read back from the store is returned as stored data (`Val`), it is not cached in the
address object.
-/
namespace Pyth.Pure
open Pyth.World Pyth.Portal

variable {U A : Type} [DecidableEq U] [DecidableEq A]

/-- `fn_name`, `island_name`, `fn_source_code` of the function objects
(ordinary_core_classes.py:46-85, autonomous_core_classes.py:112-136) -/
structure FnInfo where
  name : FnId → String
  island : FnId → String
  source : FnId → String

/-- `fn` (pure_core_classes.py:732-736) -/
def rFn (r : Nat) : PM U A FnId := do
  let o ← readR r
  withP o.portal (rFunction r)

/-- `fn_name` (pure_core_classes.py:739-745): the name written in the stored signature, whose address
objects are restored with it -/
def rFnName (info : FnInfo) (r : Nat) : PM U A String := do
  let o ← readR r
  withP o.portal (do
    let sa ← rValueAddr r
    let v ← ValueAddr.get sa
    match v with
    | .sig f fa aa => do
      let p ← capturePortal
      let _ ← alloc { chain := fa, portal := p }
      let _ ← alloc { chain := aa, portal := p }
      pure (info.name f)
    | _ => raiseNew .attributeError)

/-- `fn_source_code` (pure_core_classes.py:748-753) -/
def rSource (info : FnInfo) (r : Nat) : PM U A String := do
  let o ← readR r
  withP o.portal (do
    let f ← rFunction r
    pure (info.source f))

/-- `island_name` (pure_core_classes.py:756-760) -/
def rIsland (info : FnInfo) (r : Nat) : PM U A String := do
  let o ← readR r
  withP o.portal (do
    let f ← rFunction r
    pure (info.island f))

/-- `execution_requested` (pure_core_classes.py:664-668) -/
def rRequested (r : Nat) : PM U A Bool := do
  let o ← readR r
  withP o.portal (fun s => (.ok (s.ext.requests o.portal o.key), s))

/-- the questions one can ask an address (pure_core_classes.py:720-792) -/
inductive Ask
  | function | fn | fnName | fnSourceCode | islandName | arguments | kwargs | requested

/-- the answers (return values of pure_core_classes.py:720-792) -/
inductive Answer (U : Type)
  | function (f : FnId)
  | text (s : String)
  | arguments (l : Kw U)
  | kwargs (l : List (String × U))
  | requested (b : Bool)

/-- one question (pure_core_classes.py:720-792) -/
def ask (info : FnInfo) (r : Nat) : Ask → PM U A (Answer U)
  | .function => do let f ← rFunction r; pure (.function f)
  | .fn => do let f ← rFn r; pure (.function f)
  | .fnName => do let t ← rFnName info r; pure (.text t)
  | .fnSourceCode => do let t ← rSource info r; pure (.text t)
  | .islandName => do let t ← rIsland info r; pure (.text t)
  | .arguments => do let l ← rArguments r; pure (.arguments l)
  | .kwargs => do let l ← rKwargs r; pure (.kwargs l)
  | .requested => do let b ← rRequested r; pure (.requested b)

/-- several questions, one after the other; the state at the end (a sequence of uses of pure_core_classes.py:720-792) -/
def askAll (info : FnInfo) (r : Nat) : List Ask → PWorld U A → PWorld U A
  | [], s => s
  | a :: l, s => askAll info r l (ask info r a s).2

/-! ### address objects as data -/

/-- the rest of `ValueAddr(data)` once `data.get_ValueAddr()` is known to be object `j`
(value_addresses.py:40-49) -/
def adopt (j : Nat) (p : PortalId) : PM U A Nat := do
  let d ← readObj j
  let i ← alloc { chain := d.chain, portal := some p }
  let h ← storeHas p d.chain
  if (some p ≠ d.portal) ∧ h = false then do
    let data ← ValueAddr.get j
    storeSet p d.chain data
    updObj i (fun x => { x with ready := true })
    pure i
  else do
    updObj i (fun x => { x with ready := true })
    pure i

/-- `ValueAddr(addr)` for the address `r` of a result (value_addresses.py:26-49 with
pure_core_classes.py:576-582) -/
def vaOfR (r : Nat) : PM U A Nat := do
  let p ← bestPortal none
  withP p (do
    let j ← rValueAddr r
    adopt j p)

/-- `SortedKwArgs(x=addr).pack(portal)["x"]` for the address `r` of a result (kw_args.py:33-39) -/
def packR (p : PortalId) (r : Nat) : PM U A Nat := withP p (vaOfR r)

/-- what the code of a function may return: a value, a `ValueAddr` object, the address of a result
(the value returned at ordinary_core_classes.py:175-197, as seen by pure_core_classes.py:429-430) -/
inductive Ret (U : Type)
  | value (u : U)
  | vaddr (i : Nat)
  | raddr (r : Nat)

variable (addrOf : Val U A → A)

/-- `ValueAddr(result)` (value_addresses.py:26-61) -/
def vaOfRet : Ret U → PM U A Nat
  | .value u => ValueAddr.new addrOf (.user u) none
  | .vaddr i => ValueAddr.conv i none
  | .raddr r => vaOfR r

/-- the end of `PureFn.execute`, once the code has returned (pure_core_classes.py:429-442); `ri` is the
address of the call -/
def finish (p : PortalId) (ri run : Nat) (conduct : Bool) (cfg : Option Rat) (ret : Ret U) : PM U A (Ret U) := do
  let ra ← vaOfRet addrOf ret
  let t ← textOf ra
  let o ← readR ri
  registerResult o run t
  storeResult p o.key t conduct cfg
  rDrop ri
  pure ret

/-- reading a result that is present in the portal (pure_core_classes.py:686-691) -/
def rGetStored (r : Nat) : PM U A (Val U A) := do
  let o ← readR r
  withP o.portal (do
    let a ← resGet o.portal o.key
    storeGet o.portal a)

end Pyth.Pure
