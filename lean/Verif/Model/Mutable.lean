import Verif.Model.Py
/-!
# Objects that change

The other models treat data as values.  Python objects can be changed by the program after they were given to Pythagoras
or obtained from it, and address objects keep references to them (`_value`, `_result`, `_arguments`).  Here data are
*objects* with an identity and a content: `pythagoras/_030_data_portals/value_addresses.py`,
`pythagoras/_070_pure_functions/kw_args.py`, `pythagoras/_070_pure_functions/pure_core_classes.py`.

Simplifications.  One portal; the functions are known; requests, run history, output and logging are left out (see
`Verif.Model.PureFn`); `p_consistency_checks` is None; keyword arguments are given in the order of their names (C20); the
code of a function makes no nested calls; guards are functions whose results are not stored.  The content of an object includes everything inside it: different objects do
not share parts.
-/
namespace Pyth.Mutable

/-- identity of an object; index of a `ValueAddr` object; index of the address object of a result
(value_addresses.py:26-61, pure_core_classes.py:549-559) -/
abbrev Ref := Nat
/-- index of a `ValueAddr` object (value_addresses.py:26-61) -/
abbrev VIx := Nat
/-- index of the address object of a result (pure_core_classes.py:549-559) -/
abbrev RIx := Nat
/-- a function (pure_core_classes.py:134-150) -/
abbrev FnId := Nat

/-- what is hashed: the content of an object, a call signature with the texts of its arguments
(pure_core_classes.py:504-522) -/
inductive Data (C A : Type)
  | plain (c : C)
  | call (f : FnId) (args : List (String × A))
  deriving DecidableEq

/-- the code of a function: it works with local variables, each of which refers to an object; first the arguments in the
order of their names, then what it makes itself (executed by ordinary_core_classes.py:175-197) -/
inductive Body (C : Type)
  /-- return the object of local variable `x` -/
  | ret (x : Nat)
  | raise
  /-- look at the content -/
  | look (x : Nat) (k : C → Body C)
  /-- change the object of local variable `x`: its content becomes `c` -/
  | change (x : Nat) (c : C) (k : Body C)
  /-- make an object; it becomes the next local variable -/
  | make (c : C) (k : Body C)

/-- a pure function: number of arguments, code, guards (pure_core_classes.py:134-187) -/
structure Fn (C : Type) where
  arity : Nat
  code : Body C
  guards : List FnId := []

/-- a `ValueAddr` object: its text, and the object of its attribute `_value` if it has one (value_addresses.py:26-61) -/
structure VA (A : Type) where
  text : A
  value : Option Ref := none
  deriving DecidableEq

/-- an argument: an object, or a `ValueAddr` object (kw_args.py:15-39) -/
inductive Arg
  | obj (i : Ref)
  | addr (j : VIx)
  deriving DecidableEq

/-- a `PureFnExecutionResultAddr` object: its text and the attributes `_function`, `_arguments`, `_result` (pure_core_classes.py:549-573) -/
structure RA (A : Type) where
  key : A
  fn : Option FnId := none
  args : Option (List (String × Arg)) := none
  result : Option Ref := none
  deriving DecidableEq

/-- the objects of the program and the dictionaries of the portal (value_addresses.py:26-61, pure_core_classes.py:52-88) -/
structure St (C A : Type) where
  /-- the objects of the program, with their contents -/
  objs : List C := []
  /-- `portal.value_store`: data, and call signatures -/
  store : A → Option C := fun _ => none
  sigs : A → Option (FnId × List (String × A)) := fun _ => none
  /-- `portal.execution_results` -/
  results : A → Option A := fun _ => none
  vas : List (VA A) := []
  ras : List (RA A) := []

/-- exceptions (pure_core_classes.py:404-442) -/
inductive Err
  | keyError | typeError | assertionError | timeoutError | attributeError
  /-- raised by the code of a function -/
  | user
  deriving DecidableEq, Repr

variable {C A : Type} [DecidableEq A]

/-- a Python computation over this state (pure_core_classes.py:404-442) -/
abbrev M (C A α : Type) := PyM Err (St C A) α

/-! ## Objects -/

/-- a new object (e.g. unpickling, value_addresses.py:114-123) -/
def newObj (c : C) : M C A Ref := fun s => (.ok s.objs.length, { s with objs := s.objs ++ [c] })

/-- the content of an object (e.g. pickling, value_addresses.py:57-61) -/
def content (i : Ref) : M C A C := fun s =>
  match s.objs[i]? with
  | some c => (.ok c, s)
  | none => (.error .attributeError, s)

/-- the object gets a new content (user code changes an object it got from pure_core_classes.py:404-442 or value_addresses.py:142-153) -/
def setObj (i : Ref) (c : C) : M C A Unit := fun s => (.ok (), { s with objs := s.objs.set i c })

/-! ## Addresses of values -/

variable (hash : Data C A → A)

/-- a new `ValueAddr` object (value_addresses.py:26-61) -/
def newVA (v : VA A) : M C A VIx := fun s => (.ok s.vas.length, { s with vas := s.vas ++ [v] })

/-- read a `ValueAddr` object (value_addresses.py:142-153) -/
def readVA (j : VIx) : M C A (VA A) := fun s =>
  match s.vas[j]? with
  | some v => (.ok v, s)
  | none => (.error .attributeError, s)

/-- `portal.value_store[self] = data`: the content is pickled; the first entry stays (first_entry_dict.py:33-53) -/
def storeSet (a : A) (c : C) : M C A Unit := fun s =>
  (.ok (), { s with store := fun b => if b = a ∧ s.store a = none then some c else s.store b })

/-- `ValueAddr(data)` (value_addresses.py:26-61): the text is made from the content of the object, the content is stored,
and the address keeps a reference to the object itself -/
def valueAddr (i : Ref) : M C A VIx := do
  let c ← content i
  storeSet (hash (.plain c)) c
  newVA { text := hash (.plain c), value := some i }

/-- `ValueAddr(addr)` (value_addresses.py:39-51): a new address with the same text, without a reference to the object -/
def convert (j : VIx) : M C A VIx := do
  let v ← readVA j
  newVA { text := v.text }

/-- `addr.get()` (value_addresses.py:114-153): the object of `_value`, or a new object made from what is stored, to which
the address keeps a reference then -/
def getVA (j : VIx) : M C A Ref := fun s =>
  match s.vas[j]? with
  | none => (.error .attributeError, s)
  | some v => match v.value with
    | some i => (.ok i, s)
    | none => match s.store v.text with
      | none => (.error .keyError, s)
      | some c => (.ok s.objs.length, { s with
          objs := s.objs ++ [c]
          vas := s.vas.set j { v with value := some s.objs.length } })

/-! ## Arguments -/

/-- one argument of `pack` (kw_args.py:38) -/
def packOne : Arg → M C A VIx
  | .obj i => valueAddr hash i
  | .addr j => convert j

/-- `pack` (kw_args.py:33-39) -/
def pack : List (String × Arg) → M C A (List (String × VIx))
  | [] => pure []
  | (k, a) :: l => do
    let j ← packOne hash a
    let r ← pack l
    pure ((k, j) :: r)

/-- packed arguments are arguments (kw_args.py:33-39) -/
def asArgs (l : List (String × VIx)) : List (String × Arg) := l.map fun x => (x.1, .addr x.2)

/-- the texts of packed arguments (kw_args.py:33-39) -/
def texts : List (String × VIx) → M C A (List (String × A))
  | [] => pure []
  | (k, j) :: l => do
    let v ← readVA j
    let r ← texts l
    pure ((k, v.text) :: r)

/-- one argument of `unpack` (kw_args.py:27-30) -/
def unpackOne : Arg → M C A Ref
  | .obj i => pure i
  | .addr j => getVA j

/-- `unpack` (kw_args.py:23-31) -/
def unpack : List (String × Arg) → M C A (List Ref)
  | [] => pure []
  | (_, a) :: l => do
    let i ← unpackOne a
    let r ← unpack l
    pure (i :: r)

/-! ## Running the code of a function -/

/-- the object of a local variable; `none`: the variable has an address object, which has no content here (guards get the
arguments of a call as they were given, pure_core_classes.py:427) -/
def localVar (loc : List (Option Ref)) (x : Nat) : M C A Ref :=
  match loc[x]? with
  | some (some i) => pure i
  | _ => PyM.raise .typeError

/-- the code of a function, with its local variables (ordinary_core_classes.py:175-197) -/
def runBody (loc : List (Option Ref)) : Body C → M C A Ref
  | .ret x => localVar loc x
  | .raise => PyM.raise .user
  | .look x k => do
    let i ← localVar loc x
    let c ← content i
    runBody loc (k c)
  | .change x c k => do
    let i ← localVar loc x
    setObj i c
    runBody loc k
  | .make c k => do
    let i ← newObj c
    runBody (loc ++ [some i]) k

/-- `OrdinaryFn.execute` with these arguments (ordinary_core_classes.py:175-197) -/
def runFn (f : Fn C) (loc : List (Option Ref)) : M C A Ref :=
  if loc.length = f.arity then runBody loc f.code else PyM.raise .typeError

variable (prog : FnId → Fn C)

/-- the loop over the guards (pure_core_classes.py:194-197): what they return is ignored -/
def runGuards (loc : List (Option Ref)) : List FnId → M C A Unit
  | [] => pure ()
  | g :: gs => do
    let _ ← runFn (prog g) loc
    runGuards loc gs

/-- `can_be_executed` (pure_core_classes.py:189-200): False if a guard raises -/
def canBeExecuted (f : FnId) (loc : List (Option Ref)) : M C A Bool := fun s =>
  match runGuards prog loc (prog f).guards s with
  | (.ok _, s') => (.ok true, s')
  | (.error _, s') => (.ok false, s')

/-- an argument as a guard sees it (pure_core_classes.py:189-203) -/
def asLocal : Arg → Option Ref
  | .obj i => some i
  | .addr _ => none

/-! ## Addresses of results -/

/-- a new address object (pure_core_classes.py:549-559) -/
def newRA (r : RA A) : M C A RIx := fun s => (.ok s.ras.length, { s with ras := s.ras ++ [r] })

/-- read an address object (pure_core_classes.py:720-779) -/
def readRA (r : RIx) : M C A (RA A) := fun s =>
  match s.ras[r]? with
  | some o => (.ok o, s)
  | none => (.error .attributeError, s)

/-- `portal.value_store[…] = signature` (pure_core_classes.py:549-559) -/
def sigSet (a : A) (d : FnId × List (String × A)) : M C A Unit := fun s =>
  (.ok (), { s with sigs := fun b => if b = a ∧ s.sigs a = none then some d else s.sigs b })

/-- `PureFnExecutionResultAddr(fn, arguments)` (pure_core_classes.py:549-559): the address keeps the arguments as they are
given; the signature has the texts of their addresses (lines 504-513) -/
def mkRA (f : FnId) (args : List (String × Arg)) : M C A RIx := do
  let packed ← pack hash args
  let ts ← texts packed
  sigSet (hash (.call f ts)) (f, ts)
  newRA { key := hash (.call f ts), fn := some f, args := some args }

/-- `addr.get()` for a result that is ready (pure_core_classes.py:682-691); otherwise the result is waited for, here: not
at all -/
def rGet (r : RIx) : M C A Ref := fun s =>
  match s.ras[r]? with
  | none => (.error .attributeError, s)
  | some o => match o.result with
    | some i => (.ok i, s)
    | none => match s.results o.key with
      | none => (.error .timeoutError, s)
      | some a => match s.store a with
        | none => (.error .keyError, s)
        | some c => (.ok s.objs.length, { s with
            objs := s.objs ++ [c]
            ras := s.ras.set r { o with result := some s.objs.length } })

/-- `portal.execution_results[output_address] = result_addr`: the first entry stays (pure_core_classes.py:435, first_entry_dict.py:33-70) -/
def resultSet (k a : A) : M C A Unit := fun s =>
  (.ok (), { s with results := fun b => if b = k ∧ s.results k = none then some a else s.results b })

/-- the part of `PureFn.execute` in which the code is run (pure_core_classes.py:423-442): guards get the arguments as they
were given, the code gets the unpacked ones -/
def evaluate (f : FnId) (kw : List (String × Arg)) (packed : List (String × VIx)) (key : A) : M C A Ref := do
  let ok ← canBeExecuted prog f (kw.map fun x => asLocal x.2)
  if ok then do
    let objs ← unpack (asArgs packed)
    let i ← runFn (prog f) (objs.map some)
    let j ← valueAddr hash i
    let v ← readVA j
    resultSet key v.text
    pure i
  else PyM.raise .assertionError

/-- `PureFn.execute` (pure_core_classes.py:404-442) -/
def execute (f : FnId) (kw : List (String × Arg)) : M C A Ref := do
  let packed ← pack hash kw
  let r ← mkRA hash f (asArgs packed)
  let o ← readRA r
  let s ← PyM.get
  if (s.results o.key).isSome then rGet r
  else evaluate hash prog f kw packed o.key

/-- `get_address` (pure_core_classes.py:374-378), also used by `swarm` and `run`: the address gets packed arguments -/
def getAddress (f : FnId) (kw : List (String × Arg)) : M C A RIx := do
  let packed ← pack hash kw
  mkRA hash f (asArgs packed)

/-- the address objects of `swarm_list`, `run_list`, `swarm_grid`, `run_grid` (pure_core_classes.py:454-457): the address
gets the arguments as they are -/
def listAddress (f : FnId) (kw : List (String × Arg)) : M C A RIx := mkRA hash f kw

/-- the address objects inside an unpickled `SortedKwArgs` (kw_args.py:6-39, portal_aware_classes.py:49-58) -/
def argsFromTexts : List (String × A) → M C A (List (String × Arg))
  | [] => pure []
  | (k, t) :: l => do
    let j ← newVA { text := t }
    let r ← argsFromTexts l
    pure ((k, .addr j) :: r)

/-- `function` and `arguments` of an address, read from the stored signature (pure_core_classes.py:724-730, 767-772).
Simplification: both are read together. -/
def loadCall (r : RIx) (key : A) : M C A (FnId × List (String × Arg)) := fun s =>
  match s.sigs key with
  | none => (.error .keyError, s)
  | some (f, ts) => (do
      let l ← argsFromTexts ts
      PyM.modify fun s => { s with ras := s.ras.modify r fun o => { o with fn := some f, args := some l } }
      pure (f, l) : M C A (FnId × List (String × Arg))) s

/-- what an address keeps of its call (pure_core_classes.py:549-573) -/
def keptCall (o : RA A) : Option (FnId × List (String × Arg)) :=
  match o.fn, o.args with
  | some f, some l => some (f, l)
  | _, _ => none

/-- `function` and `arguments` of an address (pure_core_classes.py:720-730, 763-772): kept, or read from the stored
signature -/
def rCall (r : RIx) : M C A (FnId × List (String × Arg)) := do
  let o ← readRA r
  ((keptCall o).map pure).getD (loadCall r o.key)

/-- `addr.execute()` when the address has no result yet (pure_core_classes.py:641-645) -/
def executeNow (r : RIx) : M C A Ref := do
  let call ← rCall r
  let i ← execute hash prog call.1 call.2
  PyM.modify fun s => { s with ras := s.ras.modify r fun o => { o with result := some i } }
  pure i

/-- `addr.execute()` (pure_core_classes.py:637-645) -/
def rExecute (r : RIx) : M C A Ref := do
  let o ← readRA r
  (o.result.map pure).getD (executeNow hash prog r)

/-- `addr.kwargs` (pure_core_classes.py:775-779) -/
def rKwargs (r : RIx) : M C A (List Ref) := do
  let call ← rCall r
  unpack call.2

/-! ## Programs -/

/-- what a program does (value_addresses.py:26-61, 142-153, pure_core_classes.py:374-442, 637-718) -/
inductive Op (C A : Type)
  /-- make an object; change an object -/
  | new (c : C)
  | change (i : Ref) (c : C)
  /-- `ValueAddr(data)`, `ValueAddr(addr)`, an address from its text (`ValueAddr.from_strings`, unpickling) -/
  | valueAddr (i : Ref)
  | convert (j : VIx)
  | fromText (a : A)
  /-- `addr.get()` -/
  | get (j : VIx)
  /-- `f(**kw)` -/
  | call (f : FnId) (kw : List (String × Arg))
  /-- `f.get_address(**kw)`, the addresses of `f.swarm_list`, an address from its text -/
  | getAddress (f : FnId) (kw : List (String × Arg))
  | listAddress (f : FnId) (kw : List (String × Arg))
  | rFromText (k : A)
  /-- `addr.execute()`, `addr.get()`, `addr.kwargs` -/
  | rExecute (r : RIx)
  | rGet (r : RIx)
  | rKwargs (r : RIx)

/-- one operation; an exception ends the operation only (value_addresses.py:26-61, 142-153, pure_core_classes.py:374-442, 637-718) -/
def step (s : St C A) : Op C A → St C A
  | .new c => (newObj c s).2
  | .change i c => (setObj i c s).2
  | .valueAddr i => (valueAddr hash i s).2
  | .convert j => (convert j s).2
  | .fromText a => (newVA { text := a } s).2
  | .get j => (getVA j s).2
  | .call f kw => (execute hash prog f kw s).2
  | .getAddress f kw => (getAddress hash f kw s).2
  | .listAddress f kw => (listAddress hash f kw s).2
  | .rFromText k => (newRA { key := k } s).2
  | .rExecute r => (rExecute hash prog r s).2
  | .rGet r => (rGet r s).2
  | .rKwargs r => (rKwargs r s).2

/-- a program run from its start with an empty portal (histories of pure_core_classes.py:374-442, 637-718) -/
def run (ops : List (Op C A)) : St C A := ops.foldl (step hash prog) {}

end Pyth.Mutable
