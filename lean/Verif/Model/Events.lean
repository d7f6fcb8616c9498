import Verif.Model.PortalStack
import Verif.Model.Py
/-!
# Event logs and unique names (logging_portals.py:67-73, 195-219, 331-343), exception hooks (21-58)
-/
namespace Pyth.Events
open Pyth.Portal (PortalId Sys)

/-! ### unique names -/

/-- the loop of `make_unique_name` (logging_portals.py:195-205).  `draws i` is the `i`-th number returned by
`randint(1, 10_000_000_000)`.  The result is the name and the number of draws used so far; `none`: still
looping after the given number of steps. -/
def uniqueLoop (desired : String) (existing : List String) (draws : Nat → Nat) :
    Nat → Nat → String → Option (String × Nat)
  | 0, _, _ => none
  | n + 1, i, candidate =>
    if candidate ∈ existing then
      uniqueLoop desired existing draws n (i + 1) (desired ++ "_" ++ toString (draws i))
    else some (candidate, i)

/-- `LoggingPortal.make_unique_name(desired_name, existing_names)` (logging_portals.py:195-205) -/
def makeUniqueName (desired : String) (existing : List String) (draws : Nat → Nat) (fuel i : Nat) :
    Option (String × Nat) :=
  uniqueLoop desired existing draws fuel i desired

/-! ### events -/

/-- values that can be logged: keyword arguments, the environment summary, the list of messages (logging_portals.py:67-81, 208-221) -/
inductive EVal (V : Type)
  | given (v : V)
  | environment
  | messages (l : List V)
  deriving DecidableEq, Repr

/-- a logged record: a Python dict (logging_portals.py:332-342) -/
abbrev Record (V : Type) := List (String × EVal V)

/-- exceptions of logging (logging_portals.py:67-81, 332-342) -/
inductive Err
  /-- writing to an existing key of an immutable dictionary -/
  | immutable
  /-- the name loop has not ended yet -/
  | looping
  deriving DecidableEq, Repr

/-- the portal context and the event histories of all portals (logging_portals.py:120-139, 332-342) -/
structure St (V : Type) where
  sys : Sys := {}
  /-- `portal.event_log`: date and event id ↦ record -/
  log : PortalId → String × String → Option (Record V)
  /-- `current_date_gmt_string()` -/
  today : String
  /-- results of `randint` and of `get_random_signature`, and how many were used -/
  ints : Nat → Nat
  ni : Nat := 0
  ids : Nat → String
  nid : Nat := 0

variable {V : Type}

/-- `add_execution_environment_summary(*args, **kwargs)` (logging_portals.py:207-219) -/
def addSummary (fuel : Nat) (args : List V) (kwargs : List (String × V)) :
    PyM Err (St V) (Record V) := fun s =>
  let kw : Record V := kwargs.map fun x => (x.1, .given x.2)
  match makeUniqueName "execution_environment_summary" (kw.map (·.1)) s.ints fuel s.ni with
  | none => (.error .looping, s)
  | some (n1, i) =>
    let kw := kw ++ [(n1, .environment)]
    if args.length = 0 then (.ok kw, { s with ni := i })
    else match makeUniqueName "message_list" (kw.map (·.1)) s.ints fuel i with
      | none => (.error .looping, s)
      | some (n2, j) => (.ok (kw ++ [(n2, .messages args)]), { s with ni := j })

/-- `portal.event_log[path] = record`: the dictionary is created with `immutable_items=True`
(logging_portals.py:129-133), so an existing item cannot be replaced -/
def writeEvent (k : String × String) (r : Record V) (p : PortalId) : PyM Err (St V) Unit := fun s =>
  match s.log p k with
  | some _ => (.error .immutable, s)
  | none => (.ok (), { s with log := fun q x => if q = p ∧ x = k then some r else s.log q x })

/-- `LoggingPortal.log_event(event_id, *args, **kwargs)` (logging_portals.py:331-343) -/
def logEvent (fuel : Nat) (eventId : Option String) (args : List V) (kwargs : List (String × V)) :
    PyM Err (St V) Unit := fun s =>
  match eventId with
  | some i => (PyM.bind (addSummary fuel args kwargs) fun r =>
      PyM.forEach (s.sys.stack.foldl Portal.dictInsert []) (writeEvent (s.today, i) r)) s
  | none => (PyM.bind (addSummary fuel args kwargs) fun r =>
      PyM.forEach (s.sys.stack.foldl Portal.dictInsert []) (writeEvent (s.today, s.ids s.nid) r))
        { s with nid := s.nid + 1 }

/-- value of a keyword argument (logging_portals.py:332-342) -/
def lookup {β : Type} (k : String) (l : List (String × β)) : Option β := (l.find? (fun x => x.1 == k)).map (·.2)

/-- the function `log_event(*args, **kwargs)` of the package (logging_portals.py:67-73); `asId` reads a
value as an event id, `None` (`none`) being the default -/
def logEventTop (asId : V → Option String) (fuel : Nat) (args : List V) (kwargs : List (String × V)) :
    PyM Err (St V) Unit :=
  match lookup "event_id" kwargs with
  | some v => logEvent fuel (asId v) args (kwargs.filter fun x => x.1 != "event_id")
  | none => logEvent fuel none args kwargs

/-! ### exception hooks -/

/-- a handler for uncaught exceptions: `pth_excepthook`, or some other function (logging_portals.py:21-29) -/
inductive Hook
  | pth
  | other (n : Nat)
  deriving DecidableEq, Repr

/-- where the program runs (notebook_checker.py:3-17, logging_portals.py:31-65) -/
inductive Env
  /-- not in a notebook -/
  | script
  /-- in a notebook -/
  | notebook
  /-- in a notebook whose `set_custom_exc` raises -/
  | broken
  deriving DecidableEq, Repr

/-- the installed handlers for uncaught exceptions, and what the program remembers of them (logging_portals.py:31-65) -/
structure HookSt where
  env : Env
  /-- `sys.excepthook` -/
  hook : Hook
  /-- the custom exception handler of IPython is installed -/
  custom : Bool := false
  /-- the global variable `_previous_excepthook` -/
  saved : Option Hook := none
  /-- `LoggingPortal.exception_handlers_registered` -/
  registered : Bool := false
  deriving DecidableEq, Repr

/-- `register_systemwide_uncaught_exception_handlers` (logging_portals.py:31-43).  There is no `global`
statement, so the old hook is saved in a local variable and lost. -/
def register (s : HookSt) : HookSt :=
  match s.env with
  | .script => { s with hook := .pth }
  | .notebook => { s with custom := true }
  | .broken => { s with hook := .pth }

/-- `unregister_systemwide_uncaught_exception_handlers` (logging_portals.py:46-57) -/
def unregister (s : HookSt) : HookSt :=
  let s := match s.saved with
    | some h => { s with hook := h, saved := none }
    | none => s
  match s.env with
  | .script => s
  | .notebook => { s with custom := false }
  | .broken => s

/-- what happens to the hooks (logging_portals.py:31-65) -/
inductive HookOp
  /-- `LoggingPortal.__init__` (logging_portals.py:136-138) -/
  | createPortal
  /-- `LoggingPortal._clear_all` (logging_portals.py:184-192) -/
  | clearAll
  /-- `sys.excepthook = …` in the program -/
  | setHook (h : Hook)
  deriving DecidableEq, Repr

/-- the effect on the hooks (logging_portals.py:31-65) -/
def HookOp.step (s : HookSt) : HookOp → HookSt
  | .createPortal =>
    let s := if s.registered then s else Events.register s
    { s with registered := true }
  | .clearAll =>
    let s := if s.registered then unregister s else s
    { s with registered := false }
  | .setHook h => { s with hook := h }

end Pyth.Events
