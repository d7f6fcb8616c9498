import Verif.Model.Py
/-!
# The portal context (`pythagoras/_010_basic_portals/foundation.py`)

Portals are object identities.  The Python lists `entered_portals_stack` and
`entered_portals_counters_stack` are represented with the *top first* (Python's `[-1]` is the head).
-/
namespace Pyth.Portal

/-- identity of a portal object (`id(portal)`) (foundation.py:54-64) -/
abbrev PortalId := Nat

/-- Python exceptions that can be raised by the portal context. (foundation.py:112-159) -/
inductive Err
  | indexError        -- `[][-1]`
  | assertionError    -- a failed `assert`
  | user (n : Nat)    -- any exception raised by user code
  deriving DecidableEq, Repr

/-- The class attributes of `BasicPortal` (foundation.py:48-50). `all` is the key list of
`all_portals` in insertion order. -/
structure Sys where
  all : List PortalId := []
  stack : List PortalId := []
  counters : List Int := []
  deriving DecidableEq, Repr

/-- `BasicPortal.all_portals[id(self)] = self` (foundation.py:64): a Python dict keeps the position
of an existing key and appends a new one.  The construction of `root_dict` (lines 54-63) is not
modelled. -/
def register (s : Sys) (p : PortalId) : Sys :=
  if p ∈ s.all then s else { s with all := s.all ++ [p] }

/-- `get_most_recently_added_portal` (foundation.py:104-109). -/
def mostRecentlyAdded (s : Sys) : Option PortalId := s.all.getLast?

/-- `BasicPortal.__enter__` (foundation.py:112-120). -/
def enter (p : PortalId) (s : Sys) : Except Err Sys :=
  match s.stack with
  | [] => .ok { s with stack := p :: s.stack, counters := 1 :: s.counters }
  | q :: _ =>
    if q ≠ p then .ok { s with stack := p :: s.stack, counters := 1 :: s.counters }
    else match s.counters with
      | [] => .error .indexError
      | c :: cs => .ok { s with counters := (c + 1) :: cs }

/-- `BasicPortal.__exit__` (foundation.py:122-132). -/
def exit (p : PortalId) (s : Sys) : Except Err Sys :=
  match s.stack with
  | [] => .error .indexError
  | q :: st =>
    if q ≠ p then .error .assertionError
    else match s.counters with
      | [] => .error .indexError
      | c :: cs =>
        if c = 1 then .ok { s with stack := st, counters := cs }
        else .ok { s with counters := (c - 1) :: cs }

/-- `BasicPortal.__exit_all__` (foundation.py:135-138); the `while` loop takes fuel, `none` = the
fuel ran out.  (`portal.__exit__(None, None, None)` of subclasses additionally calls the logger,
which does not touch the portal context.) -/
def exitAll : Nat → Sys → Option (Except Err Sys)
  | 0, _ => none
  | n + 1, s => match s.stack with
    | [] => some (.ok s)
    | p :: _ => match exit p s with
      | .ok s' => exitAll n s'
      | .error e => some (.error e)

/-- `_most_recently_entered_portal` / `get_most_recently_entered_portal` (foundation.py:140-158).
`level p` is the depth of `p`'s class in the (linear) chain BasicPortal < LoggingPortal < DataPortal
< ... < DefaultLocalPortal, so `isinstance(p, cls)` is `cls ≤ level p`. -/
def mostRecentlyEntered (level : PortalId → Nat) (cls : Nat) (s : Sys) :
    Except Err (Option PortalId) :=
  match s.stack with
  | [] => .ok none
  | p :: _ => if cls ≤ level p then .ok (some p) else .error .assertionError

/-- `get_best_portal_to_use` (foundation.py:161-172); all subclasses delegate to the version of
`BasicPortal`, hence class level 0.  `dflt` creates (or finds) the default local portal. -/
def bestPortal (level : PortalId → Nat) (dflt : Sys → PortalId × Sys)
    (suggested : Option PortalId) (s : Sys) : Except Err (PortalId × Sys) :=
  match suggested with
  | some p => .ok (p, s)
  | none => match mostRecentlyEntered level 0 s with
    | .error e => .error e
    | .ok (some p) => .ok (p, s)
    | .ok none => match mostRecentlyAdded s with
      | some p => .ok (p, s)
      | none => .ok (dflt s)

/-- `_noncurrent_portals` (foundation.py:176-192). -/
def noncurrent (level : PortalId → Nat) (cls : Nat) (s : Sys) : Except Err (List PortalId) :=
  let result := match s.stack with
    | [] => s.all
    | c :: _ => s.all.filter (fun p => p != c)
  if result.all (fun p => decide (cls ≤ level p)) then .ok result else .error .assertionError

/-- insertion of a key into a Python dict used as an ordered set (foundation.py:54-64, 141-211) -/
def dictInsert (d : List PortalId) (p : PortalId) : List PortalId :=
  if p ∈ d then d else d ++ [p]

/-- `_entered_portals` (foundation.py:201-210): iterates `reversed(stack)`, i.e. innermost first. -/
def entered (level : PortalId → Nat) (cls : Nat) (s : Sys) : Except Err (List PortalId) :=
  let result := s.stack.foldl dictInsert []
  if result.all (fun p => decide (cls ≤ level p)) then .ok result else .error .assertionError

/-- `_clear_all` (foundation.py:221-229); the per-portal `_clear` is modelled elsewhere. -/
def clearAll (_ : Sys) : Sys := {}

/-- the `with p: body` statement for the portal context: `__enter__`, body, and `__exit__` on both
paths; `__exit__` returns False/None, so an exception of the body propagates, unless `__exit__`
itself raises. (foundation.py:112-133) -/
def withPortal {α : Type} (p : PortalId) (body : PyM Err Sys α) : PyM Err Sys α := do
  PyM.liftE (enter p)
  PyM.tryFinally body (PyM.liftE (exit p))

/-- Programs over the portal context.  `dyn f` stands for any state-dependent control flow: the
program continues with a program chosen from the observable state. (user code with blocks of foundation.py:112-133) -/
inductive Prog
  | skip
  | raise (n : Nat)
  | new (p : PortalId)
  | seq (a b : Prog)
  | tryExcept (a b : Prog)
  | withP (p : PortalId) (body : Prog)
  | dyn (f : Sys → Prog)

/-- execution of a program (foundation.py:112-133) -/
def Prog.run : Prog → PyM Err Sys Unit
  | .skip => PyM.ret ()
  | .raise n => PyM.raise (.user n)
  | .new p => PyM.modify (fun s => register s p)
  | .seq a b => do a.run; b.run
  | .tryExcept a b => PyM.tryExcept a.run (fun _ => b.run)
  | .withP p body => withPortal p body.run
  | .dyn f => fun s => (f s).run s

/-- One explicit call of the API, for arbitrary (also ill-bracketed) histories. (foundation.py:112-139) -/
inductive Call
  | enter (p : PortalId)
  | exit (p : PortalId)
  | new (p : PortalId)
  | exitAll
  | clearAll
  deriving DecidableEq, Repr

/-- enough iterations for the loop of `exitAll` (see theorem `C04_exit_all`) (foundation.py:134-139) -/
def exitFuel (s : Sys) : Nat := (s.counters.map Int.toNat).sum + 1

/-- effect of a call; a raising call leaves the state as it was (checked against the bodies of
`enter`/`exit` above: they raise before assigning). (foundation.py:112-139) -/
def Call.step (s : Sys) : Call → Sys
  | .enter p => (Portal.enter p s).toOption.getD s
  | .exit p => (Portal.exit p s).toOption.getD s
  | .new p => register s p
  | .exitAll => match Portal.exitAll (exitFuel s) s with
    | some (.ok s') => s'
    | _ => s
  | .clearAll => Portal.clearAll s

/-- states reachable by some history of calls from program start (histories of foundation.py:112-139) -/
def reach (h : List Call) : Sys := h.foldl Call.step {}

end Pyth.Portal
