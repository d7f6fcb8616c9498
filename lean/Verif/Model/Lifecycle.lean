import Verif.Model.PortalStack
/-!
# The default portal and the portal tester

`pythagoras/_100_default_local_portals/default_local_portal.py`,
`pythagoras/_010_basic_portals/portal_tester.py`, `BasicPortal._clear_all`
(`pythagoras/_010_basic_portals/foundation.py:216-229`), `initialize`
(`pythagoras/_110_top_level_API/top_level_API.py:7-11`).
-/
namespace Pyth.Life
open Pyth.Portal

/-! ## The default local portal -/

/-- Global state. `usable p`: the portal object has been initialised and not been cleared since
(its `root_dict` is not None). `dflt`, `calls`: the class attributes
`_default_local_portal_instance`, `_calls_counter` (default_local_portal.py:14-15). -/
structure St where
  sys : Sys := {}
  next : Nat := 0
  usable : PortalId → Bool := fun _ => false
  dflt : Option PortalId := none
  calls : Nat := 0

/-- initialisation of a portal object (`SwarmingPortal.__init__` down to foundation.py:53-64): it is
registered and usable -/
def St.init (s : St) (p : PortalId) : St :=
  { s with sys := register s.sys p, usable := fun q => if q = p then true else s.usable q }

/-- creation of any other portal (foundation.py:54-64) -/
def newPortal (s : St) : PortalId × St :=
  (s.next, { s.init s.next with next := s.next + 1 })

/-- `DefaultLocalPortal.__new__` (default_local_portal.py:17-27) -/
def dfltNew (s : St) : PortalId × St :=
  match s.dflt with
  | some p => (p, s)
  | none => (s.next, { s with dflt := some s.next, next := s.next + 1 })

/-- `DefaultLocalPortal.__init__` (default_local_portal.py:29-38); `fails`: the initialisation of
the portal raises (e.g. the directory cannot be created) after the counter was increased. -/
def dfltInit (fails : Bool) (p : PortalId) (s : St) : Option St × St :=
  if s.calls > 0 then (some s, s)
  else
    let s := { s with calls := s.calls + 1 }
    if fails then (none, s) else (some (s.init p), s.init p)

/-- `DefaultLocalPortal()`: the portal (None: an exception) and the new state (default_local_portal.py:17-39) -/
def requestDefault (fails : Bool) (s : St) : Option PortalId × St :=
  match dfltNew s with
  | (p, s1) => match dfltInit fails p s1 with
    | (some _, s2) => (some p, s2)
    | (none, s2) => (none, s2)

/-- `BasicPortal._clear_all` (foundation.py:222-229): every registered portal is cleared, then the
registry and the stacks are emptied. Also `_clear_all` of all other classes but
DefaultLocalPortal as far as portals are concerned (logging_portals.py:185-193 additionally resets
exception handlers and the random generator). -/
def clearAllBase (s : St) : St :=
  { s with sys := clearAll s.sys
           usable := fun q => if q ∈ s.sys.all then false else s.usable q }

/-- `DefaultLocalPortal._clear_all` (default_local_portal.py:40-45) -/
def clearAllDefault (s : St) : St :=
  clearAllBase { s with dflt := none, calls := 0 }

/-- One step of a program (foundation.py:54-64, 112-139, 222-229, default_local_portal.py:17-45) -/
inductive Op
  | newPortal
  | request (fails : Bool)
  | enter (p : PortalId)
  | exit (p : PortalId)
  | clearBase
  | clearDefault
  deriving DecidableEq, Repr

/-- the effect of one step (foundation.py:54-64, 112-139, 222-229, default_local_portal.py:17-45) -/
def Op.step (s : St) : Op → St
  | .newPortal => (Life.newPortal s).2
  | .request f => (requestDefault f s).2
  | .enter p => { s with sys := (Portal.enter p s.sys).toOption.getD s.sys }
  | .exit p => { s with sys := (Portal.exit p s.sys).toOption.getD s.sys }
  | .clearBase => clearAllBase s
  | .clearDefault => clearAllDefault s

/-- a history of such steps (foundation.py:54-64, default_local_portal.py:17-45) -/
def runOps (s : St) (ops : List Op) : St := ops.foldl Op.step s

/-- `initialize(root_dict)` (top_level_API.py:7-10) as far as portals are concerned: clear through the
base class, create a portal, enter it -/
def initializeOps (s : St) : List Op := [.clearBase, .newPortal, .enter s.next]

/-! ## The portal tester -/

/-- exceptions (portal_tester.py:14-53) -/
inductive TErr
  | nested                 -- Exception("_PortalTester can't be nested")
  | portal (e : Err)       -- raised by the portal context or by user code
  | creation               -- the portal's constructor raised
  deriving DecidableEq, Repr

/-- state: the portal context and `_PortalTester._current_instance` (portal_tester.py:4-12) -/
structure TSt where
  sys : Sys := {}
  current : Option Nat := none
  nextTester : Nat := 0
  deriving DecidableEq, Repr

/-- programs that use testers; `make = some (q, fails)`: the tester creates the portal `q` (its
constructor raises if `fails`), `none`: no portal class was given (portal_tester.py:14-53) -/
inductive TProg
  | base (p : Prog)
  | clear                  -- BasicPortal._clear_all() called by the program
  | seq (a b : TProg)
  | tryExcept (a b : TProg)
  | tester (make : Option (PortalId × Bool)) (body : TProg)

/-- run a piece of code that only concerns the portal context (used for portal_tester.py:27-53) -/
def liftSys (m : PyM Err Sys Unit) : PyM TErr TSt Unit := fun s =>
  match m s.sys with
  | (.ok _, t) => (.ok (), { s with sys := t })
  | (.error e, t) => (.error (.portal e), { s with sys := t })

/-- `_PortalTester.__init__` (portal_tester.py:14-24): refuses while another tester is current;
becomes the current one -/
def testerInit : PyM TErr TSt Nat := fun s =>
  match s.current with
  | some _ => (.error .nested, s)
  | none => (.ok s.nextTester, { s with current := some s.nextTester, nextTester := s.nextTester + 1 })

/-- `_PortalTester.__enter__` (portal_tester.py:27-41) -/
def testerEnter (self : Nat) (make : Option (PortalId × Bool)) : PyM TErr TSt Unit := fun s =>
  match s.current with
  | some t => if t ≠ self then (.error .nested, s) else enterBody s
  | none => enterBody s
where
  /-- lines 31-40: clear everything; create the portal and enter it -/
  enterBody (s : TSt) : Except TErr Unit × TSt :=
    let s := { s with current := some self, sys := clearAll s.sys }
    match make with
    | none => (.ok (), s)
    | some (q, fails) =>
      if fails then (.error .creation, s)
      else liftSys (PyM.liftE (Portal.enter q)) { s with sys := register s.sys q }

/-- `_PortalTester.__exit__` (portal_tester.py:43-54): leave the portal (may raise: the rest is then
skipped), clear everything, no tester is current -/
def testerExit (make : Option (PortalId × Bool)) : PyM TErr TSt Unit := do
  match make with
  | none => PyM.ret ()
  | some (q, _) => liftSys (PyM.liftE (Portal.exit q))
  PyM.modify fun s => { s with sys := clearAll s.sys, current := none }

/-- execution (portal_tester.py:14-53) -/
def TProg.run : TProg → PyM TErr TSt Unit
  | .base p => liftSys p.run
  | .clear => PyM.modify fun s => { s with sys := clearAll s.sys }
  | .seq a b => do a.run; b.run
  | .tryExcept a b => PyM.tryExcept a.run (fun _ => b.run)
  | .tester make body => do
    let t ← testerInit
    testerEnter t make
    PyM.tryFinally body.run (testerExit make)

/-- the program does not clear the portals itself (about calls of foundation.py:222-229 inside of portal_tester.py:27-53) -/
def TProg.NoClear : TProg → Prop
  | .base _ => True
  | .clear => False
  | .seq a b => a.NoClear ∧ b.NoClear
  | .tryExcept a b => a.NoClear ∧ b.NoClear
  | .tester _ b => b.NoClear

end Pyth.Life
