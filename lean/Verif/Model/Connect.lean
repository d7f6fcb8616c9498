import Verif.Model.Lifecycle
/-!
# Connecting to portals, and which portal a program works with

`initialize`, `connect_to_local_portal`, `connect_to_default_portal` (top_level_API.py:7-21) and the choice of the portal by
operations that are not told which one to use (`get_best_portal_to_use`, foundation.py:161-172).

Simplification: the description that these functions return is modelled elsewhere (C94); here only whether it can be made: a
cleared portal has no `root_dict`, its `describe` raises AttributeError (foundation.py:75-76, 216-219).
-/
namespace Pyth.Connect
open Pyth.Portal Pyth.Life

/-- `initialize(root_dict)` (top_level_API.py:7-11): the portal, and the new state -/
def initializeTo (s : St) : PortalId × St := (s.next, runOps s (initializeOps s))

/-- `connect_to_local_portal(root_dict, n_background_workers)` (top_level_API.py:13-17) -/
def connectLocal (s : St) : PortalId × St := newPortal s

/-- `connect_to_default_portal()` (top_level_API.py:19-21); `none`: an exception; `fails`: the construction of the portal raises,
if it takes place -/
def connectDefault (fails : Bool) (s : St) : Option PortalId × St :=
  match requestDefault fails s with
  | (none, s) => (none, s)
  | (some p, s) => if s.usable p then (some p, s) else (none, s)

/-- an operation that is not told which portal to use, like `ValueAddr(v)` (value_addresses.py:26-40), takes
`get_best_portal_to_use()` (foundation.py:161-172) -/
def use (s : St) : Option PortalId × St :=
  match s.sys.stack with
  | p :: _ => (some p, s)
  | [] => match mostRecentlyAdded s.sys with
    | some p => (some p, s)
    | none => requestDefault false s

/-- what a program does (top_level_API.py:7-33, foundation.py:112-139) -/
inductive Cmd
  | init
  | connectLocal
  | connectDefault (fails : Bool)
  | use
  /-- creating portals in another way, entering and leaving portals (also in disorder), clearing -/
  | other (op : Op)
  deriving DecidableEq, Repr

/-- the effect of one command; an exception leaves the state as the command left it (top_level_API.py:7-33, foundation.py:112-139) -/
def Cmd.step (s : St) : Cmd → St
  | .init => (Connect.initializeTo s).2
  | .connectLocal => (Connect.connectLocal s).2
  | .connectDefault f => (Connect.connectDefault f s).2
  | .use => (Connect.use s).2
  | .other op => op.step s

/-- a history; exceptions end the operation only (histories of top_level_API.py:7-33) -/
def run (s : St) (l : List Cmd) : St := l.foldl Cmd.step s

end Pyth.Connect
