import Verif.Model.PortalStack
/-!
# Specification of the portal context: a plain stack of enter events

No counters: every successful `enter` pushes its portal, every successful `exit` pops one entry.
-/
namespace Pyth.PlainStack
open Pyth.Portal (PortalId Err Call)

/-- known portals in creation order, and unfinished enter events, innermost first -/
structure State where
  known : List PortalId := []
  events : List PortalId := []
  deriving DecidableEq, Repr

/-- leaving a portal is legal iff it is the innermost entered one -/
def exit (p : PortalId) (st : State) : Except Err State :=
  match st.events with
  | [] => .error .indexError
  | q :: rest => if q = p then .ok { st with events := rest } else .error .assertionError

def step (st : State) : Call → State
  | .enter p => { st with events := p :: st.events }
  | .exit p => match exit p st with
    | .ok st' => st'
    | .error _ => st
  | .new p => if p ∈ st.known then st else { st with known := st.known ++ [p] }
  | .exitAll => { st with events := [] }
  | .clearAll => {}

/-- the state after a history of calls -/
def replay (h : List Call) : State := h.foldl step {}

/-- the current portal: the innermost unfinished enter event -/
def current (st : State) : Option PortalId := st.events.head?

end Pyth.PlainStack
