import Verif.Model.Connect
/-! # What it means to work with a portal (C104) -/
namespace Pyth.Connect
open Pyth.Portal Pyth.Life

/-- The next operation that is not told which portal to use takes `p`, which is in working order, and leaves everything as it
is (so that the same holds for all the following ones). -/
def WorksWith (s : St) (p : PortalId) : Prop := use s = (some p, s) ∧ s.usable p = true

/-- no portal is entered -/
def Outside (s : St) : Prop := s.sys.stack = []

/-- commands that neither enter nor leave nor clear portals -/
def Calm : Cmd → Prop
  | .connectLocal | .connectDefault _ | .use | .other .newPortal | .other (.request _) => True
  | _ => False

/-- commands that neither clear portals through another class than that of the default portal (as `initialize` does)
nor fail to construct the default portal -/
def Proper : Cmd → Prop
  | .init | .connectDefault true | .other .clearBase | .other (.request true) => False
  | _ => True

end Pyth.Connect
