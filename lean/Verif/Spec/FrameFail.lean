import Verif.Model.FrameFail
import Verif.Proofs.PortalStack
/-! # Specification: what a block has to put back (C103) -/
namespace Pyth.FrameFail
open Pyth.Portal (PortalId Sys)
open Pyth.World (Exc Kind)

/-- the portals are entered as before, output goes where it went before, and the same frames are running -/
structure Restored (s s' : St) : Prop where
  portals : s'.sys = s.sys
  output : s'.out = s.out
  frames : s'.stacks = s.stacks

/-- portal `p` was entered once more than it was left: it is the current portal, and leaving it once would
give the portals of `s` -/
structure StillEntered (p : PortalId) (s s' : St) : Prop where
  current : s'.sys.stack.head? = some p
  missing : Portal.exit p s'.sys = .ok s.sys

/-- a state of the portal context that a program can get to (see C01) -/
def Valid (s : St) : Prop := Portal.Rep s.sys.stack s.sys.counters

/-- buffers that are not in use yet are empty; the capturers in force have buffers of their own -/
structure Clean (s : St) : Prop where
  unused : ∀ b, s.nextBuf ≤ b → s.buffers b = []
  used : ∀ b ∈ s.out, b < s.nextBuf

end Pyth.FrameFail
