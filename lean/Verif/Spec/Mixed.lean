import Verif.Model.Mixed
/-!
# Further portals in a program (specification for C91)
-/
namespace Pyth.Mixed
open Pyth.Portal (PortalId Sys)

variable {A V : Type}

/-- some known portal that is not the current one is not of class `cls` -/
def Foreign (c : Ctx) (cls : Nat) : Prop := ∃ q ∈ c.sys.all, some q ≠ c.sys.stack.head? ∧ c.level q < cls

/-- the same program with one more portal, created last -/
def Ctx.add (c : Ctx) (q : PortalId) : Ctx := { c with sys := { c.sys with all := c.sys.all ++ [q] } }

/-- a portal without values and results -/
def Mem.Empty (m : Mem A V) (q : PortalId) : Prop := (∀ a, m.store q a = none) ∧ ∀ a, m.results q a = none

end Pyth.Mixed
