import Verif.Model.UserProg
/-!
# Vocabulary for the properties of crash logs (C56, C58)
-/
namespace Pyth.Pure
open Pyth.World Pyth.Portal

variable {U A : Type} [DecidableEq U] [DecidableEq A] (addrOf : Val U A → A)

/-- A fresh session: nothing entered, nothing being handled, nothing logged in this session yet (crash
histories are counted from the start of the session). -/
structure FreshLogs (s : PWorld U A) : Prop where
  stack : s.sys.stack = []
  counters : s.sys.counters = []
  handling : s.handling = []
  marked : s.marked = []
  crashes : ∀ q, s.crashes q = []

/-- a state of some session, after any history whatsoever -/
def InSession (prog : FnId → Fn U) (s : PWorld U A) : Prop :=
  ∃ s0 ops, FreshLogs s0 ∧ session addrOf prog s0 ops = s

/-- exception `e` was already written to crash histories (it carries the note `__suppress_logging__`) -/
def Logged (s : PWorld U A) (e : Exc) : Prop := e.id ∈ s.marked

/-- the number of records of exception `e` among all exceptions (`__CATCH_ALL__`) in portal `q` -/
def recordsOf (s : PWorld U A) (q : PortalId) (e : Exc) : Nat := (s.crashes q).count ⟨e.id, none⟩

/-- the portals whose `with` block is open -/
def Entered (s : PWorld U A) (q : PortalId) : Prop := q ∈ s.sys.stack

/-- the operation is running inside an `except` clause -/
def InExcept (s : PWorld U A) : Prop := s.handling ≠ []

/-- some exception object was created between the two states -/
def Raised (s s' : PWorld U A) : Prop := s.nextExc ≠ s'.nextExc

end Pyth.Pure
