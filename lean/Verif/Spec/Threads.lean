import Verif.Model.Threads
/-! # Specification: threads with portal blocks (C109) -/
namespace Pyth.Threads
open Pyth.Portal (PortalId Err Sys)

/-- the code of a thread: `with p: …` blocks and looks at the current portal, one after the other and nested -/
inductive Prog
  | done
  | look (rest : Prog)
  | block (p : PortalId) (body rest : Prog)

/-- the commands of the code -/
def Prog.cmds : Prog → List Cmd
  | .done => []
  | .look r => .look :: r.cmds
  | .block p b r => .enter p :: b.cmds ++ .exit p :: r.cmds

/-- which portal each look should find: that of the innermost block around it in the code of the thread -/
def Prog.views (here : Option PortalId) : Prog → List (Option PortalId)
  | .done => []
  | .look r => here :: r.views here
  | .block p b r => b.views (some p) ++ r.views here

/-- all blocks are of portal `p` -/
def Prog.Only (p : PortalId) : Prog → Prop
  | .done => True
  | .look r => r.Only p
  | .block q b r => q = p ∧ b.Only p ∧ r.Only p

/-- a program whose threads have not begun -/
def start (progs : List Prog) : St := { threads := progs.map fun P => { todo := P.cmds } }

/-- a thread is outside of all of its blocks -/
def Outside (t : Thread) : Prop := t.inside = [] ∧ t.pc = .idle

/-- a thread makes steps only while all other threads are outside of their blocks, as with a lock that is taken before a
block is entered and released when it has been left -/
def Locked (s : St) : List Nat → Prop
  | [] => True
  | i :: r => (∀ j t, j ≠ i → s.threads[j]? = some t → Outside t) ∧ Locked (stepAt s i) r

/-- a thread has come to the end of its code -/
def Finished (t : Thread) : Prop := t.todo = [] ∧ t.pc = .idle

end Pyth.Threads
