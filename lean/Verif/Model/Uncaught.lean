import Verif.Model.UserProg
import Verif.Model.Events
/-!
# Uncaught exceptions

What happens when an exception leaves the top level of a program (in a notebook: of a cell): the interpreter calls
`sys.excepthook`, IPython calls its custom handler if there is one and its usual traceback display otherwise.

Simplifications: printing a traceback succeeds; hooks other than those of the library do not use the library.
-/
namespace Pyth.Pure
open Pyth.World Pyth.Events

variable {U A : Type} [DecidableEq U] [DecidableEq A]

/-- what the user sees of an uncaught exception (logging_portals.py:21-29) -/
inductive Shown
  /-- the traceback of the exception -/
  | traceback (e : Nat)
  /-- whatever another hook does with it -/
  | byHook (n : Nat) (e : Nat)
  deriving DecidableEq, Repr

/-- `pth_excepthook` (logging_portals.py:21-23).  While `sys.excepthook` runs, the exception is not being handled:
`sys.exc_info()` is what it was outside of the program, so `_exception_logger` (lines 309-323) sees no exception. -/
def pthExceptHook (e : Exc) (s : PWorld U A) : Shown × PWorld U A := (.traceback e.id, exceptionLogger s)

/-- `pth_excepthandler` (logging_portals.py:25-28).  IPython calls it inside the `except` clause that caught the
exception, so `sys.exc_info()` is the exception. -/
def pthExceptHandler (e : Exc) (s : PWorld U A) : Shown × PWorld U A :=
  match handlingE e (fun s => (.ok (), exceptionLogger s)) s with
  | (_, s) => (.traceback e.id, s)

/-- the interpreter's reaction to an uncaught exception.  Scripts use `sys.excepthook`; IPython uses its custom
handler, and shows the traceback itself if there is none (it ignores `sys.excepthook`, which therefore has no effect in
a notebook even if `set_custom_exc` failed). (logging_portals.py:21-65) -/
def uncaught (h : HookSt) (e : Exc) (s : PWorld U A) : Shown × PWorld U A :=
  match h.env with
  | .script => match h.hook with
    | .pth => pthExceptHook e s
    | .other n => (.byHook n e.id, s)
  | .notebook => if h.custom then pthExceptHandler e s else (.traceback e.id, s)
  | .broken => (.traceback e.id, s)

/-- a program (a cell of a notebook) run at top level; the hooks are those installed when the exception arrives
(logging_portals.py:21-65) -/
def runTop (addrOf : Val U A → A) (prog : FnId → Fn U) (h : HookSt) (a : UProg U A) (s : PWorld U A) :
    Option Shown × PWorld U A :=
  match a.run addrOf prog s with
  | (.ok _, s) => (none, s)
  | (.error e, s) => match uncaught h e s with
    | (o, s) => (some o, s)

end Pyth.Pure
