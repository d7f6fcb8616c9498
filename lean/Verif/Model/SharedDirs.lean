import Verif.Model.World
/-!
# Several portal objects and their directories: crash histories and event logs

`Model/World.lean` gives every portal its own storage and assumes that all portals write logs.  Here
the two assumptions are dropped: a portal object has a directory (`root_dict`), which other portal
objects may share, and a class, which may be `BasicPortal` itself.  What is kept of the logs is which
record is in which directory; the contents of the records are the subject of C59, C63 and C73.
-/
namespace Pyth.Shared
open Pyth.Portal (PortalId Sys)
open Pyth.World (Exc Kind ctxKind)

/-- a directory on disk (`portal.root_dict.base_dir`) (foundation.py:54-64) -/
abbrev Dir := Nat

/-- Static data of the portal objects: the directory given to the constructor (foundation.py:53-63)
and the depth of the class below `BasicPortal` (0 = `BasicPortal` itself, 1 = `LoggingPortal`, …). -/
structure Conf where
  dirOf : PortalId → Dir
  level : PortalId → Nat

/-- Run-time state.  `sig` counts the random signatures drawn (`get_random_signature`,
random_signatures.py); a signature is represented by its number, i.e. it is assumed that signatures do
not repeat.  `crash d` and `events d` are the keys of the two log dictionaries stored in directory
`d` (logging_portals.py:120-131), which are immutable: a key cannot be written twice. -/
structure St where
  sys : Sys := {}
  handling : List Exc := []
  marked : List Nat := []
  next : Nat := 0
  sig : Nat := 0
  crash : Dir → List Nat := fun _ => []
  events : Dir → List Nat := fun _ => []

/-- a Python computation over this state (foundation.py:112-133, logging_portals.py:310-330) -/
abbrev M := PyM Exc St Unit

/-- `raise` of a new exception object (user code) -/
def raiseNew (k : Kind) : M := fun s => (.error ⟨s.next, k⟩, { s with next := s.next + 1 })

/-- `for portal in portals: portal.<log>[path] = …` (logging_portals.py:253-254, 342-343): every
portal writes into its directory; a key that exists already is refused with a `KeyError` (persidict,
`immutable_items=True`), which ends the loop (`false`). -/
def putAll (conf : Conf) (r : Nat) : List PortalId → (Dir → List Nat) → Bool × (Dir → List Nat)
  | [], t => (true, t)
  | p :: ps, t =>
    if r ∈ t (conf.dirOf p) then (false, t)
    else putAll conf r ps (fun d => if d = conf.dirOf p then t d ++ [r] else t d)

/-- `LoggingPortal._persist_exception_information` with the one prefix `__CATCH_ALL__`
(logging_portals.py:222-258): marked exceptions are skipped; a signature is drawn;
`get_entered_portals` asserts that all entered portals are logging portals; the record is written into
all of them; the exception is marked. -/
def persist (conf : Conf) (e : Exc) : M := fun s =>
  if e.id ∈ s.marked then (.ok (), s)
  else
    let r := s.sig
    let s := { s with sig := s.sig + 1 }
    match Portal.entered conf.level 1 s.sys with
    | .error x => raiseNew (ctxKind x) s
    | .ok ps => match putAll conf r ps s.crash with
      | (true, t) => (.ok (), { s with crash := t, marked := e.id :: s.marked })
      | (false, t) => raiseNew .keyError { s with crash := t }

/-- `LoggingPortal._exception_logger` (logging_portals.py:309-323): `sys.exc_info()` -/
def exceptionLogger (conf : Conf) : M := fun s =>
  match s.handling with
  | [] => (.ok (), s)
  | e :: _ => persist conf e s

/-- `BasicPortal.__exit__` (foundation.py:122-132) -/
def baseExit (p : PortalId) : M := fun s =>
  match Portal.exit p s.sys with
  | .ok sys => (.ok (), { s with sys := sys })
  | .error e => raiseNew (ctxKind e) s

/-- `__exit__`: a logging portal calls the logger first (logging_portals.py:326-329) -/
def exitP (conf : Conf) (p : PortalId) : M :=
  if 1 ≤ conf.level p then PyM.bind (exceptionLogger conf) fun _ => baseExit p else baseExit p

/-- `__enter__` (foundation.py:112-120) -/
def enterP (p : PortalId) : M := fun s =>
  match Portal.enter p s.sys with
  | .ok sys => (.ok (), { s with sys := sys })
  | .error e => raiseNew (ctxKind e) s

/-- while `m` runs, `sys.exc_info()` is `e` (read by logging_portals.py:310-330) -/
def handlingE (e : Exc) (m : M) : M := fun s =>
  match m { s with handling := e :: s.handling } with
  | (r, s') => (r, { s' with handling := s'.handling.tail })

/-- `with p: body`: an exception raised by `__exit__` replaces the one of the body (foundation.py:112-133, logging_portals.py:326-330) -/
def withP (conf : Conf) (p : PortalId) (body : M) : M := fun s =>
  match enterP p s with
  | (.error e, s1) => (.error e, s1)
  | (.ok _, s1) => match body s1 with
    | (.ok _, s2) => exitP conf p s2
    | (.error e, s2) => match handlingE e (exitP conf p) s2 with
      | (.ok _, s3) => (.error e, s3)
      | (.error e', s3) => (.error e', s3)

/-- `log_event` without an explicit id (logging_portals.py:331-343) -/
def logEvent (conf : Conf) : M := fun s =>
  let r := s.sig
  let s := { s with sig := s.sig + 1 }
  match Portal.entered conf.level 1 s.sys with
  | .error x => raiseNew (ctxKind x) s
  | .ok ps => match putAll conf r ps s.events with
    | (true, t) => (.ok (), { s with events := t })
    | (false, t) => raiseNew .keyError { s with events := t }

/-- user programs (user code with blocks of foundation.py:112-133, logging_portals.py:326-330) -/
inductive Prog
  | skip
  | raise (k : Kind)
  | logEvent
  | new (p : PortalId)
  | seq (a b : Prog)
  | tryExcept (a b : Prog)
  | within (p : PortalId) (a : Prog)

/-- execution of a program (foundation.py:112-133, logging_portals.py:326-330) -/
def Prog.run (conf : Conf) : Prog → M
  | .skip => PyM.ret ()
  | .raise k => raiseNew k
  | .logEvent => Shared.logEvent conf
  | .new p => PyM.modify fun s => { s with sys := Portal.register s.sys p }
  | .seq a b => PyM.bind (a.run conf) fun _ => b.run conf
  | .tryExcept a b => PyM.tryExcept (a.run conf) fun e => handlingE e (b.run conf)
  | .within p a => withP conf p (a.run conf)

/-- what happens at the top level of a session: programs, and explicit `portal.__enter__()` calls (as
in `initialize`, top_level_API.py:7-11); uncaught exceptions end the program, not the session -/
inductive Cmd
  | prog (a : Prog)
  | enter (p : PortalId)

/-- the effect of one command; an exception ends the command only (foundation.py:54-64, 112-133) -/
def Cmd.step (conf : Conf) (s : St) : Cmd → St
  | .prog a => (a.run conf s).2
  | .enter p => (enterP p s).2

/-- the state after a list of commands (histories of foundation.py:54-64, 112-133) -/
def session (conf : Conf) (l : List Cmd) : St := l.foldl (Cmd.step conf) {}

end Pyth.Shared
