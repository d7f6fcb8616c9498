import Verif.Model.HashAddr
import Verif.Model.RunRecords
/-!
# Where crash records are stored

Paths of the records in a portal's `crash_history` and what happens to a record whose path is not acceptable.

`crash_history` is an immutable dictionary (logging_portals.py:122-127): it refuses keys that exist already.  Like all
dictionaries of persidict it refuses keys with characters outside of its set of safe characters (external library, taken
from its documentation; the set is the one used by `replace_unsafe_chars`).  One portal is modelled; the contents of
a record are its crash.
-/
namespace Pyth.CrashPath
open Pyth.HashAddr (safeChars)
open Pyth.RunRecords (str)

/-- the class of the function object; `SafeFn` inherits everything here from `OrdinaryFn`
(ordinary_core_classes.py:46, autonomous_core_classes.py:112, pure_core_classes.py:134) -/
inductive Cls | ordinary | autonomous | pure
  deriving DecidableEq, Repr

/-- a function of the program (ordinary_core_classes.py:46-85) -/
structure FnRef where
  cls : Cls
  name : List Char
  /-- for ordinary functions not used -/
  island : List Char := []
  deriving DecidableEq, Repr

/-- what makes the id of a record unique (logging_portals.py:197-206) -/
inductive Tail
  /-- a random signature (logging_portals.py:248-249, for ids that need randomization) -/
  | random (sig : List Char)
  /-- session id of the execution frame and number of the exception in it (pure_core_classes.py:338-341) -/
  | frame (session : List Char) (counter : Nat)
  deriving DecidableEq, Repr

/-- an exception leaving a function: the exception object, its class name, the day (logging_portals.py:223-265) -/
structure Crash where
  fn : FnRef
  exc : Nat
  excClass : List Char
  date : List Char
  tail : Tail
  deriving DecidableEq, Repr

/-- the first of `_exception_prefixes()` (ordinary_core_classes.py:143-145, autonomous_core_classes.py:298-300,
pure_core_classes.py:319-321) -/
def fnPrefix (f : FnRef) : List Char :=
  match f.cls with
  | .ordinary => f.name ++ "_ORD".toList
  | .autonomous => f.name ++ '_' :: f.island ++ "_AUTON".toList
  | .pure => f.name ++ '_' :: f.island ++ "_PURE".toList

/-- `LoggingPortal._exception_prefixes()` (logging_portals.py:298-299) -/
def catchAll : List Char := "__CATCH_ALL__".toList

/-- `_exception_id` without its unique part (logging_portals.py:302-303, ordinary_core_classes.py:147-150,
autonomous_core_classes.py:299-302) -/
def idBase (c : Crash) : List Char :=
  match c.fn.cls with
  | .ordinary => c.excClass ++ '_' :: c.fn.name
  | .autonomous => c.excClass ++ '_' :: c.fn.name ++ '_' :: c.fn.island
  | .pure => c.excClass ++ '_' :: c.fn.name ++ '_' :: c.fn.island

/-- the id (pure_core_classes.py:336-343, logging_portals.py:248-249) -/
def excId (c : Crash) : List Char :=
  match c.tail with
  | .random sig => idBase c ++ '_' :: sig
  | .frame s n => idBase c ++ '_' :: (s ++ '_' :: str n)

/-- the key of a crash record (logging_portals.py:223-265) -/
abbrev Path := List (List Char)

/-- the paths of the record (logging_portals.py:251-252), in the order of writing -/
def paths (c : Crash) : List Path := [[fnPrefix c.fn, excId c], [catchAll, c.date, excId c]]

/-- the crash history of a portal (logging_portals.py:120-139) -/
abbrev Hist := List (Path × Crash)

/-- acceptable keys (persidict's keys, for logging_portals.py:223-265) -/
def safePath (p : Path) : Bool := p.all fun s => !s.isEmpty && s.all fun c => decide (c ∈ safeChars)

/-- `portal.crash_history[path] = …`; `none`: an exception (logging_portals.py:223-265) -/
def put (h : Hist) (p : Path) (c : Crash) : Option Hist :=
  if safePath p && (h.lookup p).isNone then some (h ++ [(p, c)]) else none

/-- the loop over the paths (logging_portals.py:251-254) -/
def putAll (c : Crash) : List Path → Hist → Hist × Bool
  | [], h => (h, true)
  | p :: ps, h => match put h p c with
    | none => (h, false)
    | some h => putAll c ps h

/-- what the caller of the function gets (ordinary_core_classes.py:175-197) -/
inductive Seen | original (exc : Nat) | storage
  deriving DecidableEq, Repr

/-- the end of the `except` clause of `execute` (ordinary_core_classes.py:187-196): the record is written, then the exception is
raised again -/
def crash (h : Hist) (c : Crash) : Hist × Seen :=
  match putAll c (paths c) h with
  | (h, true) => (h, .original c.exc)
  | (h, false) => (h, .storage)

/-- a sequence of crashes (histories of logging_portals.py:310-324) -/
def crashes (h : Hist) : List Crash → Hist × List Seen
  | [] => (h, [])
  | c :: cs => match crash h c with
    | (h, o) => match crashes h cs with
      | (h, os) => (h, o :: os)

end Pyth.CrashPath
