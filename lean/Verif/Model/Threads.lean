import Verif.Model.PortalStack
/-!
# Portal contexts and threads

`BasicPortal.entered_portals_stack` and `entered_portals_counters_stack` (foundation.py:48-50) are class attributes: all
threads of a program share them.  Here threads take turns in the middle of `__enter__` and `__exit__` (foundation.py:112-132).
Every access to one of the two lists is one step.  (Where a given version of Python can in fact switch between threads is not
assumed; the lists themselves are not damaged.)
-/
namespace Pyth.Threads
open Pyth.Portal (PortalId Err Sys)

/-- what a thread does: enter and leave portals, and look which portal is current
(`get_most_recently_entered_portal`, foundation.py:140-158) -/
inductive Cmd
  | enter (p : PortalId)
  | exit (p : PortalId)
  | look
  deriving DecidableEq, Repr

/-- where a thread is (foundation.py:112-133) -/
inductive Pc
  /-- between two commands -/
  | idle
  /-- `__enter__`: `len(stack) == 0` was false, next is `id(stack[-1]) != id(self)` (lines 114-115) -/
  | eTop (p : PortalId)
  /-- next is `stack.append(self)` (line 116) -/
  | ePush (p : PortalId)
  /-- next is `counters.append(1)` (line 117) -/
  | eOne (p : PortalId)
  /-- `counters[-1] += 1` (line 119): next is reading, or writing the number that was read plus one -/
  | eRead (p : PortalId)
  | eWrite (p : PortalId) (c : Int)
  /-- `__exit__`: the assertion (line 124) holds, next is `counters[-1] == 1` (line 128) -/
  | xCount (p : PortalId)
  /-- next is `stack.pop()` (line 129), `counters.pop()` (line 130) -/
  | xPop (p : PortalId)
  | xPop2 (p : PortalId)
  /-- `counters[-1] -= 1` (line 132) -/
  | xRead (p : PortalId)
  | xWrite (p : PortalId) (c : Int)
  /-- an exception was raised.  Simplification: the thread ends. -/
  | failed (e : Err)
  deriving DecidableEq, Repr

/-- a thread: what it has still to do, the blocks it is in (innermost first), which portals it has seen as current
(user code with blocks of foundation.py:112-133) -/
structure Thread where
  todo : List Cmd
  pc : Pc := .idle
  inside : List PortalId := []
  seen : List (Option PortalId) := []
  deriving DecidableEq, Repr

/-- a program with several threads (foundation.py:48-50) -/
structure St where
  sys : Sys := {}
  threads : List Thread
  deriving DecidableEq, Repr

/-- the first step of a command (foundation.py:112-133, 141-159) -/
def begin (sys : Sys) (t : Thread) : Sys × Thread :=
  match t.todo with
  | [] => (sys, t)
  | .enter p :: r => (sys, { t with todo := r, pc := if sys.stack = [] then .ePush p else .eTop p })
  | .exit p :: r => match sys.stack with
    | [] => (sys, { t with todo := r, pc := .failed .indexError })
    | q :: _ => (sys, { t with todo := r, pc := if q = p then .xCount p else .failed .assertionError })
  | .look :: r => (sys, { t with todo := r, seen := t.seen ++ [sys.stack.head?] })

/-- one step of a thread (foundation.py:112-133, 141-159) -/
def move (sys : Sys) (t : Thread) : Sys × Thread :=
  match t.pc with
  | .idle => begin sys t
  | .eTop p => match sys.stack with
    | [] => (sys, { t with pc := .failed .indexError })
    | q :: _ => (sys, { t with pc := if q = p then .eRead p else .ePush p })
  | .ePush p => ({ sys with stack := p :: sys.stack }, { t with pc := .eOne p })
  | .eOne p => ({ sys with counters := 1 :: sys.counters }, { t with pc := .idle, inside := p :: t.inside })
  | .eRead p => match sys.counters with
    | [] => (sys, { t with pc := .failed .indexError })
    | c :: _ => (sys, { t with pc := .eWrite p c })
  | .eWrite p c => match sys.counters with
    | [] => (sys, { t with pc := .failed .indexError })
    | _ :: cs => ({ sys with counters := (c + 1) :: cs }, { t with pc := .idle, inside := p :: t.inside })
  | .xCount p => match sys.counters with
    | [] => (sys, { t with pc := .failed .indexError })
    | c :: _ => (sys, { t with pc := if c = 1 then .xPop p else .xRead p })
  | .xPop p => match sys.stack with
    | [] => (sys, { t with pc := .failed .indexError })
    | _ :: st => ({ sys with stack := st }, { t with pc := .xPop2 p })
  | .xPop2 _ => match sys.counters with
    | [] => (sys, { t with pc := .failed .indexError })
    | _ :: cs => ({ sys with counters := cs }, { t with pc := .idle, inside := t.inside.tail })
  | .xRead p => match sys.counters with
    | [] => (sys, { t with pc := .failed .indexError })
    | c :: _ => (sys, { t with pc := .xWrite p c })
  | .xWrite _ c => match sys.counters with
    | [] => (sys, { t with pc := .failed .indexError })
    | _ :: cs => ({ sys with counters := (c - 1) :: cs }, { t with pc := .idle, inside := t.inside.tail })
  | .failed _ => (sys, t)

/-- thread number `i` makes a step (foundation.py:112-133, 141-159) -/
def stepAt (s : St) (i : Nat) : St :=
  match s.threads[i]? with
  | none => s
  | some t => { sys := (move s.sys t).1, threads := s.threads.set i (move s.sys t).2 }

/-- a schedule: which thread makes the next step (interleavings of foundation.py:112-133, 141-159) -/
def run (s : St) (sched : List Nat) : St := sched.foldl stepAt s

/-! ## Whole commands at once -/

/-- a whole command without interruption (`Portal.enter`, `Portal.exit`) (foundation.py:112-133) -/
def whole (sys : Sys) (t : Thread) : Sys × Thread :=
  match t.pc, t.todo with
  | .idle, .enter p :: r => match Portal.enter p sys with
    | .ok sys' => (sys', { t with todo := r, inside := p :: t.inside })
    | .error e => (sys, { t with todo := r, pc := .failed e })
  | .idle, .exit p :: r => match Portal.exit p sys with
    | .ok sys' => (sys', { t with todo := r, inside := t.inside.tail })
    | .error e => (sys, { t with todo := r, pc := .failed e })
  | .idle, .look :: r => (sys, { t with todo := r, seen := t.seen ++ [sys.stack.head?] })
  | _, _ => (sys, t)

/-- thread number `i` executes a whole command (foundation.py:112-133) -/
def wholeAt (s : St) (i : Nat) : St :=
  match s.threads[i]? with
  | none => s
  | some t => { sys := (whole s.sys t).1, threads := s.threads.set i (whole s.sys t).2 }

/-- threads switch between commands only (interleavings of whole calls of foundation.py:112-133) -/
def runWhole (s : St) (sched : List Nat) : St := sched.foldl wholeAt s

end Pyth.Threads
