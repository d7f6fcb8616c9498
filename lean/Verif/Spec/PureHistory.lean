import Verif.Model.PureHistory
import Verif.Spec.PureFn
/-!
# Vocabulary for the properties of sessions with pure functions
-/
namespace Pyth.Pure
open Pyth.World Pyth.Portal
open Pyth.ValueAddr (IsAddr HoldsVal)

variable {U A : Type} [DecidableEq U] [DecidableEq A] (addrOf : Val U A → A)

/-- the key is the address text of some call: sorted argument names, with addresses of the values -/
def IsCallKey (k : Key A) : Prop :=
  ∃ ts : List (String × A), k.2 = sigText addrOf k.1 ts ∧ ts.Pairwise (fun a b => a.1 ≤ b.1)

/-- A fresh session.  The portals may hold values, results and requests of earlier sessions and other
processes: values under their own addresses, results that point to a value held by the same portal,
and accepted by `K`; no function is running. -/
structure PStart (K : Accept U) (s : PWorld U A) : Prop where
  base : ValueAddr.Start addrOf s
  results : ∀ p k a, (s.ext.results p).data k = some a →
    ∃ u, a = addrOf (.user u) ∧ HoldsVal s p a (.user u) ∧
      ∀ vals, k = callKey addrOf k.1 vals → K k.1 vals u
  requests : ∀ p k, s.ext.requests p k = true → IsCallKey addrOf k
  check : ∀ p, (s.ext.results p).pCheck = s.ext.pCfg p
  objects : s.ext.raddrs = []
  trace : s.ext.trace = []

/-- a program whose guards are all pure functions -/
def PureGuards (prog : FnId → Fn U) : Prop := ∀ f, ∀ g ∈ (prog f).guards, (prog g).isPure = true

/-- object `r` is the address of a call of a pure function, in portal `p` -/
def IsResAddr (s : PWorld U A) (r : Nat) (k : Key A) (p : PortalId) : Prop :=
  ∃ o, s.ext.raddrs[r]? = some o ∧ o.key = k ∧ o.portal = p

/-- portal `p` holds everything needed to run the call with key `k` (function, argument record,
argument values, signature), so that its address can be executed by anybody -/
def Runnable (s : PWorld U A) (p : PortalId) (k : Key A) (vals : List (String × U)) : Prop :=
  k = callKey addrOf k.1 vals ∧
  HoldsVal s p k.2 (.sig k.1 (addrOf (.fn k.1)) (addrOf (.args (texts addrOf vals)))) ∧
  HoldsVal s p (addrOf (.fn k.1)) (.fn k.1) ∧
  HoldsVal s p (addrOf (.args (texts addrOf vals))) (.args (texts addrOf vals)) ∧
  ∀ x ∈ vals, HoldsVal s p (addrOf (.user x.2)) (.user x.2)

/-- What is required of a step: address operations are for pure functions, shuffling rearranges,
address texts are texts of calls, results stored by other processes are accepted by `K`, and a
request is only dropped by others when there is a result. -/
def Legal (prog : FnId → Fn U) (K : Accept U) (s : PWorld U A) :
    POp U A → Prop
  | .address _ f _ | .swarm _ f _ | .run _ _ f _ => (prog f).isPure = true
  | .swarmList sh _ f _ => (prog f).isPure = true ∧ ∀ l, (sh l).Perm l
  | .runList _ sh1 sh2 _ f _ => (prog f).isPure = true ∧ (∀ l, (sh1 l).Perm l) ∧ ∀ l, (sh2 l).Perm l
  | .fromKey _ k => IsCallKey addrOf k
  | .rexec _ r => ∀ k p, IsResAddr s r k p → (prog k.1).isPure = true
  | .foreignResult _ f vals u => K f (sortKw vals) u
  | _ => True

/-- Additional requirements for statements about the values computed by deterministic programs:
address arguments of executed calls stand for values (`DenKw`), code that receives address objects
as arguments is code of pure functions only. -/
def LegalDet (prog : FnId → Fn U) (s : PWorld U A) : POp U A → Prop
  | .call _ _ f kw => ∃ vals, kw = rawKw vals ∨
      (DenKw addrOf s kw vals ∧ (prog f).isPure = true ∧ PureGuards prog)
  | .run _ _ _ kw => PureGuards prog ∧ ∃ vals, DenKw addrOf s kw vals
  | .runList _ _ _ _ _ l => PureGuards prog ∧ ∃ vs, List.Forall₂ (DenKw addrOf s) l vs
  | .rexec _ r => PureGuards prog ∧ ∀ o, s.ext.raddrs[r]? = some o →
      ∃ vals, Runnable addrOf s o.portal o.key vals ∧ ∀ l, o.args = some l → DenKw addrOf s l vals
  | _ => True

/-- the step may withdraw a request without a result: explicit dropping -/
def POp.drops : POp U A → Prop
  | .rdrop _ => True
  | .foreignDrop _ _ => True
  | _ => False

/-- every step of the history is legal -/
def LegalAll (prog : FnId → Fn U) (K : Accept U) :
    PWorld U A → List (POp U A) → Prop
  | _, [] => True
  | s, op :: ops => Legal addrOf prog K s op ∧ LegalAll prog K (op.step addrOf prog s) ops

/-- every step of the history is legal for a deterministic program -/
def LegalDetAll (prog : FnId → Fn U) : PWorld U A → List (POp U A) → Prop
  | _, [] => True
  | s, op :: ops => LegalDet addrOf prog s op ∧ LegalDetAll prog (op.step addrOf prog s) ops

/-- a state of some session of an arbitrary program -/
def Reached (prog : FnId → Fn U) (s : PWorld U A) : Prop :=
  ∃ s0 ops, PStart addrOf (anything U) s0 ∧ LegalAll addrOf prog (anything U) s0 ops ∧
    session addrOf prog s0 ops = s

/-- a state of some session of a deterministic program; results found in the portals at the start, or
stored by other processes meanwhile, are correct -/
def ReachedDet (prog : FnId → Fn U) (s : PWorld U A) : Prop :=
  ∃ s0 ops, PStart addrOf (correct prog) s0 ∧ LegalAll addrOf prog (correct prog) s0 ops ∧
    LegalDetAll addrOf prog s0 ops ∧ session addrOf prog s0 ops = s

/-- portal `p` has a stored result of the call `f(**vals)`, and its value is `u` -/
def Stored (s : PWorld U A) (p : PortalId) (f : FnId) (vals : List (String × U)) (u : U) : Prop :=
  (s.ext.results p).data (keyOf addrOf f vals) = some (addrOf (.user u)) ∧
    HoldsVal s p (addrOf (.user u)) (.user u)

/-- portal `p` has no stored result of the call `f(**vals)` -/
def NoResult (s : PWorld U A) (p : PortalId) (f : FnId) (vals : List (String × U)) : Prop :=
  (s.ext.results p).data (keyOf addrOf f vals) = none

/-- an execution of the call `f(**vals)` is requested in portal `p` -/
def Requested (s : PWorld U A) (p : PortalId) (f : FnId) (vals : List (String × U)) : Prop :=
  s.ext.requests p (keyOf addrOf f vals) = true

/-- run history, output, running functions and trace are the same in both states: nothing was executed
in between -/
structure NothingRan (s s' : PWorld U A) : Prop where
  attempts : s'.ext.attempts = s.ext.attempts
  outputs : s'.ext.outputs = s.ext.outputs
  results : s'.ext.resultRecs = s.ext.resultRecs
  crashes : s'.ext.crashRecs = s.ext.crashRecs
  screen : s'.ext.screen = s.ext.screen
  runs : s'.ext.nextRun = s.ext.nextRun
  trace : s'.ext.trace = s.ext.trace

/-- The run that was started in state `s` is recorded in the run history of the call with address text
`k`: an attempt with a new run number, and exactly what the run printed. -/
structure RunRecorded (s s' : PWorld U A) (p : PortalId) (k : Key A) : Prop where
  attempt : (s.ext.attempts p k ++ [s.ext.nextRun]) <+: s'.ext.attempts p k
  output : ∃ out, s'.ext.screen = s.ext.screen ++ out ∧ (s.ext.nextRun, out) ∈ s'.ext.outputs p k

/-- The run that was started in state `s` failed with an exception of class `e`, and this is recorded: an
attempt with a new run number, and what the run printed followed by the traceback (which is also shown on
the screen). -/
structure FailureRecorded (s s' : PWorld U A) (p : PortalId) (k : Key A) (e : Kind) : Prop where
  attempt : (s.ext.attempts p k ++ [s.ext.nextRun]) <+: s'.ext.attempts p k
  output : ∃ out, s'.ext.screen = s.ext.screen ++ (out ++ [tracebackOf e]) ∧
    (s.ext.nextRun, out ++ [tracebackOf e]) ∈ s'.ext.outputs p k

/-- the result record of that run says that the code returned `u` -/
def ResultRecorded (s s' : PWorld U A) (p : PortalId) (k : Key A) (u : U) : Prop :=
  (s.ext.nextRun, addrOf (.user u)) ∈ s'.ext.resultRecs p k

/-- no portal has a stored result of the call `f(**vals)` -/
def NoResultAnywhere (s : PWorld U A) (f : FnId) (vals : List (String × U)) : Prop :=
  ∀ q, NoResult addrOf s q f vals

/-- consistency checks are switched off in portal `p` -/
def ChecksOff (s : PWorld U A) (p : PortalId) : Prop := s.ext.pCfg p = none ∨ s.ext.pCfg p = some 0

/-- the event: the code of the pure function `g` starts with the arguments `vals` (in the order of their names) -/
def isRun (g : FnId) (vals : List (String × U)) : Event U → Bool
  | .start f kw true => decide (f = g ∧ kw = rawKw (sortKw vals))
  | _ => false

/-- the number of executions of the code of `g(**vals)` in the session so far -/
def codeRuns (s : PWorld U A) (g : FnId) (vals : List (String × U)) : Nat := s.ext.trace.countP (isRun g vals)

end Pyth.Pure
