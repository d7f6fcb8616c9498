import Verif.Model.PureFn
import Verif.Spec.ValueAddr
/-!
# Vocabulary for the properties of pure functions

The reference semantics `ref` runs a program without portals, caches, addresses and stores: a call
simply evaluates the guards and then the code of the function.
-/
namespace Pyth.Pure
open Pyth.World Pyth.Portal
open Pyth.ValueAddr (IsAddr HoldsVal)

variable {U A : Type} [DecidableEq U] [DecidableEq A]

/-- arguments as plain values -/
def rawKw (vals : List (String × U)) : Kw U := vals.map fun x => (x.1, .raw x.2)

/-- no statement of the code is nondeterministic -/
def Body.Det : Body U → Prop
  | .ret _ => True
  | .raise _ => True
  | .call _ _ k => ∀ u, (k u).Det
  | .tryCall _ _ k => ∀ r, (k r).Det
  | .print _ b => b.Det
  | .draw _ => False

/-- code of a function in the reference semantics; `rec` gives the outcome of nested calls -/
def refBody (rec : FnId → List (String × U) → Except Kind U) : Body U → Except Kind U
  | .ret u => .ok u
  | .raise n => .error (.user (n + 1))
  | .call g kw k => match rec g kw with
    | .ok u => refBody rec (k u)
    | .error e => .error e
  | .tryCall g kw k => match rec g kw with
    | .ok u => refBody rec (k (.ok u))
    | .error e => if e = diverge then .error e else refBody rec (k (.error e))
  | .print _ b => refBody rec b
  | .draw _ => .error diverge

/-- all guards, in order; the first exception ends the evaluation -/
def refGuards (rec : FnId → List (String × U) → Except Kind U) (vals : List (String × U)) :
    List FnId → Except Kind Unit
  | [] => .ok ()
  | g :: gs => match rec g vals with
    | .ok _ => refGuards rec vals gs
    | .error e => .error e

/-- Reference semantics of a call with plain values, cut off at nesting depth `n`
(`diverge` = cut off): a pure function first evaluates its guards, a failing guard makes the call
fail with `AssertionError`; then the code runs. -/
def ref (prog : FnId → Fn U) : Nat → FnId → List (String × U) → Except Kind U
  | 0, _, _ => .error diverge
  | n + 1, f, vals =>
    if (prog f).isPure then
      match refGuards (ref prog n) vals (prog f).guards with
      | .ok _ => refBody (ref prog n) ((prog f).body (rawKw (sortKw vals)))
      | .error e => if e = diverge then .error e else .error .assertionError
    else refBody (ref prog n) ((prog f).body (rawKw vals))

/-- the call terminates with outcome `r` in the reference semantics -/
def Den (prog : FnId → Fn U) (f : FnId) (vals : List (String × U)) (r : Except Kind U) : Prop :=
  r ≠ .error diverge ∧ ∃ n, ref prog n f vals = r

/-- A deterministic program: no nondeterministic statements, and the code of a function does not
depend on the order in which keyword arguments were written. -/
structure DetProg (prog : FnId → Fn U) : Prop where
  det : ∀ f vals, ((prog f).body (rawKw vals)).Det
  order : ∀ f vals, (prog f).body (rawKw (sortKw vals)) = (prog f).body (rawKw vals)

/-- What is accepted of a session: `ok f vals u` - `u` is an acceptable result of the call `f(**vals)`;
`may f vals` - the code of the pure function `f` may run with these arguments. -/
structure Accept (U : Type) where
  ok : FnId → List (String × U) → U → Prop
  may : FnId → List (String × U) → Prop

instance : CoeFun (Accept U) (fun _ => FnId → List (String × U) → U → Prop) := ⟨Accept.ok⟩

/-- everything is accepted: for statements about arbitrary programs -/
def anything (U : Type) : Accept U := ⟨fun _ _ _ => True, fun _ _ => True⟩

/-- only what the reference semantics says: for statements about deterministic programs -/
def correct (prog : FnId → Fn U) : Accept U :=
  ⟨fun f vals u => Den prog f vals (.ok u),
   fun f vals => ∀ g ∈ (prog f).guards, ∃ v, Den prog g vals (.ok v)⟩

variable (addrOf : Val U A → A)

/-- text of the address of a call signature -/
def sigText (f : FnId) (texts : List (String × A)) : A :=
  addrOf (.sig f (addrOf (.fn f)) (addrOf (.args texts)))

/-- addresses of the argument values -/
def texts (vals : List (String × U)) : List (String × A) := vals.map fun x => (x.1, addrOf (.user x.2))

/-- the address text of the call of `f` with (sorted) argument values -/
def callKey (f : FnId) (vals : List (String × U)) : Key A := (f, sigText addrOf f (texts addrOf vals))

/-- an argument stands for value `u`: it is the value, or an address of it bound to a portal which
holds it -/
def Denotes (s : PWorld U A) : Arg U → U → Prop
  | .raw v, u => v = u
  | .addr i, u => ∃ q, IsAddr s i (addrOf (.user u)) (some q) ∧
      HoldsVal s q (addrOf (.user u)) (.user u)

/-- arguments stand for the given values, name by name -/
def DenKw (s : PWorld U A) (kw : Kw U) (vals : List (String × U)) : Prop :=
  List.Forall₂ (fun x y => x.1 = y.1 ∧ Denotes addrOf s x.2 y.2) kw vals

end Pyth.Pure
