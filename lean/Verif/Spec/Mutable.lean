import Verif.Model.Mutable
import Mathlib.Data.List.Forall2
/-!
# What objects that change may do (C108)

The value semantics: a function is a map from the contents of its arguments to the content of its result.  Each local
variable has its own content; there are no identities.
-/
namespace Pyth.Mutable

variable {C A : Type}

/-- the content of what the code returns, from the contents of the local variables; `none`: it raises -/
def eval : List C → Body C → Option C
  | vals, .ret x => vals[x]?
  | _, .raise => none
  | vals, .look x k => match vals[x]? with
    | some c => eval vals (k c)
    | none => none
  | vals, .change x c k => if x < vals.length then eval (vals.set x c) k else none
  | vals, .make c k => eval (vals ++ [c]) k

/-- the content of what the function returns, from the contents of its arguments -/
def evalFn (f : Fn C) (vals : List C) : Option C := if vals.length = f.arity then eval vals f.code else none

/-- the code changes the objects of these local variables only -/
def ChangesOnly (P : Nat → Prop) : Body C → Prop
  | .ret _ => True
  | .raise => True
  | .look _ k => ∀ c, ChangesOnly P (k c)
  | .change x _ k => P x ∧ ChangesOnly P k
  | .make _ k => ChangesOnly P k

/-- the function changes only objects that it made itself, never its arguments -/
def KeepsArgs (f : Fn C) : Prop := ChangesOnly (fun x => f.arity ≤ x) f.code

/-- guards change no argument; a function with more than one argument changes no argument -/
def Tame (prog : FnId → Fn C) : Prop :=
  ∀ f, (KeepsArgs (prog f) ∨ (prog f).arity ≤ 1) ∧ ∀ g ∈ (prog f).guards, KeepsArgs (prog g)

/-- the content that is meant by an argument now: the content of the object, or what is stored at the address -/
def ArgIs (s : St C A) : Arg → C → Prop
  | .obj i, c => s.objs[i]? = some c
  | .addr j, c => ∃ v, s.vas[j]? = some v ∧ s.store v.text = some c

/-- the same for all keyword arguments -/
def ArgsAre (s : St C A) (kw : List (String × Arg)) (vals : List (String × C)) : Prop :=
  List.Forall₂ (fun x y => x.1 = y.1 ∧ ArgIs s x.2 y.2) kw vals

/-- the key of the result of a call: from the contents of the arguments -/
def keyOf (hash : Data C A → A) (f : FnId) (vals : List (String × C)) : A :=
  hash (.call f (vals.map fun x => (x.1, hash (.plain x.2))))

end Pyth.Mutable
