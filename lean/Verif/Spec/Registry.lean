import Verif.Model.Registry
import Verif.Spec.Analyzer
import Verif.Spec.CallGraph
/-!
# Vocabulary for the properties of registered functions (C45, C47–C52)
-/
namespace Pyth.Registry
open Pyth.Analyzer

/-- the definition of the function as a syntax tree: name, parameters, `*args`, `**kwargs`, body -/
def definition (s : Src) : Node := .funcDef s.name s.args s.vararg s.kwarg s.body

/-- the function uses `x` from outside: in its own code or in nested functions, without binding it, or it declares
`x` global -/
def Uses (s : Src) (x : String) : Prop := Needs x (definition s) ∨ Declares true x (definition s)

/-- a yield at the function's own level -/
def Generator (s : Src) : Prop := YieldsAny s.body

/-- the function refers to `x`: its analysis reports `x` -/
def Refers (s : Src) (x : String) : Prop := ∃ a, analyze (definition s) = some a ∧ x ∈ a.glob ++ a.nonl ++ a.uncl

/-- function `b` of the island is `a` itself or is referred to by function `a` of the island -/
def Link (R : Reg) (p : Nat) (isl : String) (a b : String) : Prop :=
  (∃ r, R.at ⟨p, isl, b⟩ = some r) ∧ ∃ r, R.at ⟨p, isl, a⟩ = some r ∧ (b = a ∨ Refers r.src b)

/-- a session starts without known functions -/
def Reachable (E : Env) (R : Reg) : Prop := ∃ ops, R = run E {} ops

/-- iteration over a set visits every element once -/
def Env.Ok (E : Env) : Prop := ∀ l, (E.iter l).Perm l

end Pyth.Registry
