import Verif.Spec.Registry
/-!
# Vocabulary for changes of code (C107)
-/
namespace Pyth.Registry

/-- what a session has registered under a name: the source of the function and its decorator -/
def Code (R : Reg) (p : Nat) (isl x : String) : Option (Src × Deco) := (R.at ⟨p, isl, x⟩).map fun f => (f.src, f.deco)

/-- the function matters for function object `o`: `o` itself, or a function of the island which `o` calls directly or
through other functions of the island, or a guard of `o` -/
def Matters (R : Reg) (o : Obj) (x : String) : Prop :=
  x ∈ o.guards.getD [] ∨ CallGraph.Reaches (Link R o.portal o.island) o.src.name x

/-- no function that `o` calls, directly or through others, was declared after the registration of `o` was completed (by
the first execution or pickling of `o`): either it is not completed yet, or this happened with object `i` of the same
function after the operations `ops`, and what `o` reaches now (after the operations `later`) was declared then -/
def DeclaredInTime (E : Env) (R : Reg) (o : Obj) : Prop :=
  (∃ r, R.at o.key = some r ∧ r.full = false) ∨
  ∃ ops i q r Q later, (run E {} ops).objs[i]? = some q ∧ q.key = o.key ∧ (run E {} ops).at o.key = some r ∧ r.full = false ∧
    complete E (run E {} ops) i = (Q, true) ∧ R = run E Q later ∧
    ∀ x, CallGraph.Reaches (Link R o.portal o.island) o.src.name x → ∃ f, (run E {} ops).at ⟨o.portal, o.island, x⟩ = some f

end Pyth.Registry
