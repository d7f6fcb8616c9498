import Verif.Model.CallGraph
/-! # Specification of the call graph: direct reference and reachability -/
namespace Pyth.CallGraph
variable {N : Type} [DecidableEq N]

/-- `f` refers directly to `g`: both are names of given functions, and `g = f` or the source of `f`
refers to `g`.  (If a name is given several times the last one counts.) -/
def Direct (fns : List (Fn N)) (f g : N) : Prop :=
  (∃ h ∈ fns, h.name = g) ∧
  ∃ pre fn post, fns = pre ++ fn :: post ∧ fn.name = f ∧ (∀ h ∈ post, h.name ≠ f) ∧
    (g = f ∨ g ∈ fn.refs)

/-- reflexive-transitive closure -/
inductive Reaches (R : N → N → Prop) : N → N → Prop
  | refl (f : N) : Reaches R f f
  | step {f g h : N} : R f g → Reaches R g h → Reaches R f h

end Pyth.CallGraph
