import Verif.Model.PureFn
/-!
# Parameter grids (pure_core_classes.py:475-491)

`swarm_grid` and `run_grid` build the list of argument sets with `ParameterGrid` of scikit-learn (not part
of the repository; modelled from its documented behaviour: the parameters are sorted by name, then all
combinations are enumerated as by nested loops, the last name varying fastest; an empty grid has one
combination, the empty one).
-/
namespace Pyth.Pure
open Pyth.World Pyth.Portal

/-- `product(*values)` with the names attached: nested loops, outermost first (`ParameterGrid`, pure_core_classes.py:475-491) -/
def product {γ : Type} : List (String × List γ) → List (List (String × γ))
  | [] => [[]]
  | (x, vs) :: g => vs.flatMap fun v => (product g).map fun c => (x, v) :: c

/-- `list(ParameterGrid(grid_of_kwargs))` (pure_core_classes.py:480, 489) -/
def gridOf {γ : Type} (grid : List (String × List γ)) : List (List (String × γ)) := product (sortKw grid)

variable {U A : Type} [DecidableEq U] [DecidableEq A] (addrOf : Val U A → A)

/-- `swarm_grid` (pure_core_classes.py:475-482) -/
def swarmGrid (shuffle : List Nat → List Nat) (p : PortalId) (f : FnId) (grid : List (String × List (Arg U))) :
    PM U A (List Nat) := withP p (swarmList addrOf shuffle p f (gridOf grid))

/-- `run_grid` (pure_core_classes.py:484-491) -/
def runGrid (prog : FnId → Fn U) (n : Nat) (shuffle1 shuffle2 : List Nat → List Nat) (p : PortalId) (f : FnId)
    (grid : List (String × List (Arg U))) : PM U A (List Nat) :=
  withP p (runList addrOf prog n shuffle1 shuffle2 p f (gridOf grid))

end Pyth.Pure
