import Verif.Model.Registry
/-!
# Asking what kind of function something is (autonomicity_checks.py:6-31, purity_checks.py:5-7)
-/
namespace Pyth.Registry

/-- what can be given to the checks (autonomicity_checks.py:6-30, purity_checks.py:5-6) -/
inductive Thing
  /-- an object of class `AutonomousFn` or `PureFn` (a subclass of it) -/
  | fn (o : Obj)
  /-- another callable: a plain, ordinary or safe function, a class, … -/
  | callable
  | notCallable

/-- `is_autonomous` (autonomicity_checks.py:6-9); `none`: `AssertionError` -/
def isAutonomous : Thing → Option Bool
  | .fn _ => some true
  | .callable => some false
  | .notCallable => none

/-- `is_loosely_autonomous` (autonomicity_checks.py:12-20) -/
def isLooselyAutonomous : Thing → Option Bool
  | .fn o => some (!o.strict)
  | .callable => some false
  | .notCallable => none

/-- `is_strictly_autonomous` (autonomicity_checks.py:23-31) -/
def isStrictlyAutonomous : Thing → Option Bool
  | .fn o => some o.strict
  | .callable => some false
  | .notCallable => none

/-- `is_pure` (purity_checks.py:5-7) -/
def isPure : Thing → Option Bool
  | .fn o => some (o.cls == .pure)
  | .callable => some false
  | .notCallable => none

end Pyth.Registry
