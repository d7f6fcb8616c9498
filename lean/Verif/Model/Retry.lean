import Mathlib.Algebra.Order.Ring.Rat
/-!
# The retry policy: `PureFnExecutionResultAddr.needs_execution` (pure_core_classes.py:794-819)
-/
namespace Pyth.Retry

/-- `max(…)` of a non-empty list of timestamps (lines 812-813) -/
def latest : Rat → List Rat → Rat
  | t, [] => t
  | t, u :: us => latest (max t u) us

/-- `needs_execution`: `ready` is whether there is a result, `attempts` are the timestamps of the stored attempts, `now`
is `time.time()`; line 800: `DEFAULT_EXECUTION_TIME = 10`, line 801: `MAX_EXECUTION_ATTEMPTS = 5` -/
def needsExecution (ready : Bool) (attempts : List Rat) (now : Rat) : Bool :=
  if ready then false
  else match attempts with
    | [] => true
    | t :: ts =>
      if attempts.length > 5 then false
      else decide (now - latest t ts > 10 * 2 ^ attempts.length)

end Pyth.Retry
