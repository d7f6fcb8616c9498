import Verif.Model.Registry
/-!
# What the caller of a function gets to see when something goes wrong

The `except` clause of `OrdinaryFn.execute` (ordinary_core_classes.py:175-196) collects data about the function before it
raises the exception again; if collecting the data raises, the caller gets this other exception.

Simplification: writing the crash record does not fail (see `CrashPath` for the paths of crash records).
-/
namespace Pyth.Registry

/-- the exception the caller gets (ordinary_core_classes.py:175-197) -/
inductive Seen
  /-- the one that stopped the registration, or the preparation of the execution -/
  | reason
  /-- the one raised by the body of the function -/
  | body
  /-- another one, raised while the data about the function are collected -/
  | reporting
  deriving DecidableEq, Repr

/-- `_extra_exception_data` does not raise (ordinary_core_classes.py:152-161: `_fn_file_name`, `_available_names()`;
autonomous_core_classes.py:305-312: `dependencies`; pure_core_classes.py:323-334: `_augmented_source_code.replace`) -/
def extraOk (R : Reg) (o : Obj) : Bool :=
  runnable R o && match o.cls with
    | .autonomous => true
    | .pure => o.aug.isSome

/-- the `except` clause of `OrdinaryFn.execute` (ordinary_core_classes.py:180-196) -/
def report (R : Reg) (o : Obj) (e : Seen) : Seen := if extraOk R o then e else .reporting

/-- the `except` clause, for object `i` (ordinary_core_classes.py:175-197) -/
def reportOf (R : Reg) (i : Nat) (e : Seen) : Seen :=
  match R.objs[i]? with
  | none => e
  | some o => report R o e

/-- calling a function, up to the start of its body; `none`: the body is run.  The execution of a pure function begins
with the construction of the address of the result, which pickles the function and completes its registration outside of
the `try` statement (pure_core_classes.py:504-513, 273-286); an autonomous function is completed inside of it
(autonomous_core_classes.py:314-316). -/
def callStart (E : Env) (R : Reg) (i : Nat) : Reg × Option Seen :=
  match R.objs[i]? with
  | none => (R, some .reason)
  | some o => match complete E R i with
    | (R', false) => match o.cls with
      | .autonomous => (R', some (reportOf R' i .reason))
      | .pure => (R', some .reason)
    | (R', true) => match R'.objs[i]? with
      | none => (R', some .reason)
      | some o' => if runnable R' o' then (R', none) else (R', some (report R' o' .reason))

/-- the body raises an exception (ordinary_core_classes.py:175-197) -/
def bodyRaises (R : Reg) (i : Nat) : Seen := reportOf R i .body

end Pyth.Registry
