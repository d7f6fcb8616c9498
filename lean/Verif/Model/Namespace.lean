import Verif.Model.Registry
/-!
# The global names a function's body sees

`OrdinaryFn._available_names` and `AutonomousFn._available_names` (ordinary_core_classes.py:135-141,
autonomous_core_classes.py:288-293): the dictionary that `exec` uses as global and local names.  A dictionary is the list
of its assignments; a later assignment of a name replaces an earlier one.
-/
namespace Pyth.Registry
open Pyth.Analyzer

/-- what a global name means inside a function's body (ordinary_core_classes.py:135-141, 175-197) -/
inductive Binding
  /-- a global of the library's module `ordinary_core_classes` -/
  | library
  /-- a Python builtin -/
  | builtin
  /-- the module `pythagoras` -/
  | pth
  /-- the function object with this handle -/
  | fn (i : Nat)
  deriving DecidableEq, Repr

/-- `globals()` of `ordinary_core_classes` (ordinary_core_classes.py:1-46; module attributes first) -/
def libraryGlobals : List String :=
  ["__name__", "__doc__", "__package__", "__loader__", "__spec__", "__file__", "__cached__", "__builtins__",
   "annotations", "sys", "Callable", "Any", "FileDirDict", "PersiDict", "DataPortal", "BasicPortal", "PortalAwareClass",
   "get_hash_signature", "NeedsRandomization", "LoggingPortal", "get_function_name_from_source",
   "__get_normalized_function_source__", "pth", "OrdinaryCodePortal", "OrdinaryFn"]

/-- `OrdinaryFn._available_names` (ordinary_core_classes.py:135-141): the module's globals, the function's name, `self`,
`pth` -/
def ordinaryNames (i : Nat) (o : Obj) : List (String × Binding) :=
  (libraryGlobals.map fun x => (x, Binding.library)) ++ [(o.name, .fn i), ("self", .fn i), ("pth", .pth)]

/-- `AutonomousFn._available_names` (autonomous_core_classes.py:288-293); `none`: an exception -/
def availableNames (R : Reg) (i : Nat) (o : Obj) : Option (List (String × Binding)) :=
  match dependencies R o with
  | none => none
  | some d => (d.mapM fun x => (R.known.lookup ⟨o.portal, o.island, x⟩).map fun j => (x, Binding.fn j)).map
      (ordinaryNames i o ++ ·)

/-- what a global name `x` of the executed code refers to: the last assignment in the dictionary, or else the builtins;
`none`: a NameError (`exec`, ordinary_core_classes.py:175-197) -/
def resolve (E : Env) (names : List (String × Binding)) (x : String) : Option Binding :=
  match names.reverse.lookup x with
  | some b => some b
  | none => if x ∈ E.builtins then some .builtin else none

end Pyth.Registry
