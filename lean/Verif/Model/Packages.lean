/-!
# Installing and uninstalling packages (package_manager.py:6-38)

`pip` is a program of its own: a function from its command line and the installed distributions to the distributions
installed afterwards; `none`: a non-zero exit code, which `subprocess.run(check=True)` turns into
`CalledProcessError` (what is installed then stays as it was: a simplification).  What is known about `pip` is stated in
`Spec/Packages`.  Python's import system is modelled as far as `importlib.import_module` and `importlib.reload` of
top-level modules are concerned: a loaded module is returned without looking at the disk; reloading looks at the disk.
-/
namespace Pyth.Packages

/-- installed distributions and their versions (for `pip`, package_manager.py:6-37) -/
abbrev Site := List (String × String)

/-- where a module comes from: a distribution in a certain version, or something else on the path (like the standard
library) (for `importlib`, package_manager.py:6-37) -/
inductive Origin
  | dist (name version : String)
  | other
  deriving DecidableEq, Repr

/-- the environment of the program: `pip`, which modules the distributions contain, other modules, modules whose
code raises when it is executed (package_manager.py:6-37) -/
structure Env where
  pip : List String → Site → Option Site
  provides : String → String → List String
  others : List String := []
  broken : String → Origin → Bool := fun _ _ => false

/-- installed distributions and imported modules (package_manager.py:6-37) -/
structure St where
  site : Site
  /-- `sys.modules` -/
  loaded : List (String × Origin) := []
  deriving DecidableEq, Repr

/-- exceptions (package_manager.py:6-37) -/
inductive Err
  | calledProcess | moduleNotFound | importing | notUninstalled
  deriving DecidableEq, Repr

/-- looking for a module on the path (for `importlib.import_module`, package_manager.py:6-37) -/
def find (E : Env) (s : St) (m : String) : Option Origin :=
  match s.site.find? (fun x => (E.provides x.1 x.2).contains m) with
  | some x => some (.dist x.1 x.2)
  | none => if E.others.contains m then some .other else none

/-- executing the code of a module and remembering it (for `importlib.import_module`, package_manager.py:6-37) -/
def load (E : Env) (s : St) (m : String) : St × Option Err :=
  match find E s m with
  | none => (s, some .moduleNotFound)
  | some o => if E.broken m o then (s, some .importing)
    else ({ s with loaded := (m, o) :: s.loaded.filter fun x => x.1 != m }, none)

/-- `importlib.import_module(m)` (package_manager.py:6-37) -/
def importModule (E : Env) (s : St) (m : String) : St × Option Err :=
  match s.loaded.lookup m with
  | some _ => (s, none)
  | none => load E s m

/-- `importlib.reload` of module `m`, which was imported before (package_manager.py:24-37) -/
def reload (E : Env) (s : St) (m : String) : St × Option Err := load E s m

/-- the command line of `install_package` without the interpreter and `-m pip` (package_manager.py:11-17); an empty
version is no version -/
def installCommand (name : String) (upgrade : Bool) (version : Option String) : List String :=
  ["install"] ++ (if upgrade then ["--upgrade"] else []) ++
    [match version with | some v => if v.isEmpty then name else name ++ "==" ++ v | none => name]

/-- `install_package(package_name, upgrade, version)` (package_manager.py:6-22) -/
def install (E : Env) (s : St) (name : String) (upgrade : Bool := false) (version : Option String := none) :
    St × Option Err :=
  match E.pip (installCommand name upgrade version) s.site with
  | none => (s, some .calledProcess)
  | some site => importModule E { s with site := site } name

/-- `uninstall_package(package_name)` (package_manager.py:24-38) -/
def uninstall (E : Env) (s : St) (name : String) : St × Option Err :=
  match E.pip ["uninstall", "-y", name] s.site with
  | none => (s, some .calledProcess)
  | some site =>
    match importModule E { s with site := site } name with
    | (s, some _) => (s, none)
    | (s, none) => match reload E s name with
      | (s, some _) => (s, none)
      | (s, none) => (s, some .notUninstalled)

end Pyth.Packages
