import Verif.Model.CrashPath
import Verif.Model.Construct
/-!
# Descriptions of portals

`describe()` of each class of portals (foundation.py:71-83, logging_portals.py:147-162, data_portals.py:61-74,
autonomous_core_classes.py:59-83, pure_core_classes.py:91-104, swarming_portals.py:89-98) and of the package
(top_level_API.py:23-32), together with the writes whose effects it reports.

A table (`pd.DataFrame`) is the list of its rows.  A directory is the list of the files in it; `len(d)` of a persidict
dictionary is the number of files in its directory and below (external library, taken from its documentation).  Each of
the dictionaries counted here has one file type, so file types are left out.
-/
namespace Pyth.Describe
open Pyth.CrashPath (Path FnRef fnPrefix catchAll)
open Pyth.Construct (Kind)

/-- a directory on disk, given to a portal by its constructor (foundation.py:54-64) -/
abbrev Dir := String

/-- the subdirectories of a portal's directory (logging_portals.py:122-133, data_portals.py:47-52,
pure_core_classes.py:61-88, swarming_portals.py:47-55) -/
inductive Sub
  | crashHistory | eventLog | valueStore | results | requests | runHistory | computeNodes
  deriving DecidableEq, Repr

/-- files of all directories
(the dictionaries created by foundation.py:54-64, logging_portals.py:120-139, data_portals.py:35-53, pure_core_classes.py:52-88) -/
abbrev Disk := Dir → List (Sub × Path)

/-- a new file; an existing one is kept (`FirstEntryDict.__setitem__`, first_entry_dict.py:41-48) or replaced by one
with the same name -/
def Disk.put (D : Disk) (d : Dir) (f : Sub × Path) : Disk :=
  fun e => if e = d ∧ f ∉ D d then D d ++ [f] else D e

/-- `dict.delete_if_exists(key)` (pure_core_classes.py:648-663) -/
def Disk.del (D : Disk) (d : Dir) (f : Sub × Path) : Disk :=
  fun e => if e = d then (D d).filter (fun g => g ≠ f) else D e

/-- `len(dict.get_subdict(pre))`; `len(dict)` for `pre = []` (foundation.py:71-85, logging_portals.py:147-162) -/
def Disk.len (D : Disk) (d : Dir) (s : Sub) (pre : Path) : Nat :=
  ((D d).filter fun f => decide (f.1 = s ∧ pre <+: f.2 ∧ pre.length < f.2.length)).length

/-- the paths of a crash record (logging_portals.py:251-254): those of `CrashPath.paths`, for exceptions leaving a
function; for the others the catch-all path only -/
def crashPaths (fn : Option FnRef) (date id : List Char) : List Path :=
  (match fn with | some f => [[fnPrefix f, id]] | none => []) ++ [[catchAll, date, id]]

/-- writing the records of an exception: `crash_history` refuses existing keys, the loop ends there
(logging_portals.py:251-254) -/
def putCrash (D : Disk) (d : Dir) : List Path → Disk
  | [] => D
  | p :: ps => if (Sub.crashHistory, p) ∈ D d then D else putCrash (D.put d (.crashHistory, p)) d ps

/-- a portal object of the program (foundation.py:54-64) -/
structure Portal where
  kind : Kind
  /-- `root_dict.base_dir` and the class of `root_dict` -/
  dir : Dir
  backend : String := "FileDirDict"
  /-- `_p_consistency_checks` -/
  p : Rat := 0
  /-- `default_island_name` -/
  island : String := "Samos"
  /-- `n_background_workers` -/
  workers : Nat := 3
  /-- `known_functions`, as far as names are concerned -/
  known : List (String × List String) := []
  deriving Repr

/-- the program and the disk (foundation.py:48-64) -/
structure World where
  disk : Disk
  /-- `BasicPortal.all_portals` in the order of insertion -/
  portals : List Portal := []
  /-- `current_date_gmt_string()` -/
  today : List Char

/-- the column `type` of a row (foundation.py:13-26) -/
inductive RowType | disk | runtime
  deriving DecidableEq, Repr

/-- the column `value` of a row (foundation.py:13-26) -/
inductive Cell | text (s : String) | num (n : Nat) | prob (x : Rat)
  deriving DecidableEq, Repr

/-- `_persistent(param, val)`, `_runtime(param, val)` (foundation.py:13-26) -/
structure Row where
  type : RowType
  parameter : String
  value : Cell
  deriving DecidableEq, Repr

/-- the rows of an island (autonomous_core_classes.py:73-80) -/
def islandRows (x : String × List String) : List Row :=
  ⟨.runtime, "Functions in <" ++ x.1 ++ ">", .num x.2.length⟩ ::
    (if x.2.length > 0 then [⟨.runtime, "Functions in <" ++ x.1 ++ ">", .text (String.intercalate ", " x.2)⟩] else [])

/-- the rows that each class adds to those of its base class
(foundation.py:71-85, logging_portals.py:147-162, data_portals.py:61-75, autonomous_core_classes.py:59-83, pure_core_classes.py:91-103, swarming_portals.py:89-98) -/
def ownRows (w : World) (q : Portal) : Kind → List Row
  -- foundation.py:75-78
  | .basic => [⟨.disk, "Base directory", .text q.dir⟩, ⟨.disk, "Backend type", .text q.backend⟩]
  -- logging_portals.py:150-157
  | .logging => [⟨.disk, "Exceptions, total", .num (w.disk.len q.dir .crashHistory [catchAll])⟩,
      ⟨.disk, "Exceptions, today", .num (w.disk.len q.dir .crashHistory [catchAll, w.today])⟩]
  -- data_portals.py:65-70
  | .data => [⟨.disk, "Values, total", .num (w.disk.len q.dir .valueStore [])⟩,
      ⟨.runtime, "Probability of checks", .prob q.p⟩]
  | .ordinary => []
  | .safe => []
  -- autonomous_core_classes.py:63-80
  | .autonomous => [⟨.runtime, "Islands", .num q.known.length⟩, ⟨.runtime, "Default island", .text q.island⟩,
      ⟨.runtime, "All islands", .text (String.intercalate ", " (q.known.map (·.1)))⟩] ++ q.known.flatMap islandRows
  -- pure_core_classes.py:95-100
  | .pure => [⟨.disk, "Cached execution results", .num (w.disk.len q.dir .results [])⟩,
      ⟨.disk, "Execution queue size", .num (w.disk.len q.dir .requests [])⟩]
  -- swarming_portals.py:92-94
  | .swarming => [⟨.runtime, "Background workers", .num q.workers⟩]

/-- `portal.describe()` (foundation.py:71-85 and its overridings down to swarming_portals.py:89-98) -/
def describe (w : World) (q : Portal) : List Row := q.kind.chain.flatMap (ownRows w q)

/-- a row of the table of `pythagoras.describe()`; `tag`: the column `portal`, if there is one (top_level_API.py:23-33) -/
structure Tagged where
  tag : Option Nat
  row : Row
  deriving DecidableEq, Repr

/-- the loop of `describe` (top_level_API.py:27-32), from the `i`-th portal on -/
def describeFrom (w : World) : Nat → List Portal → List Tagged
  | _, [] => []
  | i, q :: qs => (describe w q).map (⟨some i, ·⟩) ++ describeFrom w (i + 1) qs

/-- `pythagoras.describe()` (top_level_API.py:23-32); `none`: `pd.concat([])` raises `ValueError` -/
def describeAll (w : World) : Option (List Tagged) :=
  match w.portals with
  | [] => none
  | [q] => some ((describe w q).map (⟨none, ·⟩))
  | qs => some (describeFrom w 0 qs)

/-! ### what programs do -/

/-- writes into a directory, by this program or by others (data_portals.py:35-53, pure_core_classes.py:52-88, logging_portals.py:120-139) -/
inductive Write
  /-- `ValueAddr(v)`: `value_store[key] = v` (value_addresses.py:42-59) -/
  | value (k : Path)
  /-- the end of an execution: `execution_results[key] = …` (pure_core_classes.py:435, 614) -/
  | result (k : Path)
  /-- `request_execution`, `drop_execution_request` (pure_core_classes.py:648-661) -/
  | request (k : Path)
  | drop (k : Path)
  /-- an exception is recorded today -/
  | crash (fn : Option FnRef) (id : List Char)
  /-- `log_event` (logging_portals.py:331-343) -/
  | event (id : List Char)
  /-- records of executions and of nodes (pure_core_classes.py:940-1010, swarming_portals.py:59-75) -/
  | runRecord (k : Path)
  | nodeRecord (k : Path)
  deriving DecidableEq, Repr

/-- the effect of a write on the disk (data_portals.py:35-53, pure_core_classes.py:52-88) -/
def World.write (w : World) (d : Dir) : Write → World
  | .value k => { w with disk := w.disk.put d (.valueStore, k) }
  | .result k => { w with disk := w.disk.put d (.results, k) }
  | .request k => { w with disk := w.disk.put d (.requests, k) }
  | .drop k => { w with disk := w.disk.del d (.requests, k) }
  | .crash fn id => { w with disk := putCrash w.disk d (crashPaths fn w.today id) }
  | .event id => { w with disk := w.disk.put d (.eventLog, [w.today, id]) }
  | .runRecord k => { w with disk := w.disk.put d (.runHistory, k) }
  | .nodeRecord k => { w with disk := w.disk.put d (.computeNodes, k) }

/-- `known_functions[island][name] = …` (autonomous_core_classes.py:146-170: the island is added if it is new) -/
def addFn (isl name : String) : List (String × List String) → List (String × List String)
  | [] => [(isl, [name])]
  | x :: xs => if x.1 = isl then (x.1, if name ∈ x.2 then x.2 else x.2 ++ [name]) :: xs else x :: addFn isl name xs

/-- what a program and its environment do (foundation.py:54-64, top_level_API.py:23-33) -/
inductive Op
  /-- a portal is created; `known_functions = {default_island_name: {}}` (autonomous_core_classes.py:49-51) -/
  | create (q : Portal)
  | write (d : Dir) (x : Write)
  /-- an autonomous or pure function is registered through the `i`-th portal of the program -/
  | register (i : Nat) (isl name : String)
  /-- the next day begins -/
  | day (date : List Char)
  /-- the program ends, a new one begins -/
  | restart
  deriving Repr

/-- the effect of one step (foundation.py:54-64, top_level_API.py:23-33) -/
def Op.step (w : World) : Op → World
  | .create q => { w with portals := w.portals ++ [{ q with known := [(q.island, [])] }] }
  | .write d x => w.write d x
  | .register i isl name =>
    { w with portals := w.portals.modify i fun q => { q with known := addFn isl name q.known } }
  | .day date => { w with today := date }
  | .restart => { w with portals := [] }

/-- a history, from empty directories on (histories around top_level_API.py:23-33) -/
def history (date : List Char) (ops : List Op) : World := ops.foldl Op.step ⟨fun _ => [], [], date⟩

end Pyth.Describe
