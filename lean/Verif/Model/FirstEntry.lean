import Verif.Model.Py
/-!
# `FirstEntryDict` (`pythagoras/_800_persidict_extensions/first_entry_dict.py`)

The wrapped persistent dictionary is a finite map `K → Option V`; `DeepDiff(a, b)` is empty iff
`a = b`.  The random draw and transient I/O failures are inputs (oracles).
-/
namespace Pyth.FirstEntry

/-- What the storage layer does during one attempt of the `try` body (lines 42-45 resp. 48-51). -/
inductive Fault
  | none          -- no failure
  | onContains    -- `key in wrapped` raises
  | beforeWrite   -- the write raises without effect
  | afterWrite    -- the write takes effect and then raises
  deriving DecidableEq, Repr

/-- exceptions of an assignment (first_entry_dict.py:33-70) -/
inductive Err
  | storage       -- an exception of the storage layer
  | inconsistent  -- the assertion about different values (line 64)
  | missing       -- the assertion `key in self._wrapped_dict` (line 53), or a KeyError
  deriving DecidableEq, Repr

/-- the fields of a `FirstEntryDict` (lines 13-31) -/
structure Dict (K V : Type) where
  data : K → Option V
  pCheck : Option Rat
  total : Nat := 0
  successful : Nat := 0

variable {K V : Type} [DecidableEq K] [DecidableEq V]

/-- `wrapped[k] = v` (first_entry_dict.py:45, 51) -/
def update (d : K → Option V) (k : K) (v : V) : K → Option V :=
  fun k' => if k' = k then some v else d k'

/-- one execution of "`if key in wrapped: check_needed = True else: wrapped[key] = value`"
(lines 42-45 and 48-51): `ok check_needed` or a storage exception, and the new contents -/
def attempt (k : K) (v : V) (f : Fault) (d : K → Option V) : Except Err Bool × (K → Option V) :=
  match f with
  | .onContains => (.error .storage, d)
  | f => match d k with
    | some _ => (.ok true, d)
    | none => match f with
      | .beforeWrite => (.error .storage, d)
      | .afterWrite => (.error .storage, update d k v)
      | _ => (.ok false, update d k v)

/-- one call of `__setitem__` (first_entry_dict.py:33-70) -/
structure Op (K V : Type) where
  key : K
  value : V
  /-- `random.random()` on line 58 -/
  draw : Rat
  fault1 : Fault
  fault2 : Fault

/-- the consistency check (lines 55-70) -/
def check (o : Op K V) (needed : Bool) (s : Dict K V) : Except Err Unit × Dict K V :=
  match needed, s.pCheck with
  | true, some p =>
    if p > 0 then
      if o.draw < p then
        match s.data o.key with
        | none => (.error .missing, s)
        | some old =>
          let s := { s with total := s.total + 1 }
          if old = o.value then (.ok (), { s with successful := s.successful + 1 })
          else (.error .inconsistent, s)
      else (.ok (), s)
    else (.ok (), s)
  | _, _ => (.ok (), s)

/-- the `try ... except: sleep; ...` statement (lines 41-51) -/
def storeFirst (o : Op K V) (d : K → Option V) : Except Err Bool × (K → Option V) :=
  match attempt o.key o.value o.fault1 d with
  | (.ok b, d') => (.ok b, d')
  | (.error _, d') => attempt o.key o.value o.fault2 d'

/-- `FirstEntryDict.__setitem__` (first_entry_dict.py:33-70).  `time.sleep` is not modelled. -/
def setItem (o : Op K V) (s : Dict K V) : Except Err Unit × Dict K V :=
  match storeFirst o s.data with
  | (.error e, d) => (.error e, { s with data := d })
  | (.ok needed, d) =>
    let s := { s with data := d }
    -- line 53
    match s.data o.key with
    | none => (.error .missing, s)
    | some _ => check o needed s

/-- a sequence of assignments, each of which may raise (the caller carries on) (histories of first_entry_dict.py:33-70) -/
def run (s : Dict K V) (ops : List (Op K V)) : Dict K V :=
  ops.foldl (fun s o => (setItem o s).2) s

/-! ## Concurrent writers

Each writer (a process executing `__setitem__` for one and the same key) performs atomic storage
operations; a schedule picks the writer that moves next and what the storage layer does to it. -/

/-- program counter inside `__setitem__` (first_entry_dict.py:41-70) -/
inductive Pc
  | try1      -- about to evaluate `key in wrapped` (line 42)
  | absent1   -- it was absent, about to write (line 45)
  | try2      -- second attempt (line 48)
  | absent2   -- about to write (line 51)
  | verify (needed : Bool)   -- about to evaluate line 53
  | compare   -- about to read and compare (line 59)
  | done
  | failed (e : Err)
  deriving DecidableEq, Repr

/-- what happens to the operation of the moving writer (the file system under first_entry_dict.py:41-70) -/
inductive Choice
  | ok             -- operation succeeds (and, at `verify`, the random draw asks for a comparison)
  | noCheck        -- operation succeeds, at `verify` no comparison is made
  | faultBefore
  | faultAfter
  deriving DecidableEq, Repr

/-- a process inside `__setitem__` with its value (first_entry_dict.py:33-70) -/
structure Writer (V : Type) where
  value : V
  pc : Pc := .try1
  deriving DecidableEq, Repr

/-- one atomic step of a writer on the shared cell.  The underlying write is *not* assumed to be
refused when the cell has been filled in the meantime (the file store checks existence before
writing but does not create exclusively); refusal is the choice `faultBefore`. (first_entry_dict.py:41-70) -/
def stepWriter (c : Choice) (w : Writer V) (cell : Option V) : Writer V × Option V :=
  match w.pc with
  | .try1 => match c with
    | .faultBefore | .faultAfter => ({ w with pc := .try2 }, cell)
    | _ => ({ w with pc := if cell.isSome then .verify true else .absent1 }, cell)
  | .absent1 => match c with
    | .faultBefore => ({ w with pc := .try2 }, cell)
    | .faultAfter => ({ w with pc := .try2 }, some w.value)
    | _ => ({ w with pc := .verify false }, some w.value)
  | .try2 => match c with
    | .faultBefore | .faultAfter => ({ w with pc := .failed .storage }, cell)
    | _ => ({ w with pc := if cell.isSome then .verify true else .absent2 }, cell)
  | .absent2 => match c with
    | .faultBefore => ({ w with pc := .failed .storage }, cell)
    | .faultAfter => ({ w with pc := .failed .storage }, some w.value)
    | _ => ({ w with pc := .verify false }, some w.value)
  | .verify needed => match c with
    | .faultBefore | .faultAfter => ({ w with pc := .failed .storage }, cell)
    | c => match cell with
      | none => ({ w with pc := .failed .missing }, cell)
      | some _ => ({ w with pc := if needed && c == .ok then .compare else .done }, cell)
  | .compare => match c with
    | .faultBefore | .faultAfter => ({ w with pc := .failed .storage }, cell)
    | _ => match cell with
      | none => ({ w with pc := .failed .missing }, cell)
      | some x => ({ w with pc := if x = w.value then .done else .failed .inconsistent }, cell)
  | .done => (w, cell)
  | .failed _ => (w, cell)

/-- the cell of the key in storage, and the writers (first_entry_dict.py:13-31) -/
structure Shared (V : Type) where
  cell : Option V
  writers : List (Writer V)
  deriving DecidableEq, Repr

/-- writer number `i` moves (first_entry_dict.py:41-70) -/
def stepShared (s : Shared V) (m : Nat × Choice) : Shared V :=
  match s.writers[m.1]? with
  | none => s
  | some w =>
    let r := stepWriter m.2 w s.cell
    { cell := r.2, writers := s.writers.set m.1 r.1 }

/-- an arbitrary schedule (interleavings of first_entry_dict.py:41-70) -/
def runShared (s : Shared V) (sched : List (Nat × Choice)) : Shared V := sched.foldl stepShared s

end Pyth.FirstEntry
