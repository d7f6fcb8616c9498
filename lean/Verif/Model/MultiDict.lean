import Verif.Model.Py
/-!
# Typed views on one directory (`pythagoras/_800_persidict_extensions/overlapping_multi_dict.py`)

The inner dictionaries are `FileDirDict`s of the `persidict` package (not part of this repository),
modelled by their documented behaviour: the value of key `(p1, ..., pn)` is stored in the file
`p1/.../pn.<file_type>` of the dictionary's directory.
-/
namespace Pyth.Multi

/-- a Python string (overlapping_multi_dict.py:6-56) -/
abbrev Txt := List Char

/-- constructor arguments of an inner dictionary, in the order of the Python dict (overlapping_multi_dict.py:21-36) -/
abbrev Params := List (String × String)

/-- `d[k] = v` on a Python dict (overlapping_multi_dict.py:21-36) -/
def Params.set (d : Params) (k v : String) : Params :=
  (d.filter fun p => p.1 ≠ k) ++ [(k, v)]

/-- `{**a, **b}` (overlapping_multi_dict.py:21-36) -/
def Params.merge (a b : Params) : Params := b.foldl (fun d p => Params.set d p.1 p.2) a

/-- `d[k]`, `none` = KeyError (overlapping_multi_dict.py:21-36) -/
def Params.get (d : Params) (k : String) : Option String := (d.find? fun p => p.1 = k).map (·.2)

/-- `{**shared_subdicts_params, **individual_subdicts_params[subdict_name],
"file_type": subdict_name}` (overlapping_multi_dict.py:35-38) -/
def subdictParams (shared individual : Params) (name : String) : Params :=
  (Params.merge shared individual).set "file_type" name

/-- a key: one or more path components (of the dictionaries made at overlapping_multi_dict.py:21-36) -/
structure Key where
  dirs : List Txt
  last : Txt
  deriving DecidableEq, Repr

/-- the file of a key, relative to the shared directory: the last component gets the extension
(of the dictionaries made at overlapping_multi_dict.py:21-36) -/
def path (ext : Txt) (k : Key) : List Txt := k.dirs ++ [k.last ++ '.' :: ext]

/-- a directory tree: the contents of its files (the `base_dir` shared by the dictionaries made at overlapping_multi_dict.py:21-36) -/
abbrev Files (V : Type) := List Txt → Option V

/-- operations through the view with file type `ext`: `view[key] = value`, `del view[key]`
(on the dictionaries made at overlapping_multi_dict.py:21-36) -/
inductive Op (V : Type)
  | set (ext : Txt) (k : Key) (v : V)
  | del (ext : Txt) (k : Key)

/-- the file type of the view (overlapping_multi_dict.py:21-36) -/
def Op.ext {V : Type} : Op V → Txt
  | .set e _ _ => e
  | .del e _ => e

variable {V : Type}

/-- `view[key]` (None: KeyError) (on the dictionaries made at overlapping_multi_dict.py:21-36) -/
def get (fs : Files V) (ext : Txt) (k : Key) : Option V := fs (path ext k)

/-- the effect of an operation on the directory (on the dictionaries made at overlapping_multi_dict.py:21-36) -/
def apply (fs : Files V) : Op V → Files V
  | .set e k v => fun p => if p = path e k then some v else fs p
  | .del e k => fun p => if p = path e k then none else fs p

/-- a history of operations (on the dictionaries made at overlapping_multi_dict.py:21-36) -/
def applyAll (fs : Files V) (ops : List (Op V)) : Files V := ops.foldl apply fs

/-- does iterating over the view with file type `ext` report the file `p`, and as which key: files
whose name ends in "." and the type, without that ending (on the dictionaries made at overlapping_multi_dict.py:21-36) -/
def keyOf (ext : Txt) (p : List Txt) : Option Key :=
  match p.getLast? with
  | none => none
  | some f =>
    let suffix := '.' :: ext
    if suffix.isSuffixOf f then some ⟨p.dropLast, f.take (f.length - suffix.length)⟩ else none

end Pyth.Multi
