import Verif.Model.Py
/-!
# Keywords of a call and dictionaries (`pythagoras/_070_pure_functions/astkeywords_dict_convertors.py`)

`ast.literal_eval` is modelled from its documentation: constants, lists, tuples and signed numbers; every other expression
(names, calls, operators, and, as a simplification, sets and dictionaries) counts as no literal.
-/
namespace Pyth.AstKw

/-- Python values (astkeywords_dict_convertors.py:16, 33) -/
inductive Val
  | none
  | bool (b : Bool)
  | int (n : Int)
  | str (s : String)
  | list (l : List Val)
  | tuple (l : List Val)
  /-- any other object -/
  | obj (id : Nat)

/-- expressions (`keyword.value`, astkeywords_dict_convertors.py:16) -/
inductive Expr
  /-- `ast.Constant`; its value can be any object -/
  | const (v : Val)
  | list (l : List Expr)
  | tuple (l : List Expr)
  /-- `-e`, `+e` -/
  | neg (e : Expr)
  | pos (e : Expr)
  /-- anything else: names, calls, operators … -/
  | other (id : Nat)

/-- the exception of `ast.literal_eval` (astkeywords_dict_convertors.py:16) -/
inductive Err
  | valueError
  deriving DecidableEq

/-- the number of a constant (`_convert_num` in `ast.literal_eval`) (called from astkeywords_dict_convertors.py:16) -/
def number : Expr → Except Err Int
  | .const (.int n) => .ok n
  | _ => .error .valueError

mutual
/-- `ast.literal_eval` (called from astkeywords_dict_convertors.py:16) -/
def literal : Expr → Except Err Val
  | .const v => .ok v
  | .list l => (literals l).map Val.list
  | .tuple l => (literals l).map Val.tuple
  | .neg e => (number e).map fun n => .int (-n)
  | .pos e => (number e).map fun n => .int n
  | .other _ => .error .valueError
/-- the elements of a list or tuple, in order (called from astkeywords_dict_convertors.py:16) -/
def literals : List Expr → Except Err (List Val)
  | [] => .ok []
  | e :: es => match literal e with
    | .error x => .error x
    | .ok v => (literals es).map fun vs => v :: vs
end

/-- a keyword of a call: `name=value`; `**value` has no name (astkeywords_dict_convertors.py:13-15) -/
structure Kw where
  arg : Option String
  value : Expr

/-- a dictionary, in insertion order (astkeywords_dict_convertors.py:12) -/
abbrev Dict := List (Option String × Val)

/-- `d[k] = v`: an existing key keeps its position (astkeywords_dict_convertors.py:17) -/
def Dict.set : Dict → Option String → Val → Dict
  | [], k, v => [(k, v)]
  | (k', v') :: d, k, v => if k' = k then (k, v) :: d else (k', v') :: Dict.set d k v

/-- the loop of `convert_astkeywords_to_dict` (lines 13-18) -/
def loop (d : Dict) : List Kw → Except Err Dict
  | [] => .ok d
  | kw :: kws => match literal kw.value with
    | .error e => .error e
    | .ok v => loop (d.set kw.arg v) kws

/-- `convert_astkeywords_to_dict` (astkeywords_dict_convertors.py:3-19) -/
def toDict (kws : List Kw) : Except Err Dict := loop [] kws

/-- `convert_dict_to_astkeywords` (astkeywords_dict_convertors.py:21-35); `ast.Str(value)` makes a constant with this value,
whatever it is (up to Python 3.13) -/
def toKeywords (d : Dict) : List Kw := d.map fun x => ⟨x.1, .const x.2⟩

end Pyth.AstKw
