import Verif.Model.SourceText
/-!
# The program text that a call of a function executes

`OrdinaryFn._complete_fn_registration` (ordinary_core_classes.py:107-126) and the names that `OrdinaryFn.execute`
(ordinary_core_classes.py:181-187) puts into and takes from the dictionary of global names.
-/
namespace Pyth.Src

/-- Python `text.replace(old, new, 1)` for a non-empty `old`: replace the leftmost occurrence
(ordinary_core_classes.py:118-119) -/
def replaceFirst (old new : Txt) : Txt → Txt
  | [] => []
  | c :: r => if old.isPrefixOf (c :: r) then new ++ (c :: r).drop old.length else c :: replaceFirst old new r

/-- The names and the text that are computed on registration (ordinary_core_classes.py:109-124) -/
structure Exec where
  /-- `_fn_file_name`: appears in tracebacks -/
  file : Txt
  /-- `_kwargs_var_name`: global variable that holds the call's arguments -/
  kwargs : Txt
  /-- `_result_var_name`: global variable that receives the result -/
  result : Txt
  /-- `_tmp_fn_name`: the name under which the function is defined -/
  tmp : Txt
  /-- the text passed to `compile` -/
  text : Txt
  deriving DecidableEq, Repr

/-- `OrdinaryFn._complete_fn_registration` (ordinary_core_classes.py:107-124) for a function with this name and this
(normalized) source; `hash` = `get_hash_signature(source)`.
Not modelled: `compile` itself. -/
def execOf (name hash src : Txt) : Exec :=
  let kwargs := "kwargs_".toList ++ name ++ hash
  let result := "result".toList ++ name ++ hash
  let tmp := "tmp_func_".toList ++ name ++ hash
  let body := replaceFirst (" ".toList ++ name ++ "(".toList) (" ".toList ++ tmp ++ "(".toList) src
  { file := name ++ "_".toList ++ hash ++ ".py".toList
    kwargs := kwargs, result := result, tmp := tmp
    text := body ++ "\n\n".toList ++ result ++ " = ".toList ++ tmp ++ "(**".toList ++ kwargs ++ ")".toList }

/-- The registration of a function given by its normalized source alone: the name is taken from the source
(ordinary_core_classes.py:82-83, 107-124) -/
def register (hash : Txt → Txt) (src : Txt) : Except Err Exec :=
  match functionName src with
  | .ok name => .ok (execOf name (hash src) src)
  | .error e => .error e

/-! ## Executing the text

A program is the sequence of its top-level statements; `exec` runs them in one dictionary of global names.  Only the
kinds of statements of the executed text are modelled: function definitions and the final call. -/

/-- A top-level statement of the executed text (ordinary_core_classes.py:175-197) -/
inductive Top
  /-- `def name(…): body` -/
  | define (name : Txt) (body : Txt)
  /-- `target = f(**args)` -/
  | assignCall (target f args : Txt)
  deriving DecidableEq, Repr

/-- a global name's value: a plain function with its body, the decorated function itself, the call's arguments,
the result of a call (of which function, with which arguments), or something else (ordinary_core_classes.py:175-197) -/
inductive Val (α : Type)
  | plain (body : Txt)
  | decorated
  | arguments (a : α)
  | resultOf (body : Txt) (a : α)
  | other (k : Nat)
  deriving DecidableEq, Repr

/-- a dictionary of global names: the list of its assignments, the latest first (`names_dict`, ordinary_core_classes.py:175-197) -/
abbrev Globals (α : Type) := List (Txt × Val α)

/-- what one statement does to the global names; `none`: a NameError or TypeError.
Simplification: the called function does not itself assign global names (a `global` or `nonlocal` statement in an
autonomous function's body is refused, C43). (`exec`, ordinary_core_classes.py:175-197) -/
def execTop {α : Type} (g : Globals α) : Top → Option (Globals α)
  | .define n b => some ((n, .plain b) :: g)
  | .assignCall t f a =>
    match g.lookup f, g.lookup a with
    | some (.plain b), some (.arguments v) => some ((t, .resultOf b v) :: g)
    | _, _ => none

/-- `exec(bytecode, names_dict, names_dict)` (ordinary_core_classes.py:186) -/
def execAll {α : Type} (g : Globals α) : List Top → Option (Globals α)
  | [] => some g
  | s :: ss => match execTop g s with
    | some g' => execAll g' ss
    | none => none

/-- The statements of the executed text of a function with this name and body, followed in its source by the definitions
`more` (ordinary_core_classes.py:104-105, 175-197) -/
def program (e : Exec) (body : Txt) (more : List (Txt × Txt)) : List Top :=
  .define e.tmp body :: more.map (fun d => .define d.1 d.2) ++ [.assignCall e.result e.tmp e.kwargs]

/-- `OrdinaryFn.execute` (ordinary_core_classes.py:181-187): the available names, the arguments under their name, `exec`,
and the value of the result variable -/
def runText {α : Type} (avail : Globals α) (name : Txt) (e : Exec) (body : Txt) (more : List (Txt × Txt)) (args : α) :
    Option (Globals α × Val α) :=
  match execAll ((e.kwargs, .arguments args) :: (name, .decorated) :: avail) (program e body more) with
  | some g => (g.lookup e.result).map fun v => (g, v)
  | none => none

end Pyth.Src
