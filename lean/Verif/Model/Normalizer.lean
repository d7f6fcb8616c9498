import Verif.Model.SourceText
/-!
# The source code normalizer

`pythagoras/_040_ordinary_functions/code_normalizer_implementation.py` lines 27-141, for a source
given as a string. Python's `ast.parse`, `ast.unparse` and `autopep8.fix_code` are parameters.
-/
namespace Pyth.Src

/-- Python syntax trees (`ast` module), as far as the normalizer distinguishes nodes. `node` is
every other kind of node with its class name, constant fields and children.
Simplification: a function's `args` (and type parameters) are the list `pre`; a class's bases,
keywords and type parameters are its list `pre`. (code_normalizer_implementation.py:106-137) -/
inductive T
  /-- `ast.arg`: an argument of a function with its annotation -/
  | arg (name : String) (ann : Option T)
  /-- `ast.FunctionDef` / `ast.AsyncFunctionDef` -/
  | fn (async : Bool) (name : String) (pre : List T) (body : List T) (decos : List T)
      (returns : Option T)
  /-- `ast.ClassDef` -/
  | cls (name : String) (pre : List T) (body : List T) (decos : List T)
  /-- `ast.AnnAssign`: `target : ann = value` -/
  | annAssign (target : T) (ann : Option T) (value : Option T)
  /-- `ast.Expr` whose value is a string constant -/
  | strExpr (s : String)
  /-- `ast.Call` -/
  | call (func : T) (args : List T)
  /-- `ast.Name` -/
  | name (id : String)
  /-- `ast.Attribute` -/
  | attr (value : T) (attr : String)
  /-- any other node -/
  | node (label : String) (children : List T)

namespace T

/-- `ast.Pass()` (code_normalizer_implementation.py:130-137) -/
def pass : T := .node "Pass" []

/-- `isinstance(node, ast.Expr) and isinstance(node.value, ast.Str)` (lines 127-132) -/
def isStr : T → Bool
  | .strExpr _ => true
  | _ => false

end T

mutual
/-- What the walk of lines 104-135 makes of a node: annotations of arguments (111-114), return
annotations (126-128) and annotations of variables (111-114) become None; a leading string
expression of a function or class body is dropped (130-137).
Simplification: `ast.walk` visits the nodes in breadth-first order and modifies each of them in
place; a modification only concerns the visited node's own fields, and the children are queued
before it is modified, so the visiting order is immaterial and dropped nodes do not matter: the
model is a structural recursion. -/
def norm : T → T
  | .arg n _ => .arg n none
  | .fn a n pre body decos _ => .fn a n (normL pre) (normBody body) (normL decos) none
  | .cls n pre body decos => .cls n (normL pre) (normBody body) (normL decos)
  | .annAssign t _ v => .annAssign (norm t) none (normO v)
  | .strExpr s => .strExpr s
  | .call f as => .call (norm f) (normL as)
  | .name i => .name i
  | .attr v a => .attr (norm v) a
  | .node l cs => .node l (normL cs)
/-- all nodes of a list (code_normalizer_implementation.py:106-137) -/
def normL : List T → List T
  | [] => []
  | x :: xs => norm x :: normL xs
/-- an optional child (code_normalizer_implementation.py:106-137) -/
def normO : Option T → Option T
  | none => none
  | some x => some (norm x)
/-- Lines 130-137: the body of a function, class or module: drop one leading string expression,
and put a `pass` if nothing is left. (code_normalizer_implementation.py:130-137) -/
def normBody : List T → List T
  | [] => []
  | x :: xs =>
    if x.isStr then (if xs.isEmpty then [T.pass] else normL xs)
    else norm x :: normL xs
end

mutual
/-- Does the tree contain an annotated assignment without annotation? `ast.unparse` visits the
annotation of every annotated assignment and raises AttributeError if it is None. (code_normalizer_implementation.py:139-140) -/
def crashes : T → Bool
  | .arg _ ann => crashesO ann
  | .fn _ _ pre body decos ret => crashesL pre || crashesL body || crashesL decos || crashesO ret
  | .cls _ pre body decos => crashesL pre || crashesL body || crashesL decos
  | .annAssign t ann v => ann.isNone || crashes t || crashesO ann || crashesO v
  | .strExpr _ => false
  | .call f as => crashes f || crashesL as
  | .name _ => false
  | .attr v _ => crashes v
  | .node _ cs => crashesL cs
/-- for lists (code_normalizer_implementation.py:139-140) -/
def crashesL : List T → Bool
  | [] => false
  | x :: xs => crashes x || crashesL xs
/-- for optional children (code_normalizer_implementation.py:139-140) -/
def crashesO : Option T → Bool
  | none => false
  | some x => crashes x
end

/-- Lines 86-104: is the decorator a call of one of Pythagoras' decorators? `decorator_list[0].func`
raises AttributeError unless the decorator is a call; `decorator.id` exists for names,
`decorator.attr` for attributes. (code_normalizer_implementation.py:86-104) -/
def checkDecorator (known : List String) : T → Except Err Unit
  | .call (.name i) _ => if i ∈ known then .ok () else .error .assertionError
  | .call (.attr _ a) _ => if a ∈ known then .ok () else .error .assertionError
  | .call _ _ => .error .assertionError
  | _ => .error .attributeError

/-- Lines 75-104 and 106-137 on a parsed module: the first statement must be a regular function
with at most one decorator, which is dropped if asked to; then the whole module is walked. The
module's own body cannot start with a string since it starts with a function. (code_normalizer_implementation.py:75-137) -/
def normModule (known : List String) (drop : Bool) : List T → Except Err (List T)
  | [] => .error .indexError
  | .fn false n pre body decos ret :: rest =>
    match decos with
    | [] => .ok (normL (.fn false n pre body [] ret :: rest))
    | [d] =>
      if drop then
        match checkDecorator known d with
        | .ok _ => .ok (normL (.fn false n pre body [] ret :: rest))
        | .error e => .error e
      else .ok (normL (.fn false n pre body [d] ret :: rest))
    | _ => .error .assertionError
  | _ :: _ => .error .assertionError

/-- `ast.parse`: None means SyntaxError (code_normalizer_implementation.py:75) -/
abbrev Parser := Txt → Option (List T)
/-- `autopep8.fix_code(ast.unparse(tree))` (code_normalizer_implementation.py:139-140) -/
abbrev Printer := List T → Txt

/-- Lines 139-140: printing fails with AttributeError on an annotated assignment without
annotation. (code_normalizer_implementation.py:139-140) -/
def unparse (print : Printer) (m : List T) : Except Err Txt :=
  if crashesL m then .error .attributeError else .ok (print m)

/-- `__get_normalized_function_source__(source, drop_pth_decorators)` for a string source
(code_normalizer_implementation.py:27-141); `known` = `pth.all_decorators`. The function name is
only used in an error message, but its extraction may fail (line 72). -/
def normalize (parse : Parser) (print : Printer) (known : List String) (drop : Bool) (t : Txt) :
    Except Err Txt := do
  let c ← clean t
  let _ ← functionName c
  match parse c with
  | none => .error .syntaxError
  | some m => do
    let m' ← normModule known drop m
    unparse print m'

/-- The names in `pth.all_decorators` (pythagoras/__init__.py:57-64) -/
def allDecorators : List String :=
  ["ordinary", "autonomous", "strictly_autonomous", "pure"]

end Pyth.Src
