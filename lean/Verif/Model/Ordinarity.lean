import Verif.Model.Normalizer
/-!
# Which callables are accepted

`pythagoras/_040_ordinary_functions/assert_ordinarity.py`, `check_n_positional_args.py`, and the branch of
`code_normalizer_implementation.py` for callables (lines 45-48, 52-141): every decorator (`ordinary`, `safe`,
`autonomous`, `strictly_autonomous`, `pure`) hands the callable to it (ordinary_core_classes.py:72-84).

The functions of CPython's `inspect` and `functools` modules that the code calls are modelled here on the ways a
callable comes into being, not on its attributes.  Simplifications: nobody assigns `__name__`, `__wrapped__`,
`__signature__` or `__code__` by hand (`functools.wraps` does).
-/
namespace Pyth.Src

/-- the code of a `def`, `async def` or `lambda` (assert_ordinarity.py:10-57) -/
structure Code where
  name : String
  isLambda : Bool := false
  async : Bool := false
  /-- has a `yield` of its own -/
  yields : Bool := false
  /-- has a parameter `*args` -/
  vararg : Bool := false
  /-- uses a variable of an enclosing function (or `super()`), so that the function object has a closure -/
  captures : Bool := false
  /-- the source text that `inspect` finds; `none`: it raises OSError (no file, interactive session, …) -/
  text : Option Txt

/-- Python objects that may be handed to a decorator (assert_ordinarity.py:10-57) -/
inductive Thing
  /-- a function object, as `def`, `async def` or `lambda` makes it -/
  | code (c : Code)
  /-- `functools.wraps(f)(w)` (`functools.update_wrapper`) -/
  | wraps (w f : Thing)
  /-- a method of an instance, or a class method: a bound `f` -/
  | method (f : Thing)
  /-- `functools.partial(f, …)` -/
  | partialOf (f : Thing)
  /-- a built-in function; `vararg = none`: it has no signature -/
  | builtin (name : String) (vararg : Option Bool)
  /-- a class, with the signature of its constructor and its source -/
  | cls (name : String) (vararg : Bool) (text : Option Txt)
  /-- an instance of a class with `__call__` -/
  | instance_ (vararg : Bool)
  /-- not callable, not a string -/
  | data

namespace Thing

/-- `callable` (assert_ordinarity.py:10-57) -/
def callable : Thing → Bool
  | .data => false
  | _ => true

/-- `inspect.isfunction` (assert_ordinarity.py:10-57) -/
def isFunction : Thing → Bool
  | .code _ => true
  | .wraps w _ => w.isFunction
  | _ => false

/-- `a_func.__closure__ is not None` for a function object (assert_ordinarity.py:10-57) -/
def hasClosure : Thing → Bool
  | .code c => c.captures
  | .wraps w _ => w.hasClosure
  | _ => false

/-- `__name__`; `none`: no such attribute (then `functools.update_wrapper` keeps the wrapper's) (assert_ordinarity.py:10-57) -/
def name : Thing → Option String
  | .code c => some (if c.isLambda then "<lambda>" else c.name)
  | .wraps w f => match f.name with
    | some n => some n
    | none => w.name
  | .method f => f.name
  | .builtin n _ => some n
  | .cls n _ _ => some n
  | .partialOf _ | .instance_ _ | .data => none

/-- does `inspect.signature`, which follows `__wrapped__`, have a VAR_POSITIONAL parameter?  `none`: ValueError
or TypeError (check_n_positional_args.py:4-25) -/
def varPositional : Thing → Option Bool
  | .code c => some c.vararg
  | .wraps _ f => f.varPositional
  | .method f => f.varPositional
  | .partialOf f => f.varPositional
  | .builtin _ v => v
  | .cls _ v _ => some v
  | .instance_ v => some v
  | .data => none

/-- `inspect.iscoroutinefunction`: follows methods and partials, not `__wrapped__`; an `async def` with a `yield` is an
asynchronous generator, not a coroutine function (assert_ordinarity.py:10-57) -/
def isCoroutine : Thing → Bool
  | .code c => c.async && !c.yields
  | .wraps w _ => w.isCoroutine
  | .method f => f.isCoroutine
  | .partialOf f => f.isCoroutine
  | _ => false

/-- the text that `inspect.getsource` returns; it follows `__wrapped__`; `none`: OSError or TypeError
(code_normalizer_implementation.py:27-53) -/
def source : Thing → Option Txt
  | .code c => c.text
  | .wraps _ f => f.source
  | .method f => f.source
  | .cls _ _ t => t
  | .partialOf _ | .builtin _ _ | .instance_ _ | .data => none

end Thing

/-- `accepts_unlimited_positional_args` (check_n_positional_args.py:4-24) -/
def acceptsUnlimitedPositionalArgs (x : Thing) : Except Err Bool :=
  match x.varPositional with
  | some b => .ok b
  | none => .error .valueError

/-- `assert cond` (assert_ordinarity.py:10-57) -/
def require (b : Bool) : Except Err Unit := if b then .ok () else .error .assertionError

/-- `assert_ordinarity` (assert_ordinarity.py:10-58) -/
def assertOrdinarity (x : Thing) : Except Err Unit := do
  require x.callable
  require x.isFunction
  require (!x.hasClosure)
  require (decide (x.name ≠ some "<lambda>"))
  let b ← acceptsUnlimitedPositionalArgs x
  require (!b)
  require (!x.isCoroutine)

/-- lines 52-141 of code_normalizer_implementation.py for a text whose function name is known already -/
def normalizeText (parse : Parser) (print : Printer) (known : List String) (drop : Bool) (t : Txt) : Except Err Txt := do
  let c ← clean t
  match parse c with
  | none => .error .syntaxError
  | some m => do
    let m' ← normModule known drop m
    unparse print m'

/-- `__get_normalized_function_source__` for an object that is not a string (code_normalizer_implementation.py:43-51);
an OSError of `inspect.getsource` is represented by `valueError` -/
def normalizeThing (parse : Parser) (print : Printer) (known : List String) (drop : Bool) (x : Thing) : Except Err Txt := do
  assertOrdinarity x
  match x.source with
  | none => .error .valueError
  | some t => normalizeText parse print known drop t

end Pyth.Src
