import Verif.Model.Registry
/-!
# Decorating a function object again

The constructors of the function classes accept not only a function or its source but also a function object
(`a_func: Callable | str | OrdinaryFn`): `OrdinaryFn.__init__` (ordinary_core_classes.py:72-84), `SafeFn.__init__`
(safe_core_classes.py:41-48), `AutonomousFn.__init__` (autonomous_core_classes.py:117-136), `PureFn.__init__`
(pure_core_classes.py:139-150).  Stacked decorators do this: the lower decorator has already made an object when
the upper one is applied.  `Verif.Model.Registry` covers functions and sources; this file covers objects.

Every constructor first calls the `update` method of the class of the *new* object with the given one; an attribute
that the given object does not have is an `AttributeError` there.

Simplifications: as in `Verif.Model.Registry`.  The frames of the running calls (`call_stack`) are not modelled.
-/
namespace Pyth.Registry

/-- an `OrdinaryFn` or `SafeFn` object (ordinary_core_classes.py:46-84) -/
structure Plain where
  safe : Bool
  src : Src
  /-- `_fn_fully_registered` -/
  full : Bool := false
  /-- has `_fn_bytecode`, `_kwargs_var_name`, … -/
  compiled : Bool := false
  deriving DecidableEq

/-- a function object given to a decorator: an ordinary or safe one, or an autonomous or pure one (ordinary_core_classes.py:72-102) -/
inductive Given
  | plain (f : Plain)
  | fn (o : Obj)
  deriving DecidableEq

/-- the source code it carries (ordinary_core_classes.py:90-102) -/
def Given.src : Given → Src
  | .plain f => f.src
  | .fn o => o.src
/-- the registration of the given object is complete (ordinary_core_classes.py:90-102) -/
def Given.full : Given → Bool
  | .plain f => f.full
  | .fn o => o.full
/-- the given object has been compiled (ordinary_core_classes.py:90-105) -/
def Given.compiled : Given → Bool
  | .plain f => f.compiled
  | .fn o => o.compiled

/-- `ordinary()(f)`, `safe()(f)` (ordinary_core_classes.py:72-84, 90-100, safe_core_classes.py:41-48): `update` copies
the source and, from a fully registered object, the compiled code.  `none`: an `AttributeError` -/
def asPlain (safe : Bool) (g : Given) : Option Plain :=
  if g.full && !g.compiled then none
  else some { safe := safe, src := g.src, full := g.full, compiled := g.full && g.compiled }

/-- `_complete_fn_registration` (ordinary_core_classes.py:107-126, safe_core_classes.py:53-56) -/
def Plain.complete (f : Plain) : Plain := if f.full then f else { f with compiled := true, full := true }

/-- executing it up to the start of its body (ordinary_core_classes.py:175-184) -/
def Plain.start (f : Plain) : Plain × Bool := (f.complete, f.complete.compiled)

/-- `autonomous(island)(f)` in portal `p` (autonomous_core_classes.py:117-143): `update` needs the attributes of an
autonomous function; the new object is not registered in the portal (the `return` of line 131 comes before line 136).
The strictness asked for is ignored.  An `AutonomousFn` has neither guards nor an augmented source. -/
def asAutonomous (R : Reg) (p : Nat) (isl : String) : Given → Reg × Option Nat
  | .plain _ => (R, none)
  | .fn o => match update { cls := .autonomous, portal := p, island := isl, src := o.src, strict := false } o with
    | none => (R, none)
    | some o' => if isl = o.island then R.alloc { o' with guards := none, aug := none } else (R, none)

/-- `pure(island, guards)(f)` in portal `p` (pure_core_classes.py:139-159, autonomous_core_classes.py:117-143): `update`
needs the attributes of a pure function; then the guards are replaced by those given, and the object is registered like
a new one. -/
def asPure (R : Reg) (p : Nat) (isl : String) (gs : Option (List GuardArg)) : Given → Reg × Option Nat
  | .plain _ => (R, none)
  | .fn o =>
    match o.cls with
    | .autonomous => (R, none)
    | .pure => match update { cls := .pure, portal := p, island := isl, src := o.src, strict := false } o with
      | none => (R, none)
      | some o' =>
        if isl = o.island then
          match preprocessGuards R p o.island gs with
          | none => (R, none)
          | some g => begin R { o' with guards := g, aug := none }
        else (R, none)

end Pyth.Registry
