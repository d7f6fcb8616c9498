import Verif.Model.Ordinarity
import Verif.Spec.Normalizer
/-!
# Ordinary functions (C87)
-/
namespace Pyth.Src

/-- the text can be cleaned and parses to the module `m` -/
def Parses (parse : Parser) (t : Txt) (m : List T) : Prop := ∃ c, clean t = .ok c ∧ parse c = some m

/-- The source of the function was found, and it is its definition: one `def` or `async def` statement, or (for a lambda)
whatever statement contains it. -/
def DefinedBy (parse : Parser) (c : Code) (m : List T) : Prop :=
  (∃ t, c.text = some t ∧ Parses parse t m) ∧
  (c.isLambda = false → c.name ≠ "<lambda>" ∧ ∃ pre body decos ret, m = [.fn c.async c.name pre body decos ret])

/-- An ordinary function: written with `def`; no lambda, not asynchronous, no `*args`, no variables of an enclosing function;
its only decorator, if any, is the Pythagoras decorator; no annotated variables (they cannot be normalised). -/
structure OrdinaryDef (known : List String) (c : Code) (m : List T) : Prop where
  noLambda : c.isLambda = false
  noAsync : c.async = false
  noVararg : c.vararg = false
  noClosure : c.captures = false
  decorator : ∀ pre body decos ret, m = [.fn c.async c.name pre body decos ret] → decos = [] ∨ ∃ d, decos = [d] ∧ KnownDecorator known d
  noAnnotated : ¬ HasAnnAssignL (undecorated m)

/-- the innermost function of a chain of `functools.wraps` -/
def Thing.innermost : Thing → Thing
  | .wraps _ f => f.innermost
  | x => x

/-- the object that is called when a chain of `functools.wraps` is called -/
def Thing.outermost : Thing → Thing
  | .wraps w _ => w.outermost
  | x => x

end Pyth.Src
