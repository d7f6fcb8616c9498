import Verif.Model.AddrInfo
import Verif.Spec.PureHistory
/-!
# Vocabulary for what the address of a call tells
-/
namespace Pyth.Pure
open Pyth.World Pyth.Portal

variable {U A : Type} [DecidableEq U] [DecidableEq A]

/-- the right answers about the call `f(**vals)` (values sorted by name), `b`: an execution is requested -/
def Right (addrOf : Val U A → A) (info : FnInfo) (s : PWorld U A) (f : FnId) (vals : List (String × U)) (b : Bool) :
    Ask → Answer U → Prop
  | .function, x => x = .function f
  | .fn, x => x = .function f
  | .fnName, x => x = .text (info.name f)
  | .fnSourceCode, x => x = .text (info.source f)
  | .islandName, x => x = .text (info.island f)
  | .arguments, x => ∃ l, x = .arguments l ∧ DenKw addrOf s l vals
  | .kwargs, x => x = .kwargs vals
  | .requested, x => x = .requested b

/-- nothing was executed, no result and no request was stored or removed -/
structure Untouched (s s' : PWorld U A) : Prop where
  ran : NothingRan s s'
  results : s'.ext.results = s.ext.results
  requests : s'.ext.requests = s.ext.requests

/-- the signature object of the call `f(**vals)` (values sorted by name): the function and the packed
arguments, by address -/
def sigVal (addrOf : Val U A → A) (f : FnId) (vals : List (String × U)) : Val U A :=
  .sig f (addrOf (.fn f)) (addrOf (.args (texts addrOf vals)))

end Pyth.Pure
