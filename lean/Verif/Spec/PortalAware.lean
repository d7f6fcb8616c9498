import Verif.Model.PortalAware
/-! # Vocabulary for C69, C101, C102 -/
namespace Pyth.Aware
open Pyth.Portal

/-- `Inside x o`: the object `x` is `o`, or a part of it, or a part of a part, … -/
inductive Inside : Obj → Obj → Prop
  | refl (o : Obj) : Inside o o
  | part {x c : Obj} (k : Kind) (ss : List String) (cs : List Obj) (q : Option PortalId) : c ∈ cs → Inside x c →
      Inside x (.mk k ss cs q)

def Obj.kind : Obj → Kind
  | .mk k _ _ _ => k

/-- a portal, or an ordinary or safe function -/
def Obj.Unstorable (o : Obj) : Prop := o.kind = .portal ∨ o.kind = .ordinaryFn

mutual
/-- `Rebound p o o'`: `o'` has the same data as `o`, and it and everything inside it that can be bound to a portal is bound
to `p`. -/
inductive Rebound (p : Option PortalId) : Obj → Obj → Prop
  | mk (k : Kind) (ss : List String) {cs cs' : List Obj} (q : Option PortalId) :
      ReboundL p cs cs' → Rebound p (.mk k ss cs q) (.mk k ss cs' (if k.aware then p else none))
inductive ReboundL (p : Option PortalId) : List Obj → List Obj → Prop
  | nil : ReboundL p [] []
  | cons {o o' : Obj} {os os' : List Obj} : Rebound p o o' → ReboundL p os os' →
      ReboundL p (o :: os) (o' :: os')
end

mutual
/-- `SameData o o'`: the objects differ at most in the portals they (and the objects inside them)
are bound to. -/
inductive SameData : Obj → Obj → Prop
  | mk (k : Kind) (ss : List String) {cs cs' : List Obj} (q q' : Option PortalId) :
      SameDataL cs cs' → SameData (.mk k ss cs q) (.mk k ss cs' q')
inductive SameDataL : List Obj → List Obj → Prop
  | nil : SameDataL [] []
  | cons {o o' : Obj} {os os' : List Obj} : SameData o o' → SameDataL os os' →
      SameDataL (o :: os) (o' :: os')
end

end Pyth.Aware
