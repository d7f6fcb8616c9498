import Verif.Model.AstKeywords
/-!
# Specification for C110: literals, dictionaries
-/
namespace Pyth.AstKw


mutual
/-- expressions that are literals, and their values -/
inductive IsLiteral : Expr → Val → Prop
  | const (v) : IsLiteral (.const v) v
  | list {es vs} (h : AreLiterals es vs) : IsLiteral (.list es) (.list vs)
  | tuple {es vs} (h : AreLiterals es vs) : IsLiteral (.tuple es) (.tuple vs)
  | neg (n) : IsLiteral (.neg (.const (.int n))) (.int (-n))
  | pos (n) : IsLiteral (.pos (.const (.int n))) (.int n)
inductive AreLiterals : List Expr → List Val → Prop
  | nil : AreLiterals [] []
  | cons {e es v vs} (h : IsLiteral e v) (hs : AreLiterals es vs) : AreLiterals (e :: es) (v :: vs)
end

/-- the keys of a Python dictionary are different -/
def IsDict (d : Dict) : Prop := (d.map (·.1)).Nodup

end Pyth.AstKw
