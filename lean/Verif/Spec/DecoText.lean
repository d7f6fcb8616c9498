import Verif.Model.SourceText
/-!
# Names that a string literal can carry as they are
-/
namespace Pyth.Deco
open Pyth.Src

/-- the characters that, after a backslash, make up an escape in a Python string literal -/
def escapeChars : List Char :=
  ['\\', '\'', '"', 'a', 'b', 'f', 'n', 'r', 't', 'v', 'x', 'N', 'u', 'U',
   '0', '1', '2', '3', '4', '5', '6', '7', '\n', '\r', '\x00']

/-- A name that can be put between two single quotes as it is: it has no single quote, no line end and no null
character, and every backslash in it is followed by a character that does not make it an escape. -/
inductive Plain : Txt → Prop
  | nil : Plain []
  | char (c : Char) {r : Txt} : c ∉ ['\'', '\\', '\n', '\r', '\x00'] → Plain r → Plain (c :: r)
  | backslash (d : Char) {r : Txt} : d ∉ escapeChars → Plain r → Plain ('\\' :: d :: r)

end Pyth.Deco
