import Verif.Model.SourceText
/-!
# What the lines of a text are, independently of how they are computed
-/
namespace Pyth.Src

/-- a text without line ends -/
def NoBreak (l : Txt) : Prop := ∀ c ∈ l, isBreak c = false

/-- `Lines t ls`: the text `t` consists of the lines `ls`, each followed by a line end; the last
line may lack its line end if it is not empty. A line end is a single line-end character or CR LF
(a CR followed by a LF is never a line end by itself). -/
inductive Lines : Txt → List Txt → Prop
  | none : Lines [] []
  | last (l : Txt) : l ≠ [] → NoBreak l → Lines l [l]
  | crlf (l t : Txt) (ls : List Txt) : NoBreak l → Lines t ls →
      Lines (l ++ '\r' :: '\n' :: t) (l :: ls)
  | one (l : Txt) (c : Char) (t : Txt) (ls : List Txt) : NoBreak l → isBreak c = true →
      ¬ (c = '\r' ∧ t.head? = some '\n') → Lines t ls → Lines (l ++ c :: t) (l :: ls)

/-- A line of blanks and tabs only (possibly empty) -/
def Blank (l : Txt) : Prop := ∀ c ∈ l, c = ' ' ∨ c = '\t'

instance (l : Txt) : Decidable (Blank l) := inferInstanceAs (Decidable (∀ c ∈ l, _))

/-- `Indented ind core l`: the line is its whitespace indentation followed by text that does not
start with whitespace -/
def Indented (ind core l : Txt) : Prop :=
  l = ind ++ core ∧ (∀ c ∈ ind, isSpace c = true) ∧ ∀ c, core.head? = some c → isSpace c = false

/-- The code points Python's `str.isspace` accepts (Unicode 15: bidirectional type WS, B or S, or category Zs) -/
def whitespaceCodes : List Nat := [0x09, 0x0A, 0x0B, 0x0C, 0x0D, 0x1C, 0x1D, 0x1E, 0x1F, 0x20, 0x85, 0xA0, 0x1680,
  0x2000, 0x2001, 0x2002, 0x2003, 0x2004, 0x2005, 0x2006, 0x2007, 0x2008, 0x2009, 0x200A, 0x2028, 0x2029, 0x202F,
  0x205F, 0x3000]

/-- The line boundaries listed in the documentation of `str.splitlines` -/
def lineEndCodes : List Nat := [0x0A, 0x0D, 0x0B, 0x0C, 0x1C, 0x1D, 0x1E, 0x85, 0x2028, 0x2029]

end Pyth.Src
