import Verif.Model.NodeSig
/-!
# Specification for C111

The seven things a node is described by, as texts, and what it means that a hasher confuses two texts.
-/
namespace Pyth.NodeSig.Spec

/-- the description of a node: hardware address in decimal, system, release, version, machine,
processor, user -/
def description (n : Node) : List (List Char) :=
  [(toString n.mac).toList, n.system, n.release, n.version, n.machine, n.processor, n.user]

/-- one text: the description without separators -/
def text (n : Node) : List Char := (description n).flatten

/-- the hasher confuses two different texts -/
def Collision (hex : List Char → List Char) (s t : List Char) : Prop :=
  s ≠ t ∧ Base32.hashSignature (hex s) = Base32.hashSignature (hex t)

/-- exactly one entry of two lists is different -/
def DifferAt (i : Nat) (l m : List (List Char)) : Prop :=
  l.length = m.length ∧ l[i]? ≠ m[i]? ∧ ∀ j, j ≠ i → l[j]? = m[j]?

/-- the text does not begin with a decimal digit and is not empty -/
def StartsWithLetter (s : List Char) : Prop := ∃ c t, s = c :: t ∧ ¬ c.isDigit

end Pyth.NodeSig.Spec
