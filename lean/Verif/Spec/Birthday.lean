import Verif.Model.HashAddr
import Mathlib.SetTheory.Cardinal.Finite
import Mathlib.Data.Fintype.Pi
import Mathlib.Data.Fintype.Prod
import Mathlib.Data.Fintype.BigOperators
/-!
# Specification for C114: counting the outcomes in which signatures coincide

Probabilities are relative numbers of outcomes; all outcomes of an experiment are equally likely.
-/
namespace Pyth.Birthday
open Pyth.Base32 Pyth.HashAddr

/-- the random bits of `uuid.uuid4()` (RFC 4122, Python's `uuid.py`): 48 bits, then (after the four version bits) 12 bits,
then (after the two variant bits) 62 bits -/
abbrev Uuid4 := Fin (2 ^ 48) × Fin (2 ^ 12) × Fin (2 ^ 62)

/-- `uuid.uuid4().int`: version 4 in bits 76-79, variant 2 in bits 62-63 -/
def Uuid4.int (u : Uuid4) : Nat := u.1.val * 2 ^ 80 + 4 * 2 ^ 76 + u.2.1.val * 2 ^ 64 + 2 * 2 ^ 62 + u.2.2.val

/-- the hexadecimal text of a sha256 digest: 64 digits -/
abbrev Digest := Fin 64 → Fin 16

/-- its text -/
def Digest.text (d : Digest) : List Char := List.ofFn fun i => "0123456789abcdef".toList.getD (d i).val '?'

/-- a class name and a size, and the digest the hasher gives -/
def obj (x : List Char × Size) (d : Digest) : Obj := ⟨x.1, x.2, d.text⟩

/-- outcomes of `k` independent experiments -/
def Coincide {S T : Type} (sig : S → T) {k : Nat} (u : Fin k → S) : Prop := ∃ i j, i ≠ j ∧ sig (u i) = sig (u j)

/-- How many outcomes of `k` drawings of random signatures contain two equal signatures. -/
noncomputable def badDrawings (k : Nat) : Nat := Nat.card { u : Fin k → Uuid4 // Coincide (fun v => randomSignature v.int) u }

/-- For `k` objects whose digests are drawn at random: how many outcomes give two of them the same address. -/
noncomputable def badHashings {k : Nat} (xs : Fin k → List Char × Size) : Nat :=
  Nat.card { d : Fin k → Digest // ∃ i j, i ≠ j ∧ address (obj (xs i) (d i)) = address (obj (xs j) (d j)) }

end Pyth.Birthday
