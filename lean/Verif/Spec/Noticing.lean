import Verif.Model.FirstEntry
import Mathlib.SetTheory.Cardinal.Finite
import Mathlib.Data.Fintype.Pi
/-!
# Specification for C116: how often assignments of differing values get noticed

Probabilities are relative numbers of outcomes; `random.random()` gives each of the 2^53 multiples of 2^-53 in [0, 1)
with the same probability (documentation of Python's `random`).
-/
namespace Pyth.Noticing
open Pyth.FirstEntry
variable {K V : Type} [DecidableEq K] [DecidableEq V]

/-- the outcomes of `random.random()` -/
abbrev Draw := Fin (2 ^ 53)

/-- the number it returns -/
def Draw.value (d : Draw) : Rat := (d.val : Rat) / 2 ^ 53

/-- `n` assignments `d[key] = value`, with the random numbers drawn in them; the storage works -/
def assignments {n : Nat} (a : Fin n → K × V) (draws : Fin n → Draw) : List (Op K V) :=
  List.ofFn fun i => ⟨(a i).1, (a i).2, (draws i).value, .none, .none⟩

/-- Does the `i`-th assignment return normally?  (It is made after those before it.) -/
def Returns (s : Dict K V) {n : Nat} (a : Fin n → K × V) (draws : Fin n → Draw) (i : Fin n) : Prop :=
  (setItem ⟨(a i).1, (a i).2, (draws i).value, .none, .none⟩ (run s ((assignments a draws).take i.val))).1 = .ok ()

/-- The `i`-th assignment gives another value to its key than the first one the key got: before, or in the `j`-th assignment. -/
def Differs (before : K → Option V) {n : Nat} (a : Fin n → K × V) (i : Fin n) : Prop :=
  (∃ v, before (a i).1 = some v ∧ v ≠ (a i).2) ∨
  (before (a i).1 = none ∧ ∃ j < i, (a j).1 = (a i).1 ∧ (∀ k < j, (a k).1 ≠ (a i).1) ∧ (a j).2 ≠ (a i).2)

/-- number of assignments that give a differing value -/
noncomputable def differing (before : K → Option V) {n : Nat} (a : Fin n → K × V) : Nat :=
  Nat.card { i : Fin n // Differs before a i }

/-- number of outcomes (of all random numbers together) for which all assignments return normally: nothing is noticed -/
noncomputable def unnoticed (s : Dict K V) {n : Nat} (a : Fin n → K × V) : Nat :=
  Nat.card { draws : Fin n → Draw // ∀ i, Returns s a draws i }

/-- number of outcomes of one random number that lead to a check -/
noncomputable def checking (p : Rat) : Nat := Nat.card { d : Draw // d.value < p }

end Pyth.Noticing
