import Verif.Model.Describe
/-!
# Descriptions of portals (specification for C94)
-/
namespace Pyth.Describe
open Pyth.CrashPath (Path FnRef)

/-- `n` is the number of things with property `P` -/
def Counts {α : Type} (n : Nat) (P : α → Prop) : Prop := ∃ l : List α, l.Nodup ∧ (∀ x, x ∈ l ↔ P x) ∧ l.length = n

/-- key `k` was requested in directory `d` and not dropped since -/
def Pending (ops : List Op) (d : Dir) (k : Path) : Prop :=
  ∃ before after, ops = before ++ .write d (.request k) :: after ∧ .write d (.drop k) ∉ after

/-- the exceptions recorded in directory `d`: day and id, one entry for each (`date`: the day at the beginning) -/
def recorded (d : Dir) : List Char → List Op → List (List Char × List Char)
  | _, [] => []
  | _, .day x :: ops => recorded d x ops
  | date, .write e (.crash _ id) :: ops => if e = d then (date, id) :: recorded d date ops else recorded d date ops
  | date, _ :: ops => recorded d date ops

/-- keys are not empty -/
def Op.wellFormed : Op → Prop
  | .write _ (.value k) => k ≠ []
  | .write _ (.result k) => k ≠ []
  | .write _ (.request k) => k ≠ []
  | _ => True

/-- the table has exactly one row for parameter `name`, and it is this one -/
def Shows (rows : List Row) (t : RowType) (name : String) (v : Cell) : Prop :=
  rows.filter (fun r => r.parameter = name) = [⟨t, name, v⟩]

/-- the functions registered in island `isl` through the `i`-th portal -/
def Registered (ops : List Op) (i : Nat) (isl name : String) : Prop := .register i isl name ∈ ops

/-- writes and days do not concern the program's memory -/
def Op.onDisk : Op → Bool
  | .write .. => true
  | .day _ => true
  | _ => false

end Pyth.Describe
