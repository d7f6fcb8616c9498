import Verif.Model.SharedDirs
/-!
# Vocabulary for the properties of portals that share directories (C85)
-/
namespace Pyth.Shared
open Pyth.Portal (PortalId Sys)
open Pyth.World (Exc Kind)

/-- The same program in plain Python, portals and logs left out; only the identity of the next new
exception object is threaded. -/
def Prog.plain : Prog → Nat → Except Exc Unit × Nat
  | .skip, n => (.ok (), n)
  | .raise k, n => (.error ⟨n, k⟩, n + 1)
  | .logEvent, n => (.ok (), n)
  | .new _, n => (.ok (), n)
  | .seq a b, n => match a.plain n with
    | (.ok _, n') => b.plain n'
    | (.error e, n') => (.error e, n')
  | .tryExcept a b, n => match a.plain n with
    | (.ok _, n') => (.ok (), n')
    | (.error _, n') => b.plain n'
  | .within _ a, n => a.plain n

/-- the portals a program enters -/
def Prog.enters : Prog → List PortalId
  | .skip | .raise _ | .logEvent | .new _ => []
  | .seq a b => a.enters ++ b.enters
  | .tryExcept a b => a.enters ++ b.enters
  | .within p a => p :: a.enters

/-- portals that can be entered together: all of them write logs, and no two share a directory -/
def Compatible (conf : Conf) (ps : List PortalId) : Prop :=
  (∀ p ∈ ps, 1 ≤ conf.level p) ∧ ∀ p ∈ ps, ∀ q ∈ ps, conf.dirOf p = conf.dirOf q → p = q

/-- nested blocks, the first portal outermost -/
def nest : List PortalId → Prog → Prog
  | [], a => a
  | p :: ps, a => .within p (nest ps a)

end Pyth.Shared
