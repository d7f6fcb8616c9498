import Verif.Model.Packages
/-!
# Packages (specification for C95)
-/
namespace Pyth.Packages

def Installed (s : St) (name : String) : Prop := ∃ v, (name, v) ∈ s.site

/-- what is assumed about `pip`: `install` installs what it is told to, in the version it is told to, and removes no
distribution; `uninstall -y` removes this distribution and no other -/
structure PipWorks (E : Env) : Prop where
  /-- for distribution names without `=` -/
  install : ∀ d site site', '=' ∉ d.toList → E.pip ["install", d] site = some site' →
    (∃ v, (d, v) ∈ site') ∧ ∀ x ∈ site, ∃ v, (x.1, v) ∈ site'
  upgrade : ∀ d site site', '=' ∉ d.toList → E.pip ["install", "--upgrade", d] site = some site' →
    (∃ v, (d, v) ∈ site') ∧ ∀ x ∈ site, ∃ v, (x.1, v) ∈ site'
  pinned : ∀ d v site site', '=' ∉ d.toList → '=' ∉ v.toList → v ≠ "" →
    E.pip ["install", d ++ "==" ++ v] site = some site' → (d, v) ∈ site' ∧ ∀ x ∈ site, ∃ v, (x.1, v) ∈ site'
  pinnedUpgrade : ∀ d v site site', '=' ∉ d.toList → '=' ∉ v.toList → v ≠ "" →
    E.pip ["install", "--upgrade", d ++ "==" ++ v] site = some site' → (d, v) ∈ site' ∧ ∀ x ∈ site, ∃ v, (x.1, v) ∈ site'
  uninstall : ∀ d site site', E.pip ["uninstall", "-y", d] site = some site' → site' = site.filter fun x => x.1 != d

/-- a fresh program could import module `m` -/
def Importable (E : Env) (s : St) (m : String) : Prop := ∃ o, find E s m = some o ∧ E.broken m o = false

/-- the module is loaded in this program -/
def Loaded (s : St) (m : String) : Prop := ∃ o, (m, o) ∈ s.loaded

/-- a module of this name is contained in some installed distribution or is there otherwise -/
def Present (E : Env) (s : St) (m : String) : Prop :=
  m ∈ E.others ∨ ∃ d v, (d, v) ∈ s.site ∧ m ∈ E.provides d v

end Pyth.Packages
