import Verif.Spec.Packages
/-!
# C95: installing and uninstalling packages
-/
namespace Pyth.Packages

theorem lookup_isSome {α β : Type} [BEq α] [LawfulBEq α] {l : List (α × β)} {a : α} :
    (l.lookup a).isSome ↔ ∃ b, (a, b) ∈ l := by
  induction l with
  | nil => simp
  | cons x l ih =>
    rcases x with ⟨a', b'⟩
    rw [List.lookup_cons]
    by_cases h : a = a'
    · subst h; simp
    · have : (a == a') = false := by simpa using h
      rw [this]
      simp only [ih, List.mem_cons, Prod.mk.injEq, h, false_and, false_or]

theorem load_none {E : Env} {s s' : St} {m : String} (h : load E s m = (s', none)) :
    Importable E s m ∧ s'.site = s.site ∧ Loaded s' m := by
  unfold load at h
  cases hf : find E s m with
  | none => rw [hf] at h; cases h
  | some o =>
    simp only [hf] at h
    cases hb : E.broken m o with
    | true => simp [hb] at h
    | false =>
      simp only [hb, Bool.false_eq_true, if_false] at h
      cases h
      exact ⟨⟨o, hf, hb⟩, rfl, o, List.mem_cons_self⟩

theorem load_some {E : Env} {s s' : St} {m : String} {e : Err} (h : load E s m = (s', some e)) :
    ¬ Importable E s m ∧ s' = s := by
  unfold load at h
  cases hf : find E s m with
  | none =>
    rw [hf] at h; cases h
    exact ⟨fun ⟨o, h, _⟩ => (nomatch hf.symm.trans h), rfl⟩
  | some o =>
    simp only [hf] at h
    cases hb : E.broken m o with
    | true =>
      simp only [hb, if_true] at h; cases h
      refine ⟨fun ⟨o', h, h'⟩ => ?_, rfl⟩
      rw [hf] at h; cases h
      rw [hb] at h'; cases h'
    | false => simp [hb] at h

theorem import_none {E : Env} {s s' : St} {m : String} (h : importModule E s m = (s', none)) :
    s'.site = s.site ∧ Loaded s' m ∧ ((Loaded s m ∧ s' = s) ∨ (¬ Loaded s m ∧ Importable E s m)) := by
  unfold importModule at h
  cases hl : s.loaded.lookup m with
  | some o =>
    rw [hl] at h
    cases h
    have : Loaded s m := lookup_isSome.1 (by rw [hl]; rfl)
    exact ⟨rfl, this, Or.inl ⟨this, rfl⟩⟩
  | none =>
    rw [hl] at h
    obtain ⟨h1, h2, h3⟩ := load_none h
    refine ⟨h2, h3, Or.inr ⟨fun hn => ?_, h1⟩⟩
    have := lookup_isSome.2 hn
    rw [hl] at this; cases this

theorem import_some {E : Env} {s s' : St} {m : String} {e : Err} (h : importModule E s m = (s', some e)) :
    s' = s ∧ ¬ Loaded s m ∧ ¬ Importable E s m := by
  unfold importModule at h
  cases hl : s.loaded.lookup m with
  | some o => rw [hl] at h; cases h
  | none =>
    rw [hl] at h
    obtain ⟨h1, h2⟩ := load_some h
    refine ⟨h2, fun hn => ?_, h1⟩
    have := lookup_isSome.2 hn
    rw [hl] at this; cases this

theorem find_site {E : Env} {s s' : St} (h : s'.site = s.site) (m : String) : find E s' m = find E s m := by
  unfold find; rw [h]

theorem Importable.site {E : Env} {s s' : St} {m : String} (h : s'.site = s.site) (i : Importable E s m) :
    Importable E s' m := by
  obtain ⟨o, h1, h2⟩ := i
  exact ⟨o, (find_site h m).trans h1, h2⟩

/-- nothing provides the module: it cannot be imported -/
theorem Importable.present {E : Env} {s : St} {m : String} (i : Importable E s m) : Present E s m := by
  obtain ⟨o, h, _⟩ := i
  unfold find at h
  cases hx : s.site.find? (fun x => (E.provides x.1 x.2).contains m) with
  | some x =>
    have h1 := List.mem_of_find?_eq_some hx
    have h2 := List.find?_some hx
    exact Or.inr ⟨x.1, x.2, h1, by simpa using h2⟩
  | none =>
    rw [hx] at h
    by_cases ho : E.others.contains m = true
    · exact Or.inl (by simpa using ho)
    · simp only [if_neg ho] at h; cases h

/-- C95: if `install_package` returns normally, the package is installed - in the requested version, if one was requested -,
its module is loaded, and no other package was removed. -/
theorem C95_install_partial (E : Env) (hp : PipWorks E) (s s' : St) (name : String) (upgrade : Bool)
    (version : Option String) (hn : '=' ∉ name.toList) (hv : ∀ v, version = some v → '=' ∉ v.toList)
    (h : install E s name upgrade version = (s', none)) :
    Installed s' name ∧ Loaded s' name ∧ (∀ v, version = some v → v ≠ "" → (name, v) ∈ s'.site) ∧
    ∀ d, Installed s d → Installed s' d := by
  unfold install at h
  cases hs : E.pip (installCommand name upgrade version) s.site with
  | none => rw [hs] at h; cases h
  | some site =>
    rw [hs] at h
    obtain ⟨h1, h2, _⟩ := import_none h
    have h1 : s'.site = site := h1
    have key : (∃ v, (name, v) ∈ site) ∧ (∀ v, version = some v → v ≠ "" → (name, v) ∈ site) ∧
        ∀ x ∈ s.site, ∃ v, (x.1, v) ∈ site := by
      have plain : (version = none ∨ version = some "") → _ := fun hc => by
        have e : installCommand name upgrade version = ["install"] ++ (if upgrade then ["--upgrade"] else []) ++ [name] := by
          unfold installCommand
          rcases hc with rfl | rfl <;> rfl
        rw [e] at hs
        have : (∃ v, (name, v) ∈ site) ∧ ∀ x ∈ s.site, ∃ v, (x.1, v) ∈ site := by
          cases upgrade with
          | true => exact hp.upgrade name _ _ hn hs
          | false => exact hp.install name _ _ hn hs
        exact (⟨this.1, fun v hv hne => by
          rcases hc with rfl | rfl
          · cases hv
          · cases hv; exact absurd rfl hne, this.2⟩ : (∃ v, (name, v) ∈ site) ∧ (∀ v, version = some v → v ≠ "" → (name, v) ∈ site) ∧
        ∀ x ∈ s.site, ∃ v, (x.1, v) ∈ site)
      cases version with
      | none => exact plain (Or.inl rfl)
      | some v =>
        by_cases hve : v = ""
        · subst hve; exact plain (Or.inr rfl)
        · have e : installCommand name upgrade (some v) =
              ["install"] ++ (if upgrade then ["--upgrade"] else []) ++ [name ++ "==" ++ v] := by
            unfold installCommand
            have : v.isEmpty = false := by
              cases hx : v.isEmpty with
              | false => rfl
              | true => exact absurd (by simpa using hx) hve
            simp [this]
          rw [e] at hs
          have : (name, v) ∈ site ∧ ∀ x ∈ s.site, ∃ v, (x.1, v) ∈ site := by
            cases upgrade with
            | true => exact hp.pinnedUpgrade name v _ _ hn (hv v rfl) hve hs
            | false => exact hp.pinned name v _ _ hn (hv v rfl) hve hs
          exact ⟨⟨v, this.1⟩, fun w hw _ => by cases hw; exact this.1, this.2⟩
    refine ⟨?_, h2, ?_, ?_⟩
    · unfold Installed; rw [h1]; exact key.1
    · rw [h1]; exact key.2.1
    · rintro d ⟨v, hd⟩
      unfold Installed; rw [h1]; exact key.2.2 (d, v) hd

/-- C95: exactly when `install_package` returns normally. -/
theorem C95_install_iff (E : Env) (s : St) (name : String) (upgrade : Bool) (version : Option String) :
    (install E s name upgrade version).2 = none ↔
      ∃ site, E.pip (installCommand name upgrade version) s.site = some site ∧
        (Loaded s name ∨ Importable E { s with site := site } name) := by
  unfold install
  cases hs : E.pip (installCommand name upgrade version) s.site with
  | none => simp
  | some site =>
    cases hi : importModule E { s with site := site } name with
    | mk s' r =>
      cases r with
      | none =>
        obtain ⟨_, _, h3⟩ := import_none hi
        refine ⟨fun _ => ⟨site, rfl, ?_⟩, fun _ => by simp only [hi]⟩
        rcases h3 with h3 | h3
        · exact Or.inl h3.1
        · exact Or.inr h3.2
      | some e =>
        obtain ⟨_, h2, h3⟩ := import_some hi
        refine ⟨fun h => ?_, fun ⟨site', h, h'⟩ => ?_⟩
        · simp [hi] at h
        · cases h
          exact absurd h' (not_or.2 ⟨h2, h3⟩)

/-- C95: if `pip` fails, both functions raise `CalledProcessError` and nothing has changed. -/
theorem C95_pip_fails (E : Env) (s : St) (name : String) (upgrade : Bool) (version : Option String) :
    (E.pip (installCommand name upgrade version) s.site = none →
      install E s name upgrade version = (s, some .calledProcess)) ∧
    (E.pip ["uninstall", "-y", name] s.site = none → uninstall E s name = (s, some .calledProcess)) := by
  constructor
  · intro h; unfold install; rw [h]
  · intro h; unfold uninstall; rw [h]

/-- C95: `uninstall_package` returns normally exactly when `pip` has succeeded and no module of this name can be imported by
a new program; otherwise it raises. -/
theorem C95_uninstall_iff (E : Env) (s : St) (name : String) :
    (uninstall E s name).2 = none ↔
      ∃ site, E.pip ["uninstall", "-y", name] s.site = some site ∧ ¬ Importable E { s with site := site } name := by
  unfold uninstall
  cases hs : E.pip ["uninstall", "-y", name] s.site with
  | none => simp
  | some site =>
    cases hi : importModule E { s with site := site } name with
    | mk s1 r =>
      cases r with
      | some e =>
        obtain ⟨_, _, h3⟩ := import_some hi
        exact ⟨fun _ => ⟨site, rfl, h3⟩, fun _ => by simp [hi]⟩
      | none =>
        obtain ⟨h1, _, _⟩ := import_none hi
        cases hr : reload E s1 name with
        | mk s2 r2 =>
          cases r2 with
          | some e =>
            have := (load_some hr).1
            exact ⟨fun _ => ⟨site, rfl, fun h => this (h.site h1)⟩, fun _ => by simp [hi, hr]⟩
          | none =>
            have := (load_none hr).1
            refine ⟨fun h => by simp [hi, hr] at h, fun ⟨site', h, h'⟩ => ?_⟩
            cases h
            exact absurd (this.site h1.symm) h'

/-- C95: if `uninstall_package` returns normally, the package is not installed, the others are installed as before, and a
new program cannot import a module of this name. -/
theorem C95_uninstall_partial (E : Env) (hp : PipWorks E) (s s' : St) (name : String)
    (h : uninstall E s name = (s', none)) :
    ¬ Installed s' name ∧ (∀ d v, d ≠ name → ((d, v) ∈ s'.site ↔ (d, v) ∈ s.site)) ∧ ¬ Importable E s' name := by
  have hiff := (C95_uninstall_iff E s name).1 (by rw [h])
  obtain ⟨site, hs, hni⟩ := hiff
  have hsite : s'.site = site := by
    unfold uninstall at h
    rw [hs] at h
    cases hi : importModule E { s with site := site } name with
    | mk s1 r =>
      cases r with
      | some e =>
        simp only [hi] at h; cases h
        rw [(import_some hi).1]
      | none =>
        have h1 := (import_none hi).1
        cases hr : reload E s1 name with
        | mk s2 r2 =>
          cases r2 with
          | some e => simp only [hi, hr] at h; cases h; rw [(load_some hr).2]; exact h1
          | none => simp only [hi, hr] at h; cases h
  have hf := hp.uninstall name _ _ hs
  refine ⟨?_, ?_, fun hi => hni (hi.site hsite.symm)⟩
  · rintro ⟨v, hv⟩
    rw [hsite, hf, List.mem_filter] at hv
    simp at hv
  · intro d v hd
    rw [hsite, hf, List.mem_filter]
    simp [hd]

/-! ### where more might be expected -/

/-- C95: a package whose module has another name is installed, but `install_package` raises (like `scikit-learn`, whose module
is `sklearn`). -/
theorem C95_other_module_name_counterexample (E : Env) (s : St) (name : String) (upgrade : Bool) (version : Option String)
    (site : Site) (hs : E.pip (installCommand name upgrade version) s.site = some site)
    (hl : ¬ Loaded s name) (hnp : ¬ Present E { s with site := site } name) :
    install E s name upgrade version = ({ s with site := site }, some .moduleNotFound) := by
  unfold install
  rw [hs]
  show importModule E _ name = _
  unfold importModule
  have h1 : s.loaded.lookup name = none := by
    cases hx : s.loaded.lookup name with
    | none => rfl
    | some o => exact absurd (lookup_isSome.1 (by rw [hx]; rfl)) hl
  have h2 : find E { s with site := site } name = none := by
    unfold find
    have : site.find? (fun x => (E.provides x.1 x.2).contains name) = none := by
      rw [List.find?_eq_none]
      intro x hx hc
      exact hnp (Or.inr ⟨x.1, x.2, hx, by simpa using hc⟩)
    simp only [this]
    have ho : E.others.contains name = false := by
      cases hc : E.others.contains name with
      | false => rfl
      | true => exact absurd (Or.inl (by simpa using hc)) hnp
    simp only [ho, Bool.false_eq_true, if_false]
  simp only [h1]
  unfold load
  rw [h2]

/-- C95: a program that has loaded the module goes on with the old version after any `install_package` of it, whatever version
was installed. -/
theorem C95_stale_module_counterexample (E : Env) (s : St) (name : String) (upgrade : Bool) (version : Option String)
    (hl : Loaded s name) : (install E s name upgrade version).1.loaded = s.loaded := by
  unfold install
  cases hs : E.pip (installCommand name upgrade version) s.site with
  | none => rfl
  | some site =>
    show (importModule E _ name).1.loaded = _
    unfold importModule
    have := lookup_isSome.2 hl
    cases hx : s.loaded.lookup name with
    | none => rw [hx] at this; cases this
    | some o => simp [hx]

/-- C95: a program that has loaded the module can import it after `uninstall_package` has returned normally. -/
theorem C95_still_imported_counterexample (E : Env) (s s' : St) (name : String) (hl : Loaded s name)
    (h : uninstall E s name = (s', none)) : importModule E s' name = (s', none) := by
  have hx : ∀ site, importModule E { s with site := site } name = ({ s with site := site }, none) := by
    intro site
    unfold importModule
    have := lookup_isSome.2 hl
    cases hx : s.loaded.lookup name with
    | none => rw [hx] at this; cases this
    | some o => simp [hx]
  have hl' : s'.loaded = s.loaded := by
    unfold uninstall at h
    cases hs : E.pip ["uninstall", "-y", name] s.site with
    | none => rw [hs] at h; cases h
    | some site =>
      rw [hs] at h
      simp only [hx site] at h
      cases hr : reload E { s with site := site } name with
      | mk s2 r2 =>
        cases r2 with
        | some e => simp only [hr] at h; cases h; rw [(load_some hr).2]
        | none => simp only [hr] at h; cases h
  have : s' = { s with site := s'.site } := by rw [← hl']
  rw [this]
  exact hx s'.site

/-! ### an example -/

namespace Ex

/-- up to the first `=`, and the rest -/
def split : List Char → List Char × List Char
  | [] => ([], [])
  | c :: l => if c = '=' then ([], c :: l) else (c :: (split l).1, (split l).2)

/-- reading a requirement: `name` or `name==version` -/
def parse (r : List Char) : List Char × Option (List Char) :=
  match split r with
  | (n, '=' :: '=' :: v) => (n, some v)
  | (n, _) => (n, none)

def put (site : Site) (d v : String) : Site := (d, v) :: site.filter fun x => x.1 != d

/-- two packages that exist in versions 1 and 2 -/
def index : List String := ["nothing", "scikit-learn"]

def go (r : String) (dflt : String → String) (site : Site) : Option Site :=
  match parse r.toList with
  | (n, v) =>
    if index.contains (String.ofList n) then
      match v with
      | some v => if v = ['1'] ∨ v = ['2'] then some (put site (String.ofList n) (String.ofList v)) else none
      | none => some (put site (String.ofList n) (dflt (String.ofList n)))
    else none

def pip (cmd : List String) (site : Site) : Option Site :=
  match cmd with
  | [a, r] => if a = "install" then go r (fun d => ((site.lookup d).getD "2")) site else none
  | [a, b, r] => if a = "install" ∧ b = "--upgrade" then go r (fun _ => "2") site
    else if a = "uninstall" ∧ b = "-y" then some (site.filter fun x => x.1 != r) else none
  | _ => none

def E : Env where
  pip := pip
  provides := fun d _ => if d = "nothing" then ["nothing"] else if d = "scikit-learn" then ["sklearn"] else []
  others := ["os"]

theorem split_all (t : List Char) : ∀ l : List Char, '=' ∉ l → split (l ++ t) = (l ++ (split t).1, (split t).2)
  | [], _ => rfl
  | c :: l, h => by
    have hc : c ≠ '=' := fun e => h (e ▸ List.mem_cons_self)
    have := split_all t l fun hm => h (List.mem_cons_of_mem _ hm)
    simp only [List.cons_append, split, if_neg hc, this]

theorem parse_plain (d : String) (h : '=' ∉ d.toList) : parse d.toList = (d.toList, none) := by
  have := split_all [] d.toList h
  rw [List.append_nil] at this
  unfold parse
  rw [this]
  simp [split]

theorem parse_pinned (d v : String) (h : '=' ∉ d.toList) : parse (d ++ "==" ++ v).toList = (d.toList, some v.toList) := by
  have e : (d ++ "==" ++ v).toList = d.toList ++ '=' :: '=' :: v.toList := by
    rw [String.toList_append, String.toList_append]; simp
  have := split_all ('=' :: '=' :: v.toList) d.toList h
  unfold parse
  rw [e, this]
  simp [split]

theorem put_keeps (site : Site) (d v : String) : ∀ x ∈ site, ∃ w, (x.1, w) ∈ put site d v := by
  intro x hx
  by_cases h : x.1 = d
  · exact ⟨v, by rw [h]; exact List.mem_cons_self⟩
  · exact ⟨x.2, List.mem_cons_of_mem _ (List.mem_filter.2 ⟨hx, by simpa using h⟩)⟩

theorem go_plain {d : String} {f : String → String} {site site' : Site} (h : '=' ∉ d.toList)
    (hg : go d f site = some site') : (∃ v, (d, v) ∈ site') ∧ ∀ x ∈ site, ∃ v, (x.1, v) ∈ site' := by
  unfold go at hg
  rw [parse_plain d h] at hg
  simp only [String.ofList_toList] at hg
  by_cases hi : index.contains d = true
  · rw [if_pos hi] at hg
    cases hg
    exact ⟨⟨_, List.mem_cons_self⟩, put_keeps site d _⟩
  · rw [if_neg hi] at hg; cases hg

theorem go_pinned {d v : String} {f : String → String} {site site' : Site} (h : '=' ∉ d.toList)
    (hg : go (d ++ "==" ++ v) f site = some site') : (d, v) ∈ site' ∧ ∀ x ∈ site, ∃ v, (x.1, v) ∈ site' := by
  unfold go at hg
  rw [parse_pinned d v h] at hg
  simp only [String.ofList_toList] at hg
  by_cases hi : index.contains d = true
  · rw [if_pos hi] at hg
    by_cases hv : v.toList = ['1'] ∨ v.toList = ['2']
    · rw [if_pos hv] at hg
      cases hg
      exact ⟨List.mem_cons_self, put_keeps site d _⟩
    · rw [if_neg hv] at hg; cases hg
  · rw [if_neg hi] at hg; cases hg

/-- the assumptions about `pip` can be met -/
theorem works : PipWorks E where
  install := fun _ _ _ h hg => go_plain h (by simpa [E, pip] using hg)
  upgrade := fun _ _ _ h hg => go_plain h (by simpa [E, pip] using hg)
  pinned := fun _ _ _ _ h _ _ hg => go_pinned h (by simpa [E, pip] using hg)
  pinnedUpgrade := fun _ _ _ _ h _ _ hg => go_pinned h (by simpa [E, pip] using hg)
  uninstall := fun _ _ _ hg => by simpa [E, pip] using hg.symm

def s0 : St := ⟨[("pandas", "7")], []⟩
def s1 : St := ⟨[("nothing", "1"), ("pandas", "7")], [("nothing", .dist "nothing" "1")]⟩

/-- installing a version, upgrading (the old module stays loaded), uninstalling (it still stays loaded) -/
example : install E s0 "nothing" false (some "1") = (s1, none) := by decide +kernel
example : install E s1 "nothing" true = (⟨[("nothing", "2"), ("pandas", "7")], s1.loaded⟩, none) := by decide +kernel
example : uninstall E s1 "nothing" = (⟨[("pandas", "7")], s1.loaded⟩, none) := by decide +kernel
/-- the other cases -/
example : install E s0 "scikit-learn" = (⟨[("scikit-learn", "2"), ("pandas", "7")], []⟩, some .moduleNotFound) := by
  decide +kernel
example : install E s0 "missing" = (s0, some .calledProcess) := by decide +kernel
example : (uninstall E s0 "os").2 = some .notUninstalled := by decide +kernel

end Ex
end Pyth.Packages
