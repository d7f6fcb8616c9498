import Verif.Model.Namespace
import Verif.Props.RegistryRestore
/-!
# C71: the names a function uses are there when its body runs
-/
set_option linter.unusedVariables false
namespace Pyth.Registry
open Pyth.Analyzer

theorem mapM_some_of_forall {α β : Type} {f : α → Option β} : ∀ {l : List α}, (∀ x ∈ l, ∃ y, f x = some y) → ∃ r, l.mapM f = some r
  | [], _ => ⟨[], rfl⟩
  | a :: l, h => by
    obtain ⟨y, hy⟩ := h a (by simp)
    obtain ⟨r, hr⟩ := mapM_some_of_forall (l := l) fun x hx => h x (by simp [hx])
    exact ⟨y :: r, by simp [List.mapM_cons, hy, hr]⟩

theorem mem_of_mapM {α β : Type} {f : α → Option β} : ∀ {l : List α} {r : List β}, l.mapM f = some r →
    (∀ x ∈ l, ∃ y ∈ r, f x = some y) ∧ ∀ y ∈ r, ∃ x ∈ l, f x = some y
  | [], r, h => by
    have : r = [] := by simpa using h.symm
    subst this; simp
  | a :: l, r, h => by
    simp only [List.mapM_cons, Option.bind_eq_bind, Option.bind_eq_some_iff] at h
    obtain ⟨y, hy, r', hr', h⟩ := h
    injection h with h; subst h
    obtain ⟨h1, h2⟩ := mem_of_mapM hr'
    constructor
    · intro x hx
      rcases List.mem_cons.mp hx with rfl | hx
      · exact ⟨y, by simp, hy⟩
      · obtain ⟨z, hz, e⟩ := h1 x hx; exact ⟨z, by simp [hz], e⟩
    · intro z hz
      rcases List.mem_cons.mp hz with rfl | hz
      · exact ⟨a, by simp, hy⟩
      · obtain ⟨x, hx, e⟩ := h2 z hz; exact ⟨x, by simp [hx], e⟩

theorem lookup_consistent {β : Type} {g : String → Option β} : ∀ {l : List (String × β)},
    (∀ e ∈ l, g e.1 = some e.2) → ∀ x, (x ∈ l.map (·.1) → l.lookup x = g x) ∧ (x ∉ l.map (·.1) → l.lookup x = none)
  | [], _, x => by simp
  | (a, b) :: l, h, x => by
    obtain ⟨h1, h2⟩ := lookup_consistent (l := l) (fun e he => h e (by simp [he])) x
    by_cases hx : x = a
    · subst hx
      have := h (x, b) (by simp)
      simp only at this
      simp [List.lookup_cons, this]
    · have hb : (x == a) = false := by simpa using hx
      rw [List.lookup_cons, hb, List.map_cons, List.mem_cons]
      exact ⟨fun h => h1 (h.resolve_left hx), fun h => h2 fun h' => h (.inr h')⟩

/-- what the dictionary of an executed function contains -/
theorem resolve_eq {E : Env} {R : Reg} {i : Nat} {o : Obj} {d : List String} {names : List (String × Binding)}
    (hd : dependencies R o = some d) (hn : availableNames R i o = some names) (x : String) :
    (x ∈ d → ∃ j, R.known.lookup ⟨o.portal, o.island, x⟩ = some j ∧ resolve E names x = some (.fn j)) ∧
    (x ∉ d → resolve E names x =
      if x = "pth" then some .pth else if x = "self" ∨ x = o.src.name then some (.fn i)
      else if x ∈ libraryGlobals then some .library else if x ∈ E.builtins then some .builtin else none) := by
  unfold availableNames at hn
  rw [hd] at hn
  simp only [Option.map_eq_some_iff] at hn
  obtain ⟨r, hr, rfl⟩ := hn
  obtain ⟨m1, m2⟩ := mem_of_mapM hr
  have hcons : ∀ e ∈ r.reverse, (fun x => (R.known.lookup ⟨o.portal, o.island, x⟩).map Binding.fn) e.1 = some e.2 := by
    intro e he
    obtain ⟨x, _, hx⟩ := m2 e (List.mem_reverse.mp he)
    simp only [Option.map_eq_some_iff] at hx
    obtain ⟨j, hj, rfl⟩ := hx
    simp [hj]
  have hkeys : ∀ x, x ∈ r.reverse.map (·.1) ↔ x ∈ d := by
    intro x
    simp only [List.mem_map, List.mem_reverse]
    constructor
    · rintro ⟨e, he, rfl⟩
      obtain ⟨y, hy, h⟩ := m2 e he
      simp only [Option.map_eq_some_iff] at h
      obtain ⟨j, _, rfl⟩ := h
      exact hy
    · intro hx
      obtain ⟨e, he, h⟩ := m1 x hx
      simp only [Option.map_eq_some_iff] at h
      obtain ⟨j, _, rfl⟩ := h
      exact ⟨_, he, rfl⟩
  obtain ⟨l1, l2⟩ := lookup_consistent
    (g := fun x => (R.known.lookup ⟨o.portal, o.island, x⟩).map Binding.fn) hcons x
  constructor
  · intro hx
    obtain ⟨e, he, h⟩ := m1 x hx
    simp only [Option.map_eq_some_iff] at h
    obtain ⟨j, hj, _⟩ := h
    refine ⟨j, hj, ?_⟩
    unfold resolve
    rw [List.reverse_append, List.lookup_append, l1 ((hkeys x).mpr hx), hj]
    rfl
  · intro hx
    unfold resolve
    rw [List.reverse_append, List.lookup_append, l2 (fun h => hx ((hkeys x).mp h)), Option.none_or]
    unfold ordinaryNames
    rw [List.reverse_append, List.lookup_append]
    simp only [List.reverse_cons, List.reverse_nil, List.nil_append, List.cons_append, List.lookup_cons, List.lookup_nil]
    by_cases h1 : x = "pth"
    · subst h1; simp
    by_cases h2 : x = "self"
    · subst h2; simp
    by_cases h3 : x = o.src.name
    · subst h3
      have e1 : (o.src.name == "pth") = false := by simpa using h1
      have e2 : (o.src.name == "self") = false := by simpa using h2
      simp [e1, e2, h1, Obj.name]
    have e1 : (x == "pth") = false := by simpa using h1
    have e2 : (x == "self") = false := by simpa using h2
    have e3 : (x == o.name) = false := by simpa [Obj.name] using h3
    simp only [e1, e2, e3, Option.none_or]
    simp only [h1, h2, h3, or_self, if_false]
    have hl := lookup_consistent (g := fun y => if y ∈ libraryGlobals then some Binding.library else none)
      (l := (libraryGlobals.map fun x => (x, Binding.library)).reverse) (by
        intro e he
        simp only [List.mem_reverse, List.mem_map] at he
        obtain ⟨y, hy, rfl⟩ := he
        simp [hy]) x
    have hk : x ∈ ((libraryGlobals.map fun x => (x, Binding.library)).reverse).map (·.1) ↔ x ∈ libraryGlobals := by
      simp only [List.mem_map, List.mem_reverse]
      constructor
      · rintro ⟨e, ⟨y, hy, rfl⟩, rfl⟩; exact hy
      · intro h; exact ⟨_, ⟨x, h, rfl⟩, rfl⟩
    by_cases h4 : x ∈ libraryGlobals
    · rw [hl.1 (hk.mpr h4)]; simp [h4]
    · rw [hl.2 (fun h => h4 (hk.mp h))]; simp [h4]

/-- what starting a function gives -/
theorem start_names {E : Env} (hE : E.Ok) {R : Reg} (hR : Reachable E R) {i : Nat} {R' : Reg} (hs : start E R i = (R', true)) :
    ∃ o d names, R'.objs[i]? = some o ∧ dependencies R' o = some d ∧ availableNames R' i o = some names ∧
      o.src.name ∈ d ∧ ∀ x, Uses o.src x → Provided E o.src x ∨ x ∈ d := by
  have hI := reachable_inv hE hR
  have hp := complete_prims (E := E) (b := true) hI.wf i
  have e : (complete E R i).1 = R' := by rw [← start_fst, hs]
  rw [e] at hp
  have hI' := prims_inv hE hI hp
  obtain ⟨o, ho, hcomp, d, hd⟩ := start_spec hs
  obtain ⟨r, d0, h1, h2, h3, h4, h5⟩ := dependencies_spec hd
  obtain ⟨r', q1, q2, q3, q4⟩ := hI'.wf.handle i o ho
  rw [h1] at q1; injection q1 with q1; subst q1
  have hg := hI'.reg h1 h2
  obtain ⟨j, k1, k2, k3, k4, k5⟩ := hI'.wf.of_at h1
  have hpo : r.portal = o.portal := by simpa [Obj.key] using congrArg Key.portal k3
  have his : r.island = o.island := by simpa [Obj.key] using congrArg Key.island k3
  rw [hpo, his, q2] at hg
  rw [q2] at k5
  obtain ⟨a, ha, _⟩ := acceptable_analyzes k5
  have hdd : d = d0 := h3.trans hg.sorted
  subst hdd
  obtain ⟨rs, hrs⟩ := mapM_some_of_forall (l := d)
    (f := fun x => (R'.known.lookup ⟨o.portal, o.island, x⟩).map fun j => (x, Binding.fn j)) (by
      intro x hx
      obtain ⟨q, hq⟩ := hg.names x hx
      unfold Reg.at at hq
      cases hl : R'.known.lookup ⟨o.portal, o.island, x⟩ with
      | none => rw [hl] at hq; cases hq
      | some j => exact ⟨(x, .fn j), rfl⟩)
  refine ⟨o, d, ordinaryNames i o ++ rs, ho, hd, ?_, hg.self, ?_⟩
  · unfold availableNames; rw [hd]; simp only [hrs, Option.map_some]
  · intro x hx
    rcases hg.covers a ha x (uses_reported ha hx) with h | h
    · exact .inl (mem_available h)
    · exact .inr h

/-- **C71** (partial): when the body of a function runs, every name it uses from outside is there and means what the
user expects: the function's own name and names of functions of the island mean the registered functions of the island,
`self` this function object, `pth` the library, builtins Python's builtins (or a module attribute like `__name__` of the
library's module).  Missing: the bare names of the decorators, which the library accepts without making them
available. -/
theorem C71_names_resolve_partial {E : Env} (hE : E.Ok) {R : Reg} (hR : Reachable E R) {i : Nat} {R' : Reg}
    (hs : start E R i = (R', true)) :
    ∃ o names, R'.objs[i]? = some o ∧ availableNames R' i o = some names ∧
      (∃ j, R'.known.lookup ⟨o.portal, o.island, o.src.name⟩ = some j ∧ resolve E names o.src.name = some (.fn j)) ∧
      ∀ x, Uses o.src x → x ∉ ["autonomous", "strictly_autonomous", "pure"] →
        (∃ j, R'.known.lookup ⟨o.portal, o.island, x⟩ = some j ∧ resolve E names x = some (.fn j)) ∨
        (x = "pth" ∧ resolve E names x = some .pth) ∨ (x = "self" ∧ resolve E names x = some (.fn i)) ∨
        (x ∈ E.builtins ∧ resolve E names x = some (if x ∈ libraryGlobals then .library else .builtin)) := by
  obtain ⟨o, d, names, h1, h2, h3, h4, h5⟩ := start_names hE hR hs
  refine ⟨o, names, h1, h3, (resolve_eq h2 h3 _).1 h4, ?_⟩
  intro x hx hnd
  by_cases hd : x ∈ d
  · exact .inl ((resolve_eq h2 h3 x).1 hd)
  · have hr := (resolve_eq (E := E) h2 h3 x).2 hd
    have hne : x ≠ o.src.name := fun h => hd (h ▸ h4)
    by_cases hp : x = "pth"
    · exact .inr (.inl ⟨hp, by rw [hr, if_pos hp]⟩)
    by_cases hself : x = "self"
    · exact .inr (.inr (.inl ⟨hself, by rw [hr, if_neg hp, if_pos (.inl hself)]⟩))
    rcases h5 x hx with h | h
    · rcases h with h | h | h | h | h
      · refine .inr (.inr (.inr ⟨h, ?_⟩))
        rw [hr, if_neg hp, if_neg (by rintro (h | h); exacts [hself h, hne h])]
        split
        · rfl
        · simp [h]
      · exact absurd h hp
      · exact absurd h hself
      · exact absurd h hne
      · exact absurd h hnd
    · exact absurd h hd

/-- **C71**: nothing else leaks into a function: a name the function uses never means a name of the library's module,
except if it is the name of a builtin, too. -/
theorem C71_library_names_hidden {E : Env} (hE : E.Ok) {R : Reg} (hR : Reachable E R) {i : Nat} {R' : Reg}
    (hs : start E R i = (R', true)) {o : Obj} (ho : R'.objs[i]? = some o) {names : List (String × Binding)}
    (hn : availableNames R' i o = some names) {x : String} (hx : Uses o.src x) (hl : resolve E names x = some .library) :
    x ∈ E.builtins := by
  obtain ⟨o', d, names', h1, h2, h3, h4, h5⟩ := start_names hE hR hs
  rw [ho] at h1; injection h1 with h1; subst h1
  rw [hn] at h3; injection h3 with h3; subst h3
  by_cases hd : x ∈ d
  · obtain ⟨j, _, h⟩ := (resolve_eq (E := E) h2 hn x).1 hd
    rw [h] at hl; injection hl with hl; cases hl
  · have hr := (resolve_eq (E := E) h2 hn x).2 hd
    rw [hr] at hl
    by_cases hp : x = "pth"
    · rw [if_pos hp] at hl; injection hl with hl; cases hl
    rw [if_neg hp] at hl
    by_cases hself : x = "self" ∨ x = o.src.name
    · rw [if_pos hself] at hl; injection hl with hl; cases hl
    rw [if_neg hself] at hl
    rcases h5 x hx with h | h
    · rcases h with h | h | h | h | h
      · exact h
      · exact absurd h hp
      · exact absurd (.inl h) hself
      · exact absurd (.inr h) hself
      · by_cases hlib : x ∈ libraryGlobals
        · simp only [List.mem_cons, List.not_mem_nil, or_false] at h
          rcases h with rfl | rfl | rfl <;> exact absurd hlib (by decide)
        · rw [if_neg hlib] at hl
          split at hl
          · assumption
          · cases hl
    · exact absurd h hd

end Pyth.Registry

namespace Pyth.Registry.Ex
open Pyth.Analyzer

/-- `f` uses `g`, `len` and itself; the second object of `f` is executed -/
def ops71 : List Op := [aut (fn "g" []), aut (fn "f" ["g", "len", "f", "self", "pth"])]
example := C71_names_resolve_partial E_ok (R := run E {} ops71) ⟨ops71, rfl⟩ (i := 1)
  (R' := (start E (run E {} ops71) 1).1) (Prod.ext rfl (by decide +kernel))

/-- the meaning of names in the body of a function after a history -/
def meaning (ops : List Op) (i : Nat) (x : String) : Option Binding :=
  let R := (start E (run E {} ops) i).1
  (R.objs[i]?.bind fun o => availableNames R i o).bind fun ns => resolve E ns x

example : ["g", "len", "f", "self", "pth", "OrdinaryFn", "h"].map (meaning ops71 1) =
    [some (.fn 0), some .builtin, some (.fn 1), some (.fn 1), some .pth, some .library, none] := by decide +kernel

/-- C71 is false of the code for decorators: a function that uses the bare name `pure` is accepted and its body runs,
but the name is not there. -/
theorem C71_decorator_names_counterexample :
    (start E (run E {} [aut (fn "f" ["pure"])]) 0).2 = true ∧ meaning [aut (fn "f" ["pure"])] 0 "pure" = none := by
  decide +kernel

end Pyth.Registry.Ex
