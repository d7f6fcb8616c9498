import Verif.Model.Registry
import Verif.Proofs.Analyzer
import Verif.Proofs.CallGraph
/-! # The registry: what every operation preserves -/
set_option linter.unusedSectionVars false
set_option linter.unusedVariables false
set_option linter.unusedSimpArgs false
namespace Pyth.Registry
open Pyth.Analyzer

/-! ## Elementary facts -/

theorem getElem?_modify' (R : Reg) (i k : Nat) (f : Obj → Obj) :
    (R.modify i f).objs[k]? = if i = k then (R.objs[k]?).map f else R.objs[k]? := by
  simp only [Reg.modify, List.getElem?_modify]
  split <;> simp

@[simp] theorem known_modify (R : Reg) (i : Nat) (f : Obj → Obj) : (R.modify i f).known = R.known := rfl
@[simp] theorem islands_modify (R : Reg) (i : Nat) (f : Obj → Obj) : (R.modify i f).islands = R.islands := rfl

theorem at_modify (R : Reg) (i : Nat) (f : Obj → Obj) (k : Key) :
    (R.modify i f).at k = if R.known.lookup k = some i then (R.at k).map f else R.at k := by
  simp only [Reg.at, known_modify]
  cases h : R.known.lookup k with
  | none => simp
  | some j =>
    simp only [Option.bind_some, getElem?_modify']
    by_cases e : i = j
    · subst e; simp
    · rw [if_neg e, if_neg]
      intro h; injection h with h; exact e h.symm

@[simp] theorem islandNames_modify (R : Reg) (i : Nat) (f : Obj → Obj) (p : Nat) (isl : String) :
    (R.modify i f).islandNames p isl = R.islandNames p isl := rfl

theorem mem_islandNames (R : Reg) (p : Nat) (isl x : String) :
    x ∈ R.islandNames p isl ↔ ∃ j, (⟨p, isl, x⟩, j) ∈ R.known := by
  simp only [Reg.islandNames, List.mem_filterMap]
  constructor
  · rintro ⟨⟨k, j⟩, h, e⟩
    dsimp only at e
    split at e
    · rename_i h'
      obtain ⟨rfl, rfl⟩ := h'
      injection e with e; subst e
      exact ⟨j, h⟩
    · simp at e
  · rintro ⟨j, h⟩
    exact ⟨_, h, by simp⟩

theorem lookup_isSome_iff {k : Key} (l : List (Key × Nat)) : (∃ j, l.lookup k = some j) ↔ ∃ j, (k, j) ∈ l := by
  induction l with
  | nil => simp
  | cons e l ih =>
    obtain ⟨k', j'⟩ := e
    simp only [List.lookup]
    split
    · rename_i h
      have : k = k' := by simpa using h
      subst this
      exact ⟨fun _ => ⟨j', by simp⟩, fun _ => ⟨j', rfl⟩⟩
    · rename_i h
      have hne : k ≠ k' := by simpa using h
      rw [ih]
      constructor
      · rintro ⟨j, h⟩; exact ⟨j, by simp [h]⟩
      · rintro ⟨j, h⟩
        simp only [List.mem_cons, Prod.mk.injEq] at h
        exact ⟨j, h.resolve_left (fun a => hne a.1)⟩

theorem lookup_mem {k : Key} {j : Nat} (l : List (Key × Nat)) (h : l.lookup k = some j) : (k, j) ∈ l := by
  induction l with
  | nil => simp at h
  | cons e l ih =>
    obtain ⟨k', j'⟩ := e
    simp only [List.lookup] at h
    split at h
    · rename_i hk
      have : k = k' := by simpa using hk
      subst this
      injection h with h; subst h; simp
    · exact List.mem_cons_of_mem _ (ih h)

theorem mem_lookup {k : Key} {j : Nat} (l : List (Key × Nat)) (hn : (l.map (·.1)).Nodup) (h : (k, j) ∈ l) :
    l.lookup k = some j := by
  induction l with
  | nil => simp at h
  | cons e l ih =>
    obtain ⟨k', j'⟩ := e
    simp only [List.map_cons, List.nodup_cons] at hn
    simp only [List.mem_cons, Prod.mk.injEq] at h
    simp only [List.lookup]
    rcases h with ⟨rfl, rfl⟩ | h
    · simp
    · have : k ≠ k' := by
        rintro rfl
        exact hn.1 (List.mem_map.2 ⟨_, h, rfl⟩)
      rw [show (k == k') = false by simpa using this]
      exact ih hn.2 h

/-! ## Well-formed registries -/

/-- what never changes in an object -/
structure Same (o o' : Obj) : Prop where
  cls : o'.cls = o.cls
  portal : o'.portal = o.portal
  island : o'.island = o.island
  src : o'.src = o.src
  guards : o'.guards = o.guards

theorem Same.refl (o : Obj) : Same o o := ⟨rfl, rfl, rfl, rfl, rfl⟩
theorem Same.trans {a b c : Obj} (h : Same a b) (h' : Same b c) : Same a c :=
  ⟨h'.1.trans h.1, h'.2.trans h.2, h'.3.trans h.3, h'.4.trans h.4, h'.5.trans h.5⟩
theorem Same.key {a b : Obj} (h : Same a b) : b.key = a.key := by
  simp [Obj.key, h.portal, h.island, h.src]

/-- the registry only grows -/
structure Ext (R R' : Reg) : Prop where
  known : R.known <+: R'.known
  islands : ∀ x ∈ R.islands, x ∈ R'.islands
  objs : ∀ (i : Nat) (o : Obj), R.objs[i]? = some o → ∃ o', R'.objs[i]? = some o' ∧ Same o o'

theorem Ext.refl (R : Reg) : Ext R R := ⟨List.prefix_rfl, fun _ h => h, fun i o h => ⟨o, h, Same.refl o⟩⟩
theorem Ext.trans {R R' R'' : Reg} (h : Ext R R') (h' : Ext R' R'') : Ext R R'' := by
  refine ⟨h.known.trans h'.known, fun x hx => h'.islands x (h.islands x hx), ?_⟩
  intro i o ho
  obtain ⟨o', h1, h2⟩ := h.objs i o ho
  obtain ⟨o'', h3, h4⟩ := h'.objs i o' h1
  exact ⟨o'', h3, h2.trans h4⟩

theorem Ext.lookup {R R' : Reg} (h : Ext R R') {k : Key} {j : Nat} (hk : R.known.lookup k = some j) :
    R'.known.lookup k = some j := by
  obtain ⟨t, ht⟩ := h.known
  rw [← ht, List.lookup_append, hk]
  rfl

theorem Ext.at {R R' : Reg} (h : Ext R R') {k : Key} {r : Obj} (hr : R.at k = some r) :
    ∃ r', R'.at k = some r' ∧ Same r r' := by
  simp only [Reg.at, Option.bind_eq_some_iff] at hr
  obtain ⟨j, h1, h2⟩ := hr
  obtain ⟨r', h3, h4⟩ := h.objs j r h2
  exact ⟨r', by simp [Reg.at, h.lookup h1, h3], h4⟩

theorem Ext.islandNames {R R' : Reg} (h : Ext R R') {p : Nat} {isl x : String} (hx : x ∈ R.islandNames p isl) :
    x ∈ R'.islandNames p isl := by
  rw [mem_islandNames] at hx ⊢
  obtain ⟨j, hj⟩ := hx
  exact ⟨j, h.known.subset hj⟩

/-- structure of reachable registries -/
structure Wf (R : Reg) : Prop where
  nodup : (R.known.map (·.1)).Nodup
  valid : ∀ (k : Key) (j : Nat), (k, j) ∈ R.known →
    ∃ r, R.objs[j]? = some r ∧ r.key = k ∧ (k.portal, k.island) ∈ R.islands ∧ acceptable r.src = true
  handle : ∀ (i : Nat) (o : Obj), R.objs[i]? = some o →
    ∃ r, R.at o.key = some r ∧ r.src = o.src ∧ r.cls = o.cls ∧ r.guards = o.guards

theorem Wf.empty : Wf {} := ⟨by simp, by simp, by simp⟩

theorem Wf.at_of_lookup {R : Reg} (w : Wf R) {k : Key} {j : Nat} (h : R.known.lookup k = some j) :
    ∃ r, R.objs[j]? = some r ∧ R.at k = some r ∧ r.key = k ∧ (k.portal, k.island) ∈ R.islands ∧ acceptable r.src = true := by
  obtain ⟨r, h1, h2, h3, h4⟩ := w.valid k j (lookup_mem _ h)
  exact ⟨r, h1, by simp [Reg.at, h, h1], h2, h3, h4⟩

theorem Wf.of_at {R : Reg} (w : Wf R) {k : Key} {r : Obj} (h : R.at k = some r) :
    ∃ j, R.known.lookup k = some j ∧ R.objs[j]? = some r ∧ r.key = k ∧ (k.portal, k.island) ∈ R.islands ∧ acceptable r.src = true := by
  simp only [Reg.at, Option.bind_eq_some_iff] at h
  obtain ⟨j, h1, h2⟩ := h
  obtain ⟨r', h3, h4, h5⟩ := w.valid k j (lookup_mem _ h1)
  rw [h2] at h3; injection h3 with h3; subst h3
  exact ⟨j, h1, h2, h4, h5⟩

theorem Wf.mem_names {R : Reg} (w : Wf R) {p : Nat} {isl x : String} :
    x ∈ R.islandNames p isl ↔ ∃ r, R.at ⟨p, isl, x⟩ = some r := by
  rw [mem_islandNames]
  constructor
  · rintro ⟨j, h⟩
    obtain ⟨r, h1, h2, h3, h4⟩ := w.valid _ j h
    exact ⟨r, by simp [Reg.at, mem_lookup _ w.nodup h, h1]⟩
  · rintro ⟨r, h⟩
    obtain ⟨j, h1, _⟩ := w.of_at h
    exact ⟨j, lookup_mem _ h1⟩

/-- a change of an object that keeps its identity -/
def Keeps (f : Obj → Obj) : Prop := ∀ o, Same o (f o)

theorem modify_ok {R : Reg} (w : Wf R) (i : Nat) (f : Obj → Obj) (hf : ∀ o, R.objs[i]? = some o → Same o (f o)) :
    Wf (R.modify i f) ∧ Ext R (R.modify i f) := by
  have key : ∀ (j : Nat) (o : Obj), R.objs[j]? = some o → ∃ o', (R.modify i f).objs[j]? = some o' ∧ Same o o' := by
    intro j o ho
    rw [getElem?_modify', ho]
    by_cases e : i = j
    · subst e
      exact ⟨f o, by simp, hf o ho⟩
    · exact ⟨o, by simp [e], Same.refl o⟩
  have he : Ext R (R.modify i f) := ⟨List.prefix_rfl, fun _ h => h, key⟩
  refine ⟨⟨w.nodup, ?_, ?_⟩, he⟩
  · intro k j hj
    obtain ⟨r, h1, h2, h3, h4⟩ := w.valid k j hj
    obtain ⟨r', h5, h6⟩ := key j r h1
    exact ⟨r', h5, h6.key.trans h2, h3, h6.src ▸ h4⟩
  · intro j o' ho'
    have : ∃ o, R.objs[j]? = some o ∧ Same o o' := by
      rw [getElem?_modify'] at ho'
      by_cases e : i = j
      · subst e
        rw [if_pos rfl] at ho'
        cases h : R.objs[i]? with
        | none => rw [h] at ho'; simp at ho'
        | some o =>
          rw [h] at ho'
          simp only [Option.map_some, Option.some.injEq] at ho'
          subst ho'
          exact ⟨o, rfl, hf o h⟩
      · rw [if_neg e] at ho'
        exact ⟨o', ho', Same.refl _⟩
    obtain ⟨o, ho, hs⟩ := this
    obtain ⟨r, h1, h2, h3, h4⟩ := w.handle j o ho
    obtain ⟨r', h5, h6⟩ := he.at h1
    exact ⟨r', hs.key ▸ h5, h6.src.trans (h2.trans hs.src.symm), h6.cls.trans (h3.trans hs.cls.symm),
      h6.guards.trans (h4.trans hs.guards.symm)⟩

theorem addIsland_ok {R : Reg} (w : Wf R) (p : Nat) (isl : String) :
    Wf (addIsland R p isl) ∧ Ext R (addIsland R p isl) ∧ (p, isl) ∈ (addIsland R p isl).islands ∧
    (addIsland R p isl).known = R.known ∧ (addIsland R p isl).objs = R.objs := by
  unfold addIsland
  split
  · rename_i h; exact ⟨w, Ext.refl R, h, rfl, rfl⟩
  · refine ⟨⟨w.nodup, ?_, w.handle⟩, ⟨List.prefix_rfl, fun x h => by simp [h], fun i o h => ⟨o, h, Same.refl o⟩⟩, by simp, rfl, rfl⟩
    intro k j hj
    obtain ⟨r, h1, h2, h3, h4⟩ := w.valid k j hj
    exact ⟨r, h1, h2, by simp [h3], h4⟩

theorem getElem?_alloc (R : Reg) (o : Obj) (i : Nat) :
    (R.alloc o).1.objs[i]? = if i = R.objs.length then some o else R.objs[i]? := by
  simp only [Reg.alloc, List.getElem?_append]
  split
  · rename_i h; rw [if_neg (by omega)]
  · rename_i h
    by_cases e : i = R.objs.length
    · simp [e]
    · rw [if_neg e]
      have : R.objs.length + 1 ≤ i := by omega
      rw [List.getElem?_eq_none (by simp; omega), List.getElem?_eq_none (by omega)]

theorem ext_alloc (R : Reg) (o : Obj) : Ext R (R.alloc o).1 := by
  refine ⟨List.prefix_rfl, fun _ h => h, ?_⟩
  intro i p hp
  refine ⟨p, ?_, Same.refl p⟩
  rw [getElem?_alloc]
  have : i < R.objs.length := by
    rcases Nat.lt_or_ge i R.objs.length with h | h
    · exact h
    · rw [List.getElem?_eq_none h] at hp; cases hp
  rw [if_neg (by omega), hp]

theorem alloc_handle_ok {R : Reg} (w : Wf R) (o r : Obj) (h : R.at o.key = some r) (h1 : r.src = o.src) (h2 : r.cls = o.cls)
    (h3 : r.guards = o.guards) :
    Wf (R.alloc o).1 ∧ Ext R (R.alloc o).1 := by
  have he := ext_alloc R o
  refine ⟨⟨w.nodup, ?_, ?_⟩, he⟩
  · intro k j hj
    obtain ⟨r, h1, h2, h3, h4⟩ := w.valid k j hj
    obtain ⟨r', h5, h6⟩ := he.objs j r h1
    exact ⟨r', h5, h6.key.trans h2, h3, h6.src ▸ h4⟩
  · intro i o' ho'
    rw [getElem?_alloc] at ho'
    split at ho'
    · injection ho' with ho'; subst ho'
      obtain ⟨r', q1, q2⟩ := he.at h
      exact ⟨r', q1, q2.src.trans h1, q2.cls.trans h2, q2.guards.trans h3⟩
    · obtain ⟨r, q1, q2, q3, q4⟩ := w.handle i o' ho'
      obtain ⟨r', q5, q6⟩ := he.at q1
      exact ⟨r', q5, q6.src.trans q2, q6.cls.trans q3, q6.guards.trans q4⟩

theorem alloc_new_ok {R : Reg} (w : Wf R) (o : Obj) (hn : R.at o.key = none) (hi : (o.portal, o.island) ∈ R.islands)
    (ha : acceptable o.src = true) :
    Wf (Reg.alloc { R with known := R.known ++ [(o.key, R.objs.length)] } o).1 ∧
    Ext R (Reg.alloc { R with known := R.known ++ [(o.key, R.objs.length)] } o).1 := by
  have hkey : ∀ j, (o.key, j) ∉ R.known := by
    intro j hj
    obtain ⟨r, h1, _⟩ := w.valid _ j hj
    simp [Reg.at, mem_lookup _ w.nodup hj, h1] at hn
  have he : Ext R (Reg.alloc { R with known := R.known ++ [(o.key, R.objs.length)] } o).1 := by
    have := ext_alloc { R with known := R.known ++ [(o.key, R.objs.length)] } o
    exact ⟨List.prefix_append _ _, this.islands, this.objs⟩
  have hself : (Reg.alloc { R with known := R.known ++ [(o.key, R.objs.length)] } o).1.at o.key = some o := by
    have : R.known.lookup o.key = none := by
      cases h : R.known.lookup o.key with
      | none => rfl
      | some j => exact absurd (lookup_mem _ h) (hkey j)
    simp only [Reg.at, Reg.alloc, List.lookup_append, this, List.lookup]
    simp
  refine ⟨⟨?_, ?_, ?_⟩, he⟩
  · simp only [Reg.alloc, List.map_append, List.map_cons, List.map_nil]
    refine List.nodup_append.2 ⟨w.nodup, by simp, ?_⟩
    intro a ha b hb
    simp only [List.mem_singleton] at hb
    subst hb
    rintro rfl
    obtain ⟨⟨k, j⟩, h1, h2⟩ := List.mem_map.1 ha
    dsimp only at h2
    subst h2
    exact hkey j h1
  · intro k j hj
    simp only [Reg.alloc, List.mem_append, List.mem_singleton, Prod.mk.injEq] at hj
    rcases hj with hj | ⟨rfl, rfl⟩
    · obtain ⟨r, h1, h2, h3, h4⟩ := w.valid k j hj
      obtain ⟨r', h5, h6⟩ := he.objs j r h1
      exact ⟨r', h5, h6.key.trans h2, h3, h6.src ▸ h4⟩
    · refine ⟨o, ?_, rfl, hi, ha⟩
      rw [getElem?_alloc]; simp
  · intro i o' ho'
    rw [getElem?_alloc] at ho'
    split at ho'
    · injection ho' with ho'; subst ho'
      exact ⟨o, hself, rfl, rfl, rfl⟩
    · obtain ⟨r, q1, q2, q3, q4⟩ := w.handle i o' ho'
      obtain ⟨r', q5, q6⟩ := he.at q1
      exact ⟨r', q5, q6.src.trans q2, q6.cls.trans q3, q6.guards.trans q4⟩

end Pyth.Registry
