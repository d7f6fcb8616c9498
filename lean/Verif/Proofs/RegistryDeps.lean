import Verif.Proofs.RegistrySteps
import Verif.Spec.Registry
/-! # Dependencies of registered functions -/
set_option linter.unusedSectionVars false
set_option linter.unusedVariables false
set_option linter.unusedSimpArgs false
namespace Pyth.Registry
open Pyth.Analyzer

theorem acceptable_analyzes {s : Src} (h : acceptable s = true) : ∃ a, analyze s.node = some a ∧ minus a.nonl allDecorators = [] ∧ a.yields = 0 := by
  unfold acceptable at h
  split at h
  · cases h
  · rename_i a ha
    simp only [Bool.and_eq_true, decide_eq_true_eq] at h
    exact ⟨a, ha, h.1, h.2⟩

theorem mem_islandObjs {R : Reg} (w : Wf R) {p : Nat} {isl : String} {r : Obj} :
    r ∈ R.islandObjs p isl ↔ R.at ⟨p, isl, r.name⟩ = some r ∧ r.portal = p ∧ r.island = isl := by
  simp only [Reg.islandObjs, List.mem_filterMap]
  constructor
  · rintro ⟨⟨k, j⟩, h1, h2⟩
    dsimp only at h2
    split at h2
    · rename_i h
      obtain ⟨r', q1, q2, q3⟩ := w.valid k j h1
      rw [q1] at h2; injection h2 with h2; subst h2
      have hk : k = ⟨p, isl, r'.name⟩ := by
        rw [← q2] at h
        rw [← q2]
        simp only [Obj.key] at h ⊢
        simp [h.1, h.2, Obj.name]
      refine ⟨by simp [Reg.at, ← hk, mem_lookup _ w.nodup h1, q1], ?_, ?_⟩
      · have := congrArg Key.portal (q2.trans hk); simpa [Obj.key] using this
      · have := congrArg Key.island (q2.trans hk); simpa [Obj.key] using this
    · cases h2
  · rintro ⟨h, _, _⟩
    obtain ⟨j, h1, h2, h3⟩ := w.of_at h
    exact ⟨_, lookup_mem _ h1, by simp [h2]⟩

theorem nodup_islandNames' (l : List (Key × Nat)) (objs : List Obj) (p : Nat) (isl : String) (hn : (l.map (·.1)).Nodup)
    (hv : ∀ k j, (k, j) ∈ l → ∃ r, objs[j]? = some r ∧ r.key = k) :
    ((l.filterMap fun e => if e.1.portal = p ∧ e.1.island = isl then objs[e.2]? else none).map (·.name)).Nodup := by
  induction l with
  | nil => simp
  | cons e l ih =>
    obtain ⟨k, j⟩ := e
    simp only [List.map_cons, List.nodup_cons] at hn
    have ih := ih hn.2 (fun k j h => hv k j (by simp [h]))
    obtain ⟨r, h1, h2⟩ := hv k j (by simp)
    simp only [List.filterMap_cons]
    by_cases hk : k.portal = p ∧ k.island = isl
    · simp only [hk, and_self, if_true, h1, List.map_cons, List.nodup_cons]
      refine ⟨?_, ih⟩
      intro hm
      obtain ⟨r', hr', e'⟩ := List.mem_map.1 hm
      obtain ⟨⟨k', j'⟩, q1, q2⟩ := List.mem_filterMap.1 hr'
      dsimp only at q2
      split at q2
      · rename_i hk'
        obtain ⟨r'', h3, h4⟩ := hv k' j' (by simp [q1])
        rw [h3] at q2; injection q2 with q2; subst q2
        have : k' = k := by
          obtain ⟨kp, ki, kn⟩ := k
          obtain ⟨kp', ki', kn'⟩ := k'
          simp only [Obj.key, Key.mk.injEq] at h2 h4 hk hk'
          simp only [Obj.name] at e'
          simp only [Key.mk.injEq]
          exact ⟨hk'.1.trans hk.1.symm, hk'.2.trans hk.2.symm, by rw [← h4.2.2, ← h2.2.2, e']⟩
        subst this
        exact hn.1 (List.mem_map.2 ⟨_, q1, rfl⟩)
      · cases q2
    · simp only [hk, if_false]
      exact ih

theorem mapM_some_of {α β : Type} (f : α → Option β) (g : α → β) (l : List α) (h : ∀ x ∈ l, f x = some (g x)) :
    l.mapM f = some (l.map g) := by
  induction l with
  | nil => simp
  | cons a l ih => simp [List.mapM_cons, h a (by simp), ih (fun x hx => h x (by simp [hx]))]

/-- the names a function refers to -/
def refs (s : Src) : List String :=
  match analyze s.node with
  | none => []
  | some a => a.glob ++ a.nonl ++ a.uncl

theorem mem_refs {s : Src} {x : String} : x ∈ refs s ↔ Refers s x := by
  unfold refs Refers
  rw [show definition s = s.node from rfl]
  split
  · rename_i h; simp [h]
  · rename_i a h; simp [h]

theorem fnOf_eq {s : Src} (h : acceptable s = true) : fnOf s = some ⟨s.name, refs s⟩ := by
  obtain ⟨a, ha, _⟩ := acceptable_analyzes h
  simp [fnOf, refs, ha]

theorem direct_iff {R : Reg} (w : Wf R) (p : Nat) (isl a b : String) :
    CallGraph.Direct ((R.islandObjs p isl).map fun o => (⟨o.src.name, refs o.src⟩ : CallGraph.Fn String)) a b ↔ Link R p isl a b := by
  have hmem : ∀ x, (∃ h ∈ (R.islandObjs p isl).map fun o => (⟨o.src.name, refs o.src⟩ : CallGraph.Fn String), h.name = x) ↔
      ∃ r, R.at ⟨p, isl, x⟩ = some r := by
    intro x
    constructor
    · rintro ⟨h, hh, rfl⟩
      obtain ⟨o, ho, rfl⟩ := List.mem_map.1 hh
      exact ⟨o, ((mem_islandObjs w).1 ho).1⟩
    · rintro ⟨r, hr⟩
      obtain ⟨j, h1, h2, h3, h4⟩ := w.of_at hr
      have hn : r.name = x := by simpa [Obj.key, Obj.name] using congrArg Key.name h3
      have hp : r.portal = p := by simpa [Obj.key] using congrArg Key.portal h3
      have hi : r.island = isl := by simpa [Obj.key] using congrArg Key.island h3
      refine ⟨⟨r.src.name, refs r.src⟩, List.mem_map.2 ⟨r, (mem_islandObjs w).2 ⟨by rw [hn]; exact hr, hp, hi⟩, rfl⟩, hn⟩
  have hnd := nodup_islandNames' R.known R.objs p isl w.nodup (fun k j h => by
    obtain ⟨r, q1, q2, _⟩ := w.valid k j h; exact ⟨r, q1, q2⟩)
  unfold CallGraph.Direct Link
  rw [hmem]
  constructor
  · rintro ⟨h, pre, fn, post, e1, e2, e3, e4⟩
    refine ⟨h, ?_⟩
    have : fn ∈ (R.islandObjs p isl).map fun o => (⟨o.src.name, refs o.src⟩ : CallGraph.Fn String) := by rw [e1]; simp
    obtain ⟨o, ho, rfl⟩ := List.mem_map.1 this
    dsimp only at e2 e4
    subst e2
    exact ⟨o, ((mem_islandObjs w).1 ho).1, e4.imp id mem_refs.1⟩
  · rintro ⟨h, r, hr, hb⟩
    refine ⟨h, ?_⟩
    obtain ⟨j, h1, h2, h3, h4⟩ := w.of_at hr
    have hn : r.name = a := by simpa [Obj.key, Obj.name] using congrArg Key.name h3
    have hp : r.portal = p := by simpa [Obj.key] using congrArg Key.portal h3
    have hi : r.island = isl := by simpa [Obj.key] using congrArg Key.island h3
    have hro : r ∈ R.islandObjs p isl := (mem_islandObjs w).2 ⟨by rw [hn]; exact hr, hp, hi⟩
    obtain ⟨pre, post, e⟩ := List.append_of_mem hro
    refine ⟨pre.map (fun o => ⟨o.src.name, refs o.src⟩), ⟨r.src.name, refs r.src⟩, post.map (fun o => ⟨o.src.name, refs o.src⟩),
      by rw [e]; simp, hn, ?_, hb.imp id mem_refs.2⟩
    intro x hx he
    obtain ⟨o, ho, rfl⟩ := List.mem_map.1 hx
    dsimp only at he
    have : (R.islandObjs p isl).map (·.name) = _ := rfl
    unfold Reg.islandObjs at e
    rw [e] at hnd
    simp only [List.map_append, List.map_cons, List.nodup_append, List.nodup_cons, List.mem_map] at hnd
    exact hnd.2.1.1 ⟨o, ho, he.trans hn.symm⟩

theorem sort_perm (l : List String) : (sort l).Perm l := List.perm_insertionSort _ l
theorem sort_sorted (l : List String) : (sort l).Pairwise (· ≤ ·) := List.pairwise_insertionSort _ l
theorem mem_sort {l : List String} {x : String} : x ∈ sort l ↔ x ∈ l := (sort_perm l).mem_iff

theorem sort_eq_of_perm {l l' : List String} (h : l.Perm l') : sort l = sort l' :=
  List.Perm.eq_of_pairwise (le := (· ≤ ·)) (fun a b _ _ h1 h2 => le_antisymm h1 h2) (sort_sorted l) (sort_sorted l')
    (((sort_perm l).trans h).trans (sort_perm l').symm)

theorem sort_idem (l : List String) : sort (sort l) = sort l := sort_eq_of_perm (sort_perm l)

/-- The dependencies found for a function: sorted, each once, exactly the functions of the island that can be
reached from it. -/
theorem explore_spec {E : Env} (hE : E.Ok) {R : Reg} (w : Wf R) (p : Nat) (isl name : String) :
    (∀ d, exploreDeps E R p isl name = some d →
      d.Nodup ∧ sort d = d ∧ ∀ x, x ∈ d ↔ CallGraph.Reaches (Link R p isl) name x) ∧
    ((∃ r, R.at ⟨p, isl, name⟩ = some r) → ∃ d, exploreDeps E R p isl name = some d) := by
  have hm : (R.islandObjs p isl).mapM (fun o => fnOf o.src) =
      some ((R.islandObjs p isl).map fun o => (⟨o.src.name, refs o.src⟩ : CallGraph.Fn String)) := by
    apply mapM_some_of
    intro o ho
    obtain ⟨j, h1, h2, h3, h4, h5⟩ := w.of_at ((mem_islandObjs w).1 ho).1
    exact fnOf_eq h5
  obtain ⟨D, e1, e2, e3, e4⟩ := CallGraph.deep_ok E.iter hE
    ((R.islandObjs p isl).map fun o => (⟨o.src.name, refs o.src⟩ : CallGraph.Fn String)) _ (Nat.le_refl _)
  have hL : CallGraph.Direct ((R.islandObjs p isl).map fun o => (⟨o.src.name, refs o.src⟩ : CallGraph.Fn String)) = Link R p isl := by
    funext a b; exact propext (direct_iff w p isl a b)
  rw [hL] at e4
  have hx : exploreDeps E R p isl name = (CallGraph.dget D name).map sort := by
    simp only [exploreDeps, hm, e1]
  rw [hx]
  constructor
  · intro d hd
    rw [Option.map_eq_some_iff] at hd
    obtain ⟨s, hs, rfl⟩ := hd
    have hk := (CallGraph.dget_isSome D name).1 (by simp [hs])
    obtain ⟨s', q1, q2, q3⟩ := e4 name hk
    rw [hs] at q1; injection q1 with q1; subst q1
    refine ⟨(sort_perm s).nodup_iff.2 q2, sort_idem s, fun x => mem_sort.trans (q3 x)⟩
  · rintro ⟨r, hr⟩
    have hk : name ∈ D.map (·.1) := by
      rw [e3]
      obtain ⟨j, h1, h2, h3, h4⟩ := w.of_at hr
      have hn : r.name = name := by simpa [Obj.key, Obj.name] using congrArg Key.name h3
      have hp : r.portal = p := by simpa [Obj.key] using congrArg Key.portal h3
      have hi : r.island = isl := by simpa [Obj.key] using congrArg Key.island h3
      exact ⟨⟨r.src.name, refs r.src⟩, List.mem_map.2 ⟨r, (mem_islandObjs w).2 ⟨by rw [hn]; exact hr, hp, hi⟩, rfl⟩, hn⟩
    obtain ⟨s, hs, _⟩ := e4 name hk
    exact ⟨sort s, by simp [hs]⟩

end Pyth.Registry
