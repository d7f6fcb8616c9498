import Verif.Proofs.RegistryInv
import Verif.Props.Analyzer
import Verif.Examples.Registry
/-!
# Registered functions: C45, C47, C48

`Reachable E R`: `R` is the registry after some history of decorations, executions, picklings and restorations.
`R.at ⟨portal, island, name⟩` is the registered function, `R.objs[i]?` the function object with handle `i`.
`start E R i` executes object `i` up to the point where its body runs (`true`) or an exception is raised (`false`).
-/
set_option linter.unusedVariables false
namespace Pyth.Registry
open Pyth.Analyzer

/-! ## C45 -/

/-- names every function may use -/
def Provided (E : Env) (s : Src) (x : String) : Prop :=
  x ∈ E.builtins ∨ x = "pth" ∨ x = "self" ∨ x = s.name ∨ x ∈ ["autonomous", "strictly_autonomous", "pure"]

theorem mem_available {E : Env} {s : Src} {x : String} (h : x ∈ available E s.name) : Provided E s x := by
  simp only [available, primaryDecorators, List.mem_append, List.mem_cons, List.not_mem_nil, or_false] at h
  simp only [Provided, List.mem_cons, List.not_mem_nil, or_false]
  tauto

theorem uses_reported {s : Src} {a : St} (ha : analyze s.node = some a) {x : String} (h : Uses s x) : x ∈ a.glob ++ a.uncl := by
  have hd : IsDef s.node := ⟨_, _, _, _, _, rfl⟩
  rw [List.mem_append]
  rcases h with h | h
  · exact .inr (C42_external_names_reported hd ha x h)
  · exact .inl (C42_globals_reported hd ha x h)

theorem complete_full {E : Env} {R R' : Reg} {i : Nat} (h : complete E R i = (R', true)) (hw : Wf R) :
    ∃ o, R'.objs[i]? = some o ∧ o.full = true := by
  have get : ∀ (Q : Reg) (j : Nat), (∃ o, Q.objs[i]? = some o) → ∃ o, (markFull Q i j).objs[i]? = some o ∧ o.full = true := by
    rintro Q j ⟨o, ho⟩
    unfold markFull
    rw [get_modify2, ho]
    refine ⟨_, rfl, ?_⟩
    by_cases e : j = i <;> simp [e]
  have ext : ∀ (Q : Reg) (m : Nat) (f : Obj → Obj), (∃ o, Q.objs[i]? = some o) → ∃ o, (Q.modify m f).objs[i]? = some o := by
    rintro Q m f ⟨o, ho⟩
    rw [get_modify, ho]; exact ⟨_, rfl⟩
  unfold complete at h
  split at h
  · cases h
  · rename_i o ho
    split at h
    · rename_i hf
      injection h with h _; subst h
      exact ⟨o, ho, hf⟩
    · rename_i hf
      have hf : o.full = false := by simpa using hf
      split at h
      · rename_i hc
        unfold completeAutonomous at h
        rw [ho] at h
        simp only [hf, Bool.false_eq_true, if_false] at h
        split at h
        · split at h
          · cases h
          · rename_i j hj
            split at h
            · cases h
            · rename_i r hr
              split at h
              · split at h
                · rename_i hrf
                  split at h
                  · cases h
                  · rename_i o' hu
                    injection h with h _; subst h
                    refine ⟨o', by rw [get_modify, ho]; simp, ?_⟩
                    unfold update at hu
                    split at hu
                    · cases hu
                    · injection hu with hu; subst hu
                      simp [hrf]
                · unfold finish at h
                  dsimp only at h
                  split at h
                  · cases h
                  · split at h
                    · split at h
                      · cases h
                      · split at h
                        · cases h
                        · injection h with h _; subst h
                          apply get
                          unfold recordDeps flipStrict
                          refine ext _ _ _ (ext _ _ _ ?_)
                          split
                          · exact ext _ _ _ (ext _ _ _ ⟨o, ho⟩)
                          · exact ext _ _ _ ⟨o, ho⟩
                    · cases h
              · cases h
        · cases h
      · unfold completePure at h
        split at h
        · cases h
        · rename_i R1 e1
          split at h
          · cases h
          · rename_i o1 ho1
            split at h
            · cases h
            · split at h
              · cases h
              · rename_i j hj
                split at h
                · cases h
                · rename_i r hr
                  unfold storeAug at h
                  split at h
                  · injection h with h _; subst h
                    exact get _ _ (ext _ _ _ (ext _ _ _ ⟨o1, ho1⟩))
                  · cases h

/-- C45: if an object's registration is completed, every name its function uses from outside is a builtin, `pth`,
`self`, a decorator, the function itself or a function of its island; and no yield occurs at the function's own
level. -/
theorem C45_completed_functions_are_autonomous {E : Env} (hE : E.Ok) {R : Reg} (hR : Reachable E R) {i : Nat} {R' : Reg}
    (hc : complete E R i = (R', true)) :
    ∃ o, R'.objs[i]? = some o ∧ ¬ Generator o.src ∧
      ∀ x, Uses o.src x → Provided E o.src x ∨ ∃ g, R'.at ⟨o.portal, o.island, x⟩ = some g := by
  have hI := reachable_inv hE hR
  have hp := complete_prims (E := E) (b := true) hI.wf i
  rw [hc] at hp
  have hI' := prims_inv hE hI hp
  obtain ⟨o, ho, hf⟩ := complete_full hc hI.wf
  obtain ⟨r, hr, hrf⟩ := hI'.full i o ho hf
  obtain ⟨r', q1, q2, q3, q4⟩ := hI'.wf.handle i o ho
  rw [hr] at q1; injection q1 with q1; subst q1
  obtain ⟨j, k1, k2, k3, k4, k5⟩ := hI'.wf.of_at hr
  obtain ⟨d, hd, _⟩ := hI'.done _ r hr hrf
  have hg := hI'.reg hr hd
  have hpo : r.portal = o.portal := by simpa [Obj.key] using congrArg Key.portal k3
  have his : r.island = o.island := by simpa [Obj.key] using congrArg Key.island k3
  rw [hpo, his, q2] at hg
  rw [q2] at k5
  obtain ⟨a, ha, hn, hy⟩ := acceptable_analyzes k5
  refine ⟨o, ho, ?_, ?_⟩
  · intro hgen
    have hs := src_visitAll o.src.body 0 _ a (by simpa [analyze, visit, Src.node] using ha)
    have := hs.more hgen
    omega
  · intro x hx
    rcases hg.covers a ha x (uses_reported ha hx) with h | h
    · exact .inl (mem_available h)
    · exact .inr (hg.names x h)

/-- C45: a strictly autonomous function whose body runs uses only names provided to every function: no function of
its island. -/
theorem C45_strict_functions_use_no_island_function {E : Env} (hE : E.Ok) {R : Reg} (hR : Reachable E R) {i : Nat} {R' : Reg}
    (hs : start E R i = (R', true)) {o : Obj} (ho : R'.objs[i]? = some o) (hst : o.strict = true) :
    ∀ x, Uses o.src x → Provided E o.src x := by
  have hI := reachable_inv hE hR
  have hp := complete_prims (E := E) (b := true) hI.wf i
  have e : (complete E R i).1 = R' := by rw [← start_fst, hs]
  rw [e] at hp
  have hI' := prims_inv hE hI hp
  have hrun : runnable R' o = true := by
    unfold start at hs
    split at hs
    · cases hs
    · split at hs
      · cases hs
      · rename_i o' ho'
        injection hs with h1 h2
        subst h1
        rw [ho] at ho'; injection ho' with ho'; subst ho'; exact h2
  unfold runnable at hrun
  simp only [Bool.and_eq_true] at hrun
  obtain ⟨_, hrun⟩ := hrun
  split at hrun
  · cases hrun
  · rename_i d hd
    obtain ⟨r, d0, h1, h2, h3, h4, h5⟩ := dependencies_spec hd
    obtain ⟨r', q1, q2, q3, q4⟩ := hI'.wf.handle i o ho
    rw [h1] at q1; injection q1 with q1; subst q1
    have hg := hI'.reg h1 h2
    obtain ⟨j, k1, k2, k3, k4, k5⟩ := hI'.wf.of_at h1
    obtain ⟨a, ha, _⟩ := acceptable_analyzes k5
    have h6 := h5 hst
    obtain ⟨y, rfl⟩ := List.length_eq_one_iff.1 h6
    have h7 := hg.self
    simp only [List.mem_singleton] at h7
    rw [q2] at ha hg h7
    intro x hx
    rcases hg.covers a ha x (uses_reported ha hx) with h | h
    · exact mem_available h
    · simp only [List.mem_singleton] at h
      exact .inr (.inr (.inr (.inl (h.trans h7.symm))))

/-! ## C47 -/

/-- C47: whatever happens after a name is registered, it stays registered, with the same source, class and guards. -/
theorem C47_source_never_changes {E : Env} (hE : E.Ok) {R : Reg} (hR : Reachable E R) {k : Key} {r : Obj} (hr : R.at k = some r)
    (ops : List Op) : ∃ r', (run E R ops).at k = some r' ∧ r'.src = r.src ∧ r'.cls = r.cls ∧ r'.guards = r.guards := by
  obtain ⟨r', h1, h2⟩ := (prims_wf (reachable_inv hE hR).wf (run_prims (E := E) (reachable_inv hE hR).wf ops)).2.at hr
  exact ⟨r', h1, h2.src, h2.cls, h2.guards⟩

/-- C47: all function objects with the same portal, island and name have the source that is registered under that
name. -/
theorem C47_one_source_per_name {E : Env} (hE : E.Ok) {R : Reg} (hR : Reachable E R) {i j : Nat} {o q : Obj}
    (ho : R.objs[i]? = some o) (hq : R.objs[j]? = some q) (hp : o.portal = q.portal) (hi : o.island = q.island)
    (hn : o.src.name = q.src.name) : o.src = q.src ∧ o.cls = q.cls ∧ ∃ r, R.at ⟨o.portal, o.island, o.src.name⟩ = some r ∧ r.src = o.src := by
  have w := (reachable_inv hE hR).wf
  obtain ⟨r, h1, h2, h3, _⟩ := w.handle i o ho
  obtain ⟨r', h4, h5, h6, _⟩ := w.handle j q hq
  have hk : o.key = q.key := by simp [Obj.key, hp, hi, hn]
  rw [hk, h4] at h1; injection h1 with h1; subst h1
  exact ⟨h2.symm.trans h5, h3.symm.trans h6, r', (show R.at o.key = some r' from hk ▸ h4), h2⟩

theorem begin_at_some {R : Reg} (w : Wf R) (o : Obj) {r : Obj} (hr : R.at o.key = some r) :
    begin R o = if o.src = r.src ∧ o.deco = r.deco ∧ o.cls = r.cls then
      match update { o with full := false } r with
      | none => (R, none)
      | some o => R.alloc o
    else (R, none) := by
  have hi : addIsland R o.portal o.island = R := by
    obtain ⟨j, _, _, _, h, _⟩ := w.of_at hr
    simp only [Obj.key] at h
    simp [addIsland, h]
  unfold begin
  dsimp only
  rw [hi, show ({ o with full := false } : Obj).key = o.key from rfl, hr]
  rfl

theorem begin_conflict {R : Reg} (w : Wf R) {o r : Obj} (hr : R.at o.key = some r) (hd : o.src ≠ r.src) : begin R o = (R, none) := by
  rw [begin_at_some w o hr, if_neg (fun h => hd h.1)]

/-- C47: declaring a function with another source under a registered name raises an exception and changes nothing. -/
theorem C47_different_source_rejected {E : Env} (hE : E.Ok) {R : Reg} (hR : Reachable E R) {d : Decl} {r : Obj}
    (hr : R.at ⟨d.portal, d.island, d.src.name⟩ = some r) (hd : d.src ≠ r.src) : decorate R d = (R, none) := by
  have w := (reachable_inv hE hR).wf
  unfold decorate
  split
  · exact begin_conflict w hr hd
  · split
    · rfl
    · exact begin_conflict w hr hd

/-- C47: so does restoring a pickled function with another source. -/
theorem C47_different_pickle_rejected {E : Env} (hE : E.Ok) {R : Reg} (hR : Reachable E R) {p : Nat} {isl : String} {s : Src} {r : Obj}
    (hr : R.at ⟨p, isl, s.name⟩ = some r) (hd : s ≠ r.src) (b : Bool) (gs : Option (List String)) (es : List Entry) :
    restore E R p (.autonomous isl s b) = (R, none) ∧ restore E R p (.pure isl s b gs es) = (R, none) := by
  have w := (reachable_inv hE hR).wf
  constructor
  · exact begin_conflict w hr hd
  · simp only [restore]
    rw [begin_conflict w (o := { cls := .pure, portal := p, island := isl, src := s, strict := b, guards := gs }) hr hd]

/-- C47: a successful declaration registers the declared source. -/
theorem C47_declared_source_registered {E : Env} (hE : E.Ok) {R : Reg} (hR : Reachable E R) {d : Decl} {R' : Reg} {i : Nat}
    (h : decorate R d = (R', some i)) :
    ∃ r, R'.at ⟨d.portal, d.island, d.src.name⟩ = some r ∧ r.src = d.src ∧ r.cls = d.cls := by
  have w := (reachable_inv hE hR).wf
  have key : ∀ o : Obj, o.src = d.src → o.portal = d.portal → o.island = d.island → o.cls = d.cls → begin R o = (R', some i) →
      ∃ r, R'.at ⟨d.portal, d.island, d.src.name⟩ = some r ∧ r.src = d.src ∧ r.cls = d.cls := by
    intro o h1 h2 h3 h4 hb
    have hk : (⟨d.portal, d.island, d.src.name⟩ : Key) = o.key := by simp [Obj.key, h1, h2, h3]
    rw [hk]
    cases hr : R.at o.key with
    | some r =>
      rw [begin_at_some w o hr] at hb
      split at hb
      · rename_i hc
        split at hb
        · cases hb
        · rename_i o' hu
          have e : R' = (R.alloc o').1 := by rw [hb]
          rw [e, at_alloc w, hr]
          exact ⟨r, rfl, hc.1.symm.trans h1, hc.2.2.symm.trans h4⟩
      · cases hb
    | none =>
      unfold begin at hb
      dsimp only at hb
      rw [addIsland_at, show ({ o with full := false } : Obj).key = o.key from rfl, hr] at hb
      dsimp only at hb
      split at hb
      · have hw := addIsland_ok w o.portal o.island
        have e : R' = (Reg.alloc { addIsland R o.portal o.island with
            known := (addIsland R o.portal o.island).known ++ [(({ o with full := false } : Obj).key, (addIsland R o.portal o.island).objs.length)] }
            ({ o with full := false } : Obj)).1 := by
          have hb' := congrArg Prod.fst hb
          exact hb'.symm
        rw [e, at_alloc_new hw.1 _ (by rw [addIsland_at]; exact hr)]
        exact ⟨{ o with full := false }, if_pos rfl, h1, h4⟩
      · cases hb
  unfold decorate at h
  split at h
  · rename_i hc
    exact key _ rfl rfl rfl hc.symm h
  · rename_i hc
    split at h
    · cases h
    · exact key _ rfl rfl rfl hc.symm h

/-! ## C48 -/

theorem update_isSome {o r : Obj} : (∃ o', update o r = some o') ↔ (r.full = true → r.compiled = true) := by
  unfold update
  cases h1 : r.full <;> cases h2 : r.compiled <;> simp

theorem begin_again_iff {R : Reg} (w : Wf R) {o r : Obj} (hr : R.at o.key = some r) (hs : o.src = r.src) (hc : o.cls = r.cls) :
    (∃ R' i, begin R o = (R', some i)) ↔ o.deco = r.deco ∧ (r.full = true → r.compiled = true) := by
  rw [begin_at_some w o hr, ← update_isSome (o := { o with full := false })]
  constructor
  · rintro ⟨R', i, h⟩
    split at h
    · rename_i hc
      refine ⟨hc.2.1, ?_⟩
      split at h
      · cases h
      · rename_i o' hu; exact ⟨o', hu⟩
    · cases h
  · rintro ⟨h, o', hu⟩
    rw [if_pos ⟨hs, h, hc⟩, hu]
    exact ⟨_, _, rfl⟩

/-- C48 (partial): declaring an autonomous function again, with the same source, succeeds exactly if it asks for the
strictness that the registered object has *now*, and the registered object is not marked as completed by another handle
without being compiled itself.  Missing: that this is so whatever was executed before; it is not. -/
theorem C48_autonomous_again_iff {E : Env} (hE : E.Ok) {R : Reg} (hR : Reachable E R) {p : Nat} {isl : String} {s : Src}
    {b : Bool} {r : Obj} (hr : R.at ⟨p, isl, s.name⟩ = some r) (hs : r.src = s) (hc : r.cls = .autonomous) :
    (∃ R' i, decorate R { cls := .autonomous, portal := p, island := isl, src := s, strict := b } = (R', some i)) ↔
      b = r.strict ∧ (r.full = true → r.compiled = true) := by
  have w := (reachable_inv hE hR).wf
  have hisl : r.island = isl := by
    obtain ⟨j, _, _, h, _⟩ := w.of_at hr
    simpa [Obj.key] using congrArg Key.island h
  have := begin_again_iff w (o := { cls := .autonomous, portal := p, island := isl, src := s, strict := b }) hr hs.symm hc.symm
  simp only [decorate]
  rw [this]
  refine and_congr_left fun _ => ?_
  simp only [Obj.deco, hc, hisl]
  cases b <;> cases h : r.strict <;> simp

/-- the same for pure functions: the guards must be those of the registered object -/
theorem C48_pure_again_iff {E : Env} (hE : E.Ok) {R : Reg} (hR : Reachable E R) {p : Nat} {isl : String} {s : Src}
    {gs : Option (List GuardArg)} {r : Obj} (hr : R.at ⟨p, isl, s.name⟩ = some r) (hs : r.src = s) (hc : r.cls = .pure) :
    (∃ R' i, decorate R { cls := .pure, portal := p, island := isl, src := s, guards := gs } = (R', some i)) ↔
      preprocessGuards R p isl gs = some r.guards ∧ (r.full = true → r.compiled = true) := by
  have w := (reachable_inv hE hR).wf
  have hisl : r.island = isl := by
    obtain ⟨j, _, _, h, _⟩ := w.of_at hr
    simpa [Obj.key] using congrArg Key.island h
  simp only [decorate]
  cases hg : preprocessGuards R p isl gs with
  | none => simp
  | some g =>
    dsimp only
    rw [begin_again_iff w (o := { cls := .pure, portal := p, island := isl, src := s, strict := false, guards := g }) hr hs.symm hc.symm]
    refine and_congr_left fun _ => ?_
    simp only [Obj.deco, hc, hisl]
    simp

/-- declarations leave everything that exists alone -/
structure Grow (R R' : Reg) : Prop where
  objs : R.objs <+: R'.objs
  known : R.known <+: R'.known
  islands : ∀ x ∈ R.islands, x ∈ R'.islands

theorem Grow.refl (R : Reg) : Grow R R := ⟨List.prefix_rfl, List.prefix_rfl, fun _ h => h⟩
theorem Grow.trans {A B C : Reg} (h : Grow A B) (h' : Grow B C) : Grow A C :=
  ⟨h.1.trans h'.1, h.2.trans h'.2, fun x hx => h'.3 x (h.3 x hx)⟩

theorem Grow.get {R R' : Reg} (h : Grow R R') {i : Nat} {o : Obj} (ho : R.objs[i]? = some o) : R'.objs[i]? = some o := by
  obtain ⟨t, ht⟩ := h.objs
  rw [← ht, List.getElem?_append_left (by rw [List.getElem?_eq_some_iff] at ho; exact ho.1), ho]

theorem Grow.at {R R' : Reg} (h : Grow R R') {k : Key} {r : Obj} (hr : R.at k = some r) : R'.at k = some r := by
  simp only [Reg.at, Option.bind_eq_some_iff] at hr ⊢
  obtain ⟨j, h1, h2⟩ := hr
  obtain ⟨t, ht⟩ := h.known
  refine ⟨j, ?_, h.get h2⟩
  rw [← ht, List.lookup_append, h1]; rfl

theorem addIsland_grow (R : Reg) (p : Nat) (isl : String) : Grow R (addIsland R p isl) := by
  unfold addIsland
  split
  · exact Grow.refl R
  · exact ⟨List.prefix_rfl, List.prefix_rfl, fun x h => by simp [h]⟩

theorem begin_grow (R : Reg) (o : Obj) : Grow R (begin R o).1 := by
  have h := addIsland_grow R o.portal o.island
  unfold begin
  dsimp only
  split
  · split
    · split
      · exact h
      · exact h.trans ⟨List.prefix_append _ _, List.prefix_rfl, fun _ h => h⟩
    · exact h
  · split
    · exact h.trans ⟨List.prefix_append _ _, List.prefix_append _ _, fun _ h => h⟩
    · exact h

theorem decorate_grow (R : Reg) (d : Decl) : Grow R (decorate R d).1 := by
  unfold decorate
  split
  · exact begin_grow _ _
  · split
    · exact Grow.refl R
    · exact begin_grow _ _

theorem decorates_grow (E : Env) (R : Reg) (ds : List Decl) : Grow R (run E R (ds.map .decorate)) := by
  induction ds generalizing R with
  | nil => exact Grow.refl R
  | cons d ds ih => exact (decorate_grow R d).trans (ih _)

theorem mapM_mono {α β : Type} (f g : α → Option β) (h : ∀ a b, f a = some b → g a = some b) {l : List α} {r : List β} (hl : l.mapM f = some r) :
    l.mapM g = some r := by
  induction l generalizing r with
  | nil => simpa using hl
  | cons a l ih =>
    simp only [List.mapM_cons, Option.bind_eq_bind, Option.bind_eq_some_iff, Option.pure_def, Option.some.injEq] at hl ⊢
    obtain ⟨b, h1, bs, h2, rfl⟩ := hl
    exact ⟨b, h a b h1, bs, ih h2, rfl⟩

theorem guards_grow {R R' : Reg} (h : Grow R R') {p : Nat} {isl : String} {gs : Option (List GuardArg)} {g : Option (List String)}
    (hg : preprocessGuards R p isl gs = some g) : preprocessGuards R' p isl gs = some g := by
  cases gs with
  | none => exact hg
  | some l =>
    simp only [preprocessGuards] at hg ⊢
    split at hg
    · rename_i hi
      rw [if_pos (h.islands _ hi)]
      split at hg
      · cases hg
      · rename_i ns hns
        rw [mapM_mono (guardName R p isl) (guardName R' p isl) ?_ hns]
        · exact hg
        · intro a b hab
          cases a with
          | obj i =>
            simp only [guardName] at hab ⊢
            split at hab
            · cases hab
            · rename_i o ho
              rw [h.get ho]; exact hab
          | name s =>
            simp only [guardName] at hab ⊢
            split at hab
            · rename_i hs
              rw [mem_islandNames] at hs
              obtain ⟨j, hj⟩ := hs
              rw [if_pos ((mem_islandNames _ _ _ _).2 ⟨j, h.known.subset hj⟩)]; exact hab
            · cases hab
    · cases hg

theorem begin_again {R R' R2 : Reg} (w : Wf R) (w' : Wf R') (w2 : Wf R2) {o : Obj} (hf : Fresh o) {i : Nat} (h : begin R o = (R', some i)) (hg : Grow R' R2) :
    ∃ R3 j q, begin R2 o = (R3, some j) ∧ R2.objs[i]? = some q ∧ R3.objs[j]? = some q := by
  have eo : ({ o with full := false } : Obj) = o := by cases o; cases hf; simp_all
  have again : ∀ r q, R2.at o.key = some r → o.src = r.src ∧ o.deco = r.deco ∧ o.cls = r.cls → update o r = some q → R2.objs[i]? = some q →
      ∃ R3 j q, begin R2 o = (R3, some j) ∧ R2.objs[i]? = some q ∧ R3.objs[j]? = some q := by
    intro r q hr hc hu hq
    rw [begin_at_some w2 o hr, if_pos hc, eo, hu]
    exact ⟨_, _, q, rfl, hq, by simp⟩
  cases hr : R.at o.key with
  | some r =>
    rw [begin_at_some w o hr] at h
    split at h
    · rename_i hc
      split at h
      · cases h
      · rename_i q hu
        rw [eo] at hu
        have e1 : (R.alloc q).1 = R' := by rw [h]
        have e2 : i = R.objs.length := by
          have := congrArg Prod.snd h
          simp [Reg.alloc] at this; exact this.symm
        refine again r q (hg.at (e1 ▸ (at_alloc w q o.key).trans hr)) hc hu (hg.get ?_)
        rw [← e1, getElem?_alloc, e2]; simp
    · cases h
  | none =>
    unfold begin at h
    dsimp only at h
    simp only [addIsland_at, eo] at h
    rw [hr] at h
    dsimp only at h
    split at h
    · have hw := addIsland_ok w o.portal o.island
      have e1 : (Reg.alloc _ o).1 = R' := congrArg Prod.fst h
      have e2 : i = R.objs.length := by
        have := congrArg Prod.snd h
        simp only [Reg.alloc] at this
        injection this with this
        rw [← this, hw.2.2.2.2]
      refine again o o (hg.at ?_) ⟨rfl, rfl, rfl⟩ ?_ (hg.get ?_)
      · rw [← e1, at_alloc_new hw.1 o (by rw [addIsland_at]; exact hr), if_pos rfl]
      · unfold update
        rw [hf.full]
        simp only [Bool.false_and, Bool.false_eq_true, if_false]
        cases o; cases hf; simp_all
      · rw [← e1, getElem?_alloc, e2, hw.2.2.2.2]; simp
    · cases h

/-- C48 (partial): if a declaration succeeded and only declarations followed, the same declaration succeeds again and
yields an object equal to the first one.  Missing: executions in between. -/
theorem C48_again_before_execution {E : Env} (hE : E.Ok) {R : Reg} (hR : Reachable E R) {d : Decl} {R1 : Reg} {i : Nat}
    (h : decorate R d = (R1, some i)) (ds : List Decl) :
    ∃ R3 j q, decorate (run E R1 (ds.map .decorate)) d = (R3, some j) ∧
      (run E R1 (ds.map .decorate)).objs[i]? = some q ∧ R3.objs[j]? = some q := by
  have w := (reachable_inv hE hR).wf
  have w1 : Wf R1 := by
    have := (prims_wf w (decorate_prims (E := E) (b := true) w d)).1
    rwa [h] at this
  have w2 := (prims_wf w1 (run_prims (E := E) w1 (ds.map .decorate))).1
  have hg := decorates_grow E R1 ds
  have hg0 : Grow R R1 := by
    have := decorate_grow R d
    rwa [h] at this
  unfold decorate at h ⊢
  split at h
  · rename_i hc
    exact begin_again w w1 w2 ⟨rfl, rfl, rfl, rfl⟩ h hg
  · rename_i hc
    split at h
    · cases h
    · rename_i gs hgs
      rw [guards_grow (hg0.trans hg) hgs]
      exact begin_again w w1 w2 ⟨rfl, rfl, rfl, rfl⟩ h hg

end Pyth.Registry

/-! ## Examples -/
namespace Pyth.Registry.Ex
open Pyth.Analyzer

/-- `g` calls `f`; both are autonomous; `g` was executed -/
def R1 : Reg := run E {} [aut (fn "f" ["len"]), aut (fn "g" ["f", "g"])]

theorem R1_reachable : Reachable E R1 := ⟨_, rfl⟩
/-- C45: `g` is completed -/
example : (complete E R1 1).2 = true := by decide +kernel
/-- C45: a function using an unknown name is not -/
example : (complete E (run E {} [aut (fn "g" ["f"])]) 0).2 = false := by decide +kernel
/-- C45: a strictly autonomous function that runs; one that uses a function of the island does not -/
example : (start E (run E {} [strictly (fn "f" ["len"])]) 0).2 = true := by decide +kernel
example : (start E (run E {} [aut (fn "f" []), strictly (fn "g" ["f"])]) 1).2 = false := by decide +kernel
/-- C45: an island function named like a builtin: the strictly autonomous function completes, but does not run -/
example : (complete E (run E {} [aut (fn "len" []), strictly (fn "g" ["len"])]) 1).2 = true ∧
    (start E (run E {} [aut (fn "len" []), strictly (fn "g" ["len"])]) 1).2 = false := by decide +kernel
/-- C47: another source for `f` -/
example : decorate R1 { cls := .autonomous, portal := 0, island := "I", src := fn "f" [] } = (R1, none) :=
  C47_different_source_rejected E_ok R1_reachable (r := { cls := .autonomous, portal := 0, island := "I", src := fn "f" ["len"], strict := false })
    (by decide +kernel) (by decide +kernel)
/-- C48: `f` again, before anything is executed -/
example : (decorate R1 { cls := .autonomous, portal := 0, island := "I", src := fn "f" ["len"] }).2 = some 2 := by decide +kernel

/-- C48 is false of the code: after `f` was executed once (successfully), declaring it again raises an exception. -/
theorem C48_executed_function_counterexample :
    (start E (run E {} [aut (fn "f" [])]) 0).2 = true ∧
    (decorate (run E {} [aut (fn "f" []), .start 0]) { cls := .autonomous, portal := 0, island := "I", src := fn "f" [] }).2 = none := by
  decide +kernel

end Pyth.Registry.Ex
