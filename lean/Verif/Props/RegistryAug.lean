import Verif.Proofs.RegistryAug
import Verif.Props.Registry
/-!
# The augmented source of a pure function: C49, C52

`pickle E R i = (R', some (.pure isl s st gs es))`: pickling function object `i` (which is also how its call addresses
are computed) yields its island, source, strictness mark, guards and augmented source `es`, a list of decorated
functions.
-/
set_option linter.unusedVariables false
namespace Pyth.Registry
open Pyth.Analyzer

theorem pickle_spec {E : Env} {R R' : Reg} {i : Nat} {isl : String} {s : Src} {st : Bool} {gs : Option (List String)} {es : List Entry}
    (h : pickle E R i = (R', some (.pure isl s st gs es))) :
    complete E R i = (R', true) ∧ (∃ o, R.objs[i]? = some o ∧ o.cls = .pure) ∧
    ∃ o' r', R'.objs[i]? = some o' ∧ R'.at o'.key = some r' ∧ r'.aug = some es ∧ o'.full = true ∧
      isl = o'.island ∧ s = o'.src ∧ st = o'.strict ∧ gs = o'.guards := by
  unfold pickle at h
  split at h
  · cases h
  · rename_i o ho
    split at h
    · cases h
    · rename_i hc
      split at h
      · cases h
      · rename_i R1 hR1
        split at h
        · cases h
        · rename_i o' ho'
          split at h
          · cases h
          · rename_i r' hr'
            split at h
            · rename_i hf ha
              simp only [Prod.mk.injEq, Option.some.injEq, Pickled.pure.injEq] at h
              obtain ⟨rfl, rfl, rfl, rfl, rfl, rfl⟩ := h
              exact ⟨hR1, ⟨o, ho, hc⟩, o', r', ho', hr', ha, hf, rfl, rfl, rfl, rfl⟩
            · cases h

theorem mapM_names {R : Reg} (w : Wf R) {p : Nat} {isl : String} {l : List String} {es : List Entry}
    (h : l.mapM (entryOf R p isl) = some es) : es.map (·.src.name) = l ∧
      ∀ e ∈ es, ∃ f, R.at ⟨p, isl, e.src.name⟩ = some f ∧ e.src = f.src ∧ e.deco = f.deco := by
  have hf := mapM_spec _ h
  have hent : ∀ n e, entryOf R p isl n = some e → e.src.name = n ∧
      ∃ f, R.at ⟨p, isl, n⟩ = some f ∧ e.src = f.src ∧ e.deco = f.deco := by
    intro n e he
    unfold entryOf at he
    rw [Option.map_eq_some_iff] at he
    obtain ⟨f, h1, rfl⟩ := he
    obtain ⟨j, q1, q2, q3, q4⟩ := w.of_at h1
    exact ⟨by simpa [Obj.key] using congrArg Key.name q3, f, h1, rfl, rfl⟩
  constructor
  · have : ∀ (l : List String) (r : List Entry), List.Forall₂ (fun n e => entryOf R p isl n = some e) l r → r.map (·.src.name) = l := by
      intro l r h
      induction h with
      | nil => rfl
      | cons h1 _ ih => simp [(hent _ _ h1).1, ih]
    exact this _ _ hf
  · intro e he
    obtain ⟨n, _, h1⟩ := forall₂_mem_right hf he
    obtain ⟨h2, h3⟩ := hent n e h1
    rw [h2]; exact h3

/-! ## C52 -/

/-- C52 (partial): the augmented source that a pure function gets when it is completed for the first time lists, in
name order, exactly the function, the functions of its island that it can reach, and its guards, each with the source
and decorator registered at this moment.  Missing: that it stays exact when functions are declared later; it does
not. -/
theorem C52_first_augmented_source_partial {E : Env} (hE : E.Ok) {R : Reg} (hR : Reachable E R) {i : Nat} {o r : Obj}
    (ho : R.objs[i]? = some o) (hr : R.at ⟨o.portal, o.island, o.src.name⟩ = some r) (hrf : r.full = false)
    {R' : Reg} {isl : String} {s : Src} {st : Bool} {gs : Option (List String)} {es : List Entry}
    (h : pickle E R i = (R', some (.pure isl s st gs es))) :
    isl = o.island ∧ s = o.src ∧ gs = o.guards ∧
    (es.map (·.src.name)).Pairwise (· ≤ ·) ∧
    (∀ x, x ∈ es.map (·.src.name) ↔ x ∈ gs.getD [] ∨ CallGraph.Reaches (Link R o.portal isl) s.name x) ∧
    ∀ e ∈ es, ∃ f, R.at ⟨o.portal, isl, e.src.name⟩ = some f ∧ e.src = f.src ∧ e.deco = f.deco := by
  have hI := reachable_inv hE hR
  obtain ⟨hc, ⟨o1, ho1, hcls⟩, o', r', h1, h2, h3, h4, rfl, rfl, rfl, rfl⟩ := pickle_spec h
  rw [ho] at ho1; injection ho1 with ho1; subst ho1
  obtain ⟨d, es', d1, d2, d3, d4, ⟨r2, e1, e2, e3, _⟩, o2, f1, f2, f3, f4, _⟩ := completePure_first hE hI ho hcls hr hrf hc
  rw [h1] at f1; injection f1 with f1; subst f1
  rw [f4.key] at h2
  rw [h2] at e1; injection e1 with e1; subst e1
  rw [h3] at e2; injection e2 with e2; subst e2
  obtain ⟨g1, g2⟩ := mapM_names hI.wf d4
  refine ⟨f4.island, f4.src, f4.guards, ?_, ?_, ?_⟩
  · rw [g1]; exact sort_sorted _
  · intro x
    rw [g1, mem_sort, List.mem_append, d3, f4.guards, f4.island, f4.src]
  · rw [f4.island]; exact g2

/-- C52 (partial): any later augmented source has the function and its guards, further functions only if the function
reaches them, every function of the island that it uses itself, and the registered sources; decorators are as
registered up to strictness. -/
theorem C52_augmented_source_partial {E : Env} (hE : E.Ok) {R : Reg} (hR : Reachable E R) {i : Nat} {R' : Reg}
    {isl : String} {s : Src} {st : Bool} {gs : Option (List String)} {es : List Entry}
    (h : pickle E R i = (R', some (.pure isl s st gs es))) :
    ∃ o, R'.objs[i]? = some o ∧
    (es.map (·.src.name)).Pairwise (· ≤ ·) ∧ s.name ∈ es.map (·.src.name) ∧
    (∀ x ∈ gs.getD [], x ∈ es.map (·.src.name)) ∧
    (∀ x ∈ es.map (·.src.name), x ∈ gs.getD [] ∨ CallGraph.Reaches (Link R' o.portal isl) s.name x) ∧
    (∀ x, Uses s x → Provided E s x ∨ x ∈ es.map (·.src.name)) ∧
    ∀ e ∈ es, ∃ f, R'.at ⟨o.portal, isl, e.src.name⟩ = some f ∧ e.src = f.src ∧
      (e.deco = f.deco ∨ f.cls = .autonomous ∧ (e.deco = .strictly isl ∨ e.deco = .autonomous isl)) := by
  have hI := reachable_inv hE hR
  obtain ⟨hc, ⟨o1, ho1, hcls⟩, o', r', h1, h2, h3, h4, rfl, rfl, rfl, rfl⟩ := pickle_spec h
  have hp := complete_prims (E := E) (b := true) hI.wf i
  rw [hc] at hp
  have hI' := prims_inv hE hI hp
  obtain ⟨r2, q1, q2⟩ := hI'.full i o' h1 h4
  rw [h2] at q1; injection q1 with q1; subst q1
  obtain ⟨d, hd, hpure⟩ := hI'.done _ r' h2 q2
  obtain ⟨r3, k1, k2, k3, k4⟩ := hI'.wf.handle i o' h1
  rw [h2] at k1; injection k1 with k1; subst k1
  have hcls' : o'.cls = .pure := by
    obtain ⟨o3, m1, m2⟩ := (prims_wf hI.wf hp).2.objs i o1 ho1
    rw [h1] at m1; injection m1 with m1; subst m1
    exact m2.cls.trans hcls
  obtain ⟨es', e1, e2⟩ := hpure (k3.trans hcls')
  rw [h3] at e1; injection e1 with e1; subst e1
  have hg := hI'.reg h2 hd
  obtain ⟨j, m1, m2, m3, m4, m5⟩ := hI'.wf.of_at h2
  have hpo : r'.portal = o'.portal := by simpa [Obj.key] using congrArg Key.portal m3
  have his : r'.island = o'.island := by simpa [Obj.key] using congrArg Key.island m3
  have he := e2.entries
  have hn := e2.names
  rw [hpo, his, k2] at hg
  rw [hpo, his] at he
  rw [k4] at hn
  rw [k2] at m5
  obtain ⟨a, ha, _⟩ := acceptable_analyzes m5
  refine ⟨o', h1, ?_, ?_, ?_, ?_, ?_, ?_⟩
  · rw [hn]; exact sort_sorted _
  · rw [hn, mem_sort]; exact List.mem_append_right _ hg.self
  · intro x hx
    rw [hn, mem_sort]; exact List.mem_append_left _ hx
  · intro x hx
    rw [hn, mem_sort, List.mem_append] at hx
    exact hx.imp id fun hx => reaches_mono (fun a b hab => hab.1) (hg.reach x hx)
  · intro x hx
    rw [hn, mem_sort, List.mem_append]
    rcases hg.covers a ha x (uses_reported ha hx) with h | h
    · exact .inl (mem_available h)
    · exact .inr (.inr h)
  · intro e hmem
    obtain ⟨f, f1, f2, b, f3⟩ := he e hmem
    refine ⟨f, f1, f2, ?_⟩
    cases hcf : f.cls with
    | pure => left; rw [f3]; simp [Obj.deco, hcf]
    | autonomous =>
      right
      refine ⟨rfl, ?_⟩
      obtain ⟨_, _, _, n3, _⟩ := hI'.wf.of_at f1
      have : f.island = o'.island := by simpa [Obj.key] using congrArg Key.island n3
      rw [f3]; cases b <;> simp [Obj.deco, hcf, this]

/-- two sessions whose islands hold the same sources with the same decorators -/
def SameIsland (R1 R2 : Reg) (p1 p2 : Nat) (isl : String) : Prop :=
  ∀ x, (R1.at ⟨p1, isl, x⟩).map (fun f => (f.src, f.deco)) = (R2.at ⟨p2, isl, x⟩).map fun f => (f.src, f.deco)

theorem SameIsland.entry {R1 R2 : Reg} {p1 p2 : Nat} {isl : String} (h : SameIsland R1 R2 p1 p2 isl) :
    entryOf R1 p1 isl = entryOf R2 p2 isl := by
  funext x
  have := h x
  unfold entryOf
  cases h1 : R1.at ⟨p1, isl, x⟩ <;> cases h2 : R2.at ⟨p2, isl, x⟩ <;> simp_all

theorem SameIsland.link {R1 R2 : Reg} {p1 p2 : Nat} {isl : String} (h : SameIsland R1 R2 p1 p2 isl) (a b : String)
    (hl : Link R1 p1 isl a b) : Link R2 p2 isl a b := by
  obtain ⟨⟨r, hr⟩, r', hr', hx⟩ := hl
  have h1 := h b
  have h2 := h a
  rw [hr] at h1
  rw [hr'] at h2
  cases e1 : R2.at ⟨p2, isl, b⟩ with
  | none => rw [e1] at h1; simp at h1
  | some q =>
    cases e2 : R2.at ⟨p2, isl, a⟩ with
    | none => rw [e2] at h2; simp at h2
    | some q' =>
      rw [e2] at h2
      simp only [Option.map_some, Option.some.injEq, Prod.mk.injEq] at h2
      exact ⟨⟨q, e1⟩, q', e2, by rw [← h2.1]; exact hx⟩

theorem SameIsland.symm {R1 R2 : Reg} {p1 p2 : Nat} {isl : String} (h : SameIsland R1 R2 p1 p2 isl) : SameIsland R2 R1 p2 p1 isl :=
  fun x => (h x).symm

/-- C49 and C52 (partial): two sessions, whatever their histories, portals and set orders: if at the first completion
of the function the islands hold the same sources with the same decorators, the augmented sources are equal.
Missing: equal *declared* decorators are not enough, as executing an autonomous function changes its decorator. -/
theorem C49_same_island_same_augmented_source_partial {E1 E2 : Env} (hE1 : E1.Ok) (hE2 : E2.Ok) {R1 R2 : Reg}
    (hR1 : Reachable E1 R1) (hR2 : Reachable E2 R2) {i1 i2 : Nat} {o1 o2 r1 r2 : Obj}
    (ho1 : R1.objs[i1]? = some o1) (ho2 : R2.objs[i2]? = some o2)
    (hr1 : R1.at ⟨o1.portal, o1.island, o1.src.name⟩ = some r1) (hr2 : R2.at ⟨o2.portal, o2.island, o2.src.name⟩ = some r2)
    (hf1 : r1.full = false) (hf2 : r2.full = false) (hname : o1.src.name = o2.src.name) (hisl : o1.island = o2.island)
    (hsame : SameIsland R1 R2 o1.portal o2.portal o1.island)
    {R1' R2' : Reg} {isl1 isl2 : String} {s1 s2 : Src} {st1 st2 : Bool} {gs1 gs2 : Option (List String)} {es1 es2 : List Entry}
    (h1 : pickle E1 R1 i1 = (R1', some (.pure isl1 s1 st1 gs1 es1))) (h2 : pickle E2 R2 i2 = (R2', some (.pure isl2 s2 st2 gs2 es2))) :
    isl1 = isl2 ∧ s1 = s2 ∧ gs1 = gs2 ∧ es1 = es2 := by
  have hI1 := reachable_inv hE1 hR1
  have hI2 := reachable_inv hE2 hR2
  obtain ⟨hc1, ⟨_, a1, hcls1⟩, o1', r1', b1, b2, b3, b4, rfl, rfl, rfl, rfl⟩ := pickle_spec h1
  obtain ⟨hc2, ⟨_, a2, hcls2⟩, o2', r2', c1, c2, c3, c4, rfl, rfl, rfl, rfl⟩ := pickle_spec h2
  rw [ho1] at a1; injection a1 with a1; subst a1
  rw [ho2] at a2; injection a2 with a2; subst a2
  obtain ⟨d1, es1', d11, d12, d13, d14, ⟨q1, q2, q3, _⟩, p1, p2, p3, p4, p5, _⟩ := completePure_first hE1 hI1 ho1 hcls1 hr1 hf1 hc1
  obtain ⟨d2, es2', d21, d22, d23, d24, ⟨u1, u2, u3, _⟩, v1, v2, v3, v4, v5, _⟩ := completePure_first hE2 hI2 ho2 hcls2 hr2 hf2 hc2
  rw [b1] at p2; injection p2 with p2; subst p2
  rw [c1] at v2; injection v2 with v2; subst v2
  rw [p5.key] at b2
  rw [v5.key] at c2
  rw [b2] at q2; injection q2 with q2; subst q2
  rw [c2] at u2; injection u2 with u2; subst u2
  rw [b3] at q3; injection q3 with q3; subst q3
  rw [c3] at u3; injection u3 with u3; subst u3
  -- the registered functions agree
  have hreg := hsame o1.src.name
  rw [hr1, hisl, hname, hr2] at hreg
  simp only [Option.map_some, Option.some.injEq, Prod.mk.injEq] at hreg
  obtain ⟨w1, x1, x2, x3, x4⟩ := hI1.wf.handle i1 o1 ho1
  obtain ⟨w2, y1, y2, y3, y4⟩ := hI2.wf.handle i2 o2 ho2
  have e1 : R1.at o1.key = some r1 := hr1
  have e2 : R2.at o2.key = some r2 := hr2
  rw [e1] at x1; injection x1 with x1; subst x1
  rw [e2] at y1; injection y1 with y1; subst y1
  have hg : r1.guards = r2.guards := by
    have := hreg.2
    rw [deco_pure (x3.trans hcls1), deco_pure (y3.trans hcls2)] at this
    injection this
  have hs : o1.src = o2.src := x2.symm.trans (hreg.1.trans y2)
  have hgd : o1.guards = o2.guards := x4.symm.trans (hg.trans y4)
  have hd : d1 = d2 := by
    have hperm : d1.Perm d2 := by
      rw [List.perm_ext_iff_of_nodup d11 d21]
      intro x
      rw [d13, d23, hname, ← hisl]
      exact ⟨reaches_mono hsame.link, reaches_mono hsame.symm.link⟩
    rw [← d12, ← d22]
    exact sort_eq_of_perm hperm
  refine ⟨?_, ?_, ?_, ?_⟩
  · rw [p5.island, v5.island]; exact hisl
  · rw [p5.src, v5.src]; exact hs
  · rw [p5.guards, v5.guards]; exact hgd
  · rw [hgd, hd, hsame.entry, hisl, d24] at d14
    injection d14 with d14; exact d14.symm

/-! ## C52: the order in which guards are given -/

theorem mapM_perm {α β : Type} (f : α → Option β) {l l' : List α} (h : l.Perm l') :
    (l.mapM f = none ∧ l'.mapM f = none) ∨ ∃ r r', l.mapM f = some r ∧ l'.mapM f = some r' ∧ r.Perm r' := by
  induction h with
  | nil => exact .inr ⟨[], [], rfl, rfl, .nil⟩
  | cons a _ ih =>
    simp only [List.mapM_cons]
    cases f a with
    | none => exact .inl ⟨rfl, rfl⟩
    | some b =>
      rcases ih with ⟨h1, h2⟩ | ⟨r, r', h1, h2, h3⟩
      · rw [h1, h2]; exact .inl ⟨rfl, rfl⟩
      · rw [h1, h2]; exact .inr ⟨_, _, rfl, rfl, h3.cons b⟩
  | swap a b l =>
    simp only [List.mapM_cons]
    cases f a with
    | none => cases f b <;> exact .inl ⟨rfl, rfl⟩
    | some a' =>
      cases f b with
      | none => exact .inl ⟨rfl, rfl⟩
      | some b' =>
        cases l.mapM f with
        | none => exact .inl ⟨rfl, rfl⟩
        | some r => exact .inr ⟨_, _, rfl, rfl, .swap _ _ _⟩
  | trans _ _ ih1 ih2 =>
    rcases ih1 with ⟨h1, h2⟩ | ⟨r, r', h1, h2, h3⟩
    · rcases ih2 with ⟨h4, h5⟩ | ⟨r2, r3, h4, h5, h6⟩
      · exact .inl ⟨h1, h5⟩
      · rw [h4] at h2; cases h2
    · rcases ih2 with ⟨h4, h5⟩ | ⟨r2, r3, h4, h5, h6⟩
      · rw [h4] at h2; cases h2
      · rw [h4] at h2; cases h2; exact .inr ⟨r, r3, h1, h5, h3.trans h6⟩

/-- C52: the order in which the guards of a pure function are given makes no difference: the declaration is accepted or
rejected alike, and leaves the very same registered functions (hence the same augmented sources and addresses). -/
theorem C52_guard_order_irrelevant (R : Reg) (d : Decl) {gs gs' : List GuardArg} (h : gs.Perm gs') :
    decorate R { d with guards := some gs } = decorate R { d with guards := some gs' } := by
  have : preprocessGuards R d.portal d.island (some gs) = preprocessGuards R d.portal d.island (some gs') := by
    simp only [preprocessGuards]
    split
    · rcases mapM_perm (guardName R d.portal d.island) h with ⟨h1, h2⟩ | ⟨r, r', h1, h2, h3⟩
      · rw [h1, h2]
      · rw [h1, h2]
        show some (some (sort r)) = some (some (sort r'))
        rw [sort_eq_of_perm h3]
    · rfl
  unfold decorate
  simp only [this]

/-! ## C49: decorators -/

theorem prim_strict {E : Env} {b : Bool} {R R' : Reg} (w : Wf R) (h : Prim E b R R') {k : Key} {r : Obj} (hr : R.at k = some r)
    (hs : r.strict = true) : ∃ r', R'.at k = some r' ∧ r'.strict = true := by
  have mod : ∀ (Q : Reg) (i : Nat) (f : Obj → Obj), (∃ q, Q.at k = some q ∧ q.strict = true) →
      (∀ o, Q.objs[i]? = some o → o.strict = true → (f o).strict = true) → ∃ q, (Q.modify i f).at k = some q ∧ q.strict = true := by
    rintro Q i f ⟨q, h1, h2⟩ hf
    rw [at_modify, h1]
    split
    · rename_i hl
      simp only [Reg.at, hl, Option.bind_some] at h1
      exact ⟨f q, rfl, hf q h1 h2⟩
    · exact ⟨q, rfl, h2⟩
  cases h with
  | island p isl => exact ⟨r, by rw [addIsland_at]; exact hr, hs⟩
  | handle o q o' hq hsrc hd hc hf hu => exact ⟨r, by rw [at_alloc w]; exact hr, hs⟩
  | register o hq hi ha hf =>
    rw [at_alloc_new w o hq]
    split
    · rename_i e
      subst e
      rw [hr] at hq; cases hq
    · exact ⟨r, hr, hs⟩
  | compile i j o q c hq => exact mod _ _ _ ⟨r, hr, hs⟩ (by intros; assumption)
  | flip i j o q a c hq hm ha hst hl => exact mod _ _ _ ⟨r, hr, hs⟩ (by intros; rfl)
  | record i j o q a d c hq hm ha hst hqq hd hne =>
    have h1 : ∃ q, (recordDeps R i j d).at k = some q ∧ q.strict = true :=
      mod _ _ _ (mod _ _ _ ⟨r, hr, hs⟩ (by intros; assumption)) (by intros; assumption)
    split
    · exact mod _ _ _ (mod _ _ _ h1 (by intros; assumption)) (by intros; assumption)
    · exact h1
  | refresh i j o q o' c hq hc hu =>
    rw [at_modify]
    split
    · rename_i hl
      have hk := w.lookup_key hl c.obj
      subst hk
      rw [c.look] at hl; injection hl with hl; subst hl
      have := c.obj
      rw [c.reg] at this; injection this with this; subst this
      rw [c.part] at hq; cases hq
    · exact ⟨r, hr, hs⟩
  | store i j o q es c hc he ha hm =>
    exact mod _ _ _ (mod _ _ _ (mod _ _ _ (mod _ _ _ ⟨r, hr, hs⟩ (by intros; assumption)) (by intros; assumption)) (by intros; assumption))
      (by intros; assumption)
  | adopt k' j q es hl hq hf hc hb => exact mod _ _ _ ⟨r, hr, hs⟩ (by intros; assumption)

theorem prims_strict {E : Env} {b : Bool} {R R' : Reg} (w : Wf R) (h : Prims E b R R') {k : Key} {r : Obj} (hr : R.at k = some r)
    (hs : r.strict = true) : ∃ r', R'.at k = some r' ∧ r'.strict = true := by
  induction h with
  | refl => exact ⟨r, hr, hs⟩
  | tail h1 h2 ih =>
    obtain ⟨r', h3, h4⟩ := ih
    exact prim_strict (prims_wf w h1).1 h2 h3 h4

/-- C49 (partial): the decorator of a pure or strictly autonomous function is the same after any further history.
Missing: autonomous functions that are not strictly autonomous. -/
theorem C49_decorators_of_pure_and_strict_functions_fixed_partial {E : Env} (hE : E.Ok) {R : Reg} (hR : Reachable E R) {k : Key} {r : Obj}
    (hr : R.at k = some r) (hc : r.cls = .pure ∨ r.strict = true) (ops : List Op) :
    ∃ r', (run E R ops).at k = some r' ∧ r'.src = r.src ∧ r'.deco = r.deco := by
  have w := (reachable_inv hE hR).wf
  have hp := run_prims (E := E) w ops
  obtain ⟨r', h1, h2⟩ := (prims_wf w hp).2.at hr
  refine ⟨r', h1, h2.src, ?_⟩
  rcases hc with hc | hc
  · rw [deco_pure hc, deco_pure (h2.cls.trans hc), h2.island, h2.guards]
  · obtain ⟨r'', h3, h4⟩ := prims_strict w hp hr hc
    rw [h1] at h3; injection h3 with h3; subst h3
    exact deco_of_cls h2.cls h2.island h2.guards (h4.trans hc.symm)

/-- C49 (partial): so if in two sessions the islands hold the same functions (source, class, guards), all of them pure
or strictly autonomous, a pure function gets the same augmented source in both when it is first completed. -/
theorem C49_no_loosely_autonomous_functions_partial {E1 E2 : Env} (hE1 : E1.Ok) (hE2 : E2.Ok) {R1 R2 : Reg}
    (hR1 : Reachable E1 R1) (hR2 : Reachable E2 R2) {i1 i2 : Nat} {o1 o2 r1 r2 : Obj}
    (ho1 : R1.objs[i1]? = some o1) (ho2 : R2.objs[i2]? = some o2)
    (hr1 : R1.at ⟨o1.portal, o1.island, o1.src.name⟩ = some r1) (hr2 : R2.at ⟨o2.portal, o2.island, o2.src.name⟩ = some r2)
    (hf1 : r1.full = false) (hf2 : r2.full = false) (hname : o1.src.name = o2.src.name) (hisl : o1.island = o2.island)
    (hsame : ∀ x, (R1.at ⟨o1.portal, o1.island, x⟩).map (fun f => (f.src, f.cls, f.guards)) =
      (R2.at ⟨o2.portal, o1.island, x⟩).map fun f => (f.src, f.cls, f.guards))
    (hs1 : ∀ x f, R1.at ⟨o1.portal, o1.island, x⟩ = some f → f.cls = .pure ∨ f.strict = true)
    (hs2 : ∀ x f, R2.at ⟨o2.portal, o1.island, x⟩ = some f → f.cls = .pure ∨ f.strict = true)
    {R1' R2' : Reg} {isl1 isl2 : String} {s1 s2 : Src} {st1 st2 : Bool} {gs1 gs2 : Option (List String)} {es1 es2 : List Entry}
    (h1 : pickle E1 R1 i1 = (R1', some (.pure isl1 s1 st1 gs1 es1))) (h2 : pickle E2 R2 i2 = (R2', some (.pure isl2 s2 st2 gs2 es2))) :
    es1 = es2 := by
  refine (C49_same_island_same_augmented_source_partial hE1 hE2 hR1 hR2 ho1 ho2 hr1 hr2 hf1 hf2 hname hisl ?_ h1 h2).2.2.2
  intro x
  have := hsame x
  cases e1 : R1.at ⟨o1.portal, o1.island, x⟩ with
  | none =>
    rw [e1] at this
    cases e2 : R2.at ⟨o2.portal, o1.island, x⟩ with
    | none => rfl
    | some g => rw [e2] at this; simp at this
  | some f =>
    rw [e1] at this
    cases e2 : R2.at ⟨o2.portal, o1.island, x⟩ with
    | none => rw [e2] at this; simp at this
    | some g =>
      rw [e2] at this
      simp only [Option.map_some, Option.some.injEq, Prod.mk.injEq] at this
      obtain ⟨a1, a2, a3⟩ := this
      have b1 : f.island = o1.island := by
        obtain ⟨_, _, _, n3, _⟩ := (reachable_inv hE1 hR1).wf.of_at e1
        simpa [Obj.key] using congrArg Key.island n3
      have b2 : g.island = o1.island := by
        obtain ⟨_, _, _, n3, _⟩ := (reachable_inv hE2 hR2).wf.of_at e2
        simpa [Obj.key] using congrArg Key.island n3
      simp only [Option.map_some, Option.some.injEq, Prod.mk.injEq]
      refine ⟨a1, ?_⟩
      rcases hs1 x f e1 with c1 | c1
      · rw [deco_pure c1, deco_pure (a2 ▸ c1), b1, b2, a3]
      · rcases hs2 x g e2 with c2 | c2
        · rw [deco_pure c2, deco_pure (a2.trans c2), b1, b2, a3]
        · exact deco_of_cls a2 (b1.trans b2.symm) a3 (c1.trans c2.symm)

end Pyth.Registry

/-! ## Examples -/
namespace Pyth.Registry.Ex
open Pyth.Analyzer

/-- `f` is pure and uses the autonomous `g`, which uses `len` -/
def decls : List Op := [aut (fn "g" ["len"]), pur (fn "f" ["g"])]

/-- C52, first completion: the hypotheses hold; the augmented source is `f` and `g` -/
example := C52_first_augmented_source_partial E_ok (R := run E {} decls) ⟨decls, rfl⟩ (i := 1)
  (o := { cls := .pure, portal := 0, island := "I", src := fn "f" ["g"], strict := false })
  (r := { cls := .pure, portal := 0, island := "I", src := fn "f" ["g"], strict := false })
  (by decide +kernel) (by decide +kernel) (by decide +kernel) (R' := (pickle E (run E {} decls) 1).1)
  (isl := "I") (s := fn "f" ["g"]) (st := false) (gs := none)
  (es := [⟨.pure "I" none, fn "f" ["g"]⟩, ⟨.autonomous "I", fn "g" ["len"]⟩])
  (Prod.ext rfl (by decide +kernel))

/-- the pickled state of `f` -/
def state (ops : List Op) (i : Nat) : Option Pickled := (pickle E (run E {} ops) i).2

/-- C49 is false of the code: executing the dependency `g` first changes the augmented source of `f`, hence the
addresses of its calls. -/
theorem C49_executed_dependency_counterexample :
    state decls 1 = some (.pure "I" (fn "f" ["g"]) false none [⟨.pure "I" none, fn "f" ["g"]⟩, ⟨.autonomous "I", fn "g" ["len"]⟩]) ∧
    state (decls ++ [.start 0]) 1 = some (.pure "I" (fn "f" ["g"]) false none [⟨.pure "I" none, fn "f" ["g"]⟩, ⟨.strictly "I", fn "g" ["len"]⟩]) := by
  decide +kernel

/-- C49 is false of the code: two objects of one pure function can be pickled differently in one session. -/
theorem C49_two_handles_counterexample :
    state [pur (fn "f" []), pur (fn "f" []), .start 0] 0 = some (.pure "I" (fn "f" []) true none [⟨.pure "I" none, fn "f" []⟩]) ∧
    state [pur (fn "f" []), pur (fn "f" []), .start 0] 1 = some (.pure "I" (fn "f" []) false none [⟨.pure "I" none, fn "f" []⟩]) := by
  decide +kernel

/-- C52 is false of the code: `f` uses `g`, `g` uses `h`; if `f` is completed before `h` is declared, `h` never becomes
part of the augmented source of `f`, although `f` can be executed, and reaches `h`, after `h` is declared. -/
theorem C52_frozen_dependencies_counterexample :
    (start E (run E {} [aut (fn "g" ["h"]), pur (fn "f" ["g"]), .start 1, aut (fn "h" [])]) 1).2 = true ∧
    (start E (run E {} [aut (fn "g" ["h"]), pur (fn "f" ["g"]), .start 1, aut (fn "h" [])]) 0).2 = true ∧
    state [aut (fn "g" ["h"]), pur (fn "f" ["g"]), .start 1, aut (fn "h" [])] 1 =
      some (.pure "I" (fn "f" ["g"]) false none [⟨.pure "I" none, fn "f" ["g"]⟩, ⟨.autonomous "I", fn "g" ["h"]⟩]) ∧
    state [aut (fn "g" ["h"]), pur (fn "f" ["g"]), aut (fn "h" [])] 1 =
      some (.pure "I" (fn "f" ["g"]) false none [⟨.pure "I" none, fn "f" ["g"]⟩, ⟨.autonomous "I", fn "g" ["h"]⟩, ⟨.autonomous "I", fn "h" []⟩]) := by
  decide +kernel

end Pyth.Registry.Ex
