import Verif.Spec.CodeChange
import Verif.Props.RegistryAug
import Verif.Props.PureArgs
/-!
# Changes of code: C107

The address of a call is made from the pickled state of the function and the arguments (C20), so two sessions share the
results of a function exactly as long as its pickled states are equal.
-/
set_option linter.unusedVariables false
namespace Pyth.Registry
open Pyth.Analyzer

theorem Code.link {R1 R2 : Reg} {p1 p2 : Nat} {isl a b : String} (ha : Code R1 p1 isl a = Code R2 p2 isl a)
    (hb : Code R1 p1 isl b = Code R2 p2 isl b) (hl : Link R1 p1 isl a b) : Link R2 p2 isl a b := by
  obtain ⟨⟨r, hr⟩, r', hr', hx⟩ := hl
  unfold Code at ha hb
  rw [hr] at hb
  rw [hr'] at ha
  cases e1 : R2.at ⟨p2, isl, b⟩ with
  | none => rw [e1] at hb; simp at hb
  | some q =>
    cases e2 : R2.at ⟨p2, isl, a⟩ with
    | none => rw [e2] at ha; simp at ha
    | some q' =>
      rw [e2] at ha
      simp only [Option.map_some, Option.some.injEq, Prod.mk.injEq] at ha
      exact ⟨⟨q, e1⟩, q', e2, by rw [← ha.1]; exact hx⟩

theorem Code.reaches {R1 R2 : Reg} {p1 p2 : Nat} {isl n x : String}
    (h : ∀ y, CallGraph.Reaches (Link R1 p1 isl) n y → Code R1 p1 isl y = Code R2 p2 isl y)
    (hr : CallGraph.Reaches (Link R1 p1 isl) n x) : CallGraph.Reaches (Link R2 p2 isl) n x := by
  have key : ∀ a x, CallGraph.Reaches (Link R1 p1 isl) a x → CallGraph.Reaches (Link R1 p1 isl) n a →
      CallGraph.Reaches (Link R2 p2 isl) n a → CallGraph.Reaches (Link R2 p2 isl) n x := by
    intro a x hax
    induction hax with
    | refl => exact fun _ h2 => h2
    | step hl _ ih =>
      intro h1 h2
      have h3 := h1.trans (.step hl (.refl _))
      exact ih h3 (h2.trans (.step (Code.link (h _ h1) (h _ h3) hl) (.refl _)))
  exact key n x hr (.refl n) (.refl n)

theorem Code.entry {R1 R2 : Reg} {p1 p2 : Nat} {isl x : String} (h : Code R1 p1 isl x = Code R2 p2 isl x) :
    entryOf R1 p1 isl x = entryOf R2 p2 isl x := by
  unfold Code at h
  unfold entryOf
  cases h1 : R1.at ⟨p1, isl, x⟩ <;> cases h2 : R2.at ⟨p2, isl, x⟩ <;> simp_all

theorem Code.of_entry {R1 R2 : Reg} {p1 p2 : Nat} {isl x : String} (h : entryOf R1 p1 isl x = entryOf R2 p2 isl x) :
    Code R1 p1 isl x = Code R2 p2 isl x := by
  unfold entryOf at h
  unfold Code
  cases h1 : R1.at ⟨p1, isl, x⟩ <;> cases h2 : R2.at ⟨p2, isl, x⟩ <;> simp_all

theorem mapM_agree {α β : Type} {f g : α → Option β} {l : List α} (h : ∀ x ∈ l, f x = g x) : l.mapM f = l.mapM g := by
  induction l with
  | nil => rfl
  | cons a l ih =>
    simp only [List.mapM_cons]
    rw [h a (by simp), ih fun x hx => h x (List.mem_cons_of_mem _ hx)]

theorem forall₂_agree {α β : Type} {P Q : α → β → Prop} {l : List α} {r : List β} (h1 : List.Forall₂ P l r) (h2 : List.Forall₂ Q l r) :
    ∀ x ∈ l, ∃ y, P x y ∧ Q x y := by
  induction h1 with
  | nil => simp
  | cons h h1 ih =>
    cases h2 with
    | cons h' h2 =>
      intro x hx
      rcases List.mem_cons.1 hx with rfl | hx
      · exact ⟨_, h, h'⟩
      · exact ih h2 x hx

/-- C107 (partial): two sessions, whatever their histories, portals and set orders, in which functions of one name and
island are pickled for the first time: the pickled states (island, source, guards, augmented source) are the same
exactly if the sessions have the same code - source and decorator - for every function that matters.  So a change of
any of these functions is a change of all addresses of calls, and a change elsewhere is not.  Missing: functions that
were pickled or executed before something they call was declared, and the dependencies of guards. -/
theorem C107_same_state_iff_same_code_partial {E1 E2 : Env} (hE1 : E1.Ok) (hE2 : E2.Ok) {R1 R2 : Reg}
    (hR1 : Reachable E1 R1) (hR2 : Reachable E2 R2) {i1 i2 : Nat} {o1 o2 r1 r2 : Obj}
    (ho1 : R1.objs[i1]? = some o1) (ho2 : R2.objs[i2]? = some o2)
    (hr1 : R1.at ⟨o1.portal, o1.island, o1.src.name⟩ = some r1) (hr2 : R2.at ⟨o2.portal, o2.island, o2.src.name⟩ = some r2)
    (hf1 : r1.full = false) (hf2 : r2.full = false) (hname : o1.src.name = o2.src.name) (hisl : o1.island = o2.island)
    {R1' R2' : Reg} {isl1 isl2 : String} {s1 s2 : Src} {st1 st2 : Bool} {gs1 gs2 : Option (List String)} {es1 es2 : List Entry}
    (h1 : pickle E1 R1 i1 = (R1', some (.pure isl1 s1 st1 gs1 es1))) (h2 : pickle E2 R2 i2 = (R2', some (.pure isl2 s2 st2 gs2 es2))) :
    (isl1 = isl2 ∧ s1 = s2 ∧ gs1 = gs2 ∧ es1 = es2) ↔
      ∀ x, Matters R1 o1 x ∨ Matters R2 o2 x → Code R1 o1.portal o1.island x = Code R2 o2.portal o2.island x := by
  have hI1 := reachable_inv hE1 hR1
  have hI2 := reachable_inv hE2 hR2
  obtain ⟨hc1, ⟨_, a1, hcls1⟩, o1', r1', b1, b2, b3, b4, rfl, rfl, rfl, rfl⟩ := pickle_spec h1
  obtain ⟨hc2, ⟨_, a2, hcls2⟩, o2', r2', c1, c2, c3, c4, rfl, rfl, rfl, rfl⟩ := pickle_spec h2
  rw [ho1] at a1; injection a1 with a1; subst a1
  rw [ho2] at a2; injection a2 with a2; subst a2
  obtain ⟨d1, es1', d11, d12, d13, d14, ⟨q1, q2, q3, _⟩, p1, p2, p3, p4, p5, _⟩ := completePure_first hE1 hI1 ho1 hcls1 hr1 hf1 hc1
  obtain ⟨d2, es2', d21, d22, d23, d24, ⟨u1, u2, u3, _⟩, v1, v2, v3, v4, v5, _⟩ := completePure_first hE2 hI2 ho2 hcls2 hr2 hf2 hc2
  rw [b1] at p2; injection p2 with p2; subst p2
  rw [c1] at v2; injection v2 with v2; subst v2
  rw [p5.key] at b2
  rw [v5.key] at c2
  rw [b2] at q2; injection q2 with q2; subst q2
  rw [c2] at u2; injection u2 with u2; subst u2
  rw [b3] at q3; injection q3 with q3; subst q3
  rw [c3] at u3; injection u3 with u3; subst u3
  obtain ⟨w1, x1, x2, x3, x4⟩ := hI1.wf.handle i1 o1 ho1
  obtain ⟨w2, y1, y2, y3, y4⟩ := hI2.wf.handle i2 o2 ho2
  have e1 : R1.at o1.key = some r1 := hr1
  have e2 : R2.at o2.key = some r2 := hr2
  rw [e1] at x1; injection x1 with x1; subst x1
  rw [e2] at y1; injection y1 with y1; subst y1
  constructor
  · rintro ⟨_, _, _, rfl⟩ x hx
    have n1 := (mapM_names hI1.wf d14).1
    have n2 := (mapM_names hI2.wf d24).1
    have hl := n1.symm.trans n2
    have m1 : ∀ x, x ∈ sort (o1.guards.getD [] ++ d1) ↔ Matters R1 o1 x := by
      intro x
      rw [mem_sort, List.mem_append, d13]; exact Iff.rfl
    have m2 : ∀ x, x ∈ sort (o2.guards.getD [] ++ d2) ↔ Matters R2 o2 x := by
      intro x
      rw [mem_sort, List.mem_append, d23]; exact Iff.rfl
    have hmem : x ∈ sort (o1.guards.getD [] ++ d1) := by
      rcases hx with hx | hx
      · exact (m1 x).2 hx
      · rw [hl]; exact (m2 x).2 hx
    rw [← hl] at d24
    obtain ⟨e, g1, g2⟩ := forall₂_agree (mapM_spec _ d14) (mapM_spec _ d24) x hmem
    rw [← hisl] at g2 ⊢
    exact Code.of_entry (g1.trans g2.symm)
  · intro hall
    have hreg := hall o1.src.name (.inl (.inr (.refl _)))
    unfold Code at hreg
    rw [hr1, hname, hr2] at hreg
    simp only [Option.map_some, Option.some.injEq, Prod.mk.injEq] at hreg
    have hg : r1.guards = r2.guards := by
      have := hreg.2
      rw [deco_pure (x3.trans hcls1), deco_pure (y3.trans hcls2)] at this
      injection this
    have hs : o1.src = o2.src := x2.symm.trans (hreg.1.trans y2)
    have hgd : o1.guards = o2.guards := x4.symm.trans (hg.trans y4)
    have hd : d1 = d2 := by
      have hperm : d1.Perm d2 := by
        rw [List.perm_ext_iff_of_nodup d11 d21]
        intro x
        rw [d13, d23, hname, ← hisl]
        constructor
        · exact Code.reaches fun y hy => by
            have := hall y (.inl (.inr (by rw [hname]; exact hy)))
            rw [this, hisl]
        · exact Code.reaches fun y hy => by
            have := hall y (.inr (.inr (by rw [← hisl]; exact hy)))
            rw [this, hisl]
      rw [← d12, ← d22]
      exact sort_eq_of_perm hperm
    refine ⟨?_, ?_, ?_, ?_⟩
    · rw [p5.island, v5.island]; exact hisl
    · rw [p5.src, v5.src]; exact hs
    · rw [p5.guards, v5.guards]; exact hgd
    · have : (sort (o1.guards.getD [] ++ d1)).mapM (entryOf R1 o1.portal o1.island) =
          (sort (o1.guards.getD [] ++ d1)).mapM (entryOf R2 o2.portal o2.island) := by
        refine mapM_agree fun x hx => ?_
        rw [mem_sort, List.mem_append, d13] at hx
        have := hall x (.inl hx)
        rw [← hisl] at this ⊢
        exact Code.entry this
      rw [hgd, hd, ] at this d14
      rw [this, d24] at d14
      injection d14 with d14; exact d14.symm

/-- C107 (partial): the same for addresses.  `enc` numbers the functions by their pickled states (`henc`: different
states have different numbers).  If the address of a call in one session is the address of a call in another one, the sessions have
the same code for every function that matters, and the arguments are the same; so no result computed with other code is
ever found under the address of a call.  Missing: as above. -/
theorem C107_same_address_same_code_partial {U A : Type} [DecidableEq U] [DecidableEq A] {addrOf : Pure.Val U A → A}
    (hinj : Function.Injective addrOf) {enc : Pickled → Pure.FnId}
    {E1 E2 : Env} (hE1 : E1.Ok) (hE2 : E2.Ok) {R1 R2 : Reg} (hR1 : Reachable E1 R1) (hR2 : Reachable E2 R2)
    {i1 i2 : Nat} {o1 o2 r1 r2 : Obj} (ho1 : R1.objs[i1]? = some o1) (ho2 : R2.objs[i2]? = some o2)
    (hr1 : R1.at ⟨o1.portal, o1.island, o1.src.name⟩ = some r1) (hr2 : R2.at ⟨o2.portal, o2.island, o2.src.name⟩ = some r2)
    (hf1 : r1.full = false) (hf2 : r2.full = false) (hp1 : o1.cls = .pure) (hp2 : o2.cls = .pure)
    {R1' R2' : Reg} {t1 t2 : Pickled} (h1 : pickle E1 R1 i1 = (R1', some t1)) (h2 : pickle E2 R2 i2 = (R2', some t2))
    (henc : enc t1 = enc t2 → t1 = t2) {vals1 vals2 : List (String × U)} (h : Pure.keyOf addrOf (enc t1) vals1 = Pure.keyOf addrOf (enc t2) vals2) :
    o1.src.name = o2.src.name ∧ o1.island = o2.island ∧ vals1.Perm vals2 ∧
      ∀ x, Matters R1 o1 x ∨ Matters R2 o2 x → Code R1 o1.portal o1.island x = Code R2 o2.portal o2.island x := by
  obtain ⟨h3, h4⟩ := Pure.C20_key_injective hinj h
  have h3 := henc h3
  subst h3
  have pur : ∀ {E : Env} {R R' : Reg} {i : Nat} {o : Obj}, R.objs[i]? = some o → o.cls = .pure → pickle E R i = (R', some t1) →
      ∃ isl s st gs es, t1 = .pure isl s st gs es := by
    intro E R R' i o ho hc h
    unfold pickle at h
    rw [ho] at h
    simp only [hc] at h
    split at h
    · cases h
    · split at h
      · cases h
      · split at h
        · cases h
        · split at h
          · simp only [Prod.mk.injEq, Option.some.injEq] at h
            exact ⟨_, _, _, _, _, h.2.symm⟩
          · cases h
  obtain ⟨isl, s, st, gs, es, rfl⟩ := pur ho1 hp1 h1
  obtain ⟨a1, a2, _⟩ := C52_first_augmented_source_partial hE1 hR1 ho1 hr1 hf1 h1
  obtain ⟨b1, b2, _⟩ := C52_first_augmented_source_partial hE2 hR2 ho2 hr2 hf2 h2
  have hn : o1.src.name = o2.src.name := by rw [← a2, ← b2]
  have hi : o1.island = o2.island := by rw [← a1, ← b1]
  exact ⟨hn, hi, h4, (C107_same_state_iff_same_code_partial hE1 hE2 hR1 hR2 ho1 ho2 hr1 hr2 hf1 hf2 hn hi h1 h2).1 ⟨rfl, rfl, rfl, rfl⟩⟩

/-! ## At any time -/

/-- the augmented source of a completed function stays -/
theorem prim_aug_stays {E : Env} {b : Bool} {R R' : Reg} (w : Wf R) (h : Prim E b R R') {k : Key} {es : List Entry}
    (hr : ∃ r, R.at k = some r ∧ r.full = true ∧ r.aug = some es) : ∃ r, R'.at k = some r ∧ r.full = true ∧ r.aug = some es := by
  have mod : ∀ (Q : Reg) (i : Nat) (f : Obj → Obj), (∃ q, Q.at k = some q ∧ q.full = true ∧ q.aug = some es) →
      (∀ o, Q.objs[i]? = some o → o.full = true → o.aug = some es → (f o).full = true ∧ (f o).aug = some es) →
      ∃ q, (Q.modify i f).at k = some q ∧ q.full = true ∧ q.aug = some es := by
    rintro Q i f ⟨q, h1, h2⟩ hf
    rw [at_modify, h1]
    split
    · rename_i hl
      simp only [Reg.at, hl, Option.bind_some] at h1
      exact ⟨f q, rfl, hf q h1 h2.1 h2.2⟩
    · exact ⟨q, rfl, h2⟩
  cases h with
  | island p isl => rw [addIsland_at]; exact hr
  | handle o q o' hq hsrc hd hc hf hu => rw [at_alloc w]; exact hr
  | register o hq hi ha hf =>
    rw [at_alloc_new w o hq]
    split
    · rename_i e
      subst e
      obtain ⟨r, h1, _⟩ := hr
      rw [h1] at hq; cases hq
    · exact hr
  | compile i j o q c hq => exact mod _ _ _ hr fun _ _ h1 h2 => ⟨h1, h2⟩
  | flip i j o q a c hq hm ha hst hl => exact mod _ _ _ hr fun _ _ h1 h2 => ⟨h1, h2⟩
  | record i j o q a d c hq hm ha hst hqq hd hne =>
    have h1 : ∃ q, (recordDeps R i j d).at k = some q ∧ q.full = true ∧ q.aug = some es :=
      mod _ _ _ (mod _ _ _ hr fun _ _ h1 h2 => ⟨h1, h2⟩) fun _ _ h1 h2 => ⟨h1, h2⟩
    split
    · exact mod _ _ _ (mod _ _ _ h1 fun _ _ _ h2 => ⟨rfl, h2⟩) fun _ _ _ h2 => ⟨rfl, h2⟩
    · exact h1
  | refresh i j o q o' c hq hc hu =>
    refine mod _ _ _ hr fun x hx h1 _ => ?_
    rw [c.obj] at hx; injection hx with hx; subst hx
    rw [c.part] at h1; cases h1
  | store i j o q es' c hc he ha hm =>
    have h1 : ∃ q, (R.modify j fun o => { o with aug := some es' }).at k = some q ∧ q.full = true ∧ q.aug = some es := by
      refine mod _ _ _ hr fun x hx h1 h2 => ?_
      rw [c.reg] at hx; injection hx with hx; subst hx
      refine ⟨h1, ?_⟩
      rcases ha with ha | ha
      · rw [ha] at h2; cases h2
      · rw [← h2]; exact ha.symm
    have h2 := mod _ i (fun o => { o with aug := some es' }) h1 (by
      intro x hx h1 _
      rw [get_modify, c.obj] at hx
      have : x.full = o.full := by
        split at hx <;> injection hx with hx <;> rw [← hx] <;> rfl
      rw [this, c.part] at h1; cases h1)
    exact mod _ _ _ (mod _ _ _ h2 fun _ _ _ h2 => ⟨rfl, h2⟩) fun _ _ _ h2 => ⟨rfl, h2⟩
  | adopt k' j q es' hl hq hf hc hb =>
    refine mod _ _ _ hr fun x hx h1 _ => ?_
    rw [hq] at hx; injection hx with hx; subst hx
    rw [hf] at h1; cases h1

theorem prims_aug_stay {E : Env} {b : Bool} {R R' : Reg} (w : Wf R) (h : Prims E b R R') {k : Key} {es : List Entry}
    (hr : ∃ r, R.at k = some r ∧ r.full = true ∧ r.aug = some es) : ∃ r, R'.at k = some r ∧ r.full = true ∧ r.aug = some es := by
  induction h with
  | refl => exact hr
  | tail h1 h2 ih => exact prim_aug_stays (prims_wf w h1).1 h2 ih

/-- C52 and C107 (partial): at any time, if all functions that a pure function calls - directly or through others - were
declared before it was first executed or pickled, its augmented source names exactly the functions that matter, each with
the registered source, and tells pure functions from autonomous ones.  Missing: functions declared later. -/
theorem C107_augmented_source_partial {E : Env} (hE : E.Ok) {R : Reg} (hR : Reachable E R) {i : Nat} {o : Obj}
    (ho : R.objs[i]? = some o) (hd : DeclaredInTime E R o)
    {R' : Reg} {isl : String} {s : Src} {st : Bool} {gs : Option (List String)} {es : List Entry}
    (h : pickle E R i = (R', some (.pure isl s st gs es))) :
    isl = o.island ∧ s = o.src ∧ gs = o.guards ∧
    (∀ x, x ∈ es.map (·.src.name) ↔ Matters R o x) ∧
    ∀ e ∈ es, ∃ f, R.at ⟨o.portal, o.island, e.src.name⟩ = some f ∧ e.src = f.src ∧
      (f.cls = .pure ↔ ∃ isl gs, e.deco = .pure isl gs) := by
  have hI := reachable_inv hE hR
  have decoCls : ∀ f : Obj, f.cls = .pure ↔ ∃ isl gs, f.deco = .pure isl gs := by
    intro f
    cases hc : f.cls with
    | pure => exact ⟨fun _ => ⟨_, _, deco_pure hc⟩, fun _ => rfl⟩
    | autonomous =>
      refine ⟨fun h => (nomatch h), ?_⟩
      rintro ⟨a, b, h⟩
      simp only [Obj.deco, hc] at h
      split at h <;> cases h
  rcases hd with ⟨r, hr, hf⟩ | ⟨ops, j, q, r, Q, later, hq, hk, hr, hf, hcomp, rfl, hall⟩
  · obtain ⟨h1, h2, h3, _, h5, h6⟩ := C52_first_augmented_source_partial hE hR ho hr hf h
    subst h1 h2 h3
    refine ⟨rfl, rfl, rfl, h5, fun e he => ?_⟩
    obtain ⟨f, f1, f2, f3⟩ := h6 e he
    exact ⟨f, f1, f2, by rw [f3]; exact decoCls f⟩
  · obtain ⟨hc, ⟨o1, ho1, hcls⟩, o', r', h1, h2, h3, h4, rfl, rfl, rfl, rfl⟩ := pickle_spec h
    rw [ho] at ho1; injection ho1 with ho1; subst ho1
    have hI0 : Inv E (run E {} ops) := reachable_inv hE ⟨ops, rfl⟩
    have p1 : Prims E true (run E {} ops) Q := by
      have := complete_prims (E := E) (b := true) hI0.wf j
      rw [hcomp] at this; exact this
    have w1 := prims_wf hI0.wf p1
    have p2 := run_prims (E := E) w1.1 later
    have w2 := prims_wf w1.1 p2
    have hext : Ext (run E {} ops) (run E Q later) := w1.2.trans w2.2
    have p3 : Prims E true (run E Q later) R' := by
      have := complete_prims (E := E) (b := true) hI.wf i
      rw [hc] at this; exact this
    have w3 := prims_wf hI.wf p3
    -- the object that is pickled
    obtain ⟨o2, o21, same⟩ := w3.2.objs i o ho
    rw [h1] at o21; injection o21 with o21; subst o21
    -- the first completion
    have hkey : q.key = o.key := hk
    have hname : q.src.name = o.src.name := by simpa [Obj.key] using congrArg Key.name hk
    have hport : q.portal = o.portal := by simpa [Obj.key] using congrArg Key.portal hk
    have hisl : q.island = o.island := by simpa [Obj.key] using congrArg Key.island hk
    obtain ⟨rh, x1, x2, x3, x4⟩ := hI.wf.handle i o ho
    obtain ⟨r2, y1, y2⟩ := hext.at hr
    rw [x1] at y1; injection y1 with y1; subst y1
    obtain ⟨rq, z1, z2, z3, z4⟩ := hI0.wf.handle j q hq
    rw [hk, hr] at z1; injection z1 with z1; subst z1
    have hqc : q.cls = .pure := by rw [← z3, ← y2.cls, x3]; exact hcls
    have hg : q.guards = o.guards := by rw [← z4, ← y2.guards, x4]
    obtain ⟨d, es0, d1, d2, d3, d4, ⟨r3, e1, e2, e3, _⟩, _⟩ := completePure_first hE hI0 hq hqc (hk ▸ hr) hf hcomp
    obtain ⟨r4, f1, f2, f3⟩ := prims_aug_stay hI.wf p3 (prims_aug_stay w1.1 p2 ⟨r3, e1, e3, e2⟩)
    rw [same.key, ← hk] at h2
    rw [h2] at f1; injection f1 with f1; subst f1
    rw [h3] at f3; injection f3 with f3; subst f3
    obtain ⟨n1, n2⟩ := mapM_names hI0.wf d4
    rw [hport, hisl] at n2
    refine ⟨same.island, same.src, same.guards, fun x => ?_, fun e he => ?_⟩
    · rw [n1, mem_sort, List.mem_append, d3, hg, hport, hisl, hname]
      refine or_congr Iff.rfl ⟨reaches_mono ?_, ?_⟩
      · rintro a b ⟨⟨r5, g1⟩, r6, g2, g3⟩
        obtain ⟨r5', k1, _⟩ := hext.at g1
        obtain ⟨r6', k2, k3⟩ := hext.at g2
        exact ⟨⟨r5', k1⟩, r6', k2, by rw [k3.src]; exact g3⟩
      · have key : ∀ a x, CallGraph.Reaches (Link (run E Q later) o.portal o.island) a x →
            CallGraph.Reaches (Link (run E Q later) o.portal o.island) o.src.name a →
            CallGraph.Reaches (Link (run E {} ops) o.portal o.island) o.src.name a →
            CallGraph.Reaches (Link (run E {} ops) o.portal o.island) o.src.name x := by
          intro a x hax
          induction hax with
          | refl => exact fun _ h2 => h2
          | step hl _ ih =>
            intro h1 h2
            have h3 := h1.trans (.step hl (.refl _))
            refine ih h3 (h2.trans (.step ?_ (.refl _)))
            obtain ⟨_, r6, g2, g3⟩ := hl
            obtain ⟨fb, kb⟩ := hall _ h3
            obtain ⟨fa, ka⟩ := hall _ h1
            obtain ⟨r6', k2, k3⟩ := hext.at ka
            rw [g2] at k2; injection k2 with k2; subst k2
            exact ⟨⟨fb, kb⟩, fa, ka, by rw [← k3.src]; exact g3⟩
        exact fun hx => key _ x hx (.refl _) (.refl _)
    · obtain ⟨f, k1, k2, k3⟩ := n2 e he
      obtain ⟨f', m1, m2⟩ := hext.at k1
      exact ⟨f', m1, by rw [m2.src]; exact k2, by rw [m2.cls, k3]; exact decoCls f⟩

/-- C107 (partial): no stale results.  Two sessions, whatever their histories, portals and set orders, in each of which
the functions that matter were declared before the function was first executed or pickled: if the pickled states are the
same, then at this moment the same functions matter, and for each of them both sessions have the same source and kind
(pure or autonomous).  Missing: functions declared later. -/
theorem C107_same_state_same_code_partial {E1 E2 : Env} (hE1 : E1.Ok) (hE2 : E2.Ok) {R1 R2 : Reg}
    (hR1 : Reachable E1 R1) (hR2 : Reachable E2 R2) {i1 i2 : Nat} {o1 o2 : Obj}
    (ho1 : R1.objs[i1]? = some o1) (ho2 : R2.objs[i2]? = some o2)
    (hd1 : DeclaredInTime E1 R1 o1) (hd2 : DeclaredInTime E2 R2 o2) {R1' R2' : Reg}
    {isl : String} {s : Src} {st1 st2 : Bool} {gs : Option (List String)} {es : List Entry}
    (h1 : pickle E1 R1 i1 = (R1', some (.pure isl s st1 gs es))) (h2 : pickle E2 R2 i2 = (R2', some (.pure isl s st2 gs es))) :
    ∀ x, (Matters R1 o1 x ↔ Matters R2 o2 x) ∧
      (Matters R1 o1 x → ∃ f1 f2, R1.at ⟨o1.portal, isl, x⟩ = some f1 ∧ R2.at ⟨o2.portal, isl, x⟩ = some f2 ∧
        f1.src = f2.src ∧ f1.cls = f2.cls) := by
  obtain ⟨a1, a2, a3, a4, a5⟩ := C107_augmented_source_partial hE1 hR1 ho1 hd1 h1
  obtain ⟨b1, b2, b3, b4, b5⟩ := C107_augmented_source_partial hE2 hR2 ho2 hd2 h2
  intro x
  refine ⟨(a4 x).symm.trans (b4 x), fun hx => ?_⟩
  obtain ⟨e, he, rfl⟩ := List.mem_map.1 ((a4 x).2 hx)
  obtain ⟨f1, c1, c2, c3⟩ := a5 e he
  obtain ⟨f2, d1, d2, d3⟩ := b5 e he
  rw [← a1] at c1
  rw [← b1] at d1
  refine ⟨f1, f2, c1, d1, c2.symm.trans d2, ?_⟩
  have k := c3.trans d3.symm
  cases e1 : f1.cls <;> cases e2 : f2.cls <;> simp_all

/-- C107 (partial): at any time - also after earlier executions and picklings, and with different names in `builtins` -
equal pickled states in two sessions mean that the sessions have the same source for the function itself, for each of
its guards, and for each function of the island that it uses directly.  Missing: functions it uses through others. -/
theorem C107_same_state_same_direct_code_partial {E1 E2 : Env} (hE1 : E1.Ok) (hE2 : E2.Ok) {R1 R2 : Reg}
    (hR1 : Reachable E1 R1) (hR2 : Reachable E2 R2) {i1 i2 : Nat} {R1' R2' : Reg}
    {isl : String} {s : Src} {st1 st2 : Bool} {gs : Option (List String)} {es : List Entry}
    (h1 : pickle E1 R1 i1 = (R1', some (.pure isl s st1 gs es))) (h2 : pickle E2 R2 i2 = (R2', some (.pure isl s st2 gs es))) :
    ∃ o1 o2, R1'.objs[i1]? = some o1 ∧ R2'.objs[i2]? = some o2 ∧
      ∀ x, (x = s.name ∨ x ∈ gs.getD [] ∨ Uses s x ∧ ¬ (Provided E1 s x ∧ Provided E2 s x)) →
        ∃ f1 f2, R1'.at ⟨o1.portal, isl, x⟩ = some f1 ∧ R2'.at ⟨o2.portal, isl, x⟩ = some f2 ∧ f1.src = f2.src ∧ f1.cls = f2.cls := by
  obtain ⟨o1, a1, _, a3, a4, _, a6, a7⟩ := C52_augmented_source_partial hE1 hR1 h1
  obtain ⟨o2, b1, _, b3, b4, _, b6, b7⟩ := C52_augmented_source_partial hE2 hR2 h2
  refine ⟨o1, o2, a1, b1, fun x hx => ?_⟩
  have hmem : x ∈ es.map (·.src.name) := by
    rcases hx with rfl | hx | ⟨hu, hp⟩
    · exact a3
    · exact a4 x hx
    · rcases a6 x hu with h | h
      · rcases b6 x hu with h' | h'
        · exact absurd ⟨h, h'⟩ hp
        · exact h'
      · exact h
  obtain ⟨e, he, rfl⟩ := List.mem_map.1 hmem
  obtain ⟨f1, c1, c2, c3⟩ := a7 e he
  obtain ⟨f2, d1, d2, d3⟩ := b7 e he
  refine ⟨f1, f2, c1, d1, c2.symm.trans d2, ?_⟩
  have hcls : ∀ f : Obj, (f.deco = .strictly isl ∨ f.deco = .autonomous isl) → f.cls = .autonomous := by
    intro f hf
    cases hc : f.cls with
    | autonomous => rfl
    | pure => rw [deco_pure hc] at hf; rcases hf with hf | hf <;> cases hf
  have hp : ∀ f : Obj, f.cls = .autonomous → ∀ i g, f.deco ≠ .pure i g := by
    intro f hf i g h
    unfold Obj.deco at h
    rw [hf] at h
    simp only at h
    split at h <;> cases h
  have key : ∀ f : Obj, (e.deco = f.deco ∨ f.cls = .autonomous ∧ (e.deco = .strictly isl ∨ e.deco = .autonomous isl)) →
      (f.cls = .pure ↔ ∃ i g, e.deco = .pure i g) := by
    intro f hf
    cases hc : f.cls with
    | autonomous =>
      refine ⟨fun h => (nomatch h), ?_⟩
      rintro ⟨i, g, hg⟩
      rcases hf with hf | ⟨_, hf | hf⟩
      · exact absurd (hf.symm.trans hg) (hp f hc i g)
      · rw [hf] at hg; cases hg
      · rw [hf] at hg; cases hg
    | pure =>
      refine ⟨fun _ => ?_, fun _ => rfl⟩
      rcases hf with hf | ⟨hf, _⟩
      · exact ⟨_, _, hf.trans (deco_pure hc)⟩
      · rw [hc] at hf; cases hf
  have k := (key f1 c3).trans (key f2 d3).symm
  cases e1 : f1.cls <;> cases e2 : f2.cls <;> simp_all

end Pyth.Registry

/-! ## Examples -/
namespace Pyth.Registry.Ex
open Pyth.Analyzer

/-- `f` uses `g`, `g` uses `h`; `h` differs between the sessions, and the second one has a further function `z` -/
def before107 (h : Src) : List Op := [aut h, aut (fn "g" ["h"]), pur (fn "f" ["g"])]

/-- the state of `f` then -/
def state107 (h : Src) : Pickled := .pure "I" (fn "f" ["g"]) false none
  [⟨.pure "I" none, fn "f" ["g"]⟩, ⟨.autonomous "I", fn "g" ["h"]⟩, ⟨.autonomous "I", h⟩]

theorem states107 :
    state (before107 (fn "h" ["len"])) 2 = some (state107 (fn "h" ["len"])) ∧
    state (before107 (fn "h" ["print"])) 2 = some (state107 (fn "h" ["print"])) := by
  decide +kernel

/-- the hypotheses of C107 hold; the states differ, so some code that matters differs (it is `h`) -/
example := (C107_same_state_iff_same_code_partial E_ok E_ok (R1 := run E {} (before107 (fn "h" ["len"])))
  (R2 := run E {} (before107 (fn "h" ["print"]))) ⟨_, rfl⟩ ⟨_, rfl⟩ (i1 := 2) (i2 := 2)
  (o1 := { cls := .pure, portal := 0, island := "I", src := fn "f" ["g"], strict := false })
  (r1 := { cls := .pure, portal := 0, island := "I", src := fn "f" ["g"], strict := false })
  (o2 := { cls := .pure, portal := 0, island := "I", src := fn "f" ["g"], strict := false })
  (r2 := { cls := .pure, portal := 0, island := "I", src := fn "f" ["g"], strict := false })
  (by decide +kernel) (by decide +kernel) (by decide +kernel) (by decide +kernel) rfl rfl rfl rfl
  (Prod.ext rfl states107.1) (Prod.ext rfl states107.2)).not.1 (by decide)

/-- the numbers for these two states -/
def enc107 (t : Pickled) : Pure.FnId := if t = state107 (fn "h" ["len"]) then 0 else 1

/-- the addresses of the calls differ: hypotheses hold, conclusion fails -/
example (vals : List (String × Nat)) :
    Pure.keyOf Pure.Ex.addrOf (enc107 (state107 (fn "h" ["len"]))) vals ≠
    Pure.keyOf Pure.Ex.addrOf (enc107 (state107 (fn "h" ["print"]))) vals := by
  intro h
  have := (C107_same_address_same_code_partial Pure.Ex.addrOf_inj E_ok E_ok (R1 := run E {} (before107 (fn "h" ["len"])))
    (R2 := run E {} (before107 (fn "h" ["print"]))) ⟨_, rfl⟩ ⟨_, rfl⟩ (i1 := 2) (i2 := 2)
    (o1 := { cls := .pure, portal := 0, island := "I", src := fn "f" ["g"], strict := false })
    (r1 := { cls := .pure, portal := 0, island := "I", src := fn "f" ["g"], strict := false })
    (o2 := { cls := .pure, portal := 0, island := "I", src := fn "f" ["g"], strict := false })
    (r2 := { cls := .pure, portal := 0, island := "I", src := fn "f" ["g"], strict := false })
    (by decide +kernel) (by decide +kernel) (by decide +kernel) (by decide +kernel) rfl rfl rfl rfl
    (t1 := state107 (fn "h" ["len"])) (t2 := state107 (fn "h" ["print"]))
    (Prod.ext rfl states107.1) (Prod.ext rfl states107.2) (enc := enc107) (by decide +kernel) h).2.2.2 "h"
    (.inl (.inr (.step (g := "g") ?_ (.step (g := "h") ?_ (.refl _)))))
  · exact absurd this (by decide +kernel)
  · exact ⟨⟨{ cls := .autonomous, portal := 0, island := "I", src := fn "g" ["h"], strict := false }, by decide +kernel⟩,
      { cls := .pure, portal := 0, island := "I", src := fn "f" ["g"], strict := false }, by decide +kernel, .inr ⟨_, rfl, by decide +kernel⟩⟩
  · exact ⟨⟨{ cls := .autonomous, portal := 0, island := "I", src := fn "h" ["len"], strict := false }, by decide +kernel⟩,
      { cls := .autonomous, portal := 0, island := "I", src := fn "g" ["h"], strict := false }, by decide +kernel, .inr ⟨_, rfl, by decide +kernel⟩⟩

/-- the session goes on: `f` is executed, then a function `z` is declared, which `f` does not call -/
def after107 (h : Src) : List Op := before107 h ++ [.start 2, aut (fn "z" [])]

theorem start107 : (complete E (run E {} (before107 (fn "h" ["len"]))) 2).2 = true := by decide +kernel

theorem run107 : run E (complete E (run E {} (before107 (fn "h" ["len"]))) 2).1 [aut (fn "z" [])] =
    run E {} (after107 (fn "h" ["len"])) := by decide +kernel

/-- names and references of the functions in the island -/
theorem links107 : ∀ a ∈ ["f", "g", "h"], ∀ r, (run E {} (after107 (fn "h" ["len"]))).at ⟨0, "I", a⟩ = some r →
    ∀ c, analyze r.src.node = some c → ∀ b ∈ c.glob ++ c.nonl ++ c.uncl, b ∈ ["g", "h", "len"] := by
  have h : ∀ a ∈ ["f", "g", "h"], ((((run E {} (after107 (fn "h" ["len"]))).at ⟨0, "I", a⟩).bind
      fun r => analyze r.src.node).map fun c => (c.glob ++ c.nonl ++ c.uncl).all fun b => decide (b ∈ ["g", "h", "len"])) = some true := by
    decide +kernel
  intro a ha r hr c hc b hb
  have := h a ha
  rw [hr] at this
  simp only [Option.bind_some, hc, Option.map_some, Option.some.injEq, List.all_eq_true, decide_eq_true_eq] at this
  exact this b hb

theorem reaches107 : ∀ a x, CallGraph.Reaches (Link (run E {} (after107 (fn "h" ["len"]))) 0 "I") a x → a ∈ ["f", "g", "h"] →
    x ∈ ["f", "g", "h"] := by
  intro a x h
  induction h with
  | refl => exact id
  | step hl _ ih =>
    intro ha
    apply ih
    obtain ⟨⟨r, hr⟩, r', hr', hx⟩ := hl
    rcases hx with rfl | ⟨c, hc, hb⟩
    · exact ha
    · have := links107 _ ha r' hr' c hc _ hb
      simp only [List.mem_cons, List.not_mem_nil, or_false] at this ⊢
      rcases this with e | e | e
      · exact .inr (.inl e)
      · exact .inr (.inr e)
      · rw [e] at hr
        have : (run E {} (after107 (fn "h" ["len"]))).at ⟨0, "I", "len"⟩ = none := by decide +kernel
        rw [hr] at this; cases this

/-- the object `f` at the end -/
def f107 : Obj where
  cls := .pure
  portal := 0
  island := "I"
  src := fn "f" ["g"]
  strict := false
  full := true
  compiled := true
  deps := some ["f", "g", "h"]
  aug := some [⟨.pure "I" none, fn "f" ["g"]⟩, ⟨.autonomous "I", fn "g" ["h"]⟩, ⟨.autonomous "I", fn "h" ["len"]⟩]

theorem inTime107 : DeclaredInTime E (run E {} (after107 (fn "h" ["len"]))) f107 := by
  refine .inr ⟨before107 (fn "h" ["len"]), 2, { cls := .pure, portal := 0, island := "I", src := fn "f" ["g"], strict := false },
    { cls := .pure, portal := 0, island := "I", src := fn "f" ["g"], strict := false }, _, [aut (fn "z" [])],
    by decide +kernel, rfl, by decide +kernel, rfl, Prod.ext rfl start107, run107.symm, fun x hx => ?_⟩
  have hx := reaches107 _ x hx (by decide +kernel)
  have : ∀ x ∈ ["f", "g", "h"], ((run E {} (before107 (fn "h" ["len"]))).at ⟨0, "I", x⟩).isSome = true := by decide +kernel
  exact Option.isSome_iff_exists.1 (this x hx)

/-- hypotheses hold of `f` in this session and in the one in which it was not executed -/
example := C107_same_state_same_code_partial E_ok E_ok (R1 := run E {} (before107 (fn "h" ["len"])))
  (R2 := run E {} (after107 (fn "h" ["len"]))) ⟨_, rfl⟩ ⟨_, rfl⟩ (i1 := 2) (i2 := 2)
  (o1 := { cls := .pure, portal := 0, island := "I", src := fn "f" ["g"], strict := false }) (o2 := f107)
  (by decide +kernel) (by decide +kernel)
  (.inl ⟨{ cls := .pure, portal := 0, island := "I", src := fn "f" ["g"], strict := false }, by decide +kernel, rfl⟩) inTime107
  (Prod.ext rfl states107.1) (Prod.ext rfl (by decide +kernel))

/-- C107 is false of the code for a function that was executed (here: in vain) before a function it calls through
others was declared: afterwards `f` runs, reaches `h`, and its state - hence the addresses of its calls - is the same
for different `h`: a result computed with one `h` is returned as that of the other. -/
theorem C107_stale_dependency_counterexample :
    ∀ h ∈ [fn "h" ["len"], fn "h" ["print"]],
      (start E (run E {} [aut (fn "g" ["h"]), pur (fn "f" ["g"]), .start 1, aut h]) 1).2 = true ∧
      (start E (run E {} [aut (fn "g" ["h"]), pur (fn "f" ["g"]), .start 1, aut h]) 0).2 = true ∧
      (start E (run E {} [aut (fn "g" ["h"]), pur (fn "f" ["g"]), .start 1, aut h]) 2).2 = true ∧
      state [aut (fn "g" ["h"]), pur (fn "f" ["g"]), .start 1, aut h] 1 =
        some (.pure "I" (fn "f" ["g"]) false none [⟨.pure "I" none, fn "f" ["g"]⟩, ⟨.autonomous "I", fn "g" ["h"]⟩]) := by
  decide +kernel

/-- C107 is false of the code for guards given by name: such a guard need not be strictly autonomous, and what it calls
is not part of the state of the guarded function: the same state for different `h`, which guard `g` calls. -/
theorem C107_guard_dependency_counterexample :
    ∀ h ∈ [fn "h" ["len"], fn "h" ["print"]],
      (start E (run E {} [aut h, aut (fn "g" ["h"]), pur (fn "f" []) (some [.name "g"])]) 2).2 = true ∧
      (start E (run E {} [aut h, aut (fn "g" ["h"]), pur (fn "f" []) (some [.name "g"])]) 1).2 = true ∧
      state [aut h, aut (fn "g" ["h"]), pur (fn "f" []) (some [.name "g"])] 2 =
        some (.pure "I" (fn "f" []) true (some ["g"]) [⟨.pure "I" (some ["g"]), fn "f" []⟩, ⟨.autonomous "I", fn "g" ["h"]⟩]) := by
  decide +kernel

/-- hypotheses of the second theorem: the same session, before and after `f` is executed -/
example := C107_same_state_same_direct_code_partial E_ok E_ok (R1 := run E {} (before107 (fn "h" ["len"])))
  (R2 := run E {} (before107 (fn "h" ["len"]) ++ [.start 2, .pickle 2])) ⟨_, rfl⟩ ⟨_, rfl⟩ (i1 := 2) (i2 := 2)
  (Prod.ext rfl states107.1) (Prod.ext rfl (by decide +kernel))

end Pyth.Registry.Ex
