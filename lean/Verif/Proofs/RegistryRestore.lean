import Verif.Proofs.RegistrySole
import Verif.Props.Registry
/-! # Restoring a pickled pure function -/
set_option linter.unusedSectionVars false
set_option linter.unusedVariables false
set_option linter.unusedSimpArgs false
namespace Pyth.Registry
open Pyth.Analyzer

/-! ## Re-declaring the functions of an augmented source -/

def Deco.island : Deco → String
  | .autonomous i => i
  | .strictly i => i
  | .pure i _ => i

/-- the guards of a decorator -/
def Deco.guardNames : Deco → List String
  | .pure _ g => g.getD []
  | _ => []

/-- the function of the entry is registered as the entry says -/
def Declared (R : Reg) (p : Nat) (e : Entry) : Prop :=
  ∃ r, R.at ⟨p, e.deco.island, e.src.name⟩ = some r ∧ r.src = e.src ∧ r.deco = e.deco ∧ r.full = false

theorem begin_free {R : Reg} (w : Wf R) (o : Obj) (hf : o.full = false) (hacc : acceptable o.src = true)
    (h : R.at o.key = none ∨ ∃ r, R.at o.key = some r ∧ r.src = o.src ∧ r.deco = o.deco ∧ r.cls = o.cls ∧ r.full = false) :
    ∃ R' i, begin R o = (R', some i) ∧ Wf R' ∧ Grow R R' ∧ (o.portal, o.island) ∈ R'.islands ∧
      (∃ r, R'.at o.key = some r ∧ r.src = o.src ∧ r.deco = o.deco ∧ r.full = false) ∧
      (∀ k r, R'.at k = some r → R.at k = some r ∨ k = o.key) ∧
      (R.at o.key = none → R'.objs[i]? = some o ∧ R'.known.lookup o.key = some i) := by
  have eo : ({ o with full := false } : Obj) = o := by cases o; simp_all
  rcases h with h | ⟨r, h, h1, h2, h3, h4⟩
  · have hw := addIsland_ok w o.portal o.island
    have hn : (addIsland R o.portal o.island).at o.key = none := by rw [addIsland_at]; exact h
    have hb : begin R o = Reg.alloc { addIsland R o.portal o.island with
        known := (addIsland R o.portal o.island).known ++ [(o.key, (addIsland R o.portal o.island).objs.length)] } o := by
      unfold begin
      dsimp only
      simp only [eo]
      rw [hn]
      simp [hacc]
    have hnew := alloc_new_ok hw.1 o hn hw.2.2.1 hacc
    have hat := at_alloc_new hw.1 o hn
    refine ⟨_, _, hb, hnew.1, (addIsland_grow R _ _).trans ⟨List.prefix_append _ _, List.prefix_append _ _, fun _ h => h⟩, hw.2.2.1, ?_, ?_, ?_⟩
    · refine ⟨o, ?_, rfl, rfl, hf⟩
      have := hat o.key
      rw [if_pos rfl] at this; exact this
    · intro k q hq
      have := hat k
      have hq' : (Reg.alloc { addIsland R o.portal o.island with
        known := (addIsland R o.portal o.island).known ++ [(o.key, (addIsland R o.portal o.island).objs.length)] } o).1.at k = some q := hq
      rw [this] at hq'
      split at hq'
      · rename_i e; exact .inr e
      · rw [addIsland_at] at hq'; exact .inl hq'
    · intro _
      have hk : R.known.lookup o.key = none := by
        cases hl : R.known.lookup o.key with
        | none => rfl
        | some j =>
          obtain ⟨q, _, h2, _⟩ := w.at_of_lookup hl
          rw [h] at h2; cases h2
      refine ⟨by simp, ?_⟩
      rw [List.lookup_append, hw.2.2.2.1, hk]
      simp [List.lookup]
  · have hb := begin_at_some w o h
    rw [if_pos ⟨h1.symm, h2.symm, h3.symm⟩, eo] at hb
    obtain ⟨o', ho'⟩ := (update_isSome (o := o) (r := r)).2 (by rw [h4]; simp)
    rw [ho'] at hb
    obtain ⟨j, k1, k2, k3, k4, k5⟩ := w.of_at h
    have hw : Wf (R.alloc o').1 := by
      have hisl : r.island = o.island := by simpa [Obj.key] using congrArg Key.island k3
      have e : o'.src = r.src ∧ o'.cls = o.cls ∧ o'.key = o.key ∧ o'.guards = r.guards := by
        unfold update at ho'
        split at ho'
        · cases ho'
        · injection ho' with ho'; subst ho'
          exact ⟨rfl, rfl, by simp [Obj.key, h1, hisl], rfl⟩
      exact (alloc_handle_ok w o' r (e.2.2.1 ▸ h) e.1.symm (h3.trans e.2.1.symm) e.2.2.2.symm).1
    refine ⟨_, _, hb, hw, ⟨List.prefix_append _ _, List.prefix_rfl, fun _ h => h⟩, k4, ?_, ?_, ?_⟩
    · exact ⟨r, (at_alloc w o' o.key).trans h, h1, h2, h4⟩
    · intro k q hq
      exact .inl ((at_alloc w o' k).symm.trans hq)
    · intro hn; rw [h] at hn; cases hn

theorem guardName_mapM (R : Reg) (p : Nat) (isl : String) (l : List String) :
    ((∀ g ∈ l, g ∈ R.islandNames p isl) → (l.map GuardArg.name).mapM (guardName R p isl) = some l) ∧
    (¬ (∀ g ∈ l, g ∈ R.islandNames p isl) → (l.map GuardArg.name).mapM (guardName R p isl) = none) := by
  induction l with
  | nil => simp
  | cons x l ih =>
    rw [List.map_cons, List.mapM_cons]
    by_cases hx : x ∈ R.islandNames p isl
    · have : guardName R p isl (.name x) = some x := by simp [guardName, hx]
      rw [this]
      refine ⟨fun h => ?_, fun h => ?_⟩
      · rw [ih.1 (fun g hg => h g (by simp [hg]))]; rfl
      · rw [ih.2 (fun h' => h fun g hg => by
          rcases List.mem_cons.1 hg with rfl | hg
          · exact hx
          · exact h' g hg)]; rfl
    · have : guardName R p isl (.name x) = none := by simp [guardName, hx]
      rw [this]
      exact ⟨fun h => absurd (h x (by simp)) hx, fun _ => rfl⟩

/-- a declaration fails if one of its guards is not known -/
theorem decl_fail {R : Reg} (p : Nat) (e : Entry) {g : String} (hg : g ∈ e.deco.guardNames) (hn : g ∉ R.islandNames p e.deco.island) :
    (decorate R (e.decl p)).2 = none := by
  unfold Entry.decl
  cases hd : e.deco with
  | autonomous isl => rw [hd] at hg; cases hg
  | strictly isl => rw [hd] at hg; cases hg
  | pure isl gs =>
    rw [hd] at hg hn
    cases gs with
    | none => cases hg
    | some l =>
      have hg' : g ∈ l := hg
      have : preprocessGuards R p isl (some (l.map .name)) = none := by
        simp only [preprocessGuards]
        split
        · rw [(guardName_mapM R p isl l).2 (fun h => hn (h g hg'))]
        · rfl
      simp only [decorate, Option.map_some, this]

theorem decl_ok {R : Reg} (w : Wf R) (p : Nat) (e : Entry) (hacc : acceptable e.src = true)
    (hsort : sort e.deco.guardNames = e.deco.guardNames) (hkn : ∀ g ∈ e.deco.guardNames, g ∈ R.islandNames p e.deco.island)
    (hisl : (p, e.deco.island) ∈ R.islands)
    (h : R.at ⟨p, e.deco.island, e.src.name⟩ = none ∨ Declared R p e) :
    ∃ R' i, decorate R (e.decl p) = (R', some i) ∧ Wf R' ∧ Grow R R' ∧ Declared R' p e ∧
      (∀ k r, R'.at k = some r → R.at k = some r ∨ k = ⟨p, e.deco.island, e.src.name⟩) := by
  have key : ∀ o : Obj, o.src = e.src → o.portal = p → o.island = e.deco.island → o.deco = e.deco → o.full = false →
      ∃ R' i, begin R o = (R', some i) ∧ Wf R' ∧ Grow R R' ∧ Declared R' p e ∧
      (∀ k r, R'.at k = some r → R.at k = some r ∨ k = ⟨p, e.deco.island, e.src.name⟩) := by
    intro o h1 h2 h3 h4 h5
    have hk : o.key = ⟨p, e.deco.island, e.src.name⟩ := by simp [Obj.key, h1, h2, h3]
    have hcls : ∀ r : Obj, r.deco = o.deco → r.cls = o.cls := by
      intro r hr
      unfold Obj.deco at hr
      cases c1 : r.cls <;> cases c2 : o.cls <;> rw [c1, c2] at hr <;> dsimp only at hr
      · split at hr <;> cases hr
      · split at hr <;> cases hr
    obtain ⟨R', i, q1, q2, q3, q4, q5, q6, _⟩ := begin_free w o h5 (h1 ▸ hacc) (by
      rw [hk]
      rcases h with h | ⟨r, e1, e2, e3, e4⟩
      · exact .inl h
      · exact .inr ⟨r, e1, e2.trans h1.symm, e3.trans h4.symm, hcls r (e3.trans h4.symm), e4⟩)
    refine ⟨R', i, q1, q2, q3, ?_, ?_⟩
    · obtain ⟨r, e1, e2, e3, e4⟩ := q5
      exact ⟨r, hk ▸ e1, e2.trans h1, e3.trans h4, e4⟩
    · rw [← hk]; exact q6
  unfold Entry.decl
  cases hd : e.deco with
  | autonomous isl =>
    rw [hd] at key
    exact key _ rfl rfl rfl rfl rfl
  | strictly isl =>
    rw [hd] at key
    exact key _ rfl rfl rfl rfl rfl
  | pure isl g =>
    rw [hd] at key hsort hkn hisl
    have hg : preprocessGuards R p isl (g.map (·.map .name)) = some g := by
      cases g with
      | none => rfl
      | some l =>
        have : (p, isl) ∈ R.islands := hisl
        have hs : sort l = l := hsort
        simp only [preprocessGuards, Option.map_some, if_pos this, (guardName_mapM R p isl l).1 hkn, hs]
    simp only [decorate]
    rw [hg]
    exact key _ rfl rfl rfl rfl rfl

theorem Declared.grow {R R' : Reg} (h : Grow R R') {p : Nat} {e : Entry} (hd : Declared R p e) : Declared R' p e := by
  obtain ⟨r, h1, h2⟩ := hd
  exact ⟨r, h.at h1, h2⟩

/-- the guards of every entry are known already, or declared by an earlier entry -/
def GuardsKnown (known : String → Prop) (es : List Entry) : Prop :=
  ∀ pre e post, es = pre ++ e :: post → ∀ g ∈ e.deco.guardNames, known g ∨ ∃ e' ∈ pre, e'.src.name = g

theorem guardsKnown_cons (known : String → Prop) (e : Entry) (es : List Entry) :
    GuardsKnown known (e :: es) ↔ (∀ g ∈ e.deco.guardNames, known g) ∧ GuardsKnown (fun x => known x ∨ x = e.src.name) es := by
  constructor
  · intro h
    refine ⟨fun g hg => ?_, ?_⟩
    · rcases h [] e es rfl g hg with h | ⟨_, h, _⟩
      · exact h
      · cases h
    · rintro pre e' post rfl g hg
      rcases h (e :: pre) e' post rfl g hg with h | ⟨e'', h1, h2⟩
      · exact .inl (.inl h)
      · rcases List.mem_cons.1 h1 with rfl | h1
        · exact .inl (.inr h2.symm)
        · exact .inr ⟨e'', h1, h2⟩
  · rintro ⟨h1, h2⟩ pre e' post he g hg
    cases pre with
    | nil =>
      simp only [List.nil_append, List.cons.injEq] at he
      obtain ⟨rfl, rfl⟩ := he
      exact .inl (h1 g hg)
    | cons x pre =>
      simp only [List.cons_append, List.cons.injEq] at he
      obtain ⟨rfl, rfl⟩ := he
      rcases h2 pre e' post rfl g hg with (h | h) | ⟨e'', k1, k2⟩
      · exact .inl h
      · exact .inr ⟨e, by simp, h.symm⟩
      · exact .inr ⟨e'', by simp [k1], k2⟩

theorem guardsKnown_congr {k k' : String → Prop} (h : ∀ x, k x ↔ k' x) (es : List Entry) : GuardsKnown k es ↔ GuardsKnown k' es := by
  have : k = k' := funext fun x => propext (h x)
  rw [this]

/-- declaring entries in one island that are consistent with what is registered -/
theorem process_ok (p : Nat) (isl : String) (es : List Entry) (hu : ∀ e ∈ es, ∀ e' ∈ es, e.src.name = e'.src.name → e = e') :
    ∀ {R : Reg} (w : Wf R), (p, isl) ∈ R.islands →
    (∀ e ∈ es, e.deco.island = isl ∧ acceptable e.src = true ∧ sort e.deco.guardNames = e.deco.guardNames ∧
      (R.at ⟨p, isl, e.src.name⟩ = none ∨ Declared R p e)) →
    (¬ GuardsKnown (· ∈ R.islandNames p isl) es → (process p es R).2 = false) ∧
    (GuardsKnown (· ∈ R.islandNames p isl) es →
    ∃ R', process p es R = (R', true) ∧ Wf R' ∧ Grow R R' ∧ (∀ e ∈ es, Declared R' p e) ∧
      (∀ k r, R'.at k = some r → R.at k = some r ∨ ∃ e ∈ es, k = ⟨p, isl, e.src.name⟩)) := by
  induction es with
  | nil =>
    intro R w _ _
    refine ⟨fun h => absurd ?_ h, fun _ => ⟨R, rfl, w, Grow.refl R, by simp, fun k r h => .inl h⟩⟩
    intro pre e post he
    simp at he
  | cons e es ih =>
    intro R w hisl hes
    obtain ⟨h1, h2, h3, h4⟩ := hes e (by simp)
    rw [guardsKnown_cons]
    by_cases hk : ∀ g ∈ e.deco.guardNames, g ∈ R.islandNames p isl
    swap
    · refine ⟨fun _ => ?_, fun h => absurd h.1 hk⟩
      have : ∃ g ∈ e.deco.guardNames, g ∉ R.islandNames p isl := by
        by_contra hne
        exact hk fun g hg => by
          by_contra h
          exact hne ⟨g, hg, h⟩
      obtain ⟨g, g1, g2⟩ := this
      have hf := decl_fail p e g1 (h1 ▸ g2)
      unfold process
      cases hd : decorate R (e.decl p) with
      | mk R1 v =>
        rw [hd] at hf
        have hf' : v = none := hf
        subst hf'
        rfl
    obtain ⟨R1, i, q1, q2, q3, q4, q5⟩ := decl_ok w p e h2 h3 (h1 ▸ hk) (h1 ▸ hisl) (h1 ▸ h4)
    have hnames : ∀ x, (x ∈ R.islandNames p isl ∨ x = e.src.name) ↔ x ∈ R1.islandNames p isl := by
      intro x
      rw [w.mem_names, q2.mem_names]
      constructor
      · rintro (⟨r, hr⟩ | rfl)
        · exact ⟨r, q3.at hr⟩
        · obtain ⟨r, hr, _⟩ := q4
          exact ⟨r, h1 ▸ hr⟩
      · rintro ⟨r, hr⟩
        rcases q5 _ _ hr with h | h
        · exact .inl ⟨r, h⟩
        · injection h with _ _ h
          exact .inr h
    have hrest : ∀ e' ∈ es, e'.deco.island = isl ∧ acceptable e'.src = true ∧ sort e'.deco.guardNames = e'.deco.guardNames ∧
        (R1.at ⟨p, isl, e'.src.name⟩ = none ∨ Declared R1 p e') := by
      intro e' he'
      obtain ⟨g1, g2, g3, g4⟩ := hes e' (by simp [he'])
      refine ⟨g1, g2, g3, ?_⟩
      by_cases hn : e.src.name = e'.src.name
      · have := hu e (by simp) e' (by simp [he']) hn
        subst this
        exact .inr q4
      rcases g4 with g4 | g4
      · left
        cases hx : R1.at ⟨p, isl, e'.src.name⟩ with
        | none => rfl
        | some r =>
          exfalso
          rcases q5 _ _ hx with h | h
          · rw [g4] at h; cases h
          · injection h with _ _ h
            exact hn h.symm
      · exact .inr (g4.grow q3)
    have hp : process p (e :: es) R = process p es R1 := by
      rw [process, q1]
    obtain ⟨u, v⟩ := ih (fun a ha b hb => hu a (by simp [ha]) b (by simp [hb])) q2 (q3.islands _ hisl) hrest
    rw [hp]
    refine ⟨fun h => u fun h' => h ⟨hk, (guardsKnown_congr hnames es).2 h'⟩, fun h => ?_⟩
    obtain ⟨R2, u1, u2, u3, u4, u5⟩ := v ((guardsKnown_congr hnames es).1 h.2)
    refine ⟨R2, u1, u2, q3.trans u3, ?_, ?_⟩
    · intro e' he'
      rcases List.mem_cons.1 he' with rfl | he'
      · exact q4.grow u3
      · exact u4 e' he'
    · intro k r hr
      rcases u5 k r hr with h | ⟨e', he', h⟩
      · rcases q5 k r h with h | h
        · exact .inl h
        · exact .inr ⟨e, by simp, h1 ▸ h⟩
      · exact .inr ⟨e', by simp [he'], h⟩

/-! ## Completing the registered object of a pure function -/

theorem complete_registered {E : Env} (hE : E.Ok) {R : Reg} (hI : Inv E R) {j : Nat} {o : Obj} (ho : R.objs[j]? = some o)
    (k1 : R.known.lookup o.key = some j) (hc : o.cls = .pure) (hf : o.full = false) {a : St} (ha : analyze o.src.node = some a)
    (hst : stillRequired E R o a = []) {d : List String} {es : List Entry}
    (hd : d.Nodup ∧ sort d = d ∧ (∀ x, x ∈ d ↔ CallGraph.Reaches (Link R o.portal o.island) o.src.name x))
    (hone : strictAfter E R o a = true → d.length = 1)
    (hes : (sort (o.guards.getD [] ++ d)).mapM (entryOf R o.portal o.island) = some es) (haug : o.aug = none ∨ o.aug = some es) :
    ∃ R', complete E R j = (R', true) ∧ R'.known = R.known ∧ Ext R R' ∧
      R'.objs[j]? = some { o with compiled := true, strict := strictAfter E R o a, deps := some d, full := true, aug := some es } ∧
      ∀ m, m ≠ j → R'.objs[m]? = R.objs[m]? := by
  have w := hI.wf
  have q1 : R.at o.key = some o := by simp [Reg.at, k1, ho]
  obtain ⟨_, _, _, k3, k4, k5⟩ := w.of_at q1
  have c : Ctx R j j o o := ⟨ho, k1, ho, rfl, hf⟩
  obtain ⟨d', d1, d2, d3, d4, hfin⟩ := finish_eq hE w c ha
  have : d' = d := by
    rw [← d2, ← hd.2.1]
    apply sort_eq_of_perm
    rw [List.perm_ext_iff_of_nodup d1 hd.1]
    intro x
    rw [d3, hd.2.2]
  subst this
  have hne : d' ≠ [] := fun h => by
    have := (d3 o.src.name).2 (.refl _)
    rw [h] at this; cases this
  have hcomp : completeAutonomous E R j = finish E R j j o := by
    unfold completeAutonomous
    rw [ho]
    dsimp only
    rw [hf]
    have hisl : (o.portal, o.island) ∈ R.islands := k4
    simp only [Bool.false_eq_true, if_false, hisl, if_true]
    rw [k1]; dsimp only
    rw [ho]; dsimp only
    simp [hf]
  rw [if_pos hst, if_neg (by rw [hc]; simp)] at hfin
  have hoc := get_compile ho
  have hget : (recordDeps (flipStrict E (compile R j) j o a) j j d').objs[j]? =
      some { o with compiled := true, strict := strictAfter E R o a, deps := some d' } := by
    unfold recordDeps
    rw [get_modify2, get_flip E _ j o a j hoc, hoc]
    simp only [Option.map_some, if_true]
    rfl
  have hother : ∀ m, m ≠ j → (recordDeps (flipStrict E (compile R j) j o a) j j d').objs[m]? = R.objs[m]? := by
    intro m hm
    have hm' : ¬ j = m := fun h => hm h.symm
    unfold recordDeps
    rw [get_modify2, get_flip E _ j o a m hoc]
    unfold compile
    rw [get_modify]
    simp [hm']
  have hknown : (recordDeps (flipStrict E (compile R j) j o a) j j d').known = R.known := by
    unfold recordDeps flipStrict compile
    split <;> rfl
  have hent : entryOf (recordDeps (flipStrict E (compile R j) j o a) j j d') o.portal o.island = entryOf R o.portal o.island := by
    funext n
    rw [entryOf_recordDeps, entryOf_flip hoc hc, entryOf_compile]
  have hw1 := compile_ok w j
  have hw2 := flip_ok (E := E) hw1.1 j o a
  have hw := recordDeps_ok hw2.1 j j d'
  have hext : Ext R (recordDeps (flipStrict E (compile R j) j o a) j j d') := (hw1.2.trans hw2.2).trans hw.2
  generalize hQ : recordDeps (flipStrict E (compile R j) j o a) j j d' = Q at *
  set o1 : Obj := { o with compiled := true, strict := strictAfter E R o a, deps := some d' } with ho1
  have hk1 : o1.key = o.key := rfl
  have hat1 : Q.at o1.key = some o1 := by
    unfold Reg.at
    rw [hk1, hknown, k1]
    exact hget
  have hdep : dependencies Q o1 = some d' := dependencies_eq hat1 rfl hne d2 hone
  have hes' : augment Q o1 = some es := by
    unfold augment
    rw [hdep]
    show (sort (o.guards.getD [] ++ d')).mapM (entryOf Q o.portal o.island) = some es
    rw [hent]; exact hes
  have hw3 := modify2_ok hw.1 j j (fun o => { o with aug := some es }) (fun o => { o with aug := some es })
    (fun o => ⟨rfl, rfl, rfl, rfl, rfl⟩) (fun o => ⟨rfl, rfl, rfl, rfl, rfl⟩)
  refine ⟨markFull ((Q.modify j fun o => { o with aug := some es }).modify j fun o => { o with aug := some es }) j j, ?_, ?_, ?_, ?_, ?_⟩
  · unfold complete
    rw [ho]; dsimp only
    rw [hf, hc]
    simp only [Bool.false_eq_true, if_false]
    unfold completePure
    rw [hcomp, hfin]; dsimp only
    rw [hget]; dsimp only
    rw [hes']; dsimp only
    rw [hk1, hknown, k1]; dsimp only
    rw [hget]; dsimp only
    unfold storeAug
    rw [if_pos haug]
  · exact hknown
  · exact (hext.trans hw3.2).trans (markFull_ok hw3.1 j j).2
  · unfold markFull
    rw [get_modify2, get_modify2, hget]
    simp only [if_true, Option.map_some]
    rfl
  · intro m hm
    have hm' : ¬ j = m := fun h => hm h.symm
    unfold markFull
    rw [get_modify2, get_modify2, hother m hm]
    simp [hm']

/-! ## Objects that were completed know whether they are strictly autonomous -/

def StrictOk1 (E : Env) (o : Obj) : Prop :=
  o.compiled = true → ∀ a, analyze o.src.node = some a → required E o.src a = [] → o.strict = true

def StrictOk (E : Env) (R : Reg) : Prop := ∀ (i : Nat) (o : Obj), R.objs[i]? = some o → StrictOk1 E o

theorem strictOk_modify {E : Env} {R : Reg} (h : StrictOk E R) (i : Nat) (f : Obj → Obj)
    (hf : ∀ o, R.objs[i]? = some o → StrictOk1 E o → StrictOk1 E (f o)) : StrictOk E (R.modify i f) := by
  intro m o ho
  rw [get_modify, Option.map_eq_some_iff] at ho
  obtain ⟨q, hq, rfl⟩ := ho
  by_cases e : i = m
  · subst e; simp only [if_true]; exact hf q hq (h i q hq)
  · simp only [e, if_false]; exact h m q hq

theorem update_strictOk {E : Env} {o r o' : Obj} (hu : update o r = some o') (hr : StrictOk1 E r) (hc : o.compiled = true → r.full = true) :
    StrictOk1 E o' := by
  unfold update at hu
  split at hu
  · cases hu
  · rename_i hn
    injection hu with hu; subst hu
    intro h1 a ha hq
    have : r.compiled = true := by
      dsimp only at h1
      cases h2 : r.compiled with
      | true => rfl
      | false =>
        rw [h2] at h1 hn
        simp only [Bool.and_false, Bool.or_false] at h1
        rw [hc h1] at hn
        simp at hn
    exact hr this a ha hq

theorem begin_strictOk {E : Env} {R : Reg} (h : StrictOk E R) (o : Obj) (hc : o.compiled = false) : StrictOk E (begin R o).1 := by
  have hobjs : (addIsland R o.portal o.island).objs = R.objs := by unfold addIsland; split <;> rfl
  have h0 : StrictOk E (addIsland R o.portal o.island) := by
    intro m q hq
    rw [hobjs] at hq; exact h m q hq
  have hall : ∀ (Q : Reg) (x : Obj), StrictOk E Q → StrictOk1 E x → StrictOk E (Q.alloc x).1 := by
    intro Q x hQ hx m q hq
    rw [getElem?_alloc] at hq
    split at hq
    · injection hq with hq; subst hq; exact hx
    · exact hQ m q hq
  unfold begin
  dsimp only
  split
  · rename_i r hr
    split
    · split
      · exact h0
      · rename_i o' hu
        refine hall _ _ h0 (update_strictOk hu ?_ ?_)
        · simp only [Reg.at, Option.bind_eq_some_iff] at hr
          obtain ⟨j, _, hj⟩ := hr
          exact h0 j r hj
        · intro h; dsimp only at h; rw [hc] at h; cases h
    · exact h0
  · split
    · refine hall _ _ h0 ?_
      intro h; dsimp only at h; rw [hc] at h; cases h
    · exact h0

theorem decorate_strictOk {E : Env} {R : Reg} (h : StrictOk E R) (d : Decl) : StrictOk E (decorate R d).1 := by
  unfold decorate
  split
  · exact begin_strictOk h _ rfl
  · split
    · exact h
    · exact begin_strictOk h _ rfl

theorem process_strictOk {E : Env} (p : Nat) (es : List Entry) {R : Reg} (h : StrictOk E R) : StrictOk E (process p es R).1 := by
  induction es generalizing R with
  | nil => exact h
  | cons e es ih =>
    have h1 := decorate_strictOk h (e.decl p)
    unfold process
    split
    · rename_i e1; rw [e1] at h1; exact h1
    · rename_i e1; rw [e1] at h1; exact ih h1

theorem marks_strictOk {E : Env} {R : Reg} (h : StrictOk E R) (i j : Nat) (f g : Obj → Obj)
    (hf : ∀ o, (f o).compiled = o.compiled ∧ (f o).strict = o.strict ∧ (f o).src = o.src)
    (hg : ∀ o, (g o).compiled = o.compiled ∧ (g o).strict = o.strict ∧ (g o).src = o.src) : StrictOk E ((R.modify i f).modify j g) := by
  have one : ∀ (k : Obj → Obj), (∀ o, (k o).compiled = o.compiled ∧ (k o).strict = o.strict ∧ (k o).src = o.src) → ∀ o, StrictOk1 E o → StrictOk1 E (k o) := by
    intro k hk o ho
    unfold StrictOk1
    rw [(hk o).1, (hk o).2.1, (hk o).2.2]; exact ho
  exact strictOk_modify (strictOk_modify h i f (fun o _ => one f hf o)) j g (fun o _ => one g hg o)

theorem recordDeps_strictOk {E : Env} {R : Reg} (h : StrictOk E R) (i j : Nat) (d : List String) : StrictOk E (recordDeps R i j d) :=
  marks_strictOk h _ _ _ _ (by intro o; exact ⟨rfl, rfl, rfl⟩) (by intro o; exact ⟨rfl, rfl, rfl⟩)
theorem markFull_strictOk {E : Env} {R : Reg} (h : StrictOk E R) (i j : Nat) : StrictOk E (markFull R i j) :=
  marks_strictOk h _ _ _ _ (by intro o; exact ⟨rfl, rfl, rfl⟩) (by intro o; exact ⟨rfl, rfl, rfl⟩)

theorem finish_strictOk {E : Env} {R : Reg} (h : StrictOk E R) {i j : Nat} {o : Obj} (ho : R.objs[i]? = some o) :
    StrictOk E (finish E R i j o).1 := by
  unfold finish
  dsimp only
  split
  · rename_i hn
    refine strictOk_modify h i _ ?_
    intro q hq _ _ a ha
    rw [ho] at hq; injection hq with hq; subst hq
    dsimp only at ha
    rw [hn] at ha; cases ha
  · rename_i a ha
    have h2 : StrictOk E (flipStrict E (R.modify i fun o => { o with compiled := true }) i o a) := by
      intro m q hq
      have hc := get_compile ho
      unfold compile at hc
      rw [get_flip E _ i o a m hc, get_modify] at hq
      simp only [Option.map_map, Option.map_eq_some_iff, Function.comp] at hq
      obtain ⟨q', hq', rfl⟩ := hq
      by_cases e : i = m
      · subst e
        rw [ho] at hq'; injection hq' with hq'; subst hq'
        simp only [if_true]
        intro _ a' ha' hq
        dsimp only at ha' hq ⊢
        rw [ha] at ha'; injection ha' with ha'; subst ha'
        unfold strictAfter
        cases hs : o.strict with
        | true => rfl
        | false =>
          have : stillRequired E (R.modify i fun o => { o with compiled := true }) o a = [] := by
            simp [stillRequired, hs, hq, minus]
          rw [this, hq]; rfl
      · simp only [e, if_false]
        exact h m q' hq'
    split
    · split
      · exact h2
      · split
        · exact h2
        · split
          · exact markFull_strictOk (recordDeps_strictOk h2 _ _ _) _ _
          · exact recordDeps_strictOk h2 _ _ _
    · exact h2

theorem completeAutonomous_strictOk {E : Env} {R : Reg} (h : StrictOk E R) (i : Nat) : StrictOk E (completeAutonomous E R i).1 := by
  unfold completeAutonomous
  split
  · exact h
  · rename_i o ho
    split
    · exact h
    · split
      · split
        · exact h
        · split
          · exact h
          · rename_i r hr
            split
            · split
              · rename_i hrf
                split
                · split
                  · exact h
                  · rename_i o' hu
                    refine strictOk_modify h i _ ?_
                    intro _ _ _
                    exact update_strictOk hu (h _ r hr) (fun _ => hrf)
                · exact h
              · exact finish_strictOk h ho
            · exact h
      · exact h

theorem completePure_strictOk {E : Env} {R : Reg} (h : StrictOk E R) (i : Nat) : StrictOk E (completePure E R i).1 := by
  have h1 := completeAutonomous_strictOk (E := E) h i
  unfold completePure
  split
  · rename_i e; rw [e] at h1; exact h1
  · rename_i e
    rw [e] at h1
    dsimp only at h1
    split
    · exact h1
    · split
      · exact h1
      · split
        · exact h1
        · split
          · exact h1
          · unfold storeAug
            split
            · exact markFull_strictOk (marks_strictOk h1 _ _ _ _ (by intro o; exact ⟨rfl, rfl, rfl⟩) (by intro o; exact ⟨rfl, rfl, rfl⟩)) _ _
            · exact h1

theorem complete_strictOk {E : Env} {R : Reg} (h : StrictOk E R) (i : Nat) : StrictOk E (complete E R i).1 := by
  unfold complete
  split
  · exact h
  · split
    · exact h
    · split
      · exact completeAutonomous_strictOk h i
      · exact completePure_strictOk h i

theorem step_strictOk {E : Env} {R : Reg} (h : StrictOk E R) (op : Op) : StrictOk E (step E R op) := by
  cases op with
  | decorate d => exact decorate_strictOk h d
  | start i => simp only [step, start_fst]; exact complete_strictOk h i
  | pickle i =>
    simp only [step]
    rcases pickle_fst E R i with e | e
    · rw [e]; exact h
    · rw [e]; exact complete_strictOk h i
  | restore p s =>
    simp only [step]
    cases s with
    | autonomous isl s b => exact begin_strictOk h _ rfl
    | pure isl s st gs es =>
      have h1 := begin_strictOk h ({ cls := .pure, portal := p, island := isl, src := s, strict := st, guards := gs } : Obj) rfl
      simp only [restore]
      split
      · rename_i e; rw [e] at h1; exact h1
      · rename_i R1 i e
        rw [e] at h1
        dsimp only at h1
        split
        · exact h1
        · rename_i o ho
          have h2 : StrictOk E (adopt p R1 o es).1 := by
            unfold adopt
            split
            · exact h1
            · split
              · exact h1
              · split
                · exact h1
                · exact process_strictOk p es (strictOk_modify h1 _ _ (by intro o _ h; exact h))
          split
          · rename_i e2; rw [e2] at h2; exact h2
          · rename_i R2 e2
            rw [e2] at h2
            have h3 := complete_strictOk h2 i
            dsimp only at h3
            split
            · rename_i e3; rw [e3] at h3; exact h3
            · rename_i e3; rw [e3] at h3; exact h3

theorem reachable_strictOk {E : Env} {R : Reg} (h : Reachable E R) : StrictOk E R := by
  obtain ⟨ops, rfl⟩ := h
  have : ∀ (ops : List Op) (R : Reg), StrictOk E R → StrictOk E (run E R ops) := by
    intro ops
    induction ops with
    | nil => exact fun _ h => h
    | cons op ops ih => exact fun R h => ih _ (step_strictOk h op)
  exact this ops {} (fun i o h => by simp at h)

end Pyth.Registry
