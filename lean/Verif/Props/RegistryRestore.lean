import Verif.Proofs.RegistryRestore
import Verif.Props.RegistryAug
/-!
# Restoring pickled pure functions: C51
-/
set_option linter.unusedVariables false
namespace Pyth.Registry
open Pyth.Analyzer

theorem start_spec {E : Env} {R R' : Reg} {i : Nat} (h : start E R i = (R', true)) :
    ∃ o, R'.objs[i]? = some o ∧ o.compiled = true ∧ ∃ d, dependencies R' o = some d := by
  unfold start at h
  split at h
  · cases h
  · split at h
    · cases h
    · rename_i o ho
      injection h with h1 h2
      subst h1
      unfold runnable at h2
      simp only [Bool.and_eq_true] at h2
      refine ⟨o, ho, h2.1, ?_⟩
      have h3 := h2.2
      split at h3
      · cases h3
      · rename_i d hd; exact ⟨d, hd⟩

theorem complete_full' {E : Env} {R R' : Reg} {i : Nat} (hI : Inv E R) (h : start E R i = (R', true)) :
    ∃ o, R'.objs[i]? = some o ∧ o.full = true := by
  unfold start at h
  split at h
  · cases h
  · rename_i R1 hc
    obtain ⟨o, h1, h2⟩ := complete_full hc hI.wf
    split at h
    · cases h
    · injection h with h3; subst h3
      exact ⟨o, h1, h2⟩

/-- every guard that an entry of an augmented source names is the function `name` itself or the function of an earlier
entry -/
def GuardsFirst (name : String) (es : List Entry) : Prop :=
  ∀ pre e post, es = pre ++ e :: post → ∀ isl l, e.deco = .pure isl (some l) → ∀ g ∈ l, g = name ∨ ∃ e' ∈ pre, e'.src.name = g

theorem guardsFirst_iff (name : String) (es : List Entry) : GuardsFirst name es ↔ GuardsKnown (· = name) es := by
  constructor
  · intro h pre e post he g hg
    cases hd : e.deco with
    | autonomous isl => rw [hd] at hg; cases hg
    | strictly isl => rw [hd] at hg; cases hg
    | pure isl gs =>
      rw [hd] at hg
      cases gs with
      | none => cases hg
      | some l => exact h pre e post he isl l hd g hg
  · intro h pre e post he isl l hd g hg
    exact h pre e post he g (by rw [hd]; exact hg)

/-- C51 (partial): a pure function that can be executed in one session is pickled, and restored in another session (with
the same builtins) in a portal and island without functions.

If every guard named in its augmented source - a guard of the function or of a pure function it depends on - is the
function itself or the function of an earlier entry, then this succeeds, declares all functions of the augmented source
as they were, and yields a function object that can be executed and has the same pickled state, hence the same call
addresses.  Otherwise restoring fails.

The augmented source is ordered by name and contains the guards of the function, not those of its dependencies, so the
condition fails for a function with a guard whose name comes after its own, and in most cases for a function that depends
on a pure function with guards; without guards it always holds.  `hsorted` holds of all functions of sessions without
restored functions (`C51_guards_sorted`). -/
theorem C51_restored_iff_partial {E E' : Env} (hE : E.Ok) (hE' : E'.Ok) (hb : E'.builtins = E.builtins)
    {R : Reg} (hR : Reachable E R) {i : Nat} {R1 R2 : Reg} (hrun : start E R i = (R1, true))
    {isl : String} {s : Src} {st : Bool} {gs : Option (List String)} {es : List Entry}
    (hpk : pickle E R1 i = (R2, some (.pure isl s st gs es)))
    (hsorted : ∀ e ∈ es, ∀ isl' l, e.deco = .pure isl' (some l) → sort l = l)
    {R0 : Reg} (hR0 : Reachable E' R0) {p : Nat} (hfresh : ∀ x, R0.at ⟨p, isl, x⟩ = none) :
    (GuardsFirst s.name es → ∃ R3 k, restore E' R0 p (.pure isl s st gs es) = (R3, some k) ∧
      (∀ e ∈ es, ∃ f, R3.at ⟨p, isl, e.src.name⟩ = some f ∧ f.src = e.src ∧ f.deco = e.deco) ∧
      (start E' R3 k).2 = true ∧ pickle E' R3 k = (R3, some (.pure isl s st gs es))) ∧
    (¬ GuardsFirst s.name es → (restore E' R0 p (.pure isl s st gs es)).2 = none) := by
  have hI := reachable_inv hE hR
  have hI0 := reachable_inv hE' hR0
  -- the pickled state
  have hcR1 : complete E R1 i = (R1, true) := by
    obtain ⟨o, h1, h2⟩ := complete_full' hI hrun
    unfold complete; rw [h1]; simp [h2]
  obtain ⟨hc, _, o', r', h1, h2, h3, h4, rfl, rfl, rfl, rfl⟩ := pickle_spec hpk
  rw [hcR1] at hc; injection hc with hc; subst hc
  have hR1 : Reachable E R1 := by
    obtain ⟨ops, rfl⟩ := hR
    refine ⟨ops ++ [.start i], ?_⟩
    rw [run_append]
    simp [run, step]
    have := congrArg Prod.fst hrun
    simp only [run] at this
    exact this.symm
  have hI1 := reachable_inv hE hR1
  obtain ⟨ox, ho', hcomp, d', hdep⟩ := start_spec hrun
  rw [h1] at ho'; injection ho' with ho'; subst ho'
  obtain ⟨rr, d, e1, e2, e3, e4, e5⟩ := dependencies_spec hdep
  rw [h2] at e1; injection e1 with e1; subst e1
  obtain ⟨rx, q1, q2, q3, q4⟩ := hI1.wf.handle i o' h1
  rw [h2] at q1; injection q1 with q1; subst q1
  obtain ⟨j, k1, k2, k3, k4, k5⟩ := hI1.wf.of_at h2
  have hpo : r'.portal = o'.portal := by simpa [Obj.key] using congrArg Key.portal k3
  have his : r'.island = o'.island := by simpa [Obj.key] using congrArg Key.island k3
  have hgood := hI1.reg h2 e2
  rw [hpo, his, q2] at hgood
  have hcls : o'.cls = .pure := by
    unfold pickle at hpk
    rw [h1] at hpk
    dsimp only at hpk
    split at hpk
    · cases hpk
    · assumption
  obtain ⟨rf, f1, f2⟩ := hI1.full i o' h1 h4
  rw [h2] at f1; injection f1 with f1; subst f1
  obtain ⟨dx, g1, g2⟩ := hI1.done _ r' h2 f2
  rw [e2] at g1; injection g1 with g1; subst g1
  obtain ⟨ex, g3, haug⟩ := g2 (q3.trans hcls)
  rw [h3] at g3; injection g3 with g3; subst g3
  have hent := haug.entries
  rw [hpo, his] at hent
  have hnames : es.map (·.src.name) = sort (o'.guards.getD [] ++ d) := by
    have := haug.names
    rw [q4] at this
    exact this
  have hdn : ∀ x ∈ d, x ∈ es.map (·.src.name) := by
    intro x hx
    rw [hnames, mem_sort]
    exact List.mem_append_right _ hx
  rw [q2] at k5
  obtain ⟨a, ha, _⟩ := acceptable_analyzes k5
  -- the entries
  have hdeco : ∀ e ∈ es, e.deco.island = o'.island ∧ acceptable e.src = true ∧ sort e.deco.guardNames = e.deco.guardNames := by
    intro e he
    obtain ⟨f, u1, u2, b, u3⟩ := hent e he
    obtain ⟨_, _, _, n3, _, n5⟩ := hI1.wf.of_at u1
    have hfi : f.island = o'.island := by simpa [Obj.key] using congrArg Key.island n3
    refine ⟨?_, by rw [u2]; exact n5, ?_⟩
    · rw [u3]
      unfold Obj.deco
      dsimp only
      cases f.cls with
      | pure => exact hfi
      | autonomous => cases b <;> exact hfi
    · cases hd : e.deco with
      | autonomous _ => rfl
      | strictly _ => rfl
      | pure isl' g =>
        cases g with
        | none => rfl
        | some l => exact hsorted e he isl' l hd
  have hself : o'.src.name ∈ es.map (·.src.name) := hdn _ hgood.self
  -- the entry of the function itself
  have hown : ∀ e ∈ es, e.src.name = o'.src.name → e.src = o'.src ∧ e.deco = .pure o'.island o'.guards := by
    intro e he hn
    obtain ⟨f, u1, u2, b, u3⟩ := hent e he
    rw [hn] at u1
    have : R1.at o'.key = some f := u1
    rw [h2] at this; injection this with this; subst this
    refine ⟨u2.trans q2, ?_⟩
    rw [u3]
    unfold Obj.deco
    dsimp only
    rw [q3.trans hcls]
    dsimp only
    rw [his, q4]
  -- beginning
  set o0 : Obj := { cls := .pure, portal := p, island := o'.island, src := o'.src, strict := o'.strict, guards := o'.guards } with ho0
  have hk0 : o0.key = ⟨p, o'.island, o'.src.name⟩ := rfl
  obtain ⟨Q1, n, b1, b2, b3, b4, b5, b6, b7⟩ := begin_free hI0.wf o0 rfl k5 (.inl (hfresh _))
  obtain ⟨b8, b9⟩ := b7 (hfresh _)
  have hprims1 : Prims E' true R0 Q1 := by
    have := begin_prims (E := E') (b := true) hI0.wf o0 ⟨rfl, rfl, rfl, rfl⟩ (by simp)
    rwa [b1] at this
  -- adopting the augmented source
  have hw2 : Wf (Q1.modify n fun o => { o with aug := some es }) :=
    (modify_ok b2 n (fun o => { o with aug := some es }) fun o _ => ⟨rfl, rfl, rfl, rfl, rfl⟩).1
  have hat2 : ∀ k, (Q1.modify n fun o => { o with aug := some es }).at k =
      if Q1.known.lookup k = some n then (Q1.at k).map (fun o => { o with aug := some es }) else Q1.at k := at_modify _ _ _
  have hnam2 : ∀ x, x ∈ (Q1.modify n fun o => { o with aug := some es }).islandNames p o'.island ↔ x = o'.src.name := by
    intro x
    show x ∈ Q1.islandNames p o'.island ↔ _
    rw [b2.mem_names]
    constructor
    · rintro ⟨r, hr⟩
      rcases b6 _ _ hr with h | h
      · rw [hfresh] at h; cases h
      · rw [hk0] at h; injection h
    · rintro rfl
      obtain ⟨r, hr, _⟩ := b5
      exact ⟨r, hr⟩
  have hproc := process_ok p o'.island es haug.uniq hw2 b4 (by
      intro e he
      obtain ⟨u1, u2, u3⟩ := hdeco e he
      refine ⟨u1, u2, u3, ?_⟩
      by_cases hn : e.src.name = o'.src.name
      · right
        obtain ⟨v1, v2⟩ := hown e he hn
        refine ⟨{ o0 with aug := some es }, ?_, v1.symm, v2.symm, rfl⟩
        rw [u1, hn]
        show (Q1.modify n fun o => { o with aug := some es }).at o0.key = _
        rw [hat2, if_pos b9]
        unfold Reg.at
        rw [b9]
        simp only [Option.bind_some, b8, Option.map_some]
      · left
        have : Q1.at ⟨p, o'.island, e.src.name⟩ = none := by
          cases hx : Q1.at ⟨p, o'.island, e.src.name⟩ with
          | none => rfl
          | some r =>
            exfalso
            rcases b6 _ _ hx with h | h
            · rw [hfresh] at h; cases h
            · rw [hk0] at h; injection h with _ _ h; exact hn h
        rw [hat2, this]
        simp)
  rw [guardsKnown_congr hnam2, ← guardsFirst_iff] at hproc
  refine ⟨fun hfirst => ?_, fun hfirst => ?_⟩
  swap
  · have hfail := hproc.1 hfirst
    simp only [restore]
    rw [show begin R0 _ = (Q1, some n) from b1]
    dsimp only
    rw [b8]; dsimp only
    have hadopt : adopt p Q1 o0 es = process p es (Q1.modify n fun o => { o with aug := some es }) := by
      unfold adopt
      rw [b9]; dsimp only
      rw [b8]
      rfl
    rw [hadopt]
    cases hp : process p es (Q1.modify n fun o => { o with aug := some es }) with
    | mk Q b =>
      rw [hp] at hfail
      have : b = false := hfail
      subst this
      rfl
  obtain ⟨Q3, c1, c2, c3, c4, c5⟩ := hproc.2 hfirst
  -- the invariant
  have hprims3 : Prims E' true R0 Q3 := by
    have hs2 : Prims E' true Q1 (Q1.modify n fun o => { o with aug := some es }) :=
      .single (.adopt Q1 o0.key n o0 es b9 b8 rfl rfl rfl)
    have := process_prims (E := E') (b := true) p es hw2
    rw [c1] at this
    exact (hprims1.trans hs2).trans this
  have hI3 := prims_inv hE' hI0 hprims3
  -- the object
  set o3 : Obj := { o0 with aug := some es } with ho3
  have hget2 : (Q1.modify n fun o => { o with aug := some es }).objs[n]? = some o3 := by
    rw [get_modify, b8]; simp [ho3]
  have hget3 : Q3.objs[n]? = some o3 := c3.get hget2
  have hlook3 : Q3.known.lookup o3.key = some n := by
    obtain ⟨t, ht⟩ := c3.known
    rw [← ht, List.lookup_append, known_modify, show o3.key = o0.key from rfl, b9]; rfl
  have hin3 : ∀ x, (∃ r, Q3.at ⟨p, o'.island, x⟩ = some r) ↔ x ∈ es.map (·.src.name) := by
    intro x
    constructor
    · rintro ⟨r, hr⟩
      rcases c5 _ _ hr with h | ⟨e, he, h⟩
      · rw [hat2] at h
        have : ∃ r, Q1.at ⟨p, o'.island, x⟩ = some r := by
          split at h
          · rw [Option.map_eq_some_iff] at h
            obtain ⟨r, hr, _⟩ := h; exact ⟨r, hr⟩
          · exact ⟨_, h⟩
        obtain ⟨r, hr⟩ := this
        rcases b6 _ _ hr with h | h
        · rw [hfresh] at h; cases h
        · rw [hk0] at h; injection h with _ _ h
          rw [h]; exact hself
      · injection h with _ _ h
        rw [h]; exact List.mem_map.2 ⟨e, he, rfl⟩
    · intro hx
      obtain ⟨e, he, rfl⟩ := List.mem_map.1 hx
      obtain ⟨r, hr, _⟩ := c4 e he
      rw [(hdeco e he).1] at hr
      exact ⟨r, hr⟩
  have hsrc3 : ∀ x r f, Q3.at ⟨p, o'.island, x⟩ = some r → R1.at ⟨o'.portal, o'.island, x⟩ = some f → r.src = f.src := by
    intro x r f hr hf
    have hx := (hin3 x).1 ⟨r, hr⟩
    obtain ⟨e, he, rfl⟩ := List.mem_map.1 hx
    obtain ⟨r', hr', u1, _⟩ := c4 e he
    rw [(hdeco e he).1, hr] at hr'; injection hr' with hr'; subst hr'
    obtain ⟨f', v1, v2, _⟩ := hent e he
    rw [hf] at v1; injection v1 with v1; subst v1
    exact u1.trans v2
  have hlink : ∀ x y, Link R1 o'.portal o'.island x y → x ∈ d → y ∈ d → Link Q3 p o'.island x y := by
    rintro x y ⟨⟨f, hf⟩, f', hf', hxy⟩ hx hy
    obtain ⟨r, hr⟩ := (hin3 y).2 (hdn y hy)
    obtain ⟨r', hr'⟩ := (hin3 x).2 (hdn x hx)
    exact ⟨⟨r, hr⟩, r', hr', by rw [hsrc3 x r' f' hr' hf']; exact hxy⟩
  have hback : ∀ x y, Link Q3 p o'.island x y → x ∈ d → y ∈ d := by
    rintro x y ⟨hy, f', hf', hxy⟩ hx
    obtain ⟨e, he, rfl⟩ := List.mem_map.1 ((hin3 y).1 hy)
    obtain ⟨g, hg⟩ := hgood.names x hx
    obtain ⟨f, u1, _⟩ := hent e he
    have := haug.closed x hx e he
    rw [hpo, his] at this
    refine this ⟨⟨f, u1⟩, g, hg, ?_⟩
    rw [← hsrc3 x f' g hf' hg]; exact hxy
  have hdspec : d.Nodup ∧ sort d = d ∧ (∀ x, x ∈ d ↔ CallGraph.Reaches (Link Q3 o3.portal o3.island) o3.src.name x) := by
    refine ⟨hgood.nodup, hgood.sorted, fun x => ⟨fun hx => ?_, fun hx => ?_⟩⟩
    · have := hgood.reach x hx
      have gen : ∀ u v, CallGraph.Reaches (fun a b => Link R1 o'.portal o'.island a b ∧ b ∈ d) u v → u ∈ d → CallGraph.Reaches (Link Q3 p o'.island) u v := by
        intro u v h
        induction h with
        | refl => exact fun _ => .refl _
        | step h _ ih => exact fun hu => .step (hlink _ _ h.1 hu h.2) (ih h.2)
      exact gen _ _ this hgood.self
    · have gen : ∀ u v, CallGraph.Reaches (Link Q3 p o'.island) u v → u ∈ d → v ∈ d := by
        intro u v h
        induction h with
        | refl => exact id
        | step h _ ih => exact fun hu => ih (hback _ _ h hu)
      exact gen _ _ hx hgood.self
  have hreq : required E' o3.src a = required E o'.src a := by
    show required E' o'.src a = _
    simp only [required, available, hb]
  have hsub : ∀ x ∈ required E o'.src a, x ∈ d := by
    intro x hx
    simp only [required, minus, List.mem_filter] at hx
    rcases hgood.covers a ha x hx.1 with h | h
    · simp [h] at hx
    · exact h
  have hstrict : o'.strict = true → required E o'.src a = [] := by
    intro h
    obtain ⟨y, hy⟩ := List.length_eq_one_iff.1 (e5 h)
    have hs := hgood.self
    rw [hy] at hs
    simp only [List.mem_singleton] at hs
    apply List.eq_nil_iff_forall_not_mem.2
    intro x hx
    have h1 := hsub x hx
    rw [hy] at h1
    simp only [List.mem_singleton] at h1
    simp only [required, minus, List.mem_filter] at hx
    have : x ∈ available E o'.src.name := by
      rw [h1, ← hs]; simp [available]
    simp [this] at hx
  have hminus : minus (required E o'.src a) (Q3.islandNames p o'.island) = [] := by
    apply List.eq_nil_iff_forall_not_mem.2
    intro x hx
    simp only [minus, List.mem_filter] at hx
    have := hI3.wf.mem_names.2 ((hin3 x).2 (hdn x (hsub x hx.1)))
    simp [this] at hx
  have hst : stillRequired E' Q3 o3 a = [] := by
    unfold stillRequired
    rw [hreq]
    split
    · rename_i h; exact hstrict h
    · exact hminus
  have hsa : strictAfter E' Q3 o3 a = o'.strict := by
    unfold strictAfter
    rw [hst, hreq]
    show (o'.strict || _) = _
    cases hs : o'.strict with
    | true => rfl
    | false =>
      have : required E o'.src a ≠ [] := by
        intro h
        have := reachable_strictOk hR1 i o' h1 hcomp a ha h
        rw [hs] at this; cases this
      cases hl : required E o'.src a with
      | nil => exact absurd hl this
      | cons _ _ => simp
  have hone : strictAfter E' Q3 o3 a = true → d.length = 1 := by
    rw [hsa]; exact e5
  have hes : (sort (o3.guards.getD [] ++ d)).mapM (entryOf Q3 o3.portal o3.island) = some es := by
    show (sort (o'.guards.getD [] ++ d)).mapM (entryOf Q3 p o'.island) = some es
    rw [← hnames]
    have : ∀ l : List Entry, (∀ e ∈ l, e ∈ es) → (l.map (·.src.name)).mapM (entryOf Q3 p o'.island) = some l := by
      intro l
      induction l with
      | nil => intro _; simp
      | cons e l ih =>
        intro hl
        have he := hl e (by simp)
        obtain ⟨r, v1, v2, v3, _⟩ := c4 e he
        rw [(hdeco e he).1] at v1
        rw [List.map_cons, List.mapM_cons, ih (fun e' h => hl e' (by simp [h]))]
        have : entryOf Q3 p o'.island e.src.name = some e := by
          unfold entryOf
          rw [v1]
          simp [v2, v3]
        rw [this]; rfl
    exact this es (fun _ h => h)
  obtain ⟨R3, w1, w2, w3, w4, w5⟩ := complete_registered hE' hI3 hget3 hlook3 rfl rfl ha hst hdspec hone hes (.inr rfl)
  rw [hsa] at w4
  have hlook4 : R3.known.lookup o3.key = some n := by rw [w2]; exact hlook3
  have hat4 : ∀ k, k ≠ o3.key → R3.at k = Q3.at k := by
    intro k hk
    unfold Reg.at
    rw [w2]
    cases hl : Q3.known.lookup k with
    | none => rfl
    | some m =>
      simp only [Option.bind_some]
      apply w5
      rintro rfl
      have := hI3.wf.lookup_key hl hget3
      exact hk this.symm
  have hat5 : R3.at o3.key = some { o3 with compiled := true, strict := o'.strict, deps := some d, full := true, aug := some es } := by
    unfold Reg.at; rw [hlook4]; exact w4
  have hc4 : complete E' R3 n = (R3, true) := by unfold complete; rw [w4]; simp
  have hat6 : R3.at ({ o3 with compiled := true, strict := o'.strict, deps := some d, full := true, aug := some es } : Obj).key = some { o3 with compiled := true, strict := o'.strict, deps := some d, full := true, aug := some es } := hat5
  refine ⟨R3, n, ?_, ?_, ?_, ?_⟩
  · simp only [restore]
    rw [show begin R0 _ = (Q1, some n) from b1]
    dsimp only
    rw [b8]; dsimp only
    have hadopt : adopt p Q1 o0 es = (Q3, true) := by
      unfold adopt
      rw [b9]; dsimp only
      rw [b8]
      exact c1
    rw [hadopt]
    dsimp only
    rw [w1]
  · intro e he
    by_cases hn : e.src.name = o'.src.name
    · obtain ⟨v1, v2⟩ := hown e he hn
      rw [hn]
      exact ⟨_, hat5, v1.symm, v2.symm⟩
    · obtain ⟨r, v1, v2, v3, _⟩ := c4 e he
      rw [(hdeco e he).1] at v1
      refine ⟨r, ?_, v2, v3⟩
      rw [hat4]
      · exact v1
      · intro h
        have : (⟨p, o'.island, e.src.name⟩ : Key) = ⟨p, o'.island, o'.src.name⟩ := h
        injection this with _ _ this
        exact hn this
  · unfold start
    rw [hc4]; dsimp only
    rw [w4]
    refine runnable_of rfl hat6 rfl e4 hgood.sorted e5 ?_
    intro x hx
    obtain ⟨r, hr⟩ := (hin3 x).2 (hdn x hx)
    obtain ⟨r', hr', _⟩ := w3.at hr
    exact ⟨r', hr'⟩
  · unfold pickle
    rw [w4]; dsimp only
    rw [hc4]; dsimp only
    rw [w4]; dsimp only
    rw [hat6]

/-- C51: in a session in which nothing is restored, the guards of all functions are listed in alphabetical order. -/
theorem C51_guards_sorted {E : Env} (hE : E.Ok) {ops : List Op} (hplain : ∀ op ∈ ops, op.plain = true) {i : Nat} {R1 R2 : Reg}
    (hrun : start E (run E {} ops) i = (R1, true))
    {isl : String} {s : Src} {st : Bool} {gs : Option (List String)} {es : List Entry}
    (hpk : pickle E R1 i = (R2, some (.pure isl s st gs es))) :
    ∀ e ∈ es, ∀ isl' l, e.deco = .pure isl' (some l) → sort l = l := by
  have hr1 : R1 = run E {} (ops ++ [.start i]) := by
    rw [run_append]
    simp only [run, List.foldl_cons, List.foldl_nil, step]
    have := congrArg Prod.fst hrun
    simp only [run] at this
    exact this.symm
  have hp1 : ∀ op ∈ ops ++ [.start i], op.plain = true := by
    intro op hop
    rcases List.mem_append.1 hop with h | h
    · exact hplain op h
    · rw [List.mem_singleton.1 h]; rfl
  have hpr := run_prims_plain (E := E) Wf.empty _ hp1
  rw [← hr1] at hpr
  have hI := reachable_inv hE ⟨ops, rfl⟩
  have hI1 := prims_inv hE (Inv.empty E) hpr
  have hs := prims_sorted Wf.empty hpr (by intro i o h; simp at h)
  have hcR1 : complete E R1 i = (R1, true) := by
    obtain ⟨o, h1, h2⟩ := complete_full' hI hrun
    unfold complete; rw [h1]; simp [h2]
  obtain ⟨hc, _, o', r', h1, h2, h3, h4, rfl, rfl, rfl, rfl⟩ := pickle_spec hpk
  rw [hcR1] at hc; injection hc with hc; subst hc
  have hcls : o'.cls = .pure := by
    unfold pickle at hpk
    rw [h1] at hpk
    dsimp only at hpk
    split at hpk
    · cases hpk
    · assumption
  obtain ⟨rx, q1, q2, q3, q4⟩ := hI1.wf.handle i o' h1
  rw [h2] at q1; injection q1 with q1; subst q1
  obtain ⟨rf, f1, f2⟩ := hI1.full i o' h1 h4
  rw [h2] at f1; injection f1 with f1; subst f1
  obtain ⟨dx, g1, g2⟩ := hI1.done _ r' h2 f2
  obtain ⟨ex, g3, haug⟩ := g2 (q3.trans hcls)
  rw [h3] at g3; injection g3 with g3; subst g3
  intro e he isl' l hd
  obtain ⟨f, u1, u2, b, u3⟩ := haug.entries e he
  obtain ⟨n, _, n2, _⟩ := hI1.wf.of_at u1
  have := hs n f n2
  rw [u3] at hd
  unfold Obj.deco at hd
  dsimp only at hd
  cases hc : f.cls with
  | autonomous => rw [hc] at hd; cases b <;> cases hd
  | pure =>
    rw [hc] at hd
    injection hd with _ hd
    rw [hd] at this
    exact this

/-- C51, the converse direction: if the session already knows the function and has completed its registration, then
restoring a pickled state succeeds only if the session's versions of the function and of everything in the pickled
augmented source are the pickled ones.  So a state with a different version of a dependency is refused. -/
theorem C51_conflicting_version_refused {E : Env} (hE : E.Ok) {R : Reg} (hR : Reachable E R)
    {p : Nat} {isl : String} {s : Src} {st : Bool} {gs : Option (List String)} {es : List Entry} {r : Obj}
    (hr : R.at ⟨p, isl, s.name⟩ = some r) (hfull : r.full = true)
    {R' : Reg} {k : Nat} (h : restore E R p (.pure isl s st gs es) = (R', some k)) :
    r.src = s ∧ r.deco = .pure isl gs ∧
      ∀ e ∈ es, ∃ f, R.at ⟨p, isl, e.src.name⟩ = some f ∧ f.src = e.src := by
  have hI := reachable_inv hE hR
  unfold restore at h
  dsimp only at h
  generalize hb : begin R { cls := .pure, portal := p, island := isl, src := s, strict := st, guards := gs } = B at h
  obtain ⟨R1, n⟩ := B
  cases n with
  | none => simp at h
  | some i =>
    dsimp only at h
    unfold begin at hb
    dsimp only [Obj.key] at hb
    rw [addIsland_at, hr] at hb
    dsimp only at hb
    split at hb
    swap
    · cases hb
    rename_i hsame
    obtain ⟨h1, h2, h3⟩ := hsame
    split at hb
    · cases hb
    rename_i o' ho'
    simp only [Reg.alloc, Prod.mk.injEq, Option.some.injEq] at hb
    obtain ⟨rfl, rfl⟩ := hb
    simp only [List.getElem?_append_right (Nat.le_refl _), Nat.sub_self, List.getElem?_cons_zero] at h
    -- the adopted state is the registered one
    have hkey : o'.key = ⟨p, isl, s.name⟩ := by
      unfold update at ho'
      split at ho'
      · cases ho'
      · injection ho' with ho'
        subst ho'
        obtain ⟨j, k1, k2, k3, k4, k5⟩ := hI.wf.of_at hr
        have his : r.island = isl := by simpa [Obj.key] using congrArg Key.island k3
        simp only [Obj.key, ← h1, his]
    obtain ⟨j, hj1, hj2⟩ : ∃ j, R.known.lookup ⟨p, isl, s.name⟩ = some j ∧ R.objs[j]? = some r := by
      unfold Reg.at at hr
      cases hl : R.known.lookup ⟨p, isl, s.name⟩ with
      | none => rw [hl] at hr; cases hr
      | some j => rw [hl] at hr; exact ⟨j, rfl, hr⟩
    have haug : r.aug = some es := by
      by_contra hne
      have hlt : j < R.objs.length := (List.getElem?_eq_some_iff.mp hj2).1
      have hA : adopt p { addIsland R p isl with objs := (addIsland R p isl).objs ++ [o'] } o' es =
          ({ addIsland R p isl with objs := (addIsland R p isl).objs ++ [o'] }, false) := by
        have e1 : (addIsland R p isl).objs = R.objs := by unfold addIsland; split <;> rfl
        have e2 : (addIsland R p isl).known = R.known := by unfold addIsland; split <;> rfl
        unfold adopt
        dsimp only
        rw [hkey, e2, hj1]
        dsimp only
        rw [e1, List.getElem?_append_left hlt, hj2]
        dsimp only
        rw [if_pos hfull, decide_eq_false hne]
      rw [hA] at h
      cases h
    have hcls : r.cls = .pure := h3.symm
    obtain ⟨dx, g1, g2⟩ := hI.done _ r hr hfull
    obtain ⟨ex, g3, hau⟩ := g2 hcls
    rw [haug] at g3; injection g3 with g3; subst g3
    refine ⟨h1.symm, h2.symm, fun e he => ?_⟩
    obtain ⟨_, _, _, k3, _, _⟩ := hI.wf.of_at hr
    have hpo : r.portal = p := by simpa [Obj.key] using congrArg Key.portal k3
    have his : r.island = isl := by simpa [Obj.key] using congrArg Key.island k3
    have hent := hau.entries
    rw [hpo, his] at hent
    obtain ⟨f, u1, u2, _⟩ := hent e he
    exact ⟨f, u1, u2.symm⟩

end Pyth.Registry

namespace Pyth.Registry.Ex
open Pyth.Analyzer

/-- the pickled state of a function after it was executed -/
def stored (ops : List Op) (i : Nat) : Option Pickled := (pickle E (start E (run E {} ops) i).1 i).2
/-- restoring in a session without functions: whether it succeeds, and the functions registered afterwards -/
def restored (s : Option Pickled) : Option (Bool × List String) :=
  s.map fun s => ((restore E {} 0 s).2.isSome, (restore E {} 0 s).1.islandNames 0 "I")

/-- C51: the hypotheses hold of `f`, which uses `g`, which uses `h` (strictly autonomous) -/
def ops51 : List Op := [strictly (fn "h" ["len"]), aut (fn "g" ["h"]), pur (fn "f" ["g"])]
def es51 : List Entry := [⟨.pure "I" none, fn "f" ["g"]⟩, ⟨.autonomous "I", fn "g" ["h"]⟩, ⟨.strictly "I", fn "h" ["len"]⟩]

theorem first51 : GuardsFirst "f" es51 := by
  intro pre e post he isl' l hd g hg
  have hm : e ∈ es51 := by rw [he]; simp
  simp only [es51, List.mem_cons, List.not_mem_nil, or_false] at hm
  rcases hm with rfl | rfl | rfl <;> simp at hd

example := (C51_restored_iff_partial E_ok E_ok rfl (R := run E {} ops51) ⟨ops51, rfl⟩ (i := 2)
  (R1 := (start E (run E {} ops51) 2).1) (R2 := (pickle E (start E (run E {} ops51) 2).1 2).1)
  (Prod.ext rfl (by decide +kernel)) (isl := "I") (s := fn "f" ["g"]) (st := false) (gs := none) (es := es51)
  (Prod.ext rfl (by decide +kernel))
  (C51_guards_sorted E_ok (ops := ops51) (by decide) (i := 2) (R2 := (pickle E (start E (run E {} ops51) 2).1 2).1)
    (Prod.ext rfl (by decide +kernel)) (isl := "I") (s := fn "f" ["g"]) (st := false) (gs := none) (Prod.ext rfl (by decide +kernel)))
  (R0 := {}) ⟨[], rfl⟩ (p := 0) (fun x => rfl)).1 first51

/-- C51: the hypotheses hold of `f` with guard `a`, which uses `a` and the pure function `g`, which has guard `a` too -/
def ops51g : List Op := [strictly (fn "a" []), pur (fn "g" []) (some [.name "a"]), pur (fn "f" ["g", "a"]) (some [.name "a"])]
def es51g : List Entry := [⟨.strictly "I", fn "a" []⟩, ⟨.strictly "I", fn "a" []⟩, ⟨.pure "I" (some ["a"]), fn "f" ["g", "a"]⟩,
  ⟨.pure "I" (some ["a"]), fn "g" []⟩]

theorem first51g : GuardsFirst "f" es51g := by
  intro pre e post he isl' l hd g hg
  right
  have hpre : ⟨.strictly "I", fn "a" []⟩ ∈ pre := by
    cases pre with
    | nil =>
      simp only [es51g, List.nil_append, List.cons.injEq] at he
      rw [← he.1] at hd; cases hd
    | cons x pre =>
      simp only [es51g, List.cons_append, List.cons.injEq] at he
      rw [← he.1]; simp
  refine ⟨_, hpre, ?_⟩
  have hm : e ∈ es51g := by rw [he]; simp
  simp only [es51g, List.mem_cons, List.not_mem_nil, or_false] at hm
  rcases hm with rfl | rfl | rfl | rfl <;> simp at hd <;> (rw [← hd.2] at hg; simp at hg; rw [hg]; rfl)

example := (C51_restored_iff_partial E_ok E_ok rfl (R := run E {} ops51g) ⟨ops51g, rfl⟩ (i := 2)
  (R1 := (start E (run E {} ops51g) 2).1) (R2 := (pickle E (start E (run E {} ops51g) 2).1 2).1)
  (Prod.ext rfl (by decide +kernel)) (isl := "I") (s := fn "f" ["g", "a"]) (st := false) (gs := some ["a"]) (es := es51g)
  (Prod.ext rfl (by decide +kernel))
  (C51_guards_sorted E_ok (ops := ops51g) (by decide) (i := 2) (R2 := (pickle E (start E (run E {} ops51g) 2).1 2).1)
    (Prod.ext rfl (by decide +kernel)) (isl := "I") (s := fn "f" ["g", "a"]) (st := false) (gs := some ["a"]) (Prod.ext rfl (by decide +kernel)))
  (R0 := {}) ⟨[], rfl⟩ (p := 0) (fun x => rfl)).1 first51g
example : restored (stored ops51g 2) = some (true, ["f", "a", "g"]) := by decide +kernel

example : restored (stored ops51 2) = some (true, ["f", "g", "h"]) := by decide +kernel

-- `C51_conflicting_version_refused`: the session that executed `f` accepts the pickled state of `f`, and refuses one
-- with another version of `h`
def R51 : Reg := run E {} (ops51 ++ [.start 2])
def restored51 : Reg × Option Nat := restore E R51 0 (.pure "I" (fn "f" ["g"]) false none es51)
theorem restored51_eq : restored51.2 = some 3 := by decide +kernel
theorem f51_isSome : (R51.at ⟨0, "I", "f"⟩).isSome = true := by decide +kernel
theorem f51_full : ((R51.at ⟨0, "I", "f"⟩).get f51_isSome).full = true := by decide +kernel

example := C51_conflicting_version_refused E_ok (R := R51) ⟨_, rfl⟩ (p := 0) (isl := "I")
  (s := fn "f" ["g"]) (st := false) (gs := none) (es := es51) (Option.some_get f51_isSome).symm f51_full
  (R' := restored51.1) (k := 3) (Prod.ext rfl restored51_eq)
example : (restore E (run E {} (ops51 ++ [.start 2])) 0 (.pure "I" (fn "f" ["g"]) false none
    [⟨.pure "I" none, fn "f" ["g"]⟩, ⟨.autonomous "I", fn "g" ["h"]⟩, ⟨.strictly "I", fn "h" ["max"]⟩])).2 = none := by
  decide +kernel

/-- C51 is false of the code for guards whose names come after the function's: `f` with guard `z` runs, but cannot be
restored where `z` is not known; with guard `a` it can. -/
theorem C51_guard_after_function_counterexample :
    (start E (run E {} [strictly (fn "z" []), pur (fn "f" []) (some [.name "z"])]) 1).2 = true ∧
    restored (stored [strictly (fn "z" []), pur (fn "f" []) (some [.name "z"])] 1) = some (false, ["f"]) ∧
    restored (stored [strictly (fn "a" []), pur (fn "f" []) (some [.name "a"])] 1) = some (true, ["f", "a"]) := by
  decide +kernel

/-- C51 is false of the code if a pure dependency `g` has a guard, whatever the names: the guard is not part of the
augmented source of `f`. -/
theorem C51_guard_of_dependency_counterexample :
    (start E (run E {} [strictly (fn "a" []), pur (fn "g" []) (some [.name "a"]), pur (fn "f" ["g"])]) 2).2 = true ∧
    restored (stored [strictly (fn "a" []), pur (fn "g" []) (some [.name "a"]), pur (fn "f" ["g"])] 2) = some (false, ["f"]) := by
  decide +kernel

end Pyth.Registry.Ex
