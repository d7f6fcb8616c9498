import Verif.Proofs.RegistryDeps
/-! # The invariant of reachable registries -/
set_option linter.unusedSectionVars false
set_option linter.unusedVariables false
set_option linter.unusedSimpArgs false
namespace Pyth.Registry
open Pyth.Analyzer

/-! ## Registered objects after an elementary change -/

theorem at_alloc {R : Reg} (w : Wf R) (o : Obj) (k : Key) : (R.alloc o).1.at k = R.at k := by
  show (R.known.lookup k).bind (fun j => (R.alloc o).1.objs[j]?) = (R.known.lookup k).bind fun j => R.objs[j]?
  cases h : R.known.lookup k with
  | none => rfl
  | some j =>
    obtain ⟨r, h1, _⟩ := w.at_of_lookup h
    have hlt : j < R.objs.length := by
      rcases Nat.lt_or_ge j R.objs.length with h | h
      · exact h
      · rw [List.getElem?_eq_none h] at h1; cases h1
    simp only [Option.bind_some, getElem?_alloc]
    rw [if_neg (by omega)]

theorem at_alloc_new {R : Reg} (w : Wf R) (o : Obj) (hn : R.at o.key = none) (k : Key) :
    (Reg.alloc { R with known := R.known ++ [(o.key, R.objs.length)] } o).1.at k = if k = o.key then some o else R.at k := by
  have hl : R.known.lookup o.key = none := by
    cases h : R.known.lookup o.key with
    | none => rfl
    | some j =>
      obtain ⟨r, _, h2, _⟩ := w.at_of_lookup h
      rw [hn] at h2; cases h2
  show ((R.known ++ [(o.key, R.objs.length)]).lookup k).bind (fun j => (Reg.alloc { R with known := R.known ++ [(o.key, R.objs.length)] } o).1.objs[j]?) = _
  rw [List.lookup_append]
  by_cases e : k = o.key
  · subst e
    rw [hl, if_pos rfl]
    simp [Reg.alloc]
  · rw [if_neg e]
    cases h : R.known.lookup k with
    | none =>
      have : (k == o.key) = false := by simpa using e
      simp [List.lookup, this, Reg.at, h]
    | some j =>
      obtain ⟨r, h1, _⟩ := w.at_of_lookup h
      have hlt : j < R.objs.length := by
        rcases Nat.lt_or_ge j R.objs.length with h | h
        · exact h
        · rw [List.getElem?_eq_none h] at h1; cases h1
      simp only [Option.some_or, Option.bind_some, getElem?_alloc, Reg.at, h]
      rw [if_neg (by omega)]

/-- a registered object is registered under its own key -/
theorem Wf.lookup_key {R : Reg} (w : Wf R) {k : Key} {i : Nat} {o : Obj} (h : R.known.lookup k = some i) (ho : R.objs[i]? = some o) :
    o.key = k := by
  obtain ⟨r, h1, h2, h3, _⟩ := w.at_of_lookup h
  rw [ho] at h1; injection h1 with h1; subst h1; exact h3

/-! ## Good dependencies -/

/-- `d` are good dependencies of the function `s` in the island -/
structure Good (E : Env) (R : Reg) (p : Nat) (isl : String) (s : Src) (d : List String) : Prop where
  nodup : d.Nodup
  sorted : sort d = d
  self : s.name ∈ d
  names : ∀ x ∈ d, ∃ r, R.at ⟨p, isl, x⟩ = some r
  covers : ∀ a, analyze s.node = some a → ∀ x ∈ a.glob ++ a.uncl, x ∈ available E s.name ∨ x ∈ d
  reach : ∀ x ∈ d, CallGraph.Reaches (fun a b => Link R p isl a b ∧ b ∈ d) s.name x

theorem Link.ext {R R' : Reg} (h : Ext R R') {p : Nat} {isl a b : String} (hl : Link R p isl a b) : Link R' p isl a b := by
  obtain ⟨⟨r, hr⟩, r', hr', h3⟩ := hl
  obtain ⟨q, hq, _⟩ := h.at hr
  obtain ⟨q', hq', hs⟩ := h.at hr'
  exact ⟨⟨q, hq⟩, q', hq', h3.imp id (fun a => by rw [hs.src]; exact a)⟩

theorem reaches_mono {N : Type} {P Q : N → N → Prop} (h : ∀ a b, P a b → Q a b) {a b : N} (hr : CallGraph.Reaches P a b) :
    CallGraph.Reaches Q a b := by
  induction hr with
  | refl => exact .refl _
  | step h1 _ ih => exact .step (h _ _ h1) ih

theorem Good.ext {E : Env} {R R' : Reg} (h : Ext R R') {p : Nat} {isl : String} {s : Src} {d : List String} (g : Good E R p isl s d) :
    Good E R' p isl s d :=
  ⟨g.nodup, g.sorted, g.self, fun x hx => by
    obtain ⟨r, hr⟩ := g.names x hx
    obtain ⟨r', hr', _⟩ := h.at hr
    exact ⟨r', hr'⟩, g.covers, fun x hx => reaches_mono (fun a b hab => ⟨hab.1.ext h, hab.2⟩) (g.reach x hx)⟩

theorem explore_good {E : Env} (hE : E.Ok) {R : Reg} (w : Wf R) {p : Nat} {isl : String} {s : Src} {a : St} {d : List String}
    (hr : ∃ r, R.at ⟨p, isl, s.name⟩ = some r ∧ r.src = s) (ha : analyze s.node = some a)
    (hq : minus (required E s a) (R.islandNames p isl) = []) (hd : exploreDeps E R p isl s.name = some d) :
    Good E R p isl s d := by
  obtain ⟨h1, h2, h3⟩ := (explore_spec hE w p isl s.name).1 d hd
  obtain ⟨r, hr, hrs⟩ := hr
  have hname : ∀ x, CallGraph.Reaches (Link R p isl) s.name x → ∃ r, R.at ⟨p, isl, x⟩ = some r := by
    intro x hx
    have : ∀ y x, CallGraph.Reaches (Link R p isl) y x → (∃ r, R.at ⟨p, isl, y⟩ = some r) → ∃ r, R.at ⟨p, isl, x⟩ = some r := by
      intro y x hy
      induction hy with
      | refl => exact id
      | step h _ ih => exact fun _ => ih h.1
    exact this _ _ hx ⟨r, hr⟩
  refine ⟨h1, h2, (h3 _).2 (.refl _), fun x hx => hname x ((h3 x).1 hx), ?_, ?_⟩
  · intro a' ha' x hx
    rw [ha] at ha'; injection ha' with ha'; subst ha'
    by_cases hav : x ∈ available E s.name
    · exact .inl hav
    · right
      have hreq : x ∈ required E s a := (mem_minus _ _ _).2 ⟨hx, hav⟩
      have hisl : x ∈ R.islandNames p isl := by
        by_contra hn
        have : x ∈ minus (required E s a) (R.islandNames p isl) := (mem_minus _ _ _).2 ⟨hreq, hn⟩
        rw [hq] at this; cases this
      rw [h3]
      refine .step ⟨w.mem_names.1 hisl, r, hr, .inr ⟨a, by rw [hrs]; exact ha, ?_⟩⟩ (.refl x)
      simp only [List.mem_append] at hx ⊢
      tauto
  · intro x hx
    have : ∀ y x, CallGraph.Reaches (Link R p isl) y x → CallGraph.Reaches (Link R p isl) s.name y →
        CallGraph.Reaches (fun a b => Link R p isl a b ∧ b ∈ d) y x := by
      intro y x hy
      induction hy with
      | refl => exact fun _ => .refl _
      | step h _ ih =>
        intro hy'
        have := hy'.trans (.step h (.refl _))
        exact .step ⟨h, (h3 _).2 this⟩ (ih this)
    exact this _ _ ((h3 x).1 hx) (.refl _)

/-! ## Good augmented sources -/

/-- the decorator of an entry is that of the function, except that a later completion may have changed an
autonomous function into a strictly autonomous one -/
def DecoOf (f : Obj) (d : Deco) : Prop := ∃ b, d = Obj.deco { f with strict := b }

/-- `es` is a good augmented source of `r` -/
structure AugOk (R : Reg) (r : Obj) (d : List String) (es : List Entry) : Prop where
  names : es.map (·.src.name) = sort (r.guards.getD [] ++ d)
  entries : ∀ e ∈ es, ∃ f, R.at ⟨r.portal, r.island, e.src.name⟩ = some f ∧ e.src = f.src ∧ DecoOf f e.deco
  /-- a function that is listed twice (a guard that is a dependency) is listed with the same text -/
  uniq : ∀ e ∈ es, ∀ e' ∈ es, e.src.name = e'.src.name → e = e'
  /-- the dependencies contain every function of the augmented source that they use -/
  closed : ∀ x ∈ d, ∀ e ∈ es, Link R r.portal r.island x e.src.name → e.src.name ∈ d
  /-- the dependencies are functions of the island -/
  inside : ∀ x ∈ d, ∃ f, R.at ⟨r.portal, r.island, x⟩ = some f

theorem DecoOf.same {f f' : Obj} (h : Same f f') {d : Deco} (hd : DecoOf f d) : DecoOf f' d := by
  obtain ⟨b, rfl⟩ := hd
  exact ⟨b, by simp only [Obj.deco, h.cls, h.island, h.guards]⟩

theorem AugOk.ext {R R' : Reg} (h : Ext R R') {r r' : Obj} (hs : Same r r') {d : List String} {es : List Entry} (g : AugOk R r d es) :
    AugOk R' r' d es := by
  refine ⟨by rw [hs.guards]; exact g.names, ?_, g.uniq, ?_, ?_⟩
  · intro e he
    obtain ⟨f, h1, h2, h3⟩ := g.entries e he
    obtain ⟨f', h4, h5⟩ := h.at h1
    exact ⟨f', by rw [hs.portal, hs.island]; exact h4, h2.trans h5.src.symm, h3.same h5⟩
  · intro x hx e he hl
    refine g.closed x hx e he ?_
    rw [hs.portal, hs.island] at hl
    obtain ⟨_, q', l1, l2⟩ := hl
    obtain ⟨q, k1⟩ := g.inside x hx
    obtain ⟨f, h1, h2, h3⟩ := g.entries e he
    obtain ⟨q'', k2, k3⟩ := h.at k1
    rw [k2] at l1; injection l1 with l1; subst l1
    exact ⟨⟨f, h1⟩, q, k1, by rw [← k3.src]; exact l2⟩
  · intro x hx
    obtain ⟨q, k1⟩ := g.inside x hx
    obtain ⟨q', k2, _⟩ := h.at k1
    exact ⟨q', by rw [hs.portal, hs.island]; exact k2⟩

theorem mapM_spec {α β : Type} (f : α → Option β) {l : List α} {r : List β} (h : l.mapM f = some r) :
    List.Forall₂ (fun a b => f a = some b) l r := by
  induction l generalizing r with
  | nil => simp at h; subst h; exact .nil
  | cons a l ih =>
    simp only [List.mapM_cons, Option.bind_eq_bind, Option.bind_eq_some_iff, Option.pure_def, Option.some.injEq] at h
    obtain ⟨b, h1, bs, h2, rfl⟩ := h
    exact .cons h1 (ih h2)

theorem forall₂_mem_right {α β : Type} {P : α → β → Prop} {l : List α} {r : List β} (h : List.Forall₂ P l r) {b : β} (hb : b ∈ r) :
    ∃ a ∈ l, P a b := by
  induction h with
  | nil => cases hb
  | cons h1 _ ih =>
    rcases List.mem_cons.1 hb with rfl | hb
    · exact ⟨_, by simp, h1⟩
    · obtain ⟨a, h2, h3⟩ := ih hb
      exact ⟨a, by simp [h2], h3⟩

theorem dependencies_spec {R : Reg} {o : Obj} {d : List String} (h : dependencies R o = some d) :
    ∃ r d0, R.at o.key = some r ∧ r.deps = some d0 ∧ d = sort d0 ∧ d0 ≠ [] ∧ (o.strict = true → d0.length = 1) := by
  unfold dependencies at h
  split at h
  · cases h
  · rename_i r hr
    split at h
    · cases h
    · rename_i d0 hd
      split at h
      · cases h
      · rename_i hne
        split at h
        · cases h
        · rename_i hs
          injection h with h
          refine ⟨r, d0, hr, hd, h.symm, hne, fun ht => ?_⟩
          by_contra hl
          exact hs ⟨ht, hl⟩

theorem augment_ok {R : Reg} (w : Wf R) {o r : Obj} (hr : R.at o.key = some r) (hg : r.guards = o.guards) {es : List Entry}
    (h : augment R o = some es) (hsort : ∀ d, r.deps = some d → sort d = d)
    (hin : ∀ d, r.deps = some d → ∀ x ∈ d, ∃ f, R.at ⟨r.portal, r.island, x⟩ = some f)
    (hcl : ∀ d, r.deps = some d → ∀ x ∈ d, ∀ y, Link R r.portal r.island x y → y ∈ d) :
    ∃ d, r.deps = some d ∧ AugOk R r d es := by
  unfold augment at h
  split at h
  · cases h
  · rename_i d hd
    obtain ⟨r', d0, h1, h2, h3, h4, h5⟩ := dependencies_spec hd
    rw [hr] at h1; injection h1 with h1; subst h1
    have hk : r.portal = o.portal ∧ r.island = o.island := by
      obtain ⟨j, q1, q2, q3, q4⟩ := w.of_at hr
      constructor
      · simpa [Obj.key] using congrArg Key.portal q3
      · simpa [Obj.key] using congrArg Key.island q3
    refine ⟨d0, h2, ?_⟩
    rw [h3, hsort d0 h2] at h
    have hf := mapM_spec _ h
    have hent : ∀ n e, entryOf R o.portal o.island n = some e → e.src.name = n ∧
        ∃ f, R.at ⟨o.portal, o.island, n⟩ = some f ∧ e.src = f.src ∧ e.deco = f.deco := by
      intro n e he
      unfold entryOf at he
      rw [Option.map_eq_some_iff] at he
      obtain ⟨f, h1, rfl⟩ := he
      obtain ⟨j, q1, q2, q3, q4⟩ := w.of_at h1
      exact ⟨by simpa [Obj.key] using congrArg Key.name q3, f, h1, rfl, rfl⟩
    constructor
    · rw [hg]
      have : ∀ (l : List String) (r : List Entry), List.Forall₂ (fun n e => entryOf R o.portal o.island n = some e) l r →
          r.map (·.src.name) = l := by
        intro l r h
        induction h with
        | nil => rfl
        | cons h1 _ ih => simp [(hent _ _ h1).1, ih]
      exact this _ _ hf
    · intro e he
      obtain ⟨n, _, h1⟩ := forall₂_mem_right hf he
      obtain ⟨h2, f, h3, h4, h5⟩ := hent n e h1
      subst h2
      refine ⟨f, by rw [hk.1, hk.2]; exact h3, h4, f.strict, ?_⟩
      rw [h5]
    · intro e he e' he' hn
      obtain ⟨n, _, h1⟩ := forall₂_mem_right hf he
      obtain ⟨n', _, h1'⟩ := forall₂_mem_right hf he'
      have : n = n' := by rw [← (hent n e h1).1, ← (hent n' e' h1').1]; exact hn
      subst this
      rw [h1] at h1'; injection h1'
    · intro x hx e he hl
      exact hcl d0 h2 x hx _ hl
    · exact hin d0 h2

/-! ## The invariant -/

structure Inv (E : Env) (R : Reg) : Prop where
  wf : Wf R
  deps : ∀ (i : Nat) (o : Obj) (d : List String), R.objs[i]? = some o → o.deps = some d → Good E R o.portal o.island o.src d
  full : ∀ (i : Nat) (o : Obj), R.objs[i]? = some o → o.full = true → ∃ r, R.at o.key = some r ∧ r.full = true
  done : ∀ (k : Key) (r : Obj), R.at k = some r → r.full = true → ∃ d, r.deps = some d ∧
    (r.cls = .pure → ∃ es, r.aug = some es ∧ AugOk R r d es)

theorem Inv.empty (E : Env) : Inv E {} := ⟨Wf.empty, by simp, by simp, by simp [Reg.at]⟩

/-- what the parts of the invariant say about one registered object -/
theorem Inv.reg {E : Env} {R : Reg} (h : Inv E R) {k : Key} {r : Obj} (hr : R.at k = some r) {d : List String} (hd : r.deps = some d) :
    Good E R r.portal r.island r.src d := by
  obtain ⟨j, _, h2, _⟩ := h.wf.of_at hr
  exact h.deps j r d h2 hd

theorem inv_change {E : Env} {R R' : Reg} (h : Inv E R) (hw : Wf R') (he : Ext R R') (hk : R'.known = R.known) (g : Nat → Obj → Obj)
    (hg : ∀ m : Nat, R'.objs[m]? = (R.objs[m]?).map (g m)) (hs : ∀ (m : Nat) (o : Obj), R.objs[m]? = some o → Same o (g m o))
    (hdeps : ∀ (m : Nat) (o : Obj) (d : List String), R.objs[m]? = some o → (g m o).deps = some d → Good E R o.portal o.island o.src d)
    (hfull : ∀ (m : Nat) (o : Obj), R.objs[m]? = some o → (g m o).full = true →
      ∃ (n : Nat) (r : Obj), R.known.lookup o.key = some n ∧ R.objs[n]? = some r ∧ (g n r).full = true)
    (hdone : ∀ (n : Nat) (k : Key) (r : Obj), R.known.lookup k = some n → R.objs[n]? = some r → (g n r).full = true →
      ∃ d, (g n r).deps = some d ∧ (r.cls = .pure → ∃ es, (g n r).aug = some es ∧ AugOk R r d es)) : Inv E R' := by
  have back : ∀ (m : Nat) (o' : Obj), R'.objs[m]? = some o' → ∃ o, R.objs[m]? = some o ∧ o' = g m o := by
    intro m o' h
    rw [hg, Option.map_eq_some_iff] at h
    obtain ⟨o, h1, h2⟩ := h
    exact ⟨o, h1, h2.symm⟩
  refine ⟨hw, ?_, ?_, ?_⟩
  · intro m o' d ho' hd
    obtain ⟨o, h1, rfl⟩ := back m o' ho'
    have := hs m o h1
    rw [this.portal, this.island, this.src]
    exact (hdeps m o d h1 hd).ext he
  · intro m o' ho' hf
    obtain ⟨o, h1, rfl⟩ := back m o' ho'
    obtain ⟨n, r, q1, q2, q3⟩ := hfull m o h1 hf
    refine ⟨g n r, ?_, q3⟩
    rw [(hs m o h1).key]
    simp [Reg.at, hk, q1, hg, q2]
  · intro k r' hr' hf
    have hr'' := hr'
    simp only [Reg.at, hk, Option.bind_eq_some_iff] at hr'
    obtain ⟨n, h1, h2⟩ := hr'
    obtain ⟨r, h3, rfl⟩ := back n r' h2
    obtain ⟨d, h4, h5⟩ := hdone n k r h1 h3 hf
    refine ⟨d, h4, fun hc => ?_⟩
    obtain ⟨es, h6, h7⟩ := h5 ((hs n r h3).cls.symm.trans hc)
    exact ⟨es, h6, h7.ext he (hs n r h3)⟩

theorem get_modify (R : Reg) (i : Nat) (f : Obj → Obj) (m : Nat) :
    (R.modify i f).objs[m]? = (R.objs[m]?).map (if i = m then f else id) := by
  rw [getElem?_modify']; split <;> simp

theorem get_modify2 (R : Reg) (i j : Nat) (f f' : Obj → Obj) (m : Nat) :
    ((R.modify i f).modify j f').objs[m]? = (R.objs[m]?).map fun o => (if j = m then f' else id) ((if i = m then f else id) o) := by
  rw [get_modify, get_modify, Option.map_map]; rfl

theorem Inv.full_at {E : Env} {R : Reg} (h : Inv E R) {m : Nat} {o : Obj} (ho : R.objs[m]? = some o) (hf : o.full = true) :
    ∃ (n : Nat) (r : Obj), R.known.lookup o.key = some n ∧ R.objs[n]? = some r ∧ r.full = true := by
  obtain ⟨r, h1, h2⟩ := h.full m o ho hf
  obtain ⟨n, h3, h4, _⟩ := h.wf.of_at h1
  exact ⟨n, r, h3, h4, h2⟩

theorem Inv.done_at {E : Env} {R : Reg} (h : Inv E R) {n : Nat} {k : Key} {r : Obj} (hl : R.known.lookup k = some n) (hr : R.objs[n]? = some r)
    (hf : r.full = true) : ∃ d, r.deps = some d ∧ (r.cls = .pure → ∃ es, r.aug = some es ∧ AugOk R r d es) :=
  h.done k r (by simp [Reg.at, hl, hr]) hf

/-- a change of marks that matter neither for dependencies nor for completion -/
theorem inv_mark {E : Env} {R : Reg} (h : Inv E R) (i : Nat) (f : Obj → Obj) (hf : ∀ o, Same o (f o) ∧ (f o).deps = o.deps ∧ (f o).full = o.full)
    (ha : ∀ o, R.objs[i]? = some o → (f o).aug = o.aug ∨ o.full = false) : Inv E (R.modify i f) := by
  have hk := modify_ok h.wf i f (fun o _ => (hf o).1)
  have key : ∀ m o, Same o ((if i = m then f else id) o) ∧ ((if i = m then f else id) o).deps = o.deps ∧
      ((if i = m then f else id) o).full = o.full := by
    intro m o
    split
    · exact hf o
    · exact ⟨Same.refl o, rfl, rfl⟩
  refine inv_change h hk.1 hk.2 rfl (fun m => if i = m then f else id) (get_modify R i f) (fun m o _ => (key m o).1) ?_ ?_ ?_
  · intro m o d ho hd
    rw [(key m o).2.1] at hd
    exact h.deps m o d ho hd
  · intro m o ho hfu
    rw [(key m o).2.2] at hfu
    obtain ⟨n, r, h1, h2, h3⟩ := h.full_at ho hfu
    exact ⟨n, r, h1, h2, by rw [(key n r).2.2]; exact h3⟩
  · intro n k r hl hr hfu
    rw [(key n r).2.2] at hfu
    obtain ⟨d, h1, h2⟩ := h.done_at hl hr hfu
    refine ⟨d, by rw [(key n r).2.1]; exact h1, fun hc => ?_⟩
    obtain ⟨es, h3, h4⟩ := h2 hc
    refine ⟨es, ?_, h4⟩
    by_cases e : i = n
    · subst e
      rw [if_pos rfl]
      rcases ha r hr with q | q
      · rw [q, h3]
      · rw [hfu] at q; cases q
    · rw [if_neg e]; exact h3

theorem prim_inv {E : Env} {b : Bool} (hE : E.Ok) {R R' : Reg} (h : Inv E R) (hp : Prim E b R R') : Inv E R' := by
  have hwe := prim_wf h.wf hp
  cases hp with
  | island p isl =>
    have hi := addIsland_ok h.wf p isl
    exact inv_change h hwe.1 hwe.2 hi.2.2.2.1 (fun _ => id) (fun m => by rw [hi.2.2.2.2]; simp) (fun m o _ => Same.refl o)
      (fun m o d ho hd => h.deps m o d ho hd) (fun m o ho hf => h.full_at ho hf) (fun n k r hl hr hf => h.done_at hl hr hf)
  | handle o r o' hr hs hd hc hf hu =>
    have hkey : r.key = o.key := by obtain ⟨j, _, _, q, _⟩ := h.wf.of_at hr; exact q
    have hp : r.portal = o.portal := by simpa [Obj.key] using congrArg Key.portal hkey
    have hi : r.island = o.island := by simpa [Obj.key] using congrArg Key.island hkey
    have e : o'.src = r.src ∧ o'.portal = r.portal ∧ o'.island = r.island ∧ (o'.full = true → r.full = true) ∧
        (∀ d, o'.deps = some d → r.deps = some d) := by
      unfold update at hu
      split at hu
      · cases hu
      · injection hu with hu; subst hu
        refine ⟨rfl, hp.symm, rfl, by simp [hf.full], ?_⟩
        intro d hd
        dsimp only at hd
        split at hd
        · exact hd
        · rw [hf.deps] at hd; cases hd
    refine ⟨hwe.1, ?_, ?_, ?_⟩
    · intro m p d hm hd
      rw [getElem?_alloc] at hm
      split at hm
      · injection hm with hm; subst hm
        rw [e.1, e.2.1, e.2.2.1]
        exact (h.reg hr (e.2.2.2.2 d hd)).ext hwe.2
      · exact (h.deps m p d hm hd).ext hwe.2
    · intro m p hm hfp
      rw [at_alloc h.wf]
      rw [getElem?_alloc] at hm
      split at hm
      · injection hm with hm; subst hm
        have hk' : o'.key = o.key := by simp [Obj.key, e.1, e.2.1, e.2.2.1, hs, hp, hi]
        exact ⟨r, hk' ▸ hr, e.2.2.2.1 hfp⟩
      · exact h.full m p hm hfp
    · intro k r' hr' hfr
      rw [at_alloc h.wf] at hr'
      obtain ⟨d, h1, h2⟩ := h.done k r' hr' hfr
      refine ⟨d, h1, fun hc => ?_⟩
      obtain ⟨es, h3, h4⟩ := h2 hc
      exact ⟨es, h3, h4.ext hwe.2 (Same.refl r')⟩
  | register o hr hi ha hf =>
    refine ⟨hwe.1, ?_, ?_, ?_⟩
    · intro m p d hm hd
      rw [getElem?_alloc] at hm
      split at hm
      · injection hm with hm; subst hm
        rw [hf.deps] at hd; cases hd
      · exact (h.deps m p d hm hd).ext hwe.2
    · intro m p hm hfp
      rw [at_alloc_new h.wf o hr]
      rw [getElem?_alloc] at hm
      split at hm
      · injection hm with hm; subst hm
        rw [hf.full] at hfp; cases hfp
      · obtain ⟨r, h1, h2⟩ := h.full m p hm hfp
        refine ⟨r, ?_, h2⟩
        rw [if_neg]
        · exact h1
        · intro e; rw [e, hr] at h1; cases h1
    · intro k r' hr' hfr
      rw [at_alloc_new h.wf o hr] at hr'
      split at hr'
      · injection hr' with hr'; subst hr'
        rw [hf.full] at hfr; cases hfr
      · obtain ⟨d, h1, h2⟩ := h.done k r' hr' hfr
        refine ⟨d, h1, fun hc => ?_⟩
        obtain ⟨es, h3, h4⟩ := h2 hc
        exact ⟨es, h3, h4.ext hwe.2 (Same.refl r')⟩
  | compile i j o r c hr => exact inv_mark h i _ (fun o => ⟨⟨rfl, rfl, rfl, rfl, rfl⟩, rfl, rfl⟩) (fun o _ => .inl rfl)
  | flip i j o r a c hr hm ha hs hl => exact inv_mark h i _ (fun o => ⟨⟨rfl, rfl, rfl, rfl, rfl⟩, rfl, rfl⟩) (fun o _ => .inl rfl)
  | adopt k j r es hl hr hf hc hb =>
    exact inv_mark h j _ (fun o => ⟨⟨rfl, rfl, rfl, rfl, rfl⟩, rfl, rfl⟩)
      (fun o ho => .inr (by rw [hr] at ho; injection ho with ho; subst ho; exact hf))
  | refresh i j o r o' c hr hc hu =>
    have hkey : r.key = o.key := by obtain ⟨j', _, _, q, _⟩ := h.wf.of_at c.at; exact q
    have hij : ∀ (k : Key) (n : Nat), R.known.lookup k = some n → n ≠ i := by
      rintro k n hl rfl
      have := h.wf.lookup_key hl c.obj
      subst this
      rw [c.look] at hl; injection hl with hl; subst hl
      have h1 := c.obj; have h2 := c.reg; rw [h1] at h2; injection h2 with h2; subst h2
      rw [c.part] at hr; cases hr
    have hg : ∀ m o1, R.objs[m]? = some o1 → m ≠ i ∨ o1 = o := by
      intro m o1 ho1
      by_cases e : m = i
      · subst e; rw [c.obj] at ho1; injection ho1 with ho1; exact .inr ho1.symm
      · exact .inl e
    obtain ⟨r', q1, q2, q3, q4⟩ := h.wf.handle i o c.obj
    rw [c.at] at q1; injection q1 with q1; subst q1
    have hisl : r.island = o.island := by simpa [Obj.key] using congrArg Key.island hkey
    have hpor : r.portal = o.portal := by simpa [Obj.key] using congrArg Key.portal hkey
    have hso : Same o o' := update_same q2.symm hisl.symm q4.symm hu
    have hd' : ∀ d, o'.deps = some d → r.deps = some d := by
      intro d hd
      unfold update at hu
      split at hu
      · cases hu
      · injection hu with hu; subst hu
        dsimp only at hd
        simpa [hr] using hd
    refine inv_change h hwe.1 hwe.2 rfl (fun m => if i = m then fun _ => o' else id) (get_modify R i _) ?_ ?_ ?_ ?_
    · intro m o1 ho1
      split
      · rename_i e; subst e
        rw [c.obj] at ho1; injection ho1 with ho1; subst ho1; exact hso
      · exact Same.refl _
    · intro m o1 d ho1 hd
      split at hd
      · rename_i e; subst e
        rw [c.obj] at ho1; injection ho1 with ho1; subst ho1
        have := h.reg c.at (hd' d hd)
        rw [hpor, hisl, q2] at this; exact this
      · exact h.deps m o1 d ho1 hd
    · intro m o1 ho1 hf1
      split at hf1
      · rename_i e; subst e
        rw [c.obj] at ho1; injection ho1 with ho1; subst ho1
        refine ⟨j, r, c.look, c.reg, ?_⟩
        rw [if_neg (fun e => hij _ j c.look e.symm)]; exact hr
      · obtain ⟨n, r1, h1, h2, h3⟩ := h.full_at ho1 hf1
        refine ⟨n, r1, h1, h2, ?_⟩
        rw [if_neg (fun e => hij _ n h1 e.symm)]; exact h3
    · intro n k r1 hl hr1 hf1
      have e : ¬ i = n := fun e => hij k n hl e.symm
      rw [if_neg e] at hf1 ⊢
      exact h.done_at hl hr1 hf1
  | record i j o r a d c hr hm ha hs hq hd hne =>
    have hgood : Good E R o.portal o.island o.src d := explore_good hE h.wf
      ⟨r, c.at, c.src.symm⟩ ha hq hd
    have hkey : r.key = o.key := by obtain ⟨j', _, _, q, _⟩ := h.wf.of_at c.at; exact q
    have hisl : r.island = o.island := by simpa [Obj.key] using congrArg Key.island hkey
    have hpor : r.portal = o.portal := by simpa [Obj.key] using congrArg Key.portal hkey
    have hgr : Good E R r.portal r.island r.src d := by rw [hpor, hisl, ← c.src]; exact hgood
    have hcls : r.cls = o.cls := by
      obtain ⟨r', q1, q2, q3, q4⟩ := h.wf.handle i o c.obj
      rw [c.at] at q1; injection q1 with q1; subst q1; exact q3
    -- the change, with `b` telling whether the objects are marked
    have main : ∀ b : Bool, (b = true → o.cls = .autonomous) → ∀ R' : Reg, Wf R' → Ext R R' → R'.known = R.known →
        (∀ m : Nat, R'.objs[m]? = (R.objs[m]?).map fun o1 => if m = i ∨ m = j then { o1 with deps := some d, full := o1.full || b } else o1) →
        Inv E R' := by
      intro b hb R' w' e' hk' hg
      have hij : ∀ (m : Nat) (o1 : Obj), R.objs[m]? = some o1 → (m = i ∨ m = j) → (o1 = o ∨ o1 = r) := by
        rintro m o1 ho1 (rfl | rfl)
        · rw [c.obj] at ho1; injection ho1 with ho1; exact .inl ho1.symm
        · rw [c.reg] at ho1; injection ho1 with ho1; exact .inr ho1.symm
      refine inv_change h w' e' hk' (fun m o1 => if m = i ∨ m = j then { o1 with deps := some d, full := o1.full || b } else o1) hg ?_ ?_ ?_ ?_
      · intro m o1 _
        split
        · exact ⟨rfl, rfl, rfl, rfl, rfl⟩
        · exact Same.refl _
      · intro m o1 d1 ho1 hd1
        split at hd1
        · rename_i hm1
          injection hd1 with hd1; subst hd1
          rcases hij m o1 ho1 hm1 with rfl | rfl
          · exact hgood
          · exact hgr
        · exact h.deps m o1 d1 ho1 hd1
      · intro m o1 ho1 hf1
        have pre : o1.full = true ∨ (b = true ∧ (m = i ∨ m = j)) := by
          split at hf1
          · rename_i hm1
            cases hb1 : b
            · rw [hb1] at hf1; left; simpa using hf1
            · exact .inr ⟨rfl, hm1⟩
          · exact .inl hf1
        rcases pre with pre | ⟨hb1, hm1⟩
        · obtain ⟨n, r1, h1, h2, h3⟩ := h.full_at ho1 pre
          refine ⟨n, r1, h1, h2, ?_⟩
          split <;> simp [h3]
        · refine ⟨j, r, ?_, c.reg, ?_⟩
          · rcases hij m o1 ho1 hm1 with rfl | rfl
            · exact c.look
            · rw [hkey]; exact c.look
          · simp [hb1]
      · intro n k r1 hl hr1 hf1
        split at hf1
        · rename_i hn1
          rw [if_pos hn1]
          refine ⟨d, rfl, fun hc => ?_⟩
          exfalso
          cases hb1 : b
          · rw [hb1] at hf1
            rcases hij n r1 hr1 hn1 with rfl | rfl
            · rw [c.part] at hf1; cases hf1
            · rw [hr] at hf1; cases hf1
          · have hA := hb hb1
            rcases hij n r1 hr1 hn1 with rfl | rfl
            · rw [hA] at hc; cases hc
            · rw [hcls, hA] at hc; cases hc
        · rename_i hn1
          rw [if_neg hn1]
          exact h.done_at hl hr1 hf1
    by_cases hA : o.cls = .autonomous
    · rw [if_pos hA] at hwe ⊢
      refine main true (fun _ => hA) _ hwe.1 hwe.2 rfl ?_
      intro m
      unfold markFull recordDeps
      rw [get_modify2, get_modify2, Option.map_map]
      congr 1
      funext o1
      simp only [Function.comp]
      by_cases e1 : i = m <;> by_cases e2 : j = m <;> simp [e1, e2, eq_comm]
    · rw [if_neg hA] at hwe ⊢
      refine main false (fun e => by cases e) _ hwe.1 hwe.2 rfl ?_
      intro m
      unfold recordDeps
      rw [get_modify2]
      congr 1
      funext o1
      by_cases e1 : i = m <;> by_cases e2 : j = m <;> simp [e1, e2, eq_comm]
  | store i j o r es c hc he ha hm hx =>
    have hkey : r.key = o.key := by obtain ⟨j', _, _, q, _⟩ := h.wf.of_at c.at; exact q
    obtain ⟨r', q1, q2, q3, q4⟩ := h.wf.handle i o c.obj
    rw [c.at] at q1; injection q1 with q1; subst q1
    obtain ⟨d, hd, hok⟩ : ∃ d, r.deps = some d ∧ AugOk R r d es := by
      rcases hx with hx | ⟨d, hx1, hx2⟩
      · obtain ⟨d, g1, g2⟩ := h.done _ r c.at hx
        obtain ⟨es', g3, g4⟩ := g2 (q3.trans hc)
        rcases ha with ha | ha
        · rw [ha] at g3; cases g3
        · rw [ha] at g3; injection g3 with g3; subst g3
          exact ⟨d, g1, g4⟩
      · have hpi : r.portal = o.portal ∧ r.island = o.island :=
          ⟨by simpa [Obj.key] using congrArg Key.portal hkey, by simpa [Obj.key] using congrArg Key.island hkey⟩
        refine augment_ok h.wf c.at q4 he (fun d hd => (h.reg c.at hd).sorted) (fun d hd => (h.reg c.at hd).names) ?_
        intro d' hd' x hxm y hl
        rw [hx1] at hd'; injection hd' with hd'; subst hd'
        obtain ⟨_, _, h3⟩ := (explore_spec hE h.wf o.portal o.island o.src.name).1 d hx2
        rw [hpi.1, hpi.2] at hl
        exact (h3 y).2 (((h3 x).1 hxm).trans (.step hl (.refl _)))
    have hij : ∀ (m : Nat) (o1 : Obj), R.objs[m]? = some o1 → (m = i ∨ m = j) → (o1 = o ∨ o1 = r) := by
      rintro m o1 ho1 (rfl | rfl)
      · rw [c.obj] at ho1; injection ho1 with ho1; exact .inl ho1.symm
      · rw [c.reg] at ho1; injection ho1 with ho1; exact .inr ho1.symm
    refine inv_change h hwe.1 hwe.2 rfl (fun m o1 => if m = i ∨ m = j then { o1 with aug := some es, full := true } else o1) ?_ ?_ ?_ ?_ ?_
    · intro m
      unfold markFull
      rw [get_modify2, get_modify2, Option.map_map]
      congr 1
      funext o1
      simp only [Function.comp]
      by_cases e1 : i = m <;> by_cases e2 : j = m <;> simp [e1, e2, eq_comm]
    · intro m o1 _
      split
      · exact ⟨rfl, rfl, rfl, rfl, rfl⟩
      · exact Same.refl _
    · intro m o1 d1 ho1 hd1
      split at hd1
      · exact h.deps m o1 d1 ho1 hd1
      · exact h.deps m o1 d1 ho1 hd1
    · intro m o1 ho1 hf1
      by_cases hm1 : m = i ∨ m = j
      · refine ⟨j, r, ?_, c.reg, by simp⟩
        rcases hij m o1 ho1 hm1 with rfl | rfl
        · exact c.look
        · rw [hkey]; exact c.look
      · rw [if_neg hm1] at hf1
        obtain ⟨n, r1, h1, h2, h3⟩ := h.full_at ho1 hf1
        refine ⟨n, r1, h1, h2, ?_⟩
        split <;> simp [h3]
    · intro n k r1 hl hr1 hf1
      by_cases hn1 : n = i ∨ n = j
      · rw [if_pos hn1]
        have hr1r : r1 = r := by
          have hk1 := h.wf.lookup_key hl hr1
          rcases hij n r1 hr1 hn1 with rfl | rfl
          · subst hk1
            rw [c.look] at hl; injection hl with hl; subst hl
            rw [c.reg] at hr1; injection hr1 with hr1; exact hr1.symm
          · rfl
        subst hr1r
        exact ⟨d, hd, fun _ => ⟨es, rfl, hok⟩⟩
      · rw [if_neg hn1] at hf1 ⊢
        exact h.done_at hl hr1 hf1

theorem prims_inv {E : Env} {b : Bool} (hE : E.Ok) {R R' : Reg} (h : Inv E R) (hp : Prims E b R R') : Inv E R' := by
  induction hp with
  | refl => exact h
  | tail _ hp ih => exact prim_inv hE ih hp

theorem reachable_inv {E : Env} (hE : E.Ok) {R : Reg} (h : Reachable E R) : Inv E R := by
  obtain ⟨ops, rfl⟩ := h
  exact prims_inv hE (Inv.empty E) (run_prims Wf.empty ops)

end Pyth.Registry
