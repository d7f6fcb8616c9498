import Verif.Spec.CallGraph
/-! Helper lemmas for the call graph. -/
set_option linter.unusedSectionVars false
namespace Pyth.CallGraph
variable {N : Type} [DecidableEq N]

theorem mem_insertSet {s : List N} {x y : N} : y ∈ insertSet s x ↔ y ∈ s ∨ y = x := by
  unfold insertSet
  split
  · rename_i h
    constructor
    · exact .inl
    · rintro (h1 | rfl)
      · exact h1
      · exact h
  · simp

theorem nodup_insertSet {s : List N} {x : N} (h : s.Nodup) : (insertSet s x).Nodup := by
  unfold insertSet
  split
  · exact h
  · rename_i hx
    rw [List.nodup_append]
    refine ⟨h, by simp, ?_⟩
    intro a ha b hb
    simp at hb; subst hb
    intro e; subst e; exact hx ha

theorem mem_union {s t : List N} {y : N} : y ∈ union s t ↔ y ∈ s ∨ y ∈ t := by
  unfold union
  induction t generalizing s with
  | nil => simp
  | cons a t ih => rw [List.foldl_cons, ih, mem_insertSet]; simp [or_assoc]

theorem nodup_union {s t : List N} (h : s.Nodup) : (union s t).Nodup := by
  unfold union
  induction t generalizing s with
  | nil => exact h
  | cons a t ih => exact ih (nodup_insertSet h)

theorem mem_inter {s t : List N} {y : N} : y ∈ inter s t ↔ y ∈ s ∧ y ∈ t := by
  simp [inter]

/-! dictionaries -/

theorem keys_dset (d : Deps N) (k : N) (v : List N) :
    (dset d k v).map (·.1) = if k ∈ d.map (·.1) then d.map (·.1) else d.map (·.1) ++ [k] := by
  unfold dset
  split
  · rename_i h
    rw [List.map_map]
    apply List.map_congr_left
    intro e he
    simp only [Function.comp]
    split
    · rename_i h2; exact h2.symm
    · rfl
  · simp

theorem lookup_map_ne (d : Deps N) (k k' : N) (v : List N) (h : k' ≠ k) :
    (d.map (fun e => if e.1 = k then (k, v) else e)).lookup k' = d.lookup k' := by
  induction d with
  | nil => rfl
  | cons e d ih =>
    obtain ⟨a, b⟩ := e
    simp only [List.map_cons]
    by_cases ha : a = k
    · subst ha
      have : (k' == a) = false := beq_eq_false_iff_ne.2 h
      simp [List.lookup, this, ih]
    · simp only [ha, if_false, List.lookup]
      rw [ih]

theorem lookup_map_eq (d : Deps N) (k : N) (v : List N) (h : k ∈ d.map (·.1)) :
    (d.map (fun e => if e.1 = k then (k, v) else e)).lookup k = some v := by
  induction d with
  | nil => simp at h
  | cons e d ih =>
    obtain ⟨a, b⟩ := e
    simp only [List.map_cons]
    by_cases ha : a = k
    · subst ha; simp [List.lookup]
    · have h' : k ∈ d.map (·.1) := by
        rcases List.mem_cons.1 h with h | h
        · exact absurd h.symm ha
        · exact h
      have : (k == a) = false := beq_eq_false_iff_ne.2 (fun e => ha e.symm)
      simp only [ha, if_false, List.lookup, this]
      exact ih h'

theorem lookup_append (d : Deps N) (k k' : N) (v : List N) (h : k ∉ d.map (·.1)) :
    (d ++ [(k, v)]).lookup k' = if k' = k then some v else d.lookup k' := by
  induction d with
  | nil =>
    simp only [List.nil_append, List.lookup]
    by_cases hk : k' = k
    · simp [hk]
    · have : (k' == k) = false := beq_eq_false_iff_ne.2 hk
      simp [this, hk]
  | cons e d ih =>
    obtain ⟨a, b⟩ := e
    simp only [List.map_cons, List.mem_cons, not_or] at h
    simp only [List.cons_append, List.lookup]
    by_cases hk : k' = a
    · subst hk
      have : ¬ k' = k := fun e => h.1 e.symm
      simp [this]
    · have : (k' == a) = false := beq_eq_false_iff_ne.2 hk
      simp only [this]
      exact ih h.2

theorem dget_dset (d : Deps N) (k k' : N) (v : List N) :
    dget (dset d k v) k' = if k' = k then some v else dget d k' := by
  unfold dget dset
  split
  · rename_i h
    by_cases hk : k' = k
    · subst hk; rw [lookup_map_eq d k' v h]; simp
    · rw [lookup_map_ne d k k' v hk]; simp [hk]
  · rename_i h
    exact lookup_append d k k' v h

theorem dget_isSome (d : Deps N) (k : N) : (dget d k).isSome ↔ k ∈ d.map (·.1) := by
  unfold dget
  induction d with
  | nil => simp
  | cons e d ih =>
    obtain ⟨a, b⟩ := e
    simp only [List.lookup, List.map_cons, List.mem_cons]
    by_cases hk : k = a
    · simp [hk]
    · have : (k == a) = false := beq_eq_false_iff_ne.2 hk
      simp only [this, hk, false_or]
      exact ih

theorem dget_of_mem {d : Deps N} {k : N} (h : k ∈ d.map (·.1)) : ∃ s, dget d k = some s := by
  have := (dget_isSome d k).2 h
  exact Option.isSome_iff_exists.1 this

/-! collection -/

/-- induction from the right end -/
theorem revRec {α : Type} {motive : List α → Prop} (l : List α) (nil : motive [])
    (snoc : ∀ l a, motive l → motive (l ++ [a])) : motive l := by
  rw [← List.reverse_reverse l]
  induction l.reverse with
  | nil => exact nil
  | cons a l ih => simpa using snoc _ a ih

theorem collect_snoc (fns : List (Fn N)) (f : Fn N) :
    collect (fns ++ [f]) = dset (collect fns) f.name (union [f.name] f.refs) := by
  simp [collect, referencedNames]

theorem mem_keys_collect (fns : List (Fn N)) (k : N) :
    k ∈ (collect fns).map (·.1) ↔ ∃ h ∈ fns, h.name = k := by
  induction fns using revRec with
  | nil => simp [collect]
  | snoc fns f ih =>
    rw [collect_snoc, keys_dset]
    split
    · rename_i h
      constructor
      · intro hk
        obtain ⟨g, hg, e⟩ := ih.1 hk
        exact ⟨g, by simp [hg], e⟩
      · rintro ⟨g, hg, e⟩
        rcases List.mem_append.1 hg with hg | hg
        · exact ih.2 ⟨g, hg, e⟩
        · simp at hg; subst hg
          rw [e] at h; exact h
    · simp only [List.mem_append, ih, List.mem_singleton]
      constructor
      · rintro (⟨g, hg, e⟩ | e)
        · exact ⟨g, .inl hg, e⟩
        · exact ⟨f, .inr rfl, e.symm⟩
      · rintro ⟨g, hg | hg, e⟩
        · exact .inl ⟨g, hg, e⟩
        · subst hg; exact .inr e.symm

theorem nodup_keys_collect (fns : List (Fn N)) : ((collect fns).map (·.1)).Nodup := by
  induction fns using revRec with
  | nil => simp [collect]
  | snoc fns f ih =>
    rw [collect_snoc, keys_dset]
    split
    · exact ih
    · rename_i h
      rw [List.nodup_append]
      refine ⟨ih, by simp, ?_⟩
      intro a ha b hb e
      simp at hb; subst hb; subst e; exact h ha

theorem dget_collect (pre post : List (Fn N)) (fn : Fn N) (h : ∀ x ∈ post, x.name ≠ fn.name) :
    dget (collect (pre ++ fn :: post)) fn.name = some (union [fn.name] fn.refs) := by
  induction post using revRec with
  | nil => rw [collect_snoc, dget_dset]; simp
  | snoc post x ih =>
    have e : pre ++ fn :: (post ++ [x]) = (pre ++ fn :: post) ++ [x] := by simp
    rw [e, collect_snoc, dget_dset]
    have : ¬ fn.name = x.name := fun e => h x (by simp) e.symm
    rw [if_neg this]
    exact ih (fun y hy => h y (by simp [hy]))

theorem exists_last (fns : List (Fn N)) (f : N) (h : ∃ x ∈ fns, x.name = f) :
    ∃ pre fn post, fns = pre ++ fn :: post ∧ fn.name = f ∧ (∀ x ∈ post, x.name ≠ f) := by
  induction fns using revRec with
  | nil => simp at h
  | snoc fns x ih =>
    by_cases hx : x.name = f
    · exact ⟨fns, x, [], rfl, hx, by simp⟩
    · obtain ⟨y, hy, hyf⟩ := h
      rcases List.mem_append.1 hy with hy | hy
      · obtain ⟨pre, fn, post, e1, e2, e3⟩ := ih ⟨y, hy, hyf⟩
        refine ⟨pre, fn, post ++ [x], by simp [e1], e2, ?_⟩
        intro z hz
        rcases List.mem_append.1 hz with hz | hz
        · exact e3 z hz
        · simp at hz; subst hz; exact hx
      · simp at hy; subst hy; exact absurd hyf hx

/-- last function of that name is unique in what it is -/
theorem last_unique {fns pre post pre' post' : List (Fn N)} {fn fn' : Fn N} {f : N}
    (e : fns = pre ++ fn :: post) (hn : fn.name = f) (hp : ∀ x ∈ post, x.name ≠ f)
    (e' : fns = pre' ++ fn' :: post') (hn' : fn'.name = f) (hp' : ∀ x ∈ post', x.name ≠ f) :
    fn = fn' := by
  rw [e] at e'
  rcases List.append_eq_append_iff.1 e' with ⟨a, h1, h2⟩ | ⟨a, h1, h2⟩
  · cases a with
    | nil => simp at h2; exact h2.1
    | cons b a =>
      simp at h2
      exact absurd hn' (hp fn' (by rw [h2.2]; simp))
  · cases a with
    | nil => simp at h2; exact h2.1.symm
    | cons b a =>
      simp at h2
      exact absurd hn (hp' fn (by rw [h2.2]; simp))

/-! shallow -/

theorem shallow_fold (names order : List N) (d : Deps N)
    (ho : ∀ x ∈ order, x ∈ d.map (·.1)) :
    ∃ d', order.foldlM (fun d name => do
        let s ← dget d name
        pure (dset d name (inter s names))) d = some d' ∧
      d'.map (·.1) = d.map (·.1) ∧
      ∀ k s, dget d k = some s →
        ∃ s', dget d' k = some s' ∧ (s.Nodup → s'.Nodup) ∧
          ∀ x, x ∈ s' ↔ x ∈ s ∧ (k ∈ order → x ∈ names) := by
  induction order generalizing d with
  | nil => exact ⟨d, rfl, rfl, fun k s h => ⟨s, h, id, by simp⟩⟩
  | cons a order ih =>
    obtain ⟨s, hs⟩ := dget_of_mem (ho a (by simp))
    have hk : (dset d a (inter s names)).map (·.1) = d.map (·.1) := by
      rw [keys_dset, if_pos (ho a (by simp))]
    obtain ⟨d', e1, e2, e3⟩ := ih (dset d a (inter s names))
      (by intro x hx; rw [hk]; exact ho x (by simp [hx]))
    refine ⟨d', ?_, e2.trans hk, ?_⟩
    · rw [List.foldlM_cons]
      simp only [hs]
      exact e1
    · intro k t ht
      by_cases hka : k = a
      · subst hka
        rw [hs] at ht; injection ht with ht; subst ht
        obtain ⟨s', h1, h2, h3⟩ := e3 k (inter s names) (by rw [dget_dset]; simp)
        refine ⟨s', h1, fun h => h2 (h.filter _), ?_⟩
        intro x
        rw [h3, mem_inter]
        constructor
        · rintro ⟨⟨p, q⟩, _⟩; exact ⟨p, fun _ => q⟩
        · rintro ⟨p, q⟩
          have := q (by simp)
          exact ⟨⟨p, this⟩, fun _ => this⟩
      · obtain ⟨s', h1, h2, h3⟩ := e3 k t (by rw [dget_dset, if_neg hka]; exact ht)
        refine ⟨s', h1, h2, ?_⟩
        intro x
        rw [h3]
        simp [hka]

theorem shallow_ok (iter : List N → List N) (hi : ∀ l, (iter l).Perm l) (fns : List (Fn N)) :
    ∃ d, shallow iter fns = some d ∧ (d.map (·.1)).Nodup ∧
      (∀ k, k ∈ d.map (·.1) ↔ ∃ h ∈ fns, h.name = k) ∧
      ∀ f ∈ d.map (·.1), ∃ s, dget d f = some s ∧ s.Nodup ∧ ∀ g, g ∈ s ↔ Direct fns f g := by
  obtain ⟨d, e1, e2, e3⟩ := shallow_fold ((collect fns).map (·.1))
    (iter ((collect fns).map (·.1))) (collect fns) (fun x hx => (hi _).mem_iff.1 hx)
  refine ⟨d, e1, by rw [e2]; exact nodup_keys_collect fns,
    fun k => by rw [e2]; exact mem_keys_collect fns k, ?_⟩
  intro f hf
  rw [e2] at hf
  obtain ⟨pre, fn, post, h1, h2, h3⟩ := exists_last fns f ((mem_keys_collect fns f).1 hf)
  have hg : dget (collect fns) f = some (union [f] fn.refs) := by
    subst h2; rw [h1]; exact dget_collect pre post fn h3
  obtain ⟨s', k1, k2, k3⟩ := e3 f _ hg
  refine ⟨s', k1, k2 (nodup_union (by simp)), ?_⟩
  intro g
  rw [k3, mem_union, (hi _).mem_iff]
  constructor
  · rintro ⟨p, q⟩
    refine ⟨(mem_keys_collect fns g).1 (q hf), pre, fn, post, h1, h2, h3, ?_⟩
    simpa using p
  · rintro ⟨p, pre', fn', post', h1', h2', h3', q⟩
    have := last_unique h1 h2 h3 h1' h2' h3'
    subst this
    exact ⟨by simpa using q, fun _ => (mem_keys_collect fns g).2 p⟩

/-! deep -/

theorem insertSet_prefix (s : List N) (x : N) : s <+: insertSet s x := by
  unfold insertSet; split
  · exact List.prefix_rfl
  · exact List.prefix_append _ _

theorem union_prefix (s t : List N) : s <+: union s t := by
  unfold union
  induction t generalizing s with
  | nil => exact List.prefix_rfl
  | cons a t ih => exact (insertSet_prefix s a).trans (ih _)

theorem expand_fold (d : Deps N) (order acc : List N)
    (ho : ∀ x ∈ order, x ∈ d.map (·.1)) :
    ∃ new, order.foldlM (fun new r => do
        let s ← dget d r
        pure (union new s)) acc = some new ∧
      acc <+: new ∧ (acc.Nodup → new.Nodup) ∧
      ∀ x, x ∈ new ↔ x ∈ acc ∨ ∃ r ∈ order, ∃ s, dget d r = some s ∧ x ∈ s := by
  induction order generalizing acc with
  | nil => exact ⟨acc, rfl, List.prefix_rfl, id, by simp⟩
  | cons a order ih =>
    obtain ⟨s, hs⟩ := dget_of_mem (ho a (by simp))
    obtain ⟨new, e1, e2, e3, e4⟩ := ih (union acc s) (fun x hx => ho x (by simp [hx]))
    refine ⟨new, ?_, (union_prefix _ _).trans e2, fun h => e3 (nodup_union h), ?_⟩
    · rw [List.foldlM_cons]; simp only [hs]; exact e1
    · intro x
      rw [e4, mem_union]
      constructor
      · rintro ((h | h) | ⟨r, hr, s', h1, h2⟩)
        · exact .inl h
        · exact .inr ⟨a, by simp, s, hs, h⟩
        · exact .inr ⟨r, by simp [hr], s', h1, h2⟩
      · rintro (h | ⟨r, hr, s', h1, h2⟩)
        · exact .inl (.inl h)
        · rcases List.mem_cons.1 hr with rfl | hr
          · rw [hs] at h1; injection h1 with h1; subst h1; exact .inl (.inr h2)
          · exact .inr ⟨r, hr, s', h1, h2⟩

theorem Reaches.trans {R : N → N → Prop} {a b c : N} (h : Reaches R a b) (h' : Reaches R b c) :
    Reaches R a c := by
  induction h with
  | refl => exact h'
  | step r _ ih => exact .step r (ih h')

/-- every entry lies between one-step and full reachability -/
def Good (R : N → N → Prop) (d : Deps N) : Prop :=
  ∀ k ∈ d.map (·.1), ∃ s, dget d k = some s ∧ s.Nodup ∧ k ∈ s ∧
    (∀ x ∈ s, x ∈ d.map (·.1) ∧ Reaches R k x) ∧ ∀ x, R k x → x ∈ s

theorem nodup_length_le {s t : List N} (hs : s.Nodup) (h : ∀ x ∈ s, x ∈ t) :
    s.length ≤ t.length := by
  induction s generalizing t with
  | nil => simp
  | cons a s ih =>
    have ha := h a (by simp)
    have hn := List.nodup_cons.1 hs
    have := ih (t := t.erase a) hn.2 (by
      intro x hx
      have hxa : x ≠ a := fun e => hn.1 (e ▸ hx)
      exact (List.mem_erase_of_ne hxa).2 (h x (by simp [hx])))
    rw [List.length_erase_of_mem ha] at this
    have : 0 < t.length := List.length_pos_of_mem ha
    simp; omega

theorem closure_ok (iter : List N → List N) (hi : ∀ l, (iter l).Perm l) (R : N → N → Prop)
    (d : Deps N) (hg : Good R d) (f : N) (fuel : Nat) (old : List N) (hn : old.Nodup)
    (hf : f ∈ old) (hs : ∀ x ∈ old, x ∈ d.map (·.1) ∧ Reaches R f x)
    (hfu : (d.map (·.1)).length < fuel + old.length) :
    ∃ new, closure iter d fuel old = some (some new) ∧ new.Nodup ∧
      ∀ x, x ∈ new ↔ Reaches R f x := by
  induction fuel generalizing old with
  | zero =>
    have := nodup_length_le hn (fun x hx => (hs x hx).1)
    omega
  | succ fuel ih =>
    obtain ⟨new, e1, e2, e3, e4⟩ := expand_fold d (iter old) old
      (fun x hx => (hs x ((hi _).mem_iff.1 hx)).1)
    have hs' : ∀ x ∈ new, x ∈ d.map (·.1) ∧ Reaches R f x := by
      intro x hx
      rcases (e4 x).1 hx with h | ⟨r, hr, s, h1, h2⟩
      · exact hs x h
      · have hr' := (hi _).mem_iff.1 hr
        obtain ⟨s', q1, q2, q3, q4, q5⟩ := hg r (hs r hr').1
        rw [h1] at q1; injection q1 with q1; subst q1
        exact ⟨(q4 x h2).1, (hs r hr').2.trans (q4 x h2).2⟩
    have e1' : expandOnce iter d old = some new := e1
    simp only [closure, e1']
    split
    · rename_i hl
      refine ⟨new, rfl, e3 hn, fun x => ⟨fun h => (hs' x h).2, ?_⟩⟩
      have hnew : old = new := e2.eq_of_length hl.symm
      have hclosed : ∀ a x, Reaches R a x → a ∈ new → x ∈ new := by
        intro a x h
        induction h with
        | refl => exact id
        | @step a b c hr _ ih2 =>
          intro ha
          apply ih2
          obtain ⟨s, q1, q2, q3, q4, q5⟩ := hg a (hs' a ha).1
          exact (e4 b).2 (.inr ⟨a, (hi _).mem_iff.2 (hnew ▸ ha), s, q1, q5 b hr⟩)
      exact fun h => hclosed f x h (hnew ▸ hf)
    · rename_i hl
      have hle := e2.length_le
      exact ih new (e3 hn) (e2.subset hf) hs' (by omega)

theorem deepLoop_ok (iter : List N → List N) (hi : ∀ l, (iter l).Perm l) (R : N → N → Prop)
    (order : List N) (d : Deps N) (fuel : Nat) (hfu : (d.map (·.1)).length ≤ fuel)
    (hg : Good R d) (ho : ∀ x ∈ order, x ∈ d.map (·.1)) :
    ∃ d', deepLoop iter fuel order d = some (some d') ∧ d'.map (·.1) = d.map (·.1) ∧
      ∀ k ∈ d.map (·.1), (k ∈ order ∨ ∃ s, dget d k = some s ∧ s.Nodup ∧ ∀ x, x ∈ s ↔ Reaches R k x) →
        ∃ s, dget d' k = some s ∧ s.Nodup ∧ ∀ x, x ∈ s ↔ Reaches R k x := by
  induction order generalizing d with
  | nil =>
    refine ⟨d, rfl, rfl, ?_⟩
    rintro k _ (h | h)
    · simp at h
    · exact h
  | cons f order ih =>
    have hfK := ho f (by simp)
    obtain ⟨old, q1, q2, q3, q4, q5⟩ := hg f hfK
    have hlen : 0 < old.length := List.length_pos_of_mem q3
    obtain ⟨new, c1, c2, c3⟩ := closure_ok iter hi R d hg f fuel old q2 q3 q4 (by omega)
    have hk : (dset d f new).map (·.1) = d.map (·.1) := by rw [keys_dset, if_pos hfK]
    have hReachK : ∀ a x, Reaches R a x → a ∈ d.map (·.1) → x ∈ d.map (·.1) := by
      intro a x h
      induction h with
      | refl => exact id
      | @step a b c hr _ ih2 =>
        intro ha
        obtain ⟨s, p1, p2, p3, p4, p5⟩ := hg a ha
        exact ih2 (p4 b (p5 b hr)).1
    have hg' : Good R (dset d f new) := by
      intro k hkk
      rw [hk] at hkk
      rw [dget_dset]
      by_cases hkf : k = f
      · subst hkf
        refine ⟨new, by simp, c2, (c3 k).2 (.refl k), ?_, fun x hx => (c3 x).2 (.step hx (.refl x))⟩
        intro x hx
        rw [hk]
        exact ⟨hReachK k x ((c3 x).1 hx) hfK, (c3 x).1 hx⟩
      · obtain ⟨s, p1, p2, p3, p4, p5⟩ := hg k hkk
        refine ⟨s, by rw [if_neg hkf]; exact p1, p2, p3, ?_, p5⟩
        rw [hk]; exact p4
    obtain ⟨d', r1, r2, r3⟩ := ih (dset d f new) (by rw [hk]; exact hfu) hg'
      (by intro x hx; rw [hk]; exact ho x (by simp [hx]))
    refine ⟨d', ?_, r2.trans hk, ?_⟩
    · simp only [deepLoop, q1, c1]; exact r1
    · intro k hkk hor
      apply r3 k (by rw [hk]; exact hkk)
      by_cases hkf : k = f
      · subst hkf
        exact .inr ⟨new, by rw [dget_dset]; simp, c2, c3⟩
      · rcases hor with h | ⟨s, h1, h2⟩
        · rcases List.mem_cons.1 h with h | h
          · exact absurd h hkf
          · exact .inl h
        · exact .inr ⟨s, by rw [dget_dset, if_neg hkf]; exact h1, h2⟩

theorem deep_ok (iter : List N → List N) (hi : ∀ l, (iter l).Perm l) (fns : List (Fn N))
    (fuel : Nat) (hfu : fns.length ≤ fuel) :
    ∃ d, deep iter fuel fns = some (some d) ∧ (d.map (·.1)).Nodup ∧
      (∀ k, k ∈ d.map (·.1) ↔ ∃ h ∈ fns, h.name = k) ∧
      ∀ f ∈ d.map (·.1), ∃ s, dget d f = some s ∧ s.Nodup ∧ ∀ g, g ∈ s ↔ Reaches (Direct fns) f g := by
  obtain ⟨d, h1, h2, h3, h4⟩ := shallow_ok iter hi fns
  have hg : Good (Direct fns) d := by
    intro k hk
    obtain ⟨s, q1, q2, q3⟩ := h4 k hk
    have hkk : Direct fns k k := by
      obtain ⟨pre, fn, post, e1, e2, e3⟩ := exists_last fns k ((h3 k).1 hk)
      exact ⟨(h3 k).1 hk, pre, fn, post, e1, e2, e3, .inl rfl⟩
    refine ⟨s, q1, q2, (q3 k).2 hkk, ?_, fun x hx => (q3 x).2 hx⟩
    intro x hx
    have := (q3 x).1 hx
    exact ⟨(h3 x).2 this.1, .step this (.refl x)⟩
  have hlen : (d.map (·.1)).length ≤ fuel := by
    have := nodup_length_le (t := fns.map (·.name)) h2 (fun x hx => by
      obtain ⟨h, hh, e⟩ := (h3 x).1 hx
      exact List.mem_map.2 ⟨h, hh, e⟩)
    simp only [List.length_map] at this ⊢
    omega
  obtain ⟨d', r1, r2, r3⟩ := deepLoop_ok iter hi (Direct fns) (iter (d.map (·.1))) d fuel hlen hg
    (fun x hx => (hi _).mem_iff.1 hx)
  refine ⟨d', by simp only [deep, h1]; exact r1, by rw [r2]; exact h2, by rw [r2]; exact h3, ?_⟩
  intro f hf
  rw [r2] at hf
  exact r3 f hf (.inl ((hi _).mem_iff.2 hf))

end Pyth.CallGraph
