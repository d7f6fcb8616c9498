import Verif.Spec.PlainStack
/-! Helper lemmas for the portal context. -/
namespace Pyth.Portal

/-- run-length expansion of the two stacks into a list of enter events -/
def expand : List PortalId → List Int → List PortalId
  | p :: st, c :: cs => List.replicate c.toNat p ++ expand st cs
  | _, _ => []

/-- representation invariant -/
inductive Rep : List PortalId → List Int → Prop
  | nil : Rep [] []
  | single (p : PortalId) (c : Int) (hc : 1 ≤ c) : Rep [p] [c]
  | cons (p q : PortalId) (c : Int) (st : List PortalId) (cs : List Int) (hc : 1 ≤ c) (hpq : p ≠ q)
      (h : Rep (q :: st) cs) : Rep (p :: q :: st) (c :: cs)

theorem Rep.pos {p st c cs} (h : Rep (p :: st) (c :: cs)) : 1 ≤ c := by
  cases h <;> assumption

theorem Rep.tail {p st c cs} (h : Rep (p :: st) (c :: cs)) : Rep st cs := by
  cases h with
  | single => exact .nil
  | cons _ _ _ _ _ _ _ h => exact h

theorem Rep.setHead {p st c cs} (h : Rep (p :: st) (c :: cs)) {c' : Int} (hc' : 1 ≤ c') :
    Rep (p :: st) (c' :: cs) := by
  cases h with
  | single => exact .single _ _ hc'
  | cons _ _ _ _ _ _ hpq h => exact .cons _ _ _ _ _ hc' hpq h

theorem Rep.push {st cs} (h : Rep st cs) (p : PortalId) (hp : st.head? ≠ some p) :
    Rep (p :: st) (1 :: cs) := by
  cases st with
  | nil => cases h; exact .single _ _ (by omega)
  | cons q st =>
    refine .cons _ _ _ _ _ (by omega) ?_ h
    intro e; subst e; simp at hp

theorem Rep.nonempty {p st cs} (h : Rep (p :: st) cs) : ∃ c cs', cs = c :: cs' := by
  cases h <;> exact ⟨_, _, rfl⟩

theorem Rep.nil_left {cs} (h : Rep [] cs) : cs = [] := by cases h; rfl

theorem replicate_toNat_succ {α} (c : Int) (hc : 0 ≤ c) (p : α) :
    List.replicate (c + 1).toNat p = p :: List.replicate c.toNat p := by
  have : (c + 1).toNat = c.toNat + 1 := by omega
  rw [this, List.replicate_succ]

theorem expand_head {st cs} (h : Rep st cs) : (expand st cs).head? = st.head? := by
  cases h with
  | nil => rfl
  | single p c hc =>
    obtain ⟨k, rfl⟩ : ∃ k : Int, c = k + 1 := ⟨c - 1, by omega⟩
    simp [expand, replicate_toNat_succ k (by omega)]
  | cons p q c st cs hc hpq h =>
    obtain ⟨k, rfl⟩ : ∃ k : Int, c = k + 1 := ⟨c - 1, by omega⟩
    simp [expand, replicate_toNat_succ k (by omega)]

/-- one enter: never raises in a well-represented state, pushes one event -/
theorem enter_spec (s : Sys) (p : PortalId) (h : Rep s.stack s.counters) :
    ∃ s', enter p s = .ok s' ∧ Rep s'.stack s'.counters ∧ s'.all = s.all ∧
      expand s'.stack s'.counters = p :: expand s.stack s.counters ∧ s'.stack.head? = some p ∧
      exit p s' = .ok s := by
  obtain ⟨all, stack, counters⟩ := s
  simp only at h
  unfold enter
  cases hst : stack with
  | nil =>
    subst hst
    have := h.nil_left; subst this
    refine ⟨_, rfl, .single _ _ (by omega), rfl, ?_, rfl, ?_⟩
    · simp [expand]
    · simp [exit]
  | cons q st =>
    subst hst
    obtain ⟨c, cs, rfl⟩ := h.nonempty
    by_cases hq : q = p
    · subst hq
      refine ⟨⟨all, q :: st, (c + 1) :: cs⟩, by simp, h.setHead (c' := c + 1) (by have := h.pos; omega), rfl, ?_, rfl, ?_⟩
      · have := h.pos
        simp [expand, replicate_toNat_succ c (by omega)]
      · have := h.pos
        simp only [exit, ne_eq, not_true_eq_false, if_false]
        rw [if_neg (by omega)]
        simp
    · refine ⟨⟨all, p :: q :: st, 1 :: c :: cs⟩, by simp [hq], h.push p (by simp [hq]), rfl, ?_, rfl, ?_⟩
      · simp [expand]
      · simp [exit]

/-- one exit agrees with the plain stack -/
theorem exit_spec (s : Sys) (p : PortalId) (h : Rep s.stack s.counters) :
    (∃ rest, expand s.stack s.counters = p :: rest ∧
      ∃ s', exit p s = .ok s' ∧ Rep s'.stack s'.counters ∧ s'.all = s.all ∧
        expand s'.stack s'.counters = rest) ∨
    (s.stack = [] ∧ exit p s = .error .indexError) ∨
    (∃ q st, s.stack = q :: st ∧ q ≠ p ∧ exit p s = .error .assertionError) := by
  obtain ⟨all, stack, counters⟩ := s
  simp only at h
  unfold exit
  cases hst : stack with
  | nil => right; left; simp
  | cons q st =>
    subst hst
    obtain ⟨c, cs, rfl⟩ := h.nonempty
    by_cases hq : q = p
    · subst hq
      left
      have hc := h.pos
      by_cases h1 : c = 1
      · subst h1
        refine ⟨expand st cs, by simp [expand], ⟨all, st, cs⟩, by simp, h.tail, rfl, rfl⟩
      · refine ⟨List.replicate (c - 1).toNat q ++ expand st cs, ?_, ⟨all, q :: st, (c - 1) :: cs⟩,
          by simp [h1], h.setHead (by omega), rfl, rfl⟩
        obtain ⟨k, rfl⟩ : ∃ k : Int, c = k + 1 := ⟨c - 1, by omega⟩
        simp [expand, replicate_toNat_succ k (by omega)]
    · right; right
      exact ⟨q, st, rfl, hq, by simp [hq]⟩

theorem exit_error_unchanged (s : Sys) (p : PortalId) (e : Err) (h : exit p s = .error e) :
    (PyM.liftE (exit p) s) = (.error e, s) := by
  simp [PyM.liftE, h]

/-- fuel = number of events + 1 suffices for `exitAll` -/
theorem exitAll_spec (n : Nat) : ∀ (s : Sys), Rep s.stack s.counters →
    (expand s.stack s.counters).length < n →
    exitAll n s = some (.ok { s with stack := [], counters := [] }) := by
  induction n with
  | zero => intro s _ h; omega
  | succ n ih =>
    intro s hr hlen
    obtain ⟨all, stack, counters⟩ := s
    cases stack with
    | nil =>
      have := hr.nil_left
      simp only at this
      subst this
      simp [exitAll]
    | cons p st =>
      simp only [exitAll]
      rcases exit_spec _ p hr with ⟨rest, hrest, s', hs', hr', hall, hexp⟩ | ⟨h1, _⟩ | ⟨q, st', h1, h2, _⟩
      · simp only [hs']
        have := ih s' hr' (by rw [hexp]; rw [hrest] at hlen; simp at hlen; omega)
        rw [this, hall]
      · simp at h1
      · simp only [List.cons.injEq] at h1
        exact absurd h1.1.symm h2

theorem length_expand {st cs} (h : Rep st cs) : (expand st cs).length = (cs.map Int.toNat).sum := by
  induction h with
  | nil => rfl
  | single p c hc => simp [expand]
  | cons p q c st cs hc hpq h ih => simp [expand, ih]

/-- simulation relation between the implementation and the plain stack -/
def Sim (s : Sys) (t : PlainStack.State) : Prop :=
  Rep s.stack s.counters ∧ expand s.stack s.counters = t.events ∧ s.all = t.known

theorem sim_step {s t} (h : Sim s t) (c : Call) : Sim (Call.step s c) (PlainStack.step t c) := by
  obtain ⟨hr, he, ha⟩ := h
  cases c with
  | enter p =>
    obtain ⟨s', h1, h2, h3, h4, _⟩ := enter_spec s p hr
    simp only [Call.step, h1, Except.toOption, Option.getD, PlainStack.step]
    exact ⟨h2, by simp [h4, he], by simp [h3, ha]⟩
  | exit p =>
    simp only [Call.step, PlainStack.step, PlainStack.exit]
    rcases exit_spec s p hr with ⟨rest, hrest, s', hs', hr', hall, hexp⟩ | ⟨h1, h2⟩ | ⟨q, st', h1, h2, h3⟩
    · rw [← he, hrest]
      simp only [hs', Except.toOption, Option.getD, if_true]
      exact ⟨hr', hexp, by simp [hall, ha]⟩
    · have hnil : t.events = [] := by
        rw [← he, h1]; simp [expand]
      rw [hnil, h2]
      exact ⟨hr, by simp [Except.toOption, he, hnil], ha⟩
    · have := expand_head hr
      rw [he, h1] at this
      cases hev : t.events with
      | nil => rw [hev] at this; simp at this
      | cons a r =>
        rw [hev] at this
        simp at this
        subst this
        simp only [h3, Except.toOption, Option.getD, if_neg h2]
        exact ⟨hr, by rw [he, hev], ha⟩
  | new p =>
    simp only [Call.step, register, PlainStack.step, ha]
    by_cases hp : p ∈ t.known
    · simp only [hp, if_true]; exact ⟨hr, he, ha⟩
    · simp only [hp, if_false]
      exact ⟨hr, he, rfl⟩
  | exitAll =>
    simp only [Call.step, PlainStack.step]
    rw [exitAll_spec _ s hr (by rw [length_expand hr]; simp [exitFuel])]
    exact ⟨.nil, rfl, ha⟩
  | clearAll => exact ⟨.nil, rfl, rfl⟩

theorem sim_foldl {s t} (h : Sim s t) (cs : List Call) :
    Sim (cs.foldl Call.step s) (cs.foldl PlainStack.step t) := by
  induction cs generalizing s t with
  | nil => exact h
  | cons c cs ih => exact ih (sim_step h c)

theorem sim_reach (h : List Call) : Sim (reach h) (PlainStack.replay h) :=
  sim_foldl ⟨.nil, rfl, rfl⟩ h

/-- programs restore the stacks; portals are only added -/
theorem run_restores (q : Prog) : ∀ (s : Sys), Rep s.stack s.counters →
    ((q.run s).2.stack = s.stack ∧ (q.run s).2.counters = s.counters ∧ s.all <+: (q.run s).2.all) := by
  induction q with
  | skip => intro s _; simp [Prog.run]
  | raise n => intro s _; simp [Prog.run]
  | new p =>
    intro s _
    simp only [Prog.run, PyM.run_modify, register]
    split <;> simp
  | seq a b iha ihb =>
    intro s hr
    have ha := iha s hr
    simp only [Prog.run, PyM.run_bind]
    cases h : a.run s with
    | mk r s1 =>
      rw [h] at ha
      cases r with
      | error e => exact ha
      | ok u =>
        have hb := ihb s1 (by rw [ha.1, ha.2.1]; exact hr)
        exact ⟨hb.1.trans ha.1, hb.2.1.trans ha.2.1, ha.2.2.trans hb.2.2⟩
  | tryExcept a b iha ihb =>
    intro s hr
    have ha := iha s hr
    simp only [Prog.run, PyM.tryExcept]
    cases h : a.run s with
    | mk r s1 =>
      rw [h] at ha
      cases r with
      | ok u => exact ha
      | error e =>
        have hb := ihb s1 (by rw [ha.1, ha.2.1]; exact hr)
        exact ⟨hb.1.trans ha.1, hb.2.1.trans ha.2.1, ha.2.2.trans hb.2.2⟩
  | withP p body ih =>
    intro s hr
    obtain ⟨s1, h1, h2, h3, h4, h5, h6⟩ := enter_spec s p hr
    simp only [Prog.run, withPortal, PyM.run_bind, PyM.liftE, h1, PyM.tryFinally]
    have hb := ih s1 h2
    cases h : body.run s1 with
    | mk r s2 =>
      rw [h] at hb
      obtain ⟨hb1, hb2, hb3⟩ := hb
      simp only at hb1 hb2 hb3
      have : exit p s2 = .ok { s with all := s2.all } := by
        obtain ⟨al, st, cs⟩ := s2
        obtain ⟨al1, st1, cs1⟩ := s1
        simp only at hb1 hb2 h3
        subst hb1 hb2 h3
        revert h6
        unfold exit
        cases st with
        | nil => simp
        | cons x st =>
          cases cs with
          | nil => simp only; split <;> simp
          | cons c cs =>
            simp only
            split
            · simp
            · split
              · intro h6; simp only [Except.ok.injEq] at h6 ⊢; rw [← h6]
              · intro h6; simp only [Except.ok.injEq] at h6 ⊢; rw [← h6]
      simp only [this]
      refine ⟨trivial, trivial, ?_⟩
      simpa [h3] using hb3
  | dyn f ih =>
    intro s hr
    simp only [Prog.run]
    exact ih s s hr

/-- the outcome of a block is the outcome of its body -/
theorem with_outcome (p : PortalId) (body : Prog) (s : Sys) (hr : Rep s.stack s.counters) :
    ∃ s1, enter p s = .ok s1 ∧ ((Prog.withP p body).run s).1 = (body.run s1).1 := by
  obtain ⟨s1, h1, h2, h3, h4, h5, h6⟩ := enter_spec s p hr
  refine ⟨s1, h1, ?_⟩
  have hb := run_restores body s1 h2
  simp only [Prog.run, withPortal, PyM.run_bind, PyM.liftE, h1, PyM.tryFinally]
  cases h : body.run s1 with
  | mk r s2 =>
    rw [h] at hb
    obtain ⟨hb1, hb2, hb3⟩ := hb
    simp only at hb1 hb2 hb3
    rcases exit_spec s2 p (by rw [hb1, hb2]; exact h2) with ⟨rest, hrest, s', hs', _⟩ | ⟨e1, _⟩ | ⟨q, st', e1, e2, e3⟩
    · simp [hs']
    · rw [hb1] at e1; rw [e1] at h5; simp at h5
    · rw [hb1] at e1; rw [e1] at h5; simp at h5; exact absurd h5 e2

/-! ### ordered sets -/

theorem mem_foldl_dictInsert (l : List PortalId) : ∀ (d : List PortalId) (x : PortalId),
    x ∈ l.foldl dictInsert d ↔ x ∈ d ∨ x ∈ l := by
  induction l with
  | nil => simp
  | cons a l ih =>
    intro d x
    rw [List.foldl_cons, ih]
    unfold dictInsert
    split <;> rename_i h
    · constructor
      · rintro (h1 | h1)
        · exact .inl h1
        · exact .inr (List.mem_cons_of_mem _ h1)
      · rintro (h1 | h1)
        · exact .inl h1
        · rcases List.mem_cons.1 h1 with rfl | h2
          · exact .inl h
          · exact .inr h2
    · simp only [List.mem_append, List.mem_cons, List.not_mem_nil, or_false]
      constructor
      · rintro ((h1 | h1) | h1)
        · exact .inl h1
        · exact .inr (.inl h1)
        · exact .inr (.inr h1)
      · rintro (h1 | h1 | h1)
        · exact .inl (.inl h1)
        · exact .inl (.inr h1)
        · exact .inr h1

theorem nodup_foldl_dictInsert (l : List PortalId) : ∀ (d : List PortalId), d.Nodup →
    (l.foldl dictInsert d).Nodup := by
  induction l with
  | nil => simp
  | cons a l ih =>
    intro d hd
    rw [List.foldl_cons]
    apply ih
    unfold dictInsert
    split
    · exact hd
    · rename_i h
      rw [List.nodup_append]
      refine ⟨hd, by simp, ?_⟩
      intro x hx y hy
      simp at hy
      subst hy
      intro e; subst e; exact h hx

/-- inserting the list of entered portals or its run-length expansion gives the same ordered set -/
theorem foldl_dictInsert_replicate (n : Nat) (p : PortalId) (d : List PortalId) :
    (List.replicate (n + 1) p).foldl dictInsert d = dictInsert d p := by
  induction n generalizing d with
  | zero => simp
  | succ n ih =>
    rw [List.replicate_succ, List.foldl_cons, ih]
    unfold dictInsert
    split
    · simp
    · simp

theorem foldl_expand {st cs} (h : Rep st cs) : ∀ d,
    (expand st cs).foldl dictInsert d = st.foldl dictInsert d := by
  induction h with
  | nil => intro d; rfl
  | single p c hc =>
    intro d
    obtain ⟨k, hk⟩ : ∃ k : Nat, c.toNat = k + 1 := ⟨c.toNat - 1, by omega⟩
    simp [expand, hk, foldl_dictInsert_replicate]
  | cons p q c st cs hc hpq h ih =>
    intro d
    obtain ⟨k, hk⟩ : ∃ k : Nat, c.toNat = k + 1 := ⟨c.toNat - 1, by omega⟩
    rw [expand, List.foldl_append, hk, foldl_dictInsert_replicate, ih]
    rfl

/-- order of first occurrences is kept -/
theorem prefix_foldl_dictInsert (l : List PortalId) : ∀ d, d <+: l.foldl dictInsert d := by
  induction l with
  | nil => intro d; exact List.prefix_refl d
  | cons a l ih =>
    intro d
    rw [List.foldl_cons]
    refine List.IsPrefix.trans ?_ (ih _)
    unfold dictInsert
    split <;> simp

theorem idxOf_prefix {d l : List PortalId} (h : d <+: l) {x} (hx : x ∈ d) : l.idxOf x = d.idxOf x := by
  obtain ⟨t, rfl⟩ := h
  rw [List.idxOf_append, if_pos hx]

theorem idxOf_order (l : List PortalId) : ∀ (d : List PortalId), d.Nodup → ∀ x y, x ∈ l → y ∈ l → x ∉ d → y ∉ d →
    ((l.foldl dictInsert d).idxOf x < (l.foldl dictInsert d).idxOf y ↔ l.idxOf x < l.idxOf y) := by
  induction l with
  | nil => simp
  | cons a l ih =>
    intro d hd x y hx hy hxd hyd
    rw [List.foldl_cons]
    have hnd : (dictInsert d a).Nodup := nodup_foldl_dictInsert [a] d hd
    by_cases hxa : x = a
    · subst hxa
      have hdi : dictInsert d x = d ++ [x] := by simp [dictInsert, hxd]
      by_cases hya : y = x
      · subst hya; simp
      · have h1 : ((l.foldl dictInsert (dictInsert d x)).idxOf x) = d.length := by
          rw [idxOf_prefix (prefix_foldl_dictInsert l _) (by simp [hdi]), hdi, List.idxOf_append,
            if_neg hxd]
          simp
        have h2 : d.length < ((l.foldl dictInsert (dictInsert d x)).idxOf y) := by
          obtain ⟨t, ht⟩ := prefix_foldl_dictInsert l (dictInsert d x)
          rw [← ht, hdi, List.idxOf_append, if_neg (by simp [hyd, hya])]
          simp
          omega
        simp only [h1, h2, true_iff]
        have hxy : (x == y) = false := beq_eq_false_iff_ne.2 (fun e => hya e.symm)
        rw [List.idxOf_cons_self, List.idxOf_cons, hxy]
        simp
    · by_cases hya : y = a
      · subst hya
        have hdi : dictInsert d y = d ++ [y] := by simp [dictInsert, hyd]
        have h1 : ((l.foldl dictInsert (dictInsert d y)).idxOf y) = d.length := by
          rw [idxOf_prefix (prefix_foldl_dictInsert l _) (by simp [hdi]), hdi, List.idxOf_append,
            if_neg hyd]
          simp
        have h2 : d.length < ((l.foldl dictInsert (dictInsert d y)).idxOf x) := by
          obtain ⟨t, ht⟩ := prefix_foldl_dictInsert l (dictInsert d y)
          rw [← ht, hdi, List.idxOf_append, if_neg (by simp [hxd, hxa])]
          simp
          omega
        rw [List.idxOf_cons_self]
        simp only [h1]
        omega
      · have hx' : x ∈ l := by simpa [hxa] using hx
        have hy' : y ∈ l := by simpa [hya] using hy
        have hxd' : x ∉ dictInsert d a := by
          unfold dictInsert; split <;> simp [hxd, hxa]
        have hyd' : y ∉ dictInsert d a := by
          unfold dictInsert; split <;> simp [hyd, hya]
        have hax : (a == x) = false := beq_eq_false_iff_ne.2 (fun e => hxa e.symm)
        have hay : (a == y) = false := beq_eq_false_iff_ne.2 (fun e => hya e.symm)
        rw [ih _ hnd x y hx' hy' hxd' hyd', List.idxOf_cons, List.idxOf_cons, hax, hay]
        simp

end Pyth.Portal
