import Verif.Spec.AstKeywords
import Mathlib.Data.List.Basic
import Mathlib.Data.List.Dedup
/-!
# Keywords and dictionaries (C110)
-/
namespace Pyth.AstKw

/-! ### proof support -/

mutual
theorem literal_iff (e : Expr) (v : Val) : literal e = .ok v ↔ IsLiteral e v := by
  cases e with
  | const w => exact ⟨fun h => by cases h; exact .const _, fun h => by cases h; rfl⟩
  | list l =>
    simp only [literal]
    constructor
    · intro h
      cases hl : literals l with
      | error x => rw [hl] at h; cases h
      | ok vs => rw [hl] at h; cases h; exact .list ((literals_iff l vs).1 hl)
    · intro h
      cases h with
      | list h => rw [(literals_iff l _).2 h]; rfl
  | tuple l =>
    simp only [literal]
    constructor
    · intro h
      cases hl : literals l with
      | error x => rw [hl] at h; cases h
      | ok vs => rw [hl] at h; cases h; exact .tuple ((literals_iff l vs).1 hl)
    · intro h
      cases h with
      | tuple h => rw [(literals_iff l _).2 h]; rfl
  | neg e =>
    constructor
    · intro h
      cases e with
      | const w =>
        cases w with
        | int n => cases h; exact .neg n
        | _ => cases h
      | _ => cases h
    · intro h; cases h; rfl
  | pos e =>
    constructor
    · intro h
      cases e with
      | const w =>
        cases w with
        | int n => cases h; exact .pos n
        | _ => cases h
      | _ => cases h
    · intro h; cases h; rfl
  | other n => exact ⟨fun h => (by cases h), fun h => (by cases h)⟩
theorem literals_iff (l : List Expr) (vs : List Val) : literals l = .ok vs ↔ AreLiterals l vs := by
  cases l with
  | nil => exact ⟨fun h => by cases h; exact .nil, fun h => by cases h; rfl⟩
  | cons e es =>
    simp only [literals]
    constructor
    · intro h
      cases he : literal e with
      | error x => rw [he] at h; cases h
      | ok v =>
        rw [he] at h
        cases hs : literals es with
        | error x => rw [hs] at h; cases h
        | ok ws => rw [hs] at h; cases h; exact .cons ((literal_iff e v).1 he) ((literals_iff es ws).1 hs)
    · intro h
      cases h with
      | cons h hs => rw [(literal_iff e _).2 h]; simp only; rw [(literals_iff es _).2 hs]; rfl
end

theorem set_new (d : Dict) (k : Option String) (v : Val) (h : k ∉ d.map (·.1)) : d.set k v = d ++ [(k, v)] := by
  induction d with
  | nil => rfl
  | cons x d ih =>
    obtain ⟨k', v'⟩ := x
    simp only [List.map_cons, List.mem_cons, not_or] at h
    simp only [Dict.set, if_neg (Ne.symm h.1), ih h.2]
    rfl

theorem set_keys (d : Dict) (k : Option String) (v : Val) :
    (d.set k v).map (·.1) = if k ∈ d.map (·.1) then d.map (·.1) else d.map (·.1) ++ [k] := by
  induction d with
  | nil => rfl
  | cons x d ih =>
    obtain ⟨k', v'⟩ := x
    by_cases h : k' = k
    · subst h; simp [Dict.set]
    · have h' : ¬ k = k' := fun e => h e.symm
      simp only [Dict.set, if_neg h, List.map_cons, ih, List.mem_cons, h', false_or]
      split <;> rfl

theorem set_lookup (d : Dict) (k : Option String) (v : Val) (k' : Option String) :
    (d.set k v).lookup k' = if k' = k then some v else d.lookup k' := by
  induction d with
  | nil =>
    by_cases h : k' = k
    · simp [Dict.set, List.lookup, h]
    · have : (k' == k) = false := beq_eq_false_iff_ne.2 h
      simp [Dict.set, List.lookup, this, h]
  | cons x d ih =>
    obtain ⟨k1, v1⟩ := x
    by_cases h : k1 = k
    · subst h
      by_cases h2 : k' = k1
      · simp [Dict.set, List.lookup, h2]
      · have : (k' == k1) = false := beq_eq_false_iff_ne.2 h2
        simp [Dict.set, List.lookup, this, h2]
    · simp only [Dict.set, if_neg h]
      by_cases h2 : k' = k1
      · subst h2
        simp [List.lookup, h]
      · have : (k' == k1) = false := beq_eq_false_iff_ne.2 h2
        simp only [List.lookup, this, ih]

theorem set_isDict (d : Dict) (h : IsDict d) (k : Option String) (v : Val) : IsDict (d.set k v) := by
  unfold IsDict at h ⊢
  rw [set_keys]
  split
  · exact h
  · rename_i hn
    exact List.nodup_append.2 ⟨h, List.nodup_singleton _, fun a ha b hb => by
      rw [List.mem_singleton.1 hb]; exact fun e => hn (e ▸ ha)⟩

theorem loop_isDict : ∀ (kws : List Kw) (d d' : Dict), IsDict d → loop d kws = .ok d' → IsDict d'
  | [], d, d', hd, h => by cases h; exact hd
  | kw :: kws, d, d', hd, h => by
    simp only [loop] at h
    cases hl : literal kw.value with
    | error e => rw [hl] at h; cases h
    | ok v => rw [hl] at h; exact loop_isDict kws _ _ (set_isDict d hd _ _) h

theorem loop_consts : ∀ (d0 d : Dict), IsDict (d0 ++ d) → loop d0 (toKeywords d) = .ok (d0 ++ d)
  | d0, [], _ => by rw [List.append_nil]; rfl
  | d0, (k, v) :: d, h => by
    have hk : k ∉ d0.map (·.1) := by
      unfold IsDict at h
      rw [List.map_append, List.nodup_append] at h
      intro hm
      exact h.2.2 k hm k (by simp) rfl
    show loop (d0.set k v) (toKeywords d) = _
    rw [set_new d0 k v hk, loop_consts (d0 ++ [(k, v)]) d (by simpa using h)]
    simp

theorem loop_lookup : ∀ (kws : List Kw) (d d' : Dict), loop d kws = .ok d' → ∀ k,
    (∃ pre kw post v, kws = pre ++ kw :: post ∧ kw.arg = k ∧ (∀ x ∈ post, x.arg ≠ k) ∧ IsLiteral kw.value v ∧ d'.lookup k = some v) ∨
    ((∀ x ∈ kws, x.arg ≠ k) ∧ d'.lookup k = d.lookup k)
  | [], d, d', h, k => by cases h; exact .inr ⟨fun x hx => (List.not_mem_nil hx).elim, rfl⟩
  | kw :: kws, d, d', h, k => by
    simp only [loop] at h
    cases hl : literal kw.value with
    | error e => rw [hl] at h; cases h
    | ok v =>
      rw [hl] at h
      rcases loop_lookup kws _ d' h k with ⟨pre, kw', post, v', h1, h2, h3, h4, h5⟩ | ⟨h1, h2⟩
      · exact .inl ⟨kw :: pre, kw', post, v', by rw [h1]; rfl, h2, h3, h4, h5⟩
      · rw [set_lookup] at h2
        by_cases hk : k = kw.arg
        · rw [if_pos hk] at h2
          exact .inl ⟨[], kw, kws, v, rfl, hk.symm, h1, (literal_iff _ _).1 hl, h2⟩
        · rw [if_neg hk] at h2
          refine .inr ⟨fun x hx => ?_, h2⟩
          rcases List.mem_cons.1 hx with rfl | hx
          · exact fun e => hk e.symm
          · exact h1 x hx

theorem loop_error : ∀ (kws : List Kw) (d : Dict), (∃ e, loop d kws = .error e) ↔ ∃ kw ∈ kws, ∀ v, ¬ IsLiteral kw.value v
  | [], d => ⟨fun ⟨e, h⟩ => (by cases h), fun ⟨kw, h, _⟩ => (List.not_mem_nil h).elim⟩
  | kw :: kws, d => by
    simp only [loop]
    cases hl : literal kw.value with
    | error e =>
      refine ⟨fun _ => ⟨kw, List.mem_cons_self, fun v hv => ?_⟩, fun _ => ⟨e, rfl⟩⟩
      rw [(literal_iff _ _).2 hv] at hl; cases hl
    | ok v =>
      simp only
      rw [loop_error kws]
      constructor
      · rintro ⟨x, hx, h⟩; exact ⟨x, List.mem_cons_of_mem _ hx, h⟩
      · rintro ⟨x, hx, h⟩
        rcases List.mem_cons.1 hx with rfl | hx
        · exact absurd ((literal_iff _ _).1 hl) (h v)
        · exact ⟨x, hx, h⟩

theorem loop_keys : ∀ (kws : List Kw) (d d' : Dict), loop d kws = .ok d' →
    d'.map (·.1) = (kws.map (·.arg)).foldl (fun l k => if k ∈ l then l else l ++ [k]) (d.map (·.1))
  | [], d, d', h => by cases h; rfl
  | kw :: kws, d, d', h => by
    simp only [loop] at h
    cases hl : literal kw.value with
    | error e => rw [hl] at h; cases h
    | ok v =>
      rw [hl] at h
      rw [loop_keys kws _ d' h, set_keys]
      rfl

/-! ### theorems -/

/-- **C110.** A dictionary with any keys and values, turned into keywords and back, is the same, in the same order. -/
theorem C110_round_trip (d : Dict) (h : IsDict d) : toDict (toKeywords d) = .ok d := loop_consts [] d h

/-- non-vacuity -/
example : IsDict [(some "a", .int 5), (some "b", .list [.str "x", .none])] := by unfold IsDict; decide

/-- **C110.** Keywords become a dictionary exactly if all their values are literals; otherwise `ValueError` is raised. -/
theorem C110_accepted_iff (kws : List Kw) :
    ((∃ d, toDict kws = .ok d) ↔ ∀ kw ∈ kws, ∃ v, IsLiteral kw.value v) ∧
    (toDict kws = .error .valueError ↔ ∃ kw ∈ kws, ∀ v, ¬ IsLiteral kw.value v) := by
  have h := loop_error kws []
  have e : ∀ x : Err, x = .valueError := fun x => by cases x; rfl
  unfold toDict
  cases hl : loop [] kws with
  | error x =>
    rw [hl] at h
    obtain ⟨kw, h1, h2⟩ := h.1 ⟨x, rfl⟩
    refine ⟨⟨fun ⟨d, hd⟩ => (by cases hd), fun ha => ?_⟩, fun _ => ⟨kw, h1, h2⟩, fun _ => by rw [e x]⟩
    obtain ⟨v, hv⟩ := ha kw h1
    exact absurd hv (h2 v)
  | ok d =>
    rw [hl] at h
    have hn : ¬ ∃ kw ∈ kws, ∀ v, ¬ IsLiteral kw.value v := fun hx => by obtain ⟨_, hx⟩ := h.2 hx; cases hx
    refine ⟨⟨fun _ kw hk => ?_, fun _ => ⟨d, rfl⟩⟩, fun hx => (by cases hx), fun hx => absurd hx hn⟩
    cases hv : literal kw.value with
    | ok v => exact ⟨v, (literal_iff _ _).1 hv⟩
    | error x =>
      refine absurd ⟨kw, hk, fun v hv' => ?_⟩ hn
      rw [(literal_iff _ _).2 hv'] at hv; cases hv

/-- **C110.** The value of a key is the literal of the last keyword with this name; names that occur in no keyword are not in the
dictionary; the keys are in the order of their first keywords. -/
theorem C110_contents (kws : List Kw) (d : Dict) (h : toDict kws = .ok d) :
    IsDict d ∧
    (∀ pre kw post, kws = pre ++ kw :: post → (∀ x ∈ post, x.arg ≠ kw.arg) →
      ∃ v, IsLiteral kw.value v ∧ d.lookup kw.arg = some v) ∧
    (∀ k, (∀ x ∈ kws, x.arg ≠ k) → d.lookup k = none) ∧
    d.map (·.1) = (kws.map (·.arg)).foldl (fun l k => if k ∈ l then l else l ++ [k]) [] := by
  refine ⟨loop_isDict kws [] d List.nodup_nil h, fun pre kw post hk hp => ?_, fun k hk => ?_, loop_keys kws [] d h⟩
  · rcases loop_lookup kws [] d h kw.arg with ⟨pre', kw', post', v, h1, h2, h3, h4, h5⟩ | ⟨h1, _⟩
    · have : kw' = kw := by
        rw [hk] at h1
        rcases List.append_eq_append_iff.1 h1 with ⟨as, e1, e2⟩ | ⟨as, e1, e2⟩
        · cases as with
          | nil => cases e2; rfl
          | cons a as =>
            cases e2
            exact absurd h2 (hp kw' (by simp))
        · cases as with
          | nil => cases e2; rfl
          | cons a as =>
            cases e2
            exact absurd rfl (h3 kw (by simp))
      subst this
      exact ⟨v, h4, h5⟩
    · exact absurd rfl (h1 kw (by rw [hk]; simp))
  · rcases loop_lookup kws [] d h k with ⟨pre', kw', post', v, h1, h2, _⟩ | ⟨_, h2⟩
    · exact absurd h2 (hk kw' (by rw [h1]; simp))
    · exact h2

/-- non-vacuity: `f(a=1, b=-2, a=[3])` -/
example : ∃ d, toDict [⟨some "a", .const (.int 1)⟩, ⟨some "b", .neg (.const (.int 2))⟩, ⟨some "a", .list [.const (.int 3)]⟩] = .ok d ∧
    d.lookup (some "a") = some (.list [.int 3]) ∧ d.lookup (some "b") = some (.int (-2)) ∧ d.map (·.1) = [some "a", some "b"] :=
  ⟨_, rfl, rfl, rfl, rfl⟩

/-- **C110.** Going back and forth once more changes nothing. -/
theorem C110_stable (kws : List Kw) (d : Dict) (h : toDict kws = .ok d) : toDict (toKeywords d) = .ok d :=
  C110_round_trip d (C110_contents kws d h).1

end Pyth.AstKw
