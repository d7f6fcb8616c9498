import Verif.Spec.Normalizer
namespace Pyth.Src

theorem norm_pass : norm T.pass = T.pass := by simp [T.pass, norm, normL]

theorem normBody_eq : ∀ b : List T, normBody b = normL (undoc b)
  | [] => by simp [normBody, undoc, normL]
  | x :: xs => by
    cases x <;> cases xs <;> simp [normBody, undoc, normL, T.isStr, norm_pass]

theorem undoc_nil : undoc [] = [] := rfl

theorem normL_eq_map : ∀ l : List T, normL l = l.map norm
  | [] => by simp [normL]
  | x :: xs => by simp [normL, normL_eq_map xs]

/-- Membership in the mutual recursion: the single `pass` -/
theorem normL_pass_iff (l : List T) : [T.pass] = normL l ↔ AlikeL [T.pass] l := by
  constructor
  · intro h
    cases l with
    | nil => simp [normL] at h
    | cons y ys =>
      cases ys with
      | cons z zs => simp [normL] at h
      | nil =>
        simp only [normL, List.cons.injEq, and_true] at h
        cases y with
        | node lb cs =>
          simp only [norm, T.pass, T.node.injEq] at h
          obtain ⟨rfl, h⟩ := h
          cases cs with
          | cons a b => simp [normL] at h
          | nil => exact .cons (.node _ .nil) .nil
        | _ => simp [norm, T.pass] at h
  · intro h
    cases h with
    | cons h1 h2 =>
      cases h2
      cases h1 with
      | node _ h => cases h; simp [normL, norm_pass]; simp [norm, normL, T.pass]

mutual
theorem norm_iff : ∀ t u : T, norm t = norm u ↔ Alike t u
  | .arg n a, u => by
    constructor
    · intro h
      cases u <;> simp [norm] at h
      subst h; exact .arg _ _ _
    · intro h; cases h; simp [norm]
  | .fn a n pre body decos r, u => by
    have h1 := normL_iff pre
    have h2 := normBody_iff body
    have h3 := normL_iff decos
    constructor
    · intro h
      cases u <;> simp only [norm, T.fn.injEq, reduceCtorEq] at h
      obtain ⟨rfl, rfl, e1, e2, e3, -⟩ := h
      exact .fn _ _ _ _ ((h1 _).mp e1) ((h2 _).mp e2) ((h3 _).mp e3)
    · intro h
      cases h with
      | fn _ _ _ _ e1 e2 e3 =>
        simp only [norm, (h1 _).mpr e1, (h2 _).mpr e2, (h3 _).mpr e3]
  | .cls n pre body decos, u => by
    have h1 := normL_iff pre
    have h2 := normBody_iff body
    have h3 := normL_iff decos
    constructor
    · intro h
      cases u <;> simp only [norm, T.cls.injEq, reduceCtorEq] at h
      obtain ⟨rfl, e1, e2, e3⟩ := h
      exact .cls _ ((h1 _).mp e1) ((h2 _).mp e2) ((h3 _).mp e3)
    · intro h
      cases h with
      | cls _ e1 e2 e3 =>
        simp only [norm, (h1 _).mpr e1, (h2 _).mpr e2, (h3 _).mpr e3]
  | .annAssign t a none, u => by
    have h1 := norm_iff t
    constructor
    · intro h
      cases u with
      | annAssign t' a' v' =>
        cases v' <;> simp only [norm, normO, T.annAssign.injEq, reduceCtorEq, and_false, and_true,
          true_and] at h
        exact .assign _ _ ((h1 _).mp h)
      | _ => simp only [norm, reduceCtorEq] at h
    · intro h
      cases h with
      | assign _ _ e1 => simp only [norm, (h1 _).mpr e1]
  | .annAssign t a (some v), u => by
    have h1 := norm_iff t
    have h2 := norm_iff v
    constructor
    · intro h
      cases u with
      | annAssign t' a' v' =>
        cases v' <;> simp only [norm, normO, T.annAssign.injEq, reduceCtorEq, and_false, and_true,
          true_and, Option.some.injEq] at h
        exact .assignValue _ _ ((h1 _).mp h.1) ((h2 _).mp h.2)
      | _ => simp only [norm, reduceCtorEq] at h
    · intro h
      cases h with
      | assignValue _ _ e1 e2 => simp only [norm, normO, (h1 _).mpr e1, (h2 _).mpr e2]
  | .strExpr s, u => by
    constructor
    · intro h
      cases u <;> simp only [norm, T.strExpr.injEq, reduceCtorEq] at h
      subst h; exact .strExpr _
    · intro h; cases h; rfl
  | .call f as, u => by
    have h1 := norm_iff f
    have h2 := normL_iff as
    constructor
    · intro h
      cases u <;> simp only [norm, T.call.injEq, reduceCtorEq] at h
      exact .call ((h1 _).mp h.1) ((h2 _).mp h.2)
    · intro h
      cases h with
      | call e1 e2 => simp only [norm, (h1 _).mpr e1, (h2 _).mpr e2]
  | .name i, u => by
    constructor
    · intro h
      cases u <;> simp only [norm, T.name.injEq, reduceCtorEq] at h
      subst h; exact .name _
    · intro h; cases h; rfl
  | .attr v a, u => by
    have h1 := norm_iff v
    constructor
    · intro h
      cases u <;> simp only [norm, T.attr.injEq, reduceCtorEq] at h
      obtain ⟨e, rfl⟩ := h
      exact .attr _ ((h1 _).mp e)
    · intro h
      cases h with
      | attr _ e => simp only [norm, (h1 _).mpr e]
  | .node l cs, u => by
    have h1 := normL_iff cs
    constructor
    · intro h
      cases u <;> simp only [norm, T.node.injEq, reduceCtorEq] at h
      obtain ⟨rfl, e⟩ := h
      exact .node _ ((h1 _).mp e)
    · intro h
      cases h with
      | node _ e => simp only [norm, (h1 _).mpr e]
theorem normL_iff : ∀ l m : List T, normL l = normL m ↔ AlikeL l m
  | [], m => by
    constructor
    · intro h
      cases m with
      | nil => exact .nil
      | cons y ys => simp [normL] at h
    · intro h; cases h; rfl
  | x :: xs, m => by
    have h1 := norm_iff x
    have h2 := normL_iff xs
    constructor
    · intro h
      cases m with
      | nil => simp [normL] at h
      | cons y ys =>
        simp only [normL, List.cons.injEq] at h
        exact .cons ((h1 _).mp h.1) ((h2 _).mp h.2)
    · intro h
      cases h with
      | cons e1 e2 => simp only [normL, (h1 _).mpr e1, (h2 _).mpr e2]
theorem normBody_iff : ∀ b c : List T, normBody b = normBody c ↔ AlikeL (undoc b) (undoc c)
  | [], c => by
    rw [normBody_eq c, normBody_eq []]
    generalize undoc c = d
    constructor
    · intro h
      cases d with
      | nil => exact .nil
      | cons y ys => simp [normL, undoc_nil] at h
    · intro h
      rw [undoc_nil] at h ⊢
      cases h; rfl
  | x :: xs, c => by
    have h1 := norm_iff x
    have h2 := normL_iff xs
    rw [normBody_eq c]
    generalize undoc c = d
    cases hx : x.isStr with
    | true =>
      have : ∃ s, x = .strExpr s := by
        cases x <;> simp [T.isStr] at hx
        exact ⟨_, rfl⟩
      obtain ⟨s, rfl⟩ := this
      cases xs with
      | nil =>
        have : normBody [T.strExpr s] = [T.pass] := by simp [normBody, T.isStr]
        rw [this]
        exact normL_pass_iff d
      | cons y ys =>
        have : normBody (T.strExpr s :: y :: ys) = normL (y :: ys) := by simp [normBody, T.isStr]
        rw [this]
        exact h2 d
    | false =>
      have e : undoc (x :: xs) = x :: xs := by cases x <;> simp_all [T.isStr, undoc]
      have : normBody (x :: xs) = norm x :: normL xs := by simp [normBody, hx]
      rw [this, e]
      constructor
      · intro h
        cases d with
        | nil => simp [normL] at h
        | cons y ys =>
          simp only [normL, List.cons.injEq] at h
          exact .cons ((h1 _).mp h.1) ((h2 _).mp h.2)
      · intro h
        cases h with
        | cons e1 e2 => simp only [normL, (h1 _).mpr e1, (h2 _).mpr e2]
end

theorem norm_isStr (x : T) : (norm x).isStr = x.isStr := by cases x <;> simp [norm, T.isStr]

theorem startsWithStr_iff (x : T) (xs : List T) : StartsWithStr (x :: xs) ↔ x.isStr = true := by
  constructor
  · rintro ⟨s, r, h⟩; cases h; rfl
  · intro h
    cases x <;> simp [T.isStr] at h
    exact ⟨_, _, rfl⟩

theorem startsWithStr_norm (l : List T) : StartsWithStr (normL l) ↔ StartsWithStr l := by
  cases l with
  | nil => simp [normL]
  | cons x xs => rw [normL, startsWithStr_iff, startsWithStr_iff, norm_isStr]

theorem length_normL (l : List T) : (normL l).length = l.length := by
  rw [normL_eq_map]; simp

/-- dropping a docstring changes a body -/
theorem normBody_ne {b : List T} (h : StartsWithStr b) (c : List T) (hc : normL c = b) :
    normBody b ≠ b := by
  obtain ⟨s, r, rfl⟩ := h
  cases r with
  | nil => simp [normBody, T.isStr, T.pass]
  | cons y ys =>
    intro h
    have : normBody (T.strExpr s :: y :: ys) = normL (y :: ys) := by simp [normBody, T.isStr]
    rw [this] at h
    have := congrArg List.length h
    rw [length_normL] at this
    simp at this

mutual
theorem norm_norm_iff : ∀ t : T, norm (norm t) = norm t ↔ Settled t
  | .arg n a => by
    constructor
    · intro _; exact .arg _ _
    · intro _; simp [norm]
  | .fn a n pre body decos r => by
    have h1 := normL_norm_iff pre
    have h2 := normBody_norm_iff body
    have h3 := normL_norm_iff decos
    simp only [norm, T.fn.injEq, true_and, and_true]
    constructor
    · rintro ⟨e1, e2, e3⟩
      have := h2.mp e2
      exact .fn _ _ _ (h1.mp e1) this.1 this.2 (h3.mp e3)
    · intro h
      cases h with
      | fn _ _ _ e1 e2 e3 e4 => exact ⟨h1.mpr e1, h2.mpr ⟨e2, e3⟩, h3.mpr e4⟩
  | .cls n pre body decos => by
    have h1 := normL_norm_iff pre
    have h2 := normBody_norm_iff body
    have h3 := normL_norm_iff decos
    simp only [norm, T.cls.injEq, true_and]
    constructor
    · rintro ⟨e1, e2, e3⟩
      have := h2.mp e2
      exact .cls _ (h1.mp e1) this.1 this.2 (h3.mp e3)
    · intro h
      cases h with
      | cls _ e1 e2 e3 e4 => exact ⟨h1.mpr e1, h2.mpr ⟨e2, e3⟩, h3.mpr e4⟩
  | .annAssign t a none => by
    have h1 := norm_norm_iff t
    simp only [norm, normO, T.annAssign.injEq, and_true]
    constructor
    · intro e; exact .assign _ (h1.mp e)
    · intro h
      cases h with
      | assign _ e => exact h1.mpr e
  | .annAssign t a (some v) => by
    have h1 := norm_norm_iff t
    have h2 := norm_norm_iff v
    simp only [norm, normO, T.annAssign.injEq, true_and, Option.some.injEq]
    constructor
    · intro e; exact .assignValue _ (h1.mp e.1) (h2.mp e.2)
    · intro h
      cases h with
      | assignValue _ e1 e2 => exact ⟨h1.mpr e1, h2.mpr e2⟩
  | .strExpr s => by
    constructor
    · intro _; exact .strExpr _
    · intro _; simp [norm]
  | .call f as => by
    have h1 := norm_norm_iff f
    have h2 := normL_norm_iff as
    simp only [norm, T.call.injEq]
    constructor
    · intro e; exact .call (h1.mp e.1) (h2.mp e.2)
    · intro h
      cases h with
      | call e1 e2 => exact ⟨h1.mpr e1, h2.mpr e2⟩
  | .name i => by
    constructor
    · intro _; exact .name _
    · intro _; simp [norm]
  | .attr v a => by
    have h1 := norm_norm_iff v
    simp only [norm, T.attr.injEq, and_true]
    constructor
    · intro e; exact .attr _ (h1.mp e)
    · intro h
      cases h with
      | attr _ e => exact h1.mpr e
  | .node l cs => by
    have h1 := normL_norm_iff cs
    simp only [norm, T.node.injEq, true_and]
    constructor
    · intro e; exact .node _ (h1.mp e)
    · intro h
      cases h with
      | node _ e => exact h1.mpr e
theorem normL_norm_iff : ∀ l : List T, normL (normL l) = normL l ↔ SettledL l
  | [] => by
    constructor
    · intro _; exact .nil
    · intro _; simp [normL]
  | x :: xs => by
    have h1 := norm_norm_iff x
    have h2 := normL_norm_iff xs
    simp only [normL, List.cons.injEq]
    constructor
    · intro e; exact .cons (h1.mp e.1) (h2.mp e.2)
    · intro h
      cases h with
      | cons e1 e2 => exact ⟨h1.mpr e1, h2.mpr e2⟩
theorem normBody_norm_iff : ∀ b : List T, normBody (normBody b) = normBody b ↔
    SettledL b ∧ ¬ StartsWithStr (undoc b)
  | [] => by
    constructor
    · intro _
      refine ⟨.nil, ?_⟩
      rintro ⟨s, r, h⟩; cases h
    · intro _; simp [normBody]
  | x :: xs => by
    have h1 := norm_norm_iff x
    have h2 := normL_norm_iff xs
    cases hx : x.isStr with
    | true =>
      obtain ⟨s, rfl⟩ : ∃ s, x = .strExpr s := by
        cases x <;> simp [T.isStr] at hx
        exact ⟨_, rfl⟩
      cases xs with
      | nil =>
        have e : normBody [T.strExpr s] = [T.pass] := by simp [normBody, T.isStr]
        rw [e]
        constructor
        · intro _
          refine ⟨.cons (.strExpr _) .nil, ?_⟩
          rintro ⟨s', r, h⟩; simp [undoc, T.pass] at h
        · intro _; simp [normBody, T.isStr, T.pass, norm, normL]
      | cons y ys =>
        have e : normBody (T.strExpr s :: y :: ys) = normL (y :: ys) := by simp [normBody, T.isStr]
        have eu : undoc (T.strExpr s :: y :: ys) = y :: ys := by simp [undoc]
        rw [e, eu]
        by_cases hs : StartsWithStr (y :: ys)
        · constructor
          · intro h
            exact absurd h (normBody_ne ((startsWithStr_norm _).mpr hs) _ rfl)
          · intro h; exact absurd hs h.2
        · have : normBody (normL (y :: ys)) = normL (normL (y :: ys)) := by
            rw [normBody_eq]
            congr 1
            have : ¬ StartsWithStr (normL (y :: ys)) := fun h => hs ((startsWithStr_norm _).mp h)
            rw [normL] at this ⊢
            generalize norm y = z at this ⊢
            cases z <;> first | rfl | exact absurd ⟨_, _, rfl⟩ this
          rw [this, h2]
          constructor
          · intro h; exact ⟨.cons (.strExpr _) h, hs⟩
          · rintro ⟨h, -⟩; cases h; assumption
    | false =>
      have eu : undoc (x :: xs) = x :: xs := by cases x <;> simp_all [T.isStr, undoc]
      have e : normBody (x :: xs) = norm x :: normL xs := by simp [normBody, hx]
      have e2 : normBody (norm x :: normL xs) = norm (norm x) :: normL (normL xs) := by
        simp [normBody, norm_isStr, hx]
      rw [e, e2, eu, startsWithStr_iff, List.cons.injEq, h1, h2]
      constructor
      · rintro ⟨a, b⟩; exact ⟨.cons a b, by simp [hx]⟩
      · rintro ⟨a, -⟩; cases a; exact ⟨by assumption, by assumption⟩
end

end Pyth.Src
