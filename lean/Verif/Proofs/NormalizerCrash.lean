import Verif.Proofs.Normalizer
namespace Pyth.Src

theorem hasAnnAssignL_cons (x : T) (xs : List T) :
    HasAnnAssignL (x :: xs) ↔ HasAnnAssign x ∨ HasAnnAssignL xs := by
  constructor
  · intro h
    cases h with
    | head _ h => exact .inl h
    | tail _ h => exact .inr h
  · rintro (h | h)
    · exact .head _ h
    · exact .tail _ h

theorem not_hasAnnAssign_str (s : String) : ¬ HasAnnAssign (.strExpr s) := by intro h; cases h

theorem not_hasAnnAssignL_nil : ¬ HasAnnAssignL [] := by intro h; cases h

mutual
theorem crashes_norm : ∀ t : T, crashes (norm t) = true ↔ HasAnnAssign t
  | .arg n a => by
    simp only [norm, crashes, crashesO]
    constructor
    · intro h; cases h
    · intro h; cases h
  | .fn a n pre body decos r => by
    have h1 := crashesL_norm pre
    have h2 := crashesL_normBody body
    have h3 := crashesL_norm decos
    simp only [norm, crashes, crashesO, Bool.or_false, Bool.or_eq_true, h1, h2, h3]
    constructor
    · rintro ((h | h) | h)
      · exact .fnPre _ _ _ _ _ h
      · exact .fnBody _ _ _ _ _ h
      · exact .fnDecos _ _ _ _ _ h
    · intro h
      cases h with
      | fnPre _ _ _ _ _ h => exact .inl (.inl h)
      | fnBody _ _ _ _ _ h => exact .inl (.inr h)
      | fnDecos _ _ _ _ _ h => exact .inr h
  | .cls n pre body decos => by
    have h1 := crashesL_norm pre
    have h2 := crashesL_normBody body
    have h3 := crashesL_norm decos
    simp only [norm, crashes, Bool.or_eq_true, h1, h2, h3]
    constructor
    · rintro ((h | h) | h)
      · exact .clsPre _ _ _ h
      · exact .clsBody _ _ _ h
      · exact .clsDecos _ _ _ h
    · intro h
      cases h with
      | clsPre _ _ _ h => exact .inl (.inl h)
      | clsBody _ _ _ h => exact .inl (.inr h)
      | clsDecos _ _ _ h => exact .inr h
  | .annAssign t a v => by
    simp only [norm, crashes, Option.isNone_none, Bool.true_or]
    exact ⟨fun _ => .here _ _ _, fun _ => trivial⟩
  | .strExpr s => by
    simp only [norm, crashes]
    constructor
    · intro h; cases h
    · intro h; cases h
  | .call f as => by
    have h1 := crashes_norm f
    have h2 := crashesL_norm as
    simp only [norm, crashes, Bool.or_eq_true, h1, h2]
    constructor
    · rintro (h | h)
      · exact .callFunc _ h
      · exact .callArgs _ h
    · intro h
      cases h with
      | callFunc _ h => exact .inl h
      | callArgs _ h => exact .inr h
  | .name i => by
    simp only [norm, crashes]
    constructor
    · intro h; cases h
    · intro h; cases h
  | .attr v a => by
    have h1 := crashes_norm v
    simp only [norm, crashes, h1]
    constructor
    · intro h; exact .attr _ h
    · intro h; cases h; assumption
  | .node l cs => by
    have h1 := crashesL_norm cs
    simp only [norm, crashes, h1]
    constructor
    · intro h; exact .node _ h
    · intro h; cases h; assumption
theorem crashesL_norm : ∀ l : List T, crashesL (normL l) = true ↔ HasAnnAssignL l
  | [] => by
    simp only [normL, crashesL]
    constructor
    · intro h; cases h
    · intro h; cases h
  | x :: xs => by
    have h1 := crashes_norm x
    have h2 := crashesL_norm xs
    simp only [normL, crashesL, Bool.or_eq_true, h1, h2, hasAnnAssignL_cons]
theorem crashesL_normBody : ∀ b : List T, crashesL (normBody b) = true ↔ HasAnnAssignL b
  | [] => by
    simp only [normBody, crashesL]
    constructor
    · intro h; cases h
    · intro h; cases h
  | x :: xs => by
    have h1 := crashes_norm x
    have h2 := crashesL_norm xs
    cases hx : x.isStr with
    | true =>
      obtain ⟨s, rfl⟩ : ∃ s, x = .strExpr s := by
        cases x <;> simp [T.isStr] at hx
        exact ⟨_, rfl⟩
      cases xs with
      | nil =>
        simp [normBody, T.isStr, crashesL, crashes, T.pass, hasAnnAssignL_cons,
          not_hasAnnAssign_str, not_hasAnnAssignL_nil]
      | cons y ys =>
        have e : normBody (T.strExpr s :: y :: ys) = normL (y :: ys) := by simp [normBody, T.isStr]
        rw [e, h2, hasAnnAssignL_cons (T.strExpr s)]
        simp [not_hasAnnAssign_str]
    | false =>
      have e : normBody (x :: xs) = norm x :: normL xs := by simp [normBody, hx]
      rw [e, hasAnnAssignL_cons]
      simp only [crashesL, Bool.or_eq_true, h1, h2]
end

theorem checkDecorator_ok_iff (known : List String) (d : T) :
    checkDecorator known d = .ok () ↔ KnownDecorator known d := by
  constructor
  · intro h
    unfold checkDecorator at h
    split at h
    · split at h
      · exact .name _ _ (by assumption)
      · cases h
    · split at h
      · exact .attr _ _ _ (by assumption)
      · cases h
    · cases h
    · cases h
  · intro h
    cases h with
    | name i as h => simp [checkDecorator, h]
    | attr v a as h => simp [checkDecorator, h]

/-- A module that can be normalized: it starts with a regular function with at most one decorator,
a call of a known one if it is to be dropped. -/
def Acceptable (known : List String) (drop : Bool) (m : List T) : Prop :=
  ∃ n pre body decos r rest, m = T.fn false n pre body decos r :: rest ∧
    (decos = [] ∨ ∃ d, decos = [d] ∧ (drop = true → KnownDecorator known d))

theorem normModule_ok_iff (known : List String) (drop : Bool) (m k : List T) :
    normModule known drop m = .ok k ↔
      Acceptable known drop m ∧ k = normL (if drop then undecorated m else m) := by
  constructor
  · intro h
    cases m with
    | nil => simp [normModule] at h
    | cons f rest =>
      cases f with
      | fn a n pre body decos r =>
        cases a with
        | true => simp [normModule] at h
        | false =>
          cases decos with
          | nil =>
            simp only [normModule, Except.ok.injEq] at h
            refine ⟨⟨n, pre, body, [], r, rest, rfl, .inl rfl⟩, ?_⟩
            rw [← h]
            cases drop <;> rfl
          | cons d ds =>
            cases ds with
            | cons d' ds => simp [normModule] at h
            | nil =>
              simp only [normModule] at h
              cases drop with
              | false =>
                simp only [Bool.false_eq_true, if_false, Except.ok.injEq] at h
                exact ⟨⟨n, pre, body, [d], r, rest, rfl, .inr ⟨d, rfl, by intro h; cases h⟩⟩, h.symm⟩
              | true =>
                simp only [if_true] at h
                cases hd : checkDecorator known d with
                | error e => rw [hd] at h; cases h
                | ok u =>
                  rw [hd] at h
                  simp only [Except.ok.injEq] at h
                  exact ⟨⟨n, pre, body, [d], r, rest, rfl,
                    .inr ⟨d, rfl, fun _ => (checkDecorator_ok_iff _ _).mp hd⟩⟩, h.symm⟩
      | _ => simp [normModule] at h
  · rintro ⟨⟨n, pre, body, decos, r, rest, rfl, hd⟩, rfl⟩
    rcases hd with rfl | ⟨d, rfl, hd⟩
    · cases drop <;> simp [normModule, undecorated]
    · cases drop with
      | false => simp [normModule]
      | true =>
        have := (checkDecorator_ok_iff known d).mpr (hd rfl)
        simp [normModule, this, undecorated]

end Pyth.Src
