import Verif.Spec.Analyzer
import Mathlib.Tactic.Tauto
/-! Proofs about the names analysis. -/
set_option linter.unusedSectionVars false
set_option linter.unusedVariables false
set_option linter.unusedSimpArgs false
namespace Pyth.Analyzer

/-! The words of the specification agree with the visitor's helpers. -/

theorem bound_eq (a : Alias) : a.bound = a.localName := by
  unfold Alias.bound Alias.localName
  cases a.asname <;> rfl

theorem firstPart_eq (m : String) : firstPart m = beforeDot m := rfl
theorem lastPart_eq (m : String) : lastPart m = afterDot m := rfl

theorem targetNames_eq (t : Node) : targetNames t = loopVars t := by
  have h : targetName = varName := by funext t; cases t <;> rfl
  cases t <;> simp [targetNames, loopVars, h, varName]

theorem mem_minus (x : String) (a b : List String) : x ∈ minus a b ↔ x ∈ a ∧ x ∉ b := by
  unfold minus; simp

/-- locals and imports are accessible -/
structure Inv (x : String) (s : St) : Prop where
  loc : x ∈ s.loc → x ∈ s.acc
  imp : x ∈ s.imp → x ∈ s.acc

/-- effect of visiting something whose first mention of `x` is `m` -/
structure Eff (x : String) (m : Option Mention) (s s' : St) : Prop where
  inv : Inv x s'
  uncl : x ∈ s'.uncl ↔ x ∈ s.uncl ∨ (x ∉ s.acc ∧ m = some .use)
  mono : x ∈ s.acc → x ∈ s'.acc
  bind : m = some .bind → x ∈ s'.acc
  only : x ∈ s'.acc → x ∈ s.acc ∨ m ≠ none

theorem Eff.refl {x : String} {s : St} (h : Inv x s) : Eff x none s s :=
  ⟨h, by simp, id, by simp, .inl⟩

theorem Eff.seq {x : String} {m m' : Option Mention} {s s' s'' : St} (h : Eff x m s s') (h' : Eff x m' s' s'') :
    Eff x (m.or m') s s'' where
  inv := h'.inv
  uncl := by
    rw [h'.uncl, h.uncl]
    cases m with
    | none =>
      have : x ∈ s'.acc ↔ x ∈ s.acc := ⟨fun a => (h.only a).resolve_right (by simp), h.mono⟩
      rw [this]
      simp
    | some k =>
      cases k with
      | use =>
        have := h.mono
        simp
        tauto
      | bind =>
        have := h.bind rfl
        simp
        intro a b; exact absurd this a
  mono a := h'.mono (h.mono a)
  bind := by
    intro hm
    cases m with
    | none => exact h'.bind (by simpa using hm)
    | some k => simp at hm; subst hm; exact h'.mono (h.bind rfl)
  only a := by
    rcases h'.only a with b | b
    · rcases h.only b with c | c
      · exact .inl c
      · exact .inr (by cases m <;> simp at c ⊢)
    · exact .inr (by cases m <;> simp at b ⊢; exact b)

/-- binding `x`, or not -/
theorem Eff.binding {x : String} {s s' : St} {P : Prop} [Decidable P] (hi : Inv x s) (hinv : Inv x s') (hu : s'.uncl = s.uncl)
    (ha : x ∈ s'.acc ↔ x ∈ s.acc ∨ P) : Eff x (if P then some .bind else none) s s' where
  inv := hinv
  uncl := by rw [hu]; split <;> simp
  mono a := ha.2 (.inl a)
  bind := by
    intro h
    split at h
    · exact ha.2 (.inr ‹_›)
    · cases h
  only := by
    intro h
    rcases ha.1 h with a | a
    · exact .inl a
    · rw [if_pos a]; exact .inr (by simp)

theorem eff_name (x y : String) (c : Ctx) (s : St) (hi : Inv x s) : Eff x (first x (.name y c)) s (visitName y c s) := by
  cases c with
  | del =>
    have : first x (.name y .del) = none := by simp [first]
    rw [this]
    exact .refl hi
  | load =>
    unfold visitName
    simp only [first]
    by_cases h : y ∈ s.acc
    · rw [if_pos h]
      refine ⟨hi, ?_, id, ?_, .inl⟩
      · constructor
        · exact .inl
        · rintro (a | ⟨a, b⟩)
          · exact a
          · split at b
            · rename_i e; subst e; exact absurd h a
            · cases b
      · split <;> simp
    · rw [if_neg h]
      refine ⟨⟨fun a => List.mem_append_left _ (hi.loc a), fun a => List.mem_append_left _ (hi.imp a)⟩, ?_, List.mem_append_left _, ?_, ?_⟩
      · simp only [List.mem_append, List.mem_singleton]
        constructor
        · rintro (a | a)
          · exact .inl a
          · subst a; exact .inr ⟨h, by simp⟩
        · rintro (a | ⟨a, b⟩)
          · exact .inl a
          · split at b
            · rename_i e; exact .inr e.symm
            · cases b
      · split <;> simp
      · intro a
        rcases List.mem_append.1 a with a | a
        · exact .inl a
        · simp at a; subst a; exact .inr (by simp)
  | store =>
    unfold visitName
    have hf : first x (.name y .store) = if y = x then some .bind else none := by simp [first]
    rw [hf]
    by_cases h : y ∈ s.acc
    · simp only [if_pos h]
      refine .binding hi hi rfl ?_
      constructor
      · exact .inl
      · rintro (a | a)
        · exact a
        · subst a; exact h
    · simp only [if_neg h]
      refine .binding hi ⟨fun a => ?_, fun a => List.mem_append_left _ (hi.imp a)⟩ rfl ?_
      · rcases List.mem_append.1 a with a | a
        · exact List.mem_append_left _ (hi.loc a)
        · exact List.mem_append_right _ a
      · simp only [List.mem_append, List.mem_singleton, eq_comm]

theorem mem_bindTargets (x : String) (t : Node) (s : St) (hi : Inv x s) :
    (x ∈ (bindTargets t s).acc ↔ x ∈ s.acc ∨ x ∈ loopVars t) ∧ Inv x (bindTargets t s) ∧ (bindTargets t s).uncl = s.uncl := by
  have h1 : x ∈ (bindTargets t s).acc ↔ x ∈ s.acc ∨ x ∈ loopVars t := by
    show x ∈ s.acc ++ (s.loc ++ minus (targetNames t) s.acc) ↔ _
    rw [targetNames_eq]
    simp only [List.mem_append, mem_minus]
    have := hi.loc
    tauto
  refine ⟨h1, ⟨fun a => List.mem_append_right _ a, fun a => List.mem_append_left _ (hi.imp a)⟩, rfl⟩

theorem inv_enterDef (x : String) (args : List String) (va kw : Option String) : Inv x (enterDef args va kw {}) :=
  ⟨fun a => List.mem_append_right _ a, fun a => (by cases a)⟩

mutual
theorem eff_visit (x : String) (n : Node) (l : Nat) (s s' : St) (hi : Inv x s) (h : visit n (l + 1) s = some s') :
    Eff x (first x n) s s' := by
  cases n with
  | name y c =>
    simp only [visit, Option.some.injEq] at h
    subst h
    exact eff_name x y c s hi
  | funcDef f args va kw ch =>
    simp only [visit] at h
    cases ht : visitAll ch 1 (enterDef args va kw {}) with
    | none => rw [ht] at h; cases h
    | some t =>
      rw [ht] at h
      simp only [Option.some.injEq] at h
      subst h
      have ih := eff_visitAll x ch 0 _ t (inv_enterDef x args va kw) ht
      have hacc : x ∈ (enterDef args va kw {}).acc ↔ x ∈ plainParams args va kw := by
        show x ∈ [] ++ ([] ++ plainParams args va kw) ↔ _
        simp
      have hu : x ∈ t.uncl ↔ x ∉ plainParams args va kw ∧ firstAny x ch = some .use := by
        rw [ih.uncl, hacc]
        constructor
        · rintro (a | a)
          · cases a
          · exact a
        · exact .inr
      have hf : first x (.funcDef f args va kw ch) = if x ∉ plainParams args va kw ∧ firstAny x ch = some .use then some .use
          else if f = x then some .bind else none := by simp only [first]
      rw [hf]
      refine ⟨⟨fun a => ?_, fun a => List.mem_append_left _ (hi.imp a)⟩, ?_, List.mem_append_left _, ?_, ?_⟩
      · rcases List.mem_append.1 a with a | a
        · exact List.mem_append_left _ (hi.loc a)
        · exact List.mem_append_right _ a
      · show x ∈ s.uncl ++ minus t.uncl s.acc ↔ _
        rw [List.mem_append, mem_minus, hu]
        split
        · rename_i hc; tauto
        · rename_i hc
          split <;> simp [hc]
      · intro hb
        split at hb
        · cases hb
        · split at hb
          · rename_i e; subst e; exact List.mem_append_right _ (List.mem_singleton.2 rfl)
          · cases hb
      · intro a
        rcases List.mem_append.1 a with a | a
        · exact .inl a
        · simp at a
          subst a
          right
          split <;> simp
  | tryS hs ch =>
    simp only [visit] at h
    have hm : x ∈ hs.filterMap id ↔ some x ∈ hs := by simp
    have e1 : Eff x (if some x ∈ hs then some .bind else none) s
        { s with loc := s.loc ++ hs.filterMap id, acc := s.acc ++ hs.filterMap id } :=
      .binding hi ⟨fun a => by
        rcases List.mem_append.1 a with a | a
        · exact List.mem_append_left _ (hi.loc a)
        · exact List.mem_append_right _ a, fun a => List.mem_append_left _ (hi.imp a)⟩ rfl (by
          show x ∈ s.acc ++ hs.filterMap id ↔ _
          rw [List.mem_append, hm])
    have e2 := eff_visitAll x ch l _ s' e1.inv h
    have hf : first x (.tryS hs ch) = (if some x ∈ hs then some Mention.bind else none).or (firstAny x ch) := by
      simp only [first]
      split <;> simp
    rw [hf]
    exact e1.seq e2
  | comprehension t rest =>
    simp only [visit] at h
    cases ht : visit t (l + 1) (bindTargets t s) with
    | none => rw [ht] at h; cases h
    | some s1 =>
      rw [ht] at h
      obtain ⟨b1, b2, b3⟩ := mem_bindTargets x t s hi
      have e1 : Eff x (if x ∈ loopVars t then some .bind else none) s (bindTargets t s) := .binding hi b2 b3 b1
      have e2 := eff_visit x t l _ s1 e1.inv ht
      have e3 := eff_visitAll x rest l s1 s' e2.inv h
      have hf : first x (.comprehension t rest) =
          (if x ∈ loopVars t then some Mention.bind else none).or ((first x t).or (firstAny x rest)) := by
        simp only [first]
        split <;> simp
      rw [hf]
      exact e1.seq (e2.seq e3)
  | tuple elts =>
    simp only [visit] at h
    simp only [first]
    exact eff_visitAll x elts l s s' hi h
  | listComp elts gens =>
    simp only [visit] at h
    cases h1 : visitAll gens (l + 1) s with
    | none => rw [h1] at h; cases h
    | some s1 =>
      rw [h1] at h
      simp only at h
      cases h2 : visitAll elts (l + 1) s1 with
      | none => rw [h2] at h; cases h
      | some s2 =>
        rw [h2] at h
        have e1 := eff_visitAll x gens l s s1 hi h1
        have e2 := eff_visitAll x elts l s1 s2 e1.inv h2
        have e3 := eff_visitAll x gens l s2 s' e2.inv h
        have := (e1.seq e2).seq e3
        simp only [first]
        have hor : ((firstAny x gens).or (firstAny x elts)).or (firstAny x gens) = (firstAny x gens).or (firstAny x elts) := by
          cases firstAny x gens <;> cases firstAny x elts <;> rfl
        rw [hor] at this
        exact this
  | importS names =>
    simp only [visit, Option.some.injEq] at h
    subst h
    have hm : x ∈ names.map Alias.bound ↔ ∃ a ∈ names, a.localName = x := by simp [bound_eq]
    simp only [first]
    refine .binding hi ⟨fun a => List.mem_append_left _ (hi.loc a), fun a => List.mem_append_right _ a⟩ rfl ?_
    show x ∈ s.acc ++ (s.imp ++ names.map Alias.bound) ↔ _
    rw [List.mem_append, List.mem_append, hm]
    have := hi.imp
    tauto
  | importFrom m names =>
    cases m with
    | none => simp [visit] at h
    | some m =>
      simp only [visit, Option.some.injEq] at h
      subst h
      have hm : x ∈ names.map Alias.bound ↔ ∃ a ∈ names, a.localName = x := by simp [bound_eq]
      simp only [first]
      refine .binding hi ⟨fun a => List.mem_append_left _ (hi.loc a), fun a => List.mem_append_right _ a⟩ rfl ?_
      show x ∈ s.acc ++ (s.imp ++ names.map Alias.bound) ↔ _
      rw [List.mem_append, List.mem_append, hm]
      have := hi.imp
      tauto
  | nonlocalS names =>
    simp only [visit, Option.some.injEq] at h
    subst h
    simp only [first]
    exact .binding hi ⟨fun a => List.mem_append_left _ (hi.loc a), fun a => List.mem_append_left _ (hi.imp a)⟩ rfl (by
      show x ∈ s.acc ++ names ↔ _; rw [List.mem_append])
  | globalS names =>
    simp only [visit, Option.some.injEq] at h
    subst h
    simp only [first]
    exact .binding hi ⟨fun a => List.mem_append_left _ (hi.loc a), fun a => List.mem_append_left _ (hi.imp a)⟩ rfl (by
      show x ∈ s.acc ++ names ↔ _; rw [List.mem_append])
  | yieldE ch =>
    simp only [visit] at h
    simp only [first]
    have e := eff_visitAll x ch l { s with yields := s.yields + 1 } s' ⟨hi.loc, hi.imp⟩ h
    exact ⟨e.inv, e.uncl, e.mono, e.bind, e.only⟩
  | other c i ch =>
    simp only [visit] at h
    simp only [first]
    exact eff_visitAll x ch l s s' hi h
theorem eff_visitAll (x : String) (ns : List Node) (l : Nat) (s s' : St) (hi : Inv x s) (h : visitAll ns (l + 1) s = some s') :
    Eff x (firstAny x ns) s s' := by
  cases ns with
  | nil =>
    simp only [visitAll, Option.some.injEq] at h
    subst h
    simp only [firstAny]
    exact .refl hi
  | cons n ns =>
    simp only [visitAll] at h
    cases h1 : visit n (l + 1) s with
    | none => rw [h1] at h; cases h
    | some s1 =>
      rw [h1] at h
      have e1 := eff_visit x n l s s1 hi h1
      have e2 := eff_visitAll x ns l s1 s' e1.inv h
      simp only [firstAny]
      exact e1.seq e2
end

/-- the result for a function -/
theorem analyze_spec (x f : String) (args : List String) (va kw : Option String) (ch : List Node) (s' : St)
    (h : analyze (.funcDef f args va kw ch) = some s') :
    (x ∈ s'.uncl ↔ x ∉ plainParams args va kw ∧ firstAny x ch = some .use) := by
  unfold analyze at h
  simp only [visit] at h
  have ih := eff_visitAll x ch 0 _ s' (inv_enterDef x args va kw) h
  have hacc : x ∈ (enterDef args va kw {}).acc ↔ x ∈ plainParams args va kw := by
    show x ∈ [] ++ ([] ++ plainParams args va kw) ↔ _
    simp
  rw [ih.uncl, hacc]
  constructor
  · rintro (a | a)
    · cases a
    · exact a
  · exact .inr

/-! ### needs and first mentions -/

mutual
theorem first_bind (x : String) (n : Node) (h : ¬ Binds x n) : first x n ≠ some .bind := by
  cases n with
  | name y c =>
    simp only [first]
    simp only [Binds] at h
    split
    · cases c <;> simp at h ⊢
      rename_i e; exact absurd e h
    · simp
  | funcDef f args va kw ch =>
    simp only [first]
    simp only [Binds] at h
    split
    · simp
    · simp [h]
  | tryS hs ch =>
    simp only [first]
    simp only [Binds, not_or] at h
    rw [if_neg h.1]
    exact firstAny_bind x ch h.2
  | comprehension t rest =>
    simp only [first]
    simp only [Binds, not_or] at h
    rw [if_neg h.1]
    have h1 := first_bind x t h.2.1
    have h2 := firstAny_bind x rest h.2.2
    cases hf : first x t with
    | none => simpa using h2
    | some m => rw [hf] at h1; simpa using h1
  | tuple elts => exact firstAny_bind x elts h
  | listComp elts gens =>
    simp only [first]
    simp only [Binds, not_or] at h
    have h1 := firstAny_bind x gens h.2
    have h2 := firstAny_bind x elts h.1
    cases hf : firstAny x gens with
    | none => simpa using h2
    | some m => rw [hf] at h1; simpa using h1
  | importS names =>
    simp only [first]
    simp only [Binds] at h
    rw [if_neg h]; simp
  | importFrom m names =>
    simp only [first]
    simp only [Binds] at h
    rw [if_neg h]; simp
  | nonlocalS names =>
    simp only [first]
    simp only [Binds] at h
    rw [if_neg h]; simp
  | globalS names =>
    simp only [first]
    simp only [Binds] at h
    rw [if_neg h]; simp
  | yieldE ch => exact firstAny_bind x ch h
  | other c i ch => exact firstAny_bind x ch h
theorem firstAny_bind (x : String) (ns : List Node) (h : ¬ BindsAny x ns) : firstAny x ns ≠ some .bind := by
  cases ns with
  | nil => simp [firstAny]
  | cons n ns =>
    simp only [firstAny]
    simp only [BindsAny, not_or] at h
    have h1 := first_bind x n h.1
    have h2 := firstAny_bind x ns h.2
    cases hf : first x n with
    | none => simpa using h2
    | some m => rw [hf] at h1; simpa using h1
end

theorem or_use {m m' : Option Mention} (h : m ≠ some .bind) (h' : m = some .use ∨ m' = some .use) : m.or m' = some .use := by
  cases m with
  | none => simpa using h'
  | some k => cases k with
    | use => rfl
    | bind => exact absurd rfl h

mutual
theorem first_use (x : String) (n : Node) (hb : ¬ Binds x n) (h : Needs x n) : first x n = some .use := by
  cases n with
  | name y c =>
    simp only [Needs] at h
    obtain ⟨rfl, rfl⟩ := h
    simp [first]
  | funcDef f args va kw ch =>
    simp only [Needs] at h
    simp only [first]
    rw [if_pos ⟨h.1, firstAny_use x ch h.2.1 h.2.2⟩]
  | tryS hs ch =>
    simp only [first]
    simp only [Binds, not_or] at hb
    rw [if_neg hb.1]
    exact firstAny_use x ch hb.2 h
  | comprehension t rest =>
    simp only [first]
    simp only [Binds, not_or] at hb
    simp only [Needs] at h
    rw [if_neg hb.1]
    refine or_use (first_bind x t hb.2.1) ?_
    exact h.imp (first_use x t hb.2.1) (firstAny_use x rest hb.2.2)
  | tuple elts => exact firstAny_use x elts hb h
  | listComp elts gens =>
    simp only [first]
    simp only [Binds, not_or] at hb
    simp only [Needs] at h
    refine or_use (firstAny_bind x gens hb.2) ?_
    exact h.symm.imp (firstAny_use x gens hb.2) (firstAny_use x elts hb.1)
  | importS names => exact h.elim
  | importFrom m names => exact h.elim
  | nonlocalS names => exact h.elim
  | globalS names => exact h.elim
  | yieldE ch => exact firstAny_use x ch hb h
  | other c i ch => exact firstAny_use x ch hb h
theorem firstAny_use (x : String) (ns : List Node) (hb : ¬ BindsAny x ns) (h : NeedsAny x ns) : firstAny x ns = some .use := by
  cases ns with
  | nil => exact h.elim
  | cons n ns =>
    simp only [firstAny]
    simp only [BindsAny, not_or] at hb
    simp only [NeedsAny] at h
    refine or_use (first_bind x n hb.1) ?_
    exact h.imp (first_use x n hb.1) (firstAny_use x ns hb.2)
end

mutual
theorem loads_of_first (x : String) (n : Node) (h : first x n = some .use) : Loads x n := by
  cases n with
  | name y c =>
    simp only [first] at h
    simp only [Loads]
    split at h
    · rename_i e; subst e; cases c <;> simp at h ⊢
    · cases h
  | funcDef f args va kw ch =>
    simp only [first] at h
    simp only [Loads]
    split at h
    · rename_i hc; exact loadsAny_of_first x ch hc.2
    · split at h <;> cases h
  | tryS hs ch =>
    simp only [first] at h
    simp only [Loads]
    split at h
    · cases h
    · exact loadsAny_of_first x ch h
  | comprehension t rest =>
    simp only [first] at h
    simp only [Loads]
    split at h
    · cases h
    · cases hf : first x t with
      | none => rw [hf] at h; exact .inr (loadsAny_of_first x rest (by simpa using h))
      | some m => rw [hf] at h; exact .inl (loads_of_first x t (by rw [hf]; simpa using h))
  | tuple elts => exact loadsAny_of_first x elts h
  | listComp elts gens =>
    simp only [first] at h
    simp only [Loads]
    cases hf : firstAny x gens with
    | none => rw [hf] at h; exact .inl (loadsAny_of_first x elts (by simpa using h))
    | some m => rw [hf] at h; exact .inr (loadsAny_of_first x gens (by rw [hf]; simpa using h))
  | importS names => simp only [first] at h; split at h <;> cases h
  | importFrom m names => simp only [first] at h; split at h <;> cases h
  | nonlocalS names => simp only [first] at h; split at h <;> cases h
  | globalS names => simp only [first] at h; split at h <;> cases h
  | yieldE ch => exact loadsAny_of_first x ch h
  | other c i ch => exact loadsAny_of_first x ch h
theorem loadsAny_of_first (x : String) (ns : List Node) (h : firstAny x ns = some .use) : LoadsAny x ns := by
  cases ns with
  | nil => cases h
  | cons n ns =>
    simp only [firstAny] at h
    simp only [LoadsAny]
    cases hf : first x n with
    | none => rw [hf] at h; exact .inr (loadsAny_of_first x ns (by simpa using h))
    | some m => rw [hf] at h; exact .inl (loads_of_first x n (by rw [hf]; simpa using h))
end

mutual
theorem binds_deep (x : String) (n : Node) (h : Binds x n) : BoundDeep x n := by
  cases n with
  | name y c => exact h
  | funcDef f args va kw ch => exact .inl h
  | tryS hs ch => exact h.imp id (bindsAny_deep x ch)
  | comprehension t rest => exact h.imp id (Or.imp (binds_deep x t) (bindsAny_deep x rest))
  | tuple elts => exact bindsAny_deep x elts h
  | listComp elts gens => exact h.imp (bindsAny_deep x elts) (bindsAny_deep x gens)
  | importS names => exact h
  | importFrom m names => exact h
  | nonlocalS names => exact h
  | globalS names => exact h
  | yieldE ch => exact bindsAny_deep x ch h
  | other c i ch => exact bindsAny_deep x ch h
theorem bindsAny_deep (x : String) (ns : List Node) (h : BindsAny x ns) : BoundDeepAny x ns := by
  cases ns with
  | nil => exact h.elim
  | cons n ns => exact h.imp (binds_deep x n) (bindsAny_deep x ns)
end

mutual
theorem needs_of_loads (x : String) (n : Node) (hb : ¬ BoundDeep x n) (h : Loads x n) : Needs x n := by
  cases n with
  | name y c => exact h
  | funcDef f args va kw ch =>
    simp only [BoundDeep, not_or] at hb
    exact ⟨hb.2.1, fun b => hb.2.2 (bindsAny_deep x ch b), needsAny_of_loads x ch hb.2.2 h⟩
  | tryS hs ch =>
    simp only [BoundDeep, not_or] at hb
    exact needsAny_of_loads x ch hb.2 h
  | comprehension t rest =>
    simp only [BoundDeep, not_or] at hb
    exact h.imp (needs_of_loads x t hb.2.1) (needsAny_of_loads x rest hb.2.2)
  | tuple elts => exact needsAny_of_loads x elts hb h
  | listComp elts gens =>
    simp only [BoundDeep, not_or] at hb
    exact h.imp (needsAny_of_loads x elts hb.1) (needsAny_of_loads x gens hb.2)
  | importS names => exact h.elim
  | importFrom m names => exact h.elim
  | nonlocalS names => exact h.elim
  | globalS names => exact h.elim
  | yieldE ch => exact needsAny_of_loads x ch hb h
  | other c i ch => exact needsAny_of_loads x ch hb h
theorem needsAny_of_loads (x : String) (ns : List Node) (hb : ¬ BoundDeepAny x ns) (h : LoadsAny x ns) : NeedsAny x ns := by
  cases ns with
  | nil => exact h.elim
  | cons n ns =>
    simp only [BoundDeepAny, not_or] at hb
    exact h.imp (needs_of_loads x n hb.1) (needsAny_of_loads x ns hb.2)
end

/-! ### declarations, packages, yields -/

/-- where the collected declarations and packages come from; how many yields -/
structure Src (ds : Bool → String → Prop) (im : String → Prop) (ys : Prop) (s s' : St) : Prop where
  glob : ∀ x, x ∈ s'.glob ↔ x ∈ s.glob ∨ ds true x
  nonl : ∀ x, x ∈ s'.nonl → x ∈ s.nonl ∨ ds false x
  packages : ∀ p, p ∈ s'.packages ↔ p ∈ s.packages ∨ im p
  mono : s.yields ≤ s'.yields
  more : ys → s.yields < s'.yields
  same : ¬ ys → s'.yields = s.yields

theorem Src.seq {ds ds' : Bool → String → Prop} {im im' : String → Prop} {ys ys' : Prop} {s s' s'' : St}
    (h : Src ds im ys s s') (h' : Src ds' im' ys' s' s'') :
    Src (fun g x => ds g x ∨ ds' g x) (fun p => im p ∨ im' p) (ys ∨ ys') s s'' where
  glob x := by rw [h'.glob, h.glob, or_assoc]
  nonl x a := by
    rcases h'.nonl x a with b | b
    · rcases h.nonl x b with c | c
      · exact .inl c
      · exact .inr (.inl c)
    · exact .inr (.inr b)
  packages p := by rw [h'.packages, h.packages, or_assoc]
  mono := Nat.le_trans h.mono h'.mono
  more := by
    rintro (a | a)
    · exact Nat.lt_of_lt_of_le (h.more a) h'.mono
    · exact Nat.lt_of_le_of_lt h.mono (h'.more a)
  same a := by rw [h'.same (fun b => a (.inr b)), h.same (fun b => a (.inl b))]

theorem Src.still {s s' : St} (h1 : s'.glob = s.glob) (h2 : s'.nonl = s.nonl) (h3 : s'.packages = s.packages) (h4 : s'.yields = s.yields) :
    Src (fun _ _ => False) (fun _ => False) False s s' :=
  ⟨fun x => by rw [h1]; simp, fun x a => by rw [h2] at a; exact .inl a, fun x => by rw [h3]; simp, by omega, fun h => h.elim, fun _ => h4⟩

theorem Src.conv {ds ds' : Bool → String → Prop} {im im' : String → Prop} {ys ys' : Prop} {s s' : St}
    (h : Src ds im ys s s') (h1 : ∀ g x, ds g x ↔ ds' g x) (h2 : ∀ p, im p ↔ im' p) (h3 : ys ↔ ys') : Src ds' im' ys' s s' :=
  ⟨fun x => by rw [h.glob, h1], fun x a => by rw [← h1]; exact h.nonl x a, fun p => by rw [h.packages, h2], h.mono,
    fun a => h.more (h3.2 a), fun a => h.same (fun b => a (h3.1 b))⟩

mutual
theorem src_visit (n : Node) (l : Nat) (s s' : St) (h : visit n (l + 1) s = some s') :
    Src (fun g x => Declares g x n) (fun p => Imports p n) (Yields n) s s' := by
  cases n with
  | name y c =>
    simp only [visit, Option.some.injEq] at h
    subst h
    have : Src (fun _ _ => False) (fun _ => False) False s (visitName y c s) := by
      unfold visitName
      cases c <;> simp only <;> first | exact .still rfl rfl rfl rfl | (split <;> exact .still rfl rfl rfl rfl)
    exact this.conv (fun g x => by simp [Declares]) (fun p => by simp [Imports]) (by simp [Yields])
  | funcDef f args va kw ch =>
    simp only [visit] at h
    cases ht : visitAll ch 1 (enterDef args va kw {}) with
    | none => rw [ht] at h; cases h
    | some t =>
      rw [ht] at h
      simp only [Option.some.injEq] at h
      subst h
      have ih := src_visitAll ch 0 _ t ht
      refine ⟨fun x => ?_, fun x a => ?_, fun p => ?_, Nat.le_refl _, fun a => a.elim, fun _ => rfl⟩
      · show x ∈ s.glob ++ t.glob ↔ _
        rw [List.mem_append, ih.glob]
        simp [Declares, enterDef]
      · have a : x ∈ s.nonl ++ minus t.nonl s.acc := a
        rw [List.mem_append, mem_minus] at a
        rcases a with a | a
        · exact .inl a
        · rcases ih.nonl x a.1 with b | b
          · cases b
          · exact .inr b
      · show p ∈ s.packages ++ t.packages ↔ _
        rw [List.mem_append, ih.packages]
        simp [Imports, enterDef]
  | tryS hs ch =>
    simp only [visit] at h
    have := src_visitAll ch l _ s' h
    exact ⟨this.glob, this.nonl, this.packages, this.mono, this.more, this.same⟩
  | comprehension t rest =>
    simp only [visit] at h
    cases ht : visit t (l + 1) (bindTargets t s) with
    | none => rw [ht] at h; cases h
    | some s1 =>
      rw [ht] at h
      have e1 := src_visit t l _ s1 ht
      have e1' : Src (fun g x => Declares g x t) (fun p => Imports p t) (Yields t) s s1 :=
        ⟨e1.glob, e1.nonl, e1.packages, e1.mono, e1.more, e1.same⟩
      have e2 := src_visitAll rest l s1 s' h
      exact e1'.seq e2
  | tuple elts =>
    simp only [visit] at h
    exact src_visitAll elts l s s' h
  | listComp elts gens =>
    simp only [visit] at h
    cases h1 : visitAll gens (l + 1) s with
    | none => rw [h1] at h; cases h
    | some s1 =>
      rw [h1] at h
      simp only at h
      cases h2 : visitAll elts (l + 1) s1 with
      | none => rw [h2] at h; cases h
      | some s2 =>
        rw [h2] at h
        have e1 := src_visitAll gens l s s1 h1
        have e2 := src_visitAll elts l s1 s2 h2
        have e3 := src_visitAll gens l s2 s' h
        refine ((e1.seq e2).seq e3).conv (fun g x => ?_) (fun p => ?_) ?_
        · simp only [Declares]; tauto
        · simp only [Imports]; tauto
        · simp only [Yields]; tauto
  | importS names =>
    simp only [visit, Option.some.injEq] at h
    subst h
    refine ⟨fun x => ?_, fun x a => .inl a, fun p => ?_, Nat.le_refl _, fun a => a.elim, fun _ => rfl⟩
    · simp [Declares]
    · simp [Imports, firstPart_eq]
  | importFrom m names =>
    cases m with
    | none => simp [visit] at h
    | some m =>
      simp only [visit, Option.some.injEq] at h
      subst h
      refine ⟨fun x => ?_, fun x a => .inl a, fun p => ?_, Nat.le_refl _, fun a => a.elim, fun _ => rfl⟩
      · simp [Declares]
      · simp [Imports, eq_comm, lastPart_eq]
  | nonlocalS names =>
    simp only [visit, Option.some.injEq] at h
    subst h
    refine ⟨fun x => ?_, fun x a => ?_, fun p => ?_, Nat.le_refl _, fun a => a.elim, fun _ => rfl⟩
    · simp [Declares]
    · exact (List.mem_append.1 a).imp id (fun b => ⟨rfl, b⟩)
    · simp [Imports]
  | globalS names =>
    simp only [visit, Option.some.injEq] at h
    subst h
    refine ⟨fun x => ?_, fun x a => .inl a, fun p => ?_, Nat.le_refl _, fun a => a.elim, fun _ => rfl⟩
    · simp [Declares]
    · simp [Imports]
  | yieldE ch =>
    simp only [visit] at h
    have e := src_visitAll ch l _ s' h
    have hm : s.yields + 1 ≤ s'.yields := e.mono
    exact ⟨e.glob, e.nonl, e.packages, by omega, fun _ => by omega, fun a => (a trivial).elim⟩
  | other c i ch =>
    simp only [visit] at h
    exact src_visitAll ch l s s' h
theorem src_visitAll (ns : List Node) (l : Nat) (s s' : St) (h : visitAll ns (l + 1) s = some s') :
    Src (fun g x => DeclaresAny g x ns) (fun p => ImportsAny p ns) (YieldsAny ns) s s' := by
  cases ns with
  | nil =>
    simp only [visitAll, Option.some.injEq] at h
    subst h
    exact .still rfl rfl rfl rfl
  | cons n ns =>
    simp only [visitAll] at h
    cases h1 : visit n (l + 1) s with
    | none => rw [h1] at h; cases h
    | some s1 =>
      rw [h1] at h
      exact (src_visit n l s s1 h1).seq (src_visitAll ns l s1 s' h)
end

mutual
theorem visit_total (n : Node) (l : Nat) (s : St) : visit n (l + 1) s = none ↔ Relative n := by
  cases n with
  | name y c => simp [visit, Relative]
  | funcDef f args va kw ch =>
    simp only [visit, Relative]
    rw [← visitAll_total ch 0 (enterDef args va kw {})]
    cases visitAll ch (0 + 1) (enterDef args va kw {}) <;> simp
  | tryS hs ch => simp only [visit, Relative]; exact visitAll_total ch l _
  | comprehension t rest =>
    simp only [visit, Relative]
    have h1 := visit_total t l (bindTargets t s)
    cases h : visit t (l + 1) (bindTargets t s) with
    | none => rw [h] at h1; simp at h1; simp [h1]
    | some s1 =>
      rw [h] at h1; simp at h1
      simp only [h1, false_or]
      exact visitAll_total rest l s1
  | tuple elts => simp only [visit, Relative]; exact visitAll_total elts l _
  | listComp elts gens =>
    simp only [visit, Relative]
    have h1 := visitAll_total gens l s
    cases h : visitAll gens (l + 1) s with
    | none => rw [h] at h1; simp at h1; simp [h1]
    | some s1 =>
      rw [h] at h1; simp at h1
      simp only [h1, or_false]
      have h2 := visitAll_total elts l s1
      cases h' : visitAll elts (l + 1) s1 with
      | none => rw [h'] at h2; simp at h2; simp [h2]
      | some s2 =>
        rw [h'] at h2; simp at h2
        simp only [h2, iff_false]
        have h3 := visitAll_total gens l s2
        simp only [h1, iff_false] at h3
        exact h3
  | importS names => simp [visit, Relative]
  | importFrom m names => cases m <;> simp [visit, Relative]
  | nonlocalS names => simp [visit, Relative]
  | globalS names => simp [visit, Relative]
  | yieldE ch => simp only [visit, Relative]; exact visitAll_total ch l _
  | other c i ch => simp only [visit, Relative]; exact visitAll_total ch l _
theorem visitAll_total (ns : List Node) (l : Nat) (s : St) : visitAll ns (l + 1) s = none ↔ RelativeAny ns := by
  cases ns with
  | nil => simp [visitAll, RelativeAny]
  | cons n ns =>
    simp only [visitAll, RelativeAny]
    have h1 := visit_total n l s
    cases h : visit n (l + 1) s with
    | none => rw [h] at h1; simp at h1; simp [h1]
    | some s1 =>
      rw [h] at h1; simp at h1
      simp only [h1, false_or]
      exact visitAll_total ns l s1
end

end Pyth.Analyzer
