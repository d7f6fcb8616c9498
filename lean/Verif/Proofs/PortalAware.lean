import Verif.Spec.PortalAware
/-! # Pickling and unpickling -/
namespace Pyth.Aware
open Pyth.Portal

theorem pickle_mk_ok {k : Kind} {ss : List String} {cs : List Obj} {q : Option PortalId} {d : Data} :
    pickle (.mk k ss cs q) = .ok d ↔ k.refusal = none ∧ ∃ ds, pickleL cs = .ok ds ∧ d = .mk k ss ds := by
  rw [pickle]
  cases hr : k.refusal with
  | some e => simp
  | none =>
    cases hc : pickleL cs with
    | error e => simp
    | ok ds => simp [eq_comm]

theorem pickleL_cons_ok {o : Obj} {os : List Obj} {l : List Data} :
    pickleL (o :: os) = .ok l ↔ ∃ d ds, pickle o = .ok d ∧ pickleL os = .ok ds ∧ l = d :: ds := by
  rw [pickleL]
  cases ho : pickle o with
  | error e => simp
  | ok d =>
    cases hs : pickleL os with
    | error e => simp
    | ok ds => simp [eq_comm]

theorem refusal_iff (k : Kind) : k.refusal = none ↔ ¬ (k = .portal ∨ k = .ordinaryFn) := by
  cases k <;> simp [Kind.refusal]

theorem setState_ok {s : Sys} {k : Kind} {ss : List String} {cs : List Obj} {o : Obj} (h : setState s k ss cs = .ok o) :
    o = .mk k ss cs (if k.aware then s.stack.head? else none) ∧ k.refusal = none := by
  unfold setState at h
  cases hr : k.refusal with
  | some e => rw [hr] at h; cases h
  | none =>
    rw [hr] at h; dsimp only at h
    split at h
    · cases h
    · injection h with h
      exact ⟨h.symm, rfl⟩

mutual
/-- unpickling what was pickled: never refused inside a block -/
theorem unpickle_pickle (s : Sys) (hs : s.stack ≠ []) : ∀ (o : Obj) (d : Data), pickle o = .ok d →
    ∃ o', unpickle s d = .ok o' ∧ Rebound s.stack.head? o o'
  | .mk k ss cs q, d, h => by
    obtain ⟨hr, ds, h1, rfl⟩ := pickle_mk_ok.1 h
    obtain ⟨os, h2, h3⟩ := unpickleL_pickleL s hs cs ds h1
    rw [unpickle, h2]
    refine ⟨.mk k ss os (if k.aware then s.stack.head? else none), ?_, .mk k ss q h3⟩
    simp [setState, hr, hs]
theorem unpickleL_pickleL (s : Sys) (hs : s.stack ≠ []) : ∀ (os : List Obj) (ds : List Data), pickleL os = .ok ds →
    ∃ os', unpickleL s ds = .ok os' ∧ ReboundL s.stack.head? os os'
  | [], ds, h => by
    rw [pickleL] at h; injection h with h; subst h
    exact ⟨[], by rw [unpickleL], .nil⟩
  | o :: os, l, h => by
    obtain ⟨d, ds, h1, h2, rfl⟩ := pickleL_cons_ok.1 h
    obtain ⟨o', e1, e2⟩ := unpickle_pickle s hs o d h1
    obtain ⟨os', e3, e4⟩ := unpickleL_pickleL s hs os ds h2
    exact ⟨o' :: os', by rw [unpickleL, e1]; dsimp only; rw [e3], .cons e2 e4⟩
end

mutual
/-- wherever it is unpickled, if it is: the data is the same, and everything is bound to the current portal -/
theorem unpickle_rebound (s : Sys) : ∀ (o : Obj) (d : Data) (o' : Obj), pickle o = .ok d → unpickle s d = .ok o' →
    Rebound s.stack.head? o o'
  | .mk k ss cs q, d, o', h, hu => by
    obtain ⟨hr, ds, h1, rfl⟩ := pickle_mk_ok.1 h
    rw [unpickle] at hu
    cases h2 : unpickleL s ds with
    | error e => rw [h2] at hu; cases hu
    | ok os =>
      rw [h2] at hu
      obtain ⟨rfl, _⟩ := setState_ok hu
      exact .mk k ss q (unpickleL_rebound s cs ds os h1 h2)
theorem unpickleL_rebound (s : Sys) : ∀ (os : List Obj) (ds : List Data) (os' : List Obj), pickleL os = .ok ds →
    unpickleL s ds = .ok os' → ReboundL s.stack.head? os os'
  | [], ds, os', h, hu => by
    rw [pickleL] at h; injection h with h; subst h
    rw [unpickleL] at hu; injection hu with hu; subst hu
    exact .nil
  | o :: os, l, l', h, hu => by
    obtain ⟨d, ds, h1, h2, rfl⟩ := pickleL_cons_ok.1 h
    rw [unpickleL] at hu
    cases e1 : unpickle s d with
    | error e => rw [e1] at hu; cases hu
    | ok o' =>
      rw [e1] at hu; dsimp only at hu
      cases e2 : unpickleL s ds with
      | error e => rw [e2] at hu; cases hu
      | ok os' =>
        rw [e2] at hu; injection hu with hu; subst hu
        exact .cons (unpickle_rebound s o d o' h1 e1) (unpickleL_rebound s os ds os' h2 e2)
end

mutual
/-- pickling again what was unpickled -/
theorem pickle_unpickle (s : Sys) : ∀ (d : Data) (o : Obj), unpickle s d = .ok o → pickle o = .ok d
  | .mk k ss ds, o, h => by
    rw [unpickle] at h
    cases e : unpickleL s ds with
    | error _ => rw [e] at h; cases h
    | ok os =>
      rw [e] at h
      obtain ⟨rfl, hr⟩ := setState_ok h
      exact pickle_mk_ok.2 ⟨hr, ds, pickleL_unpickleL s ds os e, rfl⟩
theorem pickleL_unpickleL (s : Sys) : ∀ (ds : List Data) (os : List Obj), unpickleL s ds = .ok os → pickleL os = .ok ds
  | [], os, h => by
    rw [unpickleL] at h; injection h with h; subst h; rw [pickleL]
  | d :: ds, l, h => by
    rw [unpickleL] at h
    cases e1 : unpickle s d with
    | error _ => rw [e1] at h; cases h
    | ok o =>
      rw [e1] at h; dsimp only at h
      cases e2 : unpickleL s ds with
      | error _ => rw [e2] at h; cases h
      | ok os =>
        rw [e2] at h; injection h with h; subst h
        exact pickleL_cons_ok.2 ⟨d, ds, pickle_unpickle s d o e1, pickleL_unpickleL s ds os e2, rfl⟩
end

mutual
theorem pickle_eq_iff : ∀ (o o' : Obj) (d d' : Data), pickle o = .ok d → pickle o' = .ok d' → (d = d' ↔ SameData o o')
  | .mk k ss cs q, .mk k' ss' cs' q', d, d', h, h' => by
    obtain ⟨_, ds, h1, rfl⟩ := pickle_mk_ok.1 h
    obtain ⟨_, ds', h2, rfl⟩ := pickle_mk_ok.1 h'
    have hi := pickleL_eq_iff cs cs' ds ds' h1 h2
    simp only [Data.mk.injEq]
    constructor
    · rintro ⟨rfl, rfl, e⟩; exact .mk _ _ _ _ (hi.mp e)
    · intro hh
      cases hh with
      | mk _ _ _ _ e => exact ⟨rfl, rfl, hi.mpr e⟩
theorem pickleL_eq_iff : ∀ (os os' : List Obj) (ds ds' : List Data), pickleL os = .ok ds → pickleL os' = .ok ds' →
    (ds = ds' ↔ SameDataL os os')
  | [], [], ds, ds', h, h' => by
    rw [pickleL] at h h'; injection h with h; injection h' with h'; subst h h'
    exact ⟨fun _ => .nil, fun _ => rfl⟩
  | [], o :: os, ds, ds', h, h' => by
    rw [pickleL] at h; injection h with h; subst h
    obtain ⟨_, _, _, _, rfl⟩ := pickleL_cons_ok.1 h'
    exact ⟨fun e => (nomatch e), fun e => by cases e⟩
  | o :: os, [], ds, ds', h, h' => by
    rw [pickleL] at h'; injection h' with h'; subst h'
    obtain ⟨_, _, _, _, rfl⟩ := pickleL_cons_ok.1 h
    exact ⟨fun e => (nomatch e), fun e => by cases e⟩
  | o :: os, o' :: os', l, l', h, h' => by
    obtain ⟨d, ds, h1, h2, rfl⟩ := pickleL_cons_ok.1 h
    obtain ⟨d', ds', h3, h4, rfl⟩ := pickleL_cons_ok.1 h'
    have e1 := pickle_eq_iff o o' d d' h1 h3
    have e2 := pickleL_eq_iff os os' ds ds' h2 h4
    simp only [List.cons.injEq]
    constructor
    · rintro ⟨a, b⟩; exact .cons (e1.mp a) (e2.mp b)
    · intro e
      cases e with
      | cons a b => exact ⟨e1.mpr a, e2.mpr b⟩
end

mutual
/-- pickling is refused exactly because of portals and ordinary functions inside -/
theorem pickle_refused : ∀ (o : Obj), (∀ x, Inside x o → ¬ x.Unstorable) ↔ ∃ d, pickle o = .ok d
  | .mk k ss cs q => by
    have hl := pickleL_refused cs
    constructor
    · intro h
      have hk : k.refusal = none := (refusal_iff k).2 (h _ (.refl _))
      obtain ⟨ds, hds⟩ := hl.1 fun c hc x hx => h x (.part k ss cs q hc hx)
      exact ⟨_, pickle_mk_ok.2 ⟨hk, ds, hds, rfl⟩⟩
    · rintro ⟨d, hd⟩ x hx
      obtain ⟨hr, ds, hds, _⟩ := pickle_mk_ok.1 hd
      cases hx with
      | refl => exact (refusal_iff k).1 hr
      | part _ _ _ _ hc hx => exact hl.2 ⟨ds, hds⟩ _ hc x hx
theorem pickleL_refused : ∀ (os : List Obj), (∀ o ∈ os, ∀ x, Inside x o → ¬ x.Unstorable) ↔ ∃ ds, pickleL os = .ok ds
  | [] => by
    constructor
    · intro _; exact ⟨[], by rw [pickleL]⟩
    · intro _ o ho; cases ho
  | o :: os => by
    have h1 := pickle_refused o
    have h2 := pickleL_refused os
    constructor
    · intro h
      obtain ⟨d, hd⟩ := h1.1 (h o (by simp))
      obtain ⟨ds, hds⟩ := h2.1 fun c hc => h c (by simp [hc])
      exact ⟨_, pickleL_cons_ok.2 ⟨d, ds, hd, hds, rfl⟩⟩
    · rintro ⟨l, hl⟩ c hc
      obtain ⟨d, ds, e1, e2, _⟩ := pickleL_cons_ok.1 hl
      rcases List.mem_cons.1 hc with rfl | hc
      · exact h1.2 ⟨d, e1⟩
      · exact h2.2 ⟨ds, e2⟩ c hc
end

mutual
/-- the exception of a refused pickling -/
theorem pickle_error : ∀ (o : Obj) (e : PErr), pickle o = .error e → ∃ x, Inside x o ∧ x.kind.refusal = some e
  | .mk k ss cs q, e, h => by
    rw [pickle] at h
    cases hr : k.refusal with
    | some e' =>
      rw [hr] at h; injection h with h; subst h
      exact ⟨_, .refl _, hr⟩
    | none =>
      rw [hr] at h; dsimp only at h
      cases hc : pickleL cs with
      | ok ds => rw [hc] at h; cases h
      | error e' =>
        rw [hc] at h; injection h with h; subst h
        obtain ⟨c, h1, x, h2, h3⟩ := pickleL_error cs e' hc
        exact ⟨x, .part k ss cs q h1 h2, h3⟩
theorem pickleL_error : ∀ (os : List Obj) (e : PErr), pickleL os = .error e → ∃ c ∈ os, ∃ x, Inside x c ∧ x.kind.refusal = some e
  | [], e, h => by rw [pickleL] at h; cases h
  | o :: os, e, h => by
    rw [pickleL] at h
    cases ho : pickle o with
    | error e' =>
      rw [ho] at h; injection h with h; subst h
      obtain ⟨x, h1, h2⟩ := pickle_error o e' ho
      exact ⟨o, by simp, x, h1, h2⟩
    | ok d =>
      rw [ho] at h; dsimp only at h
      cases hs : pickleL os with
      | ok ds => rw [hs] at h; cases h
      | error e' =>
        rw [hs] at h; injection h with h; subst h
        obtain ⟨c, h1, x⟩ := pickleL_error os e' hs
        exact ⟨c, by simp [h1], x⟩
end

mutual
/-- unpickling outside of all blocks fails exactly because of functions inside -/
theorem unpickle_outside (s : Sys) (hs : s.stack = []) : ∀ (o : Obj) (d : Data), pickle o = .ok d →
    ((∀ x, Inside x o → x.kind ≠ .function) ↔ ∃ o', unpickle s d = .ok o')
  | .mk k ss cs q, d, h => by
    obtain ⟨hr, ds, h1, rfl⟩ := pickle_mk_ok.1 h
    have hl := unpickleL_outside s hs cs ds h1
    constructor
    · intro hx
      obtain ⟨os, hos⟩ := hl.1 fun c hc x hx' => hx x (.part k ss cs q hc hx')
      rw [unpickle, hos]
      have hk : k ≠ .function := hx _ (.refl _)
      exact ⟨.mk k ss os (if k.aware then s.stack.head? else none), by simp [setState, hr, hk]⟩
    · rintro ⟨o', ho'⟩ x hx
      rw [unpickle] at ho'
      cases e : unpickleL s ds with
      | error _ => rw [e] at ho'; cases ho'
      | ok os =>
        rw [e] at ho'
        cases hx with
        | refl =>
          rintro hk
          have hk : k = .function := hk
          subst hk
          dsimp only at ho'
          simp [setState, Kind.refusal, hs] at ho'
        | part _ _ _ _ hc hx => exact hl.2 ⟨os, e⟩ _ hc x hx
theorem unpickleL_outside (s : Sys) (hs : s.stack = []) : ∀ (os : List Obj) (ds : List Data), pickleL os = .ok ds →
    ((∀ o ∈ os, ∀ x, Inside x o → x.kind ≠ .function) ↔ ∃ os', unpickleL s ds = .ok os')
  | [], ds, h => by
    rw [pickleL] at h; injection h with h; subst h
    constructor
    · intro _; exact ⟨[], by rw [unpickleL]⟩
    · intro _ o ho; cases ho
  | o :: os, l, h => by
    obtain ⟨d, ds, e1, e2, rfl⟩ := pickleL_cons_ok.1 h
    have h1 := unpickle_outside s hs o d e1
    have h2 := unpickleL_outside s hs os ds e2
    constructor
    · intro h
      obtain ⟨o', ho'⟩ := h1.1 (h o (by simp))
      obtain ⟨os', hos'⟩ := h2.1 fun c hc => h c (by simp [hc])
      exact ⟨o' :: os', by rw [unpickleL, ho']; dsimp only; rw [hos']⟩
    · rintro ⟨l, hl⟩ c hc
      rw [unpickleL] at hl
      cases e3 : unpickle s d with
      | error _ => rw [e3] at hl; cases hl
      | ok o' =>
        rw [e3] at hl; dsimp only at hl
        cases e4 : unpickleL s ds with
        | error _ => rw [e4] at hl; cases hl
        | ok os' =>
          rcases List.mem_cons.1 hc with rfl | hc
          · exact h1.2 ⟨o', e3⟩
          · exact h2.2 ⟨os', e4⟩ c hc
end

end Pyth.Aware
