import Verif.Props.ValueAddr
/-!
# Property C112: retrieval with a known type

`isinst` is the test `isinstance(_, expected_type)`. As in C14 every theorem is about an arbitrary session.
-/
set_option linter.unusedSectionVars false
set_option linter.unusedVariables false
namespace Pyth.ValueAddr
open Pyth.World Pyth.Portal

variable {A V E : Type} [DecidableEq A] [DecidableEq V]

/-- what `getTyped` does, in terms of `get` -/
theorem getTyped_get (isinst : V → Bool) (i : Nat) (w : World A V E) :
    getTyped isinst i w =
      match get i w with
      | (.ok v, w') => if isinst v then (.ok v, w') else raiseNew .assertionError w'
      | (.error e, w') => (.error e, w') := by
  unfold getTyped
  simp only [bind, PyM.bind]
  cases h : get i w with
  | mk r w' =>
    cases r with
    | error e => rfl
    | ok v => cases hb : isinst v <;> simp [hb] <;> rfl

/-- **C112**: whatever is returned has the expected type, and is what `get` returns, with the same effects -/
theorem C112_expected_type (isinst : V → Bool) (i : Nat) (w w' : World A V E) (v : V)
    (h : getTyped isinst i w = (.ok v, w')) : isinst v = true ∧ get i w = (.ok v, w') := by
  rw [getTyped_get] at h
  cases hg : get i w with
  | mk r w1 =>
    rw [hg] at h
    cases r with
    | error e => cases h
    | ok u =>
      cases hb : isinst u with
      | true =>
        simp only [hb, if_true, Prod.mk.injEq, Except.ok.injEq] at h
        obtain ⟨rfl, rfl⟩ := h
        exact ⟨hb, rfl⟩
      | false =>
        simp only [hb] at h
        cases h

/-- **C112**: if the value is not found, the exception of `get` is raised -/
theorem C112_not_found (isinst : V → Bool) (i : Nat) (w w' : World A V E) (e : Exc)
    (h : get i w = (.error e, w')) : getTyped isinst i w = (.error e, w') := by
  rw [getTyped_get, h]

/-- **C112**: a stored value of the expected type is returned whatever happened since; one of another type is not:
AssertionError is raised, and the value remains available: `get` still returns it, whatever happens afterwards. -/
theorem C112_stored (addrOf : V → A) (w0 : World A V E) (h0 : Start addrOf w0)
    (before : List (Op V A)) (v : V) (p : Option PortalId)
    (huniq : ∀ v', addrOf v' = addrOf v → v' = v) (isinst : V → Bool) :
    ∃ i w1, new addrOf v p (run addrOf w0 before) = (.ok i, w1) ∧ ∀ later,
      (isinst v = true → ∃ w2, getTyped isinst i (run addrOf w1 later) = (.ok v, w2)) ∧
      (isinst v = false → ∃ e w2, getTyped isinst i (run addrOf w1 later) = (.error e, w2) ∧ e.kind = .assertionError ∧
        ∀ more, ∃ w3, get i (run addrOf w2 more) = (.ok v, w3)) := by
  obtain ⟨i, q, w1, e, hst, ha, _, _, _⟩ := C14_copies_get addrOf w0 h0 before v p huniq
  refine ⟨i, w1, e, fun later => ?_⟩
  have hi1 : Integ addrOf w1 := by
    have := integ_step addrOf _ (.new v p) (h0.run_integ before)
    simp only [Op.step, e] at this
    exact this
  have hok1 : Ok w1 := by
    have := ok_step addrOf _ (.new v p) (h0.run_ok before)
    simp only [Op.step, e] at this
    exact this
  have hg := grow_run addrOf later w1
  have hok2 := ok_run addrOf later _ hok1
  have hi2 := integ_run addrOf later _ hi1
  have ha2 := ha.grow hg
  have hst2 := hg.store _ _ _ hst
  obtain ⟨w2, hget⟩ := get_held hok2 hi2 huniq ha2 hst2
  have hg2 : Grow (run addrOf w1 later) w2 := by
    have := grow_step addrOf (run addrOf w1 later) (.get i)
    simp only [Op.step, hget] at this
    exact this
  have hok3 : Ok w2 := by
    have := ok_step addrOf _ (.get i) hok2
    simp only [Op.step, hget] at this
    exact this
  have hi3 : Integ addrOf w2 := by
    have := integ_step addrOf _ (.get i) hi2
    simp only [Op.step, hget] at this
    exact this
  constructor
  · intro hb
    exact ⟨w2, by rw [getTyped_get, hget]; simp [hb]⟩
  · intro hb
    refine ⟨⟨w2.nextExc, .assertionError⟩, { w2 with nextExc := w2.nextExc + 1 }, ?_, rfl, fun more => ?_⟩
    · rw [getTyped_get, hget]
      simp only [hb]
      rfl
    · have hg4 : Grow w2 { w2 with nextExc := w2.nextExc + 1 } :=
        ⟨fun _ _ _ h => h, fun i o h => ⟨o, h, rfl, rfl, id, id⟩⟩
      have hg5 := grow_run addrOf more { w2 with nextExc := w2.nextExc + 1 }
      exact get_held (ok_run addrOf more { w2 with nextExc := w2.nextExc + 1 } hok3)
        (integ_run addrOf more { w2 with nextExc := w2.nextExc + 1 } hi3) huniq
        (((ha2.grow hg2).grow hg4).grow hg5) (hg5.store _ _ _ (hg4.store _ _ _ (hg2.store _ _ _ hst2)))

/-- the hypotheses are met: the value 5 with expected type "even number" (rejected, then still available), in a
session with failing gets, foreign stores and exits out of order -/
example : ∃ i w1, new addr 5 none (run addr w7 [.newPortal 1, .newPortal 2, .enter 2, .get 9, .exit 1]) = (.ok i, w1) ∧
    ∃ e w2, getTyped (fun v => v % 2 == 0) i (run addr w1 [.new 8 (some 1), .exit 2]) = (.error e, w2) ∧
      e.kind = .assertionError ∧ ∃ w3, get i (run addr w2 [.ready 0, .foreign 2 5]) = (.ok 5, w3) := by
  obtain ⟨i, w1, h1, h2⟩ := C112_stored addr w7 start7
    [.newPortal 1, .newPortal 2, .enter 2, .get 9, .exit 1] 5 none (fun _ h => h) (fun v => v % 2 == 0)
  obtain ⟨e, w2, h3, h4, h5⟩ := (h2 [.new 8 (some 1), .exit 2]).2 (by decide)
  exact ⟨i, w1, h1, e, w2, h3, h4, h5 _⟩

end Pyth.ValueAddr
