import Verif.Model.FirstEntry
/-! Helper lemmas for `FirstEntryDict`. -/
set_option linter.unusedSectionVars false
namespace Pyth.FirstEntry
variable {K V : Type} [DecidableEq K] [DecidableEq V]

theorem check_data (o : Op K V) (n : Bool) (s : Dict K V) : (check o n s).2.data = s.data := by
  unfold check
  repeat' split
  all_goals rfl

theorem check_p (o : Op K V) (n : Bool) (s : Dict K V) : (check o n s).2.pCheck = s.pCheck := by
  unfold check
  repeat' split
  all_goals rfl

theorem check_inconsistent (o : Op K V) (n : Bool) (s' : Dict K V)
    (h : (check o n s').1 = .error .inconsistent) :
    n = true ∧ (∃ p, s'.pCheck = some p ∧ 0 < p ∧ o.draw < p) ∧
      (∃ old, s'.data o.key = some old ∧ old ≠ o.value) := by
  revert h
  unfold check
  cases n with
  | false => simp
  | true =>
    cases hp : s'.pCheck with
    | none => simp
    | some p =>
      simp only
      by_cases h1 : p > 0
      · rw [if_pos h1]
        by_cases h2 : o.draw < p
        · rw [if_pos h2]
          cases hd : s'.data o.key with
          | none => simp
          | some old =>
            by_cases h3 : old = o.value
            · simp [h3]
            · intro _
              exact ⟨trivial, ⟨p, rfl, h1, h2⟩, old, rfl, h3⟩
        · simp [h2]
      · simp [h1]

/-- effect of one assignment on the data when the second attempt does not fail -/
theorem setItem_data (o : Op K V) (s : Dict K V) (hf : o.fault1 = .none ∨ o.fault2 = .none) :
    (setItem o s).2.data = fun k => (s.data k).or (if k = o.key then some o.value else none) := by
  funext k
  unfold setItem
  cases hd : s.data o.key with
  | some x =>
    by_cases hk : k = o.key
    · subst hk
      cases h1 : o.fault1 <;> cases h2 : o.fault2 <;>
        simp_all [storeFirst, attempt, check_data]
    · cases h1 : o.fault1 <;> cases h2 : o.fault2 <;>
        simp_all [storeFirst, attempt, check_data]
  | none =>
    by_cases hk : k = o.key
    · subst hk
      cases h1 : o.fault1 <;> cases h2 : o.fault2 <;>
        simp_all [storeFirst, attempt, check_data, update]
    · cases h1 : o.fault1 <;> cases h2 : o.fault2 <;>
        simp_all [storeFirst, attempt, check_data, update]

/-- one assignment never changes an existing entry, whatever the storage layer does; a new entry is
the assigned one -/
theorem setItem_data_any (o : Op K V) (s : Dict K V) (k : K) :
    (setItem o s).2.data k = s.data k ∨
    (s.data k = none ∧ k = o.key ∧ (setItem o s).2.data k = some o.value) := by
  unfold setItem
  cases hd : s.data o.key with
  | some x =>
    left
    cases h1 : o.fault1 <;> cases h2 : o.fault2 <;> simp_all [storeFirst, attempt, check_data]
  | none =>
    by_cases hk : k = o.key
    · subst hk
      cases h1 : o.fault1 <;> cases h2 : o.fault2 <;>
        simp_all [storeFirst, attempt, check_data, update]
    · left
      cases h1 : o.fault1 <;> cases h2 : o.fault2 <;>
        simp_all [storeFirst, attempt, check_data, update]

/-- invariant for writers of one value -/
def CInv (v : V) (s : Shared V) : Prop :=
  (s.cell = none ∨ s.cell = some v) ∧
  ∀ w ∈ s.writers, w.value = v ∧
    (∀ n, w.pc = .verify n → s.cell = some v) ∧ (w.pc = .compare → s.cell = some v) ∧
    (w.pc = .done → s.cell = some v) ∧ (∀ e, w.pc = .failed e → e = .storage)

omit [DecidableEq V] in
theorem mem_set {l : List (Writer V)} {i : Nat} {a x : Writer V} (h : x ∈ l.set i a) :
    x ∈ l ∨ x = a := by
  exact List.mem_or_eq_of_mem_set h

theorem stepWriter_inv (v : V) (c : Choice) (w : Writer V) (cell : Option V)
    (hc : cell = none ∨ cell = some v) (hw : w.value = v)
    (h1 : ∀ n, w.pc = .verify n → cell = some v) (h2 : w.pc = .compare → cell = some v)
    (h3 : w.pc = .done → cell = some v) (h4 : ∀ e, w.pc = .failed e → e = .storage) :
    let r := stepWriter c w cell
    (r.2 = none ∨ r.2 = some v) ∧ (cell = some v → r.2 = some v) ∧ r.1.value = v ∧
    (∀ n, r.1.pc = .verify n → r.2 = some v) ∧ (r.1.pc = .compare → r.2 = some v) ∧
    (r.1.pc = .done → r.2 = some v) ∧ (∀ e, r.1.pc = .failed e → e = .storage) := by
  obtain ⟨val, pc⟩ := w
  simp only at hw
  subst hw
  rcases hc with rfl | rfl
  · cases pc <;> cases c <;> simp_all [stepWriter]
  · cases pc with
    | verify n => cases n <;> cases c <;> simp_all [stepWriter]
    | _ => cases c <;> simp_all [stepWriter]

theorem stepShared_inv (v : V) (s : Shared V) (m : Nat × Choice) (h : CInv v s) :
    CInv v (stepShared s m) ∧ (s.cell = some v → (stepShared s m).cell = some v) := by
  unfold stepShared
  cases hw : s.writers[m.1]? with
  | none => exact ⟨h, id⟩
  | some w =>
    have hmem : w ∈ s.writers := List.mem_of_getElem? hw
    obtain ⟨hc, hall⟩ := h
    obtain ⟨a1, a2, a3, a4, a5⟩ := hall w hmem
    obtain ⟨b1, b2, b3, b4, b5, b6, b7⟩ := stepWriter_inv v m.2 w s.cell hc a1 a2 a3 a4 a5
    refine ⟨⟨b1, ?_⟩, b2⟩
    intro w' hw'
    rcases mem_set hw' with hm | rfl
    · obtain ⟨c1, c2, c3, c4, c5⟩ := hall w' hm
      exact ⟨c1, fun n e => b2 (c2 n e), fun e => b2 (c3 e), fun e => b2 (c4 e), c5⟩
    · exact ⟨b3, b4, b5, b6, b7⟩

end Pyth.FirstEntry
