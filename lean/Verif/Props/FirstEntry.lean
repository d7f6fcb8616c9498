import Verif.Proofs.FirstEntry
/-! # Properties C07-C09: `FirstEntryDict` -/
set_option linter.unusedSectionVars false
namespace Pyth.FirstEntry
variable {K V : Type} [DecidableEq K] [DecidableEq V]

/-- C07 (a): first value wins.  After any sequence of assignments (whose storage operations succeed
at the first or at the second attempt), for every check probability and random draws, and even
though some assignments may raise: a key holds its initial value, or else the value of the first
assignment to that key, or nothing if there was none. -/
theorem C07_first_value_wins (s : Dict K V) (ops : List (Op K V)) (k : K)
    (hf : ∀ o ∈ ops, o.fault1 = .none ∨ o.fault2 = .none) :
    (run s ops).data k =
      (s.data k).or ((ops.find? (fun o => decide (o.key = k))).map (fun o => o.value)) := by
  induction ops generalizing s with
  | nil => simp [run]
  | cons o ops ih =>
    have h1 := ih (setItem o s).2 (fun o' h => hf o' (List.mem_cons_of_mem _ h))
    simp only [run, List.foldl_cons] at h1 ⊢
    rw [h1, setItem_data o s (hf o List.mem_cons_self)]
    by_cases hk : o.key = k
    · subst hk
      cases hs : s.data o.key <;> simp [hs]
    · have hk' : ¬ k = o.key := fun e => hk e.symm
      simp [hk, hk']

/-- C07 (b): whatever storage failures occur, an existing entry is never changed or removed, and
anything that appears under a key was assigned to that key. -/
theorem C07_first_value_wins_with_failures (s : Dict K V) (ops : List (Op K V)) (k : K) :
    (∀ v, s.data k = some v → (run s ops).data k = some v) ∧
    (∀ v, s.data k = none → (run s ops).data k = some v → ∃ o ∈ ops, o.key = k ∧ o.value = v) := by
  induction ops generalizing s with
  | nil => exact ⟨fun v h => h, fun v h1 h2 => by simp [run, h1] at h2⟩
  | cons o ops ih =>
    have h1 := ih (setItem o s).2
    have h2 := setItem_data_any o s k
    simp only [run, List.foldl_cons] at h1 ⊢
    refine ⟨fun v hv => h1.1 v ?_, fun v hv hr => ?_⟩
    · rcases h2 with h2 | ⟨h2, _⟩
      · rw [h2, hv]
      · rw [hv] at h2; cases h2
    · rcases h2 with h2 | ⟨h2, h3, h4⟩
      · obtain ⟨o', ho', h5⟩ := h1.2 v (by rw [h2, hv]) hr
        exact ⟨o', List.mem_cons_of_mem _ ho', h5⟩
      · have h5 := h1.1 _ h4
        rw [h5] at hr
        cases hr
        exact ⟨o, List.mem_cons_self, h3.symm, rfl⟩

/-- C07 (c): exactly when an assignment to a free key takes effect, storage failures included: if one of the two
tries gets through to the write.  In particular an assignment that raises may have stored its value; then a
later assignment of another value does not replace it (C07 (b)). -/
theorem C07_effect_of_failed_assignment (s : Dict K V) (o : Op K V) (hs : s.data o.key = none) :
    ((setItem o s).2.data o.key = some o.value ↔
      (o.fault1 = .none ∨ o.fault1 = .afterWrite) ∨ (o.fault2 = .none ∨ o.fault2 = .afterWrite)) ∧
    ((setItem o s).2.data o.key = none ↔
      (o.fault1 = .onContains ∨ o.fault1 = .beforeWrite) ∧ (o.fault2 = .onContains ∨ o.fault2 = .beforeWrite)) ∧
    ((setItem o s).1 = .error .storage ↔ o.fault1 ≠ .none ∧
      (o.fault2 = .onContains ∨ (o.fault2 ≠ .none ∧ o.fault1 ≠ .afterWrite))) := by
  have hc : ∀ n s', (check o n s').1 ≠ .error .storage := by
    intro n s'
    unfold check
    repeat' split
    all_goals simp
  unfold setItem
  cases h1 : o.fault1 <;> cases h2 : o.fault2 <;>
    simp [storeFirst, attempt, hs, h1, h2, update, check_data, hc]

/-- non-vacuity: the first try fails before, the second after the write: the assignment raises, the value is stored -/
example : (setItem (K := Nat) (V := Nat) ⟨0, 2, 0, .beforeWrite, .afterWrite⟩ { data := fun _ => none, pCheck := none }).1 =
      .error .storage ∧
    (setItem (K := Nat) (V := Nat) ⟨0, 2, 0, .beforeWrite, .afterWrite⟩ { data := fun _ => none, pCheck := none }).2.data 0 = some 2 := by
  decide +kernel

example : (run (K := String) (V := Nat) { data := fun _ => none, pCheck := some 1 }
    [⟨"a", 1, 0, .afterWrite, .none⟩, ⟨"a", 2, 0, .none, .none⟩, ⟨"b", 3, 0, .none, .none⟩]).data "a"
    = some 1 := by decide +kernel

/-- C08 (a): with check probability 1 an assignment to a key raises exactly if the key already has a
different value (storage working; a random draw lies in [0,1)). -/
theorem C08_check_p1 (s : Dict K V) (o : Op K V) (hp : s.pCheck = some 1)
    (hd : o.draw < 1) (hf : o.fault1 = .none) :
    ((setItem o s).1 = .error .inconsistent ↔ ∃ old, s.data o.key = some old ∧ old ≠ o.value) ∧
    ((setItem o s).1 = .ok () ↔ ¬ ∃ old, s.data o.key = some old ∧ old ≠ o.value) := by
  unfold setItem
  cases hs : s.data o.key with
  | none => simp [storeFirst, attempt, hf, hs, update, check]
  | some old =>
    simp only [storeFirst, attempt, hf, hs, check, hp]
    have h01 : (1 : Rat) > 0 := by decide +kernel
    rw [if_pos h01, if_pos hd]
    by_cases he : old = o.value
    · simp [he]
    · simp [he]

/-- C08 (b): with check probability 0 or None no assignment ever raises (storage working), for all
values and draws. -/
theorem C08_check_p0 (s : Dict K V) (o : Op K V) (hp : s.pCheck = none ∨ s.pCheck = some 0)
    (hf : o.fault1 = .none ∨ o.fault2 = .none) : (setItem o s).1 = .ok () := by
  have hchk : ∀ n s', s'.pCheck = s.pCheck → (check o n s').1 = .ok () := by
    intro n s' hs'
    unfold check
    rcases hp with hp | hp <;> rw [hs', hp] <;> cases n <;> simp
  unfold setItem
  cases hs : s.data o.key with
  | none =>
    cases h1 : o.fault1 <;> cases h2 : o.fault2 <;> simp_all [storeFirst, attempt, update]
  | some old =>
    cases h1 : o.fault1 <;> cases h2 : o.fault2 <;> simp_all [storeFirst, attempt]

/-- C08 (c): in general: an inconsistency is reported only if the key has a different value, and only
if checking is on and the draw fell below the probability; a raising assignment to a filled key
leaves all data unchanged. -/
theorem C08_check_sound (s : Dict K V) (o : Op K V) :
    ((setItem o s).1 = .error .inconsistent →
      (∃ p, s.pCheck = some p ∧ 0 < p ∧ o.draw < p) ∧
      (∃ old, s.data o.key = some old ∧ old ≠ o.value) ∧ (setItem o s).2.data = s.data) := by
  unfold setItem
  cases hs : s.data o.key with
  | none =>
    cases h1 : o.fault1 <;> cases h2 : o.fault2 <;> simp [storeFirst, attempt, h1, h2, hs, update] <;>
      (intro hh
       obtain ⟨_, _, old, h5, h6⟩ := check_inconsistent _ _ _ hh
       simp [update] at h5
       exact absurd h5.symm h6)
  | some old =>
    cases h1 : o.fault1 <;> cases h2 : o.fault2 <;> simp [storeFirst, attempt, h1, h2, hs, check_data] <;>
      (intro hh
       obtain ⟨_, h4, old', h5, h6⟩ := check_inconsistent _ _ _ hh
       simp [hs] at h4 h5
       subst h5
       exact ⟨h4, h6⟩)

/-- C08 (d): statistics: from equal counters, after any history the number of successful checks
never exceeds the number of checks. -/
theorem C08_counters (s : Dict K V) (ops : List (Op K V)) (h0 : s.successful ≤ s.total) :
    (run s ops).successful ≤ (run s ops).total := by
  have hchk : ∀ (o : Op K V) n (s' : Dict K V), s'.successful ≤ s'.total →
      (check o n s').2.successful ≤ (check o n s').2.total := by
    intro o n s' h
    unfold check
    repeat' split
    all_goals simp
    all_goals omega
  have hset : ∀ (o : Op K V) (s' : Dict K V), s'.successful ≤ s'.total →
      (setItem o s').2.successful ≤ (setItem o s').2.total := by
    intro o s' h
    unfold setItem
    generalize storeFirst o s'.data = r
    obtain ⟨r, d⟩ := r
    cases r with
    | error e => exact h
    | ok n =>
      simp only
      cases d o.key with
      | none => exact h
      | some _ => exact hchk o n _ h
  induction ops generalizing s with
  | nil => exact h0
  | cons o ops ih => exact ih _ (hset o s h0)

/-- C08 (e): the exact effect of an assignment with a working storage layer. A check is conducted
exactly if the key has a value, checking is on and the draw falls below the probability. The number
of checks grows by one exactly if a check is conducted; the number of successful checks exactly if
moreover the values agree; the assignment raises exactly if a check is conducted and they differ. -/
theorem C08_exact (s : Dict K V) (o : Op K V) (hf : o.fault1 = .none) :
    let checked : Prop := ∃ p, s.pCheck = some p ∧ 0 < p ∧ o.draw < p
    (∀ old, s.data o.key = some old → checked →
      (setItem o s).2.total = s.total + 1 ∧
      (old = o.value → (setItem o s).1 = .ok () ∧ (setItem o s).2.successful = s.successful + 1) ∧
      (old ≠ o.value → (setItem o s).1 = .error .inconsistent ∧
        (setItem o s).2.successful = s.successful)) ∧
    (s.data o.key = none ∨ ¬ checked →
      (setItem o s).1 = .ok () ∧ (setItem o s).2.total = s.total ∧
      (setItem o s).2.successful = s.successful) := by
  refine ⟨?_, ?_⟩
  · rintro old hs ⟨p, hp, h0, hd⟩
    unfold setItem
    simp only [storeFirst, attempt, hf, hs, check, hp]
    rw [if_pos h0, if_pos hd]
    by_cases he : old = o.value
    · simp [he]
    · simp [he]
  · intro h
    unfold setItem
    cases hs : s.data o.key with
    | none => simp [storeFirst, attempt, hf, hs, update, check]
    | some old =>
      rcases h with h | h
      · rw [hs] at h; cases h
      · simp only [storeFirst, attempt, hf, hs, check]
        cases hp : s.pCheck with
        | none => simp
        | some p =>
          by_cases h0 : p > 0
          · by_cases hd : o.draw < p
            · exact absurd ⟨p, hp, h0, hd⟩ h
            · simp [h0, hd]
          · simp [h0]

example : (setItem (K := Nat) (V := Nat) ⟨0, 2, 1/2, .none, .none⟩
      { data := fun _ => some 1, pCheck := some 1 }).1 = .error .inconsistent := by decide +kernel

/-! ## concurrency -/

/-- C09: any number of processes concurrently assign one and the same value `v` to a key that is
empty or already holds `v`.  Under every schedule of their atomic storage operations, with transient
storage failures anywhere, in every reached state: the cell holds `v` or is empty; once it holds `v`
it keeps it; a process whose assignment returned finds `v` there; and no process ever fails because
of an inconsistency or a missing key. -/
theorem C09_concurrent_same_value (v : V) (n : Nat) (cell : Option V)
    (hcell : cell = none ∨ cell = some v) (sched1 sched2 : List (Nat × Choice)) :
    let s0 : Shared V := { cell, writers := List.replicate n { value := v } }
    let s1 := runShared s0 sched1
    let s2 := runShared s1 sched2
    (s1.cell = none ∨ s1.cell = some v) ∧ (s1.cell = some v → s2.cell = some v) ∧
    (∀ w ∈ s1.writers, (w.pc = .done → s1.cell = some v) ∧
      (∀ e, w.pc = .failed e → e = .storage)) := by
  have key : ∀ (sched : List (Nat × Choice)) (s : Shared V), CInv v s →
      CInv v (runShared s sched) ∧ (s.cell = some v → (runShared s sched).cell = some v) := by
    intro sched
    induction sched with
    | nil => intro s h; exact ⟨h, id⟩
    | cons m sched ih =>
      intro s h
      have h1 := stepShared_inv v s m h
      have h2 := ih _ h1.1
      exact ⟨h2.1, fun e => h2.2 (h1.2 e)⟩
  have h0 : CInv v ({ cell, writers := List.replicate n { value := v } } : Shared V) := by
    refine ⟨hcell, ?_⟩
    intro w hw
    have := List.eq_of_mem_replicate hw
    subst this
    simp
  have h1 := key sched1 _ h0
  have h2 := key sched2 _ h1.1
  refine ⟨h1.1.1, h2.2, ?_⟩
  intro w hw
  obtain ⟨_, _, _, c4, c5⟩ := h1.1.2 w hw
  exact ⟨c4, c5⟩

/-- a schedule in which both writers see the key absent, one write fails transiently, and both finish -/
example : (runShared (V := Nat) { cell := none, writers := List.replicate 2 { value := 7 } }
    [(0, .ok), (1, .ok), (0, .ok), (1, .faultBefore), (1, .ok), (1, .ok), (1, .ok), (0, .ok)])
    = { cell := some 7, writers := [⟨7, .done⟩, ⟨7, .done⟩] } := by decide

/-- a writer that has seen the key absent and is about to write -/
def AboutToWrite (w : Writer V) : Prop := w.pc = .absent1 ∨ w.pc = .absent2

theorem stepWriter_filled (c : Choice) (w : Writer V) (x : V) (h : ¬ AboutToWrite w) :
    (stepWriter c w (some x)).2 = some x ∧ ¬ AboutToWrite (stepWriter c w (some x)).1 := by
  obtain ⟨val, pc⟩ := w
  unfold AboutToWrite at *
  cases pc with
  | verify n => cases n <;> cases c <;> simp [stepWriter]
  | compare => by_cases hx : x = val <;> cases c <;> simp [stepWriter, hx]
  | _ => cases c <;> simp_all [stepWriter]

/-- C09 (late writers, any values): once a key holds a value and no writer is between having seen
the key absent and its write, the value stays for ever, under every schedule and with storage
failures, whatever values the writers try to store - also writers that only start now. -/
theorem C09_late_writers (s : Shared V) (x : V) (hc : s.cell = some x)
    (hw : ∀ w ∈ s.writers, ¬ AboutToWrite w) (sched : List (Nat × Choice)) :
    (runShared s sched).cell = some x := by
  induction sched generalizing s with
  | nil => exact hc
  | cons m sched ih =>
    have step : (stepShared s m).cell = some x ∧
        ∀ w ∈ (stepShared s m).writers, ¬ AboutToWrite w := by
      unfold stepShared
      cases hm : s.writers[m.1]? with
      | none => exact ⟨hc, hw⟩
      | some w =>
        have h := stepWriter_filled m.2 w x (hw w (List.mem_of_getElem? hm))
        rw [← hc] at h
        refine ⟨h.1.trans hc, ?_⟩
        intro w' hw'
        rcases mem_set hw' with h' | rfl
        · exact hw w' h'
        · exact h.2
    exact ih _ step.1 step.2

/-- three writers of different values: one has finished, one is half-way, one has not started -/
example : let s : Shared Nat := ⟨some 1, [⟨1, .done⟩, ⟨2, .verify true⟩, ⟨3, .try1⟩]⟩
    (∀ w ∈ s.writers, ¬ AboutToWrite w) ∧
    (runShared s [(2, .ok), (1, .ok), (2, .ok), (2, .ok), (1, .ok)]).writers.map (·.pc)
      = [.done, .failed .inconsistent, .failed .inconsistent] := by
  simp only [AboutToWrite]
  decide

/-- C09, the unrestricted statement is false: with *different* values, a value that was stored and
readable under the key is later replaced by another one, and both assignments return normally. -/
theorem C09_concurrent_different_values_counterexample :
    ∃ (sched1 sched2 : List (Nat × Choice)),
      let s0 : Shared Nat := { cell := none, writers := [{ value := 1 }, { value := 2 }] }
      (runShared s0 sched1).cell = some 1 ∧
      (runShared (runShared s0 sched1) sched2).cell = some 2 ∧
      (runShared (runShared s0 sched1) sched2).writers.map (·.pc) = [.done, .done] :=
  ⟨[(0, .ok), (1, .ok), (0, .ok), (0, .ok)], [(1, .ok), (1, .ok)], by decide⟩

end Pyth.FirstEntry
