import Verif.Model.Lifecycle
import Verif.Props.PortalStack
/-! # C66 (default portal), C68 (portal tester) -/
namespace Pyth.Life
open Pyth.Portal

/-! ## C66 -/

/-- `q` is initialised, not cleared, and registered exactly once -/
def Good (s : St) (q : PortalId) : Prop :=
  s.usable q = true ∧ s.sys.all.count q = 1

/-- facts about every reachable state -/
structure Inv0 (s : St) : Prop where
  all_lt : ∀ q ∈ s.sys.all, (q : Nat) < s.next
  nodup : s.sys.all.Nodup
  dflt_lt : ∀ p, s.dflt = some p → (p : Nat) < s.next

theorem register_nodup {s : Sys} (h : s.all.Nodup) (p : PortalId) : (register s p).all.Nodup := by
  unfold register
  split
  · exact h
  · rename_i hp
    rw [List.nodup_append]
    refine ⟨h, by simp, ?_⟩
    intro a ha b hb hab
    simp at hb
    exact hp (by rw [← hb, ← hab]; exact ha)

theorem mem_register {s : Sys} {p q : PortalId} : q ∈ (register s p).all ↔ q ∈ s.all ∨ q = p := by
  unfold register
  split
  · constructor
    · exact .inl
    · rintro (h | rfl)
      · exact h
      · assumption
  · simp

theorem enter_all (p : PortalId) (s : Sys) :
    ((Portal.enter p s).toOption.getD s).all = s.all := by
  unfold Portal.enter
  split
  · rfl
  · split
    · rfl
    · split <;> rfl

theorem exit_all (p : PortalId) (s : Sys) :
    ((Portal.exit p s).toOption.getD s).all = s.all := by
  unfold Portal.exit
  split
  · rfl
  · split
    · rfl
    · split
      · rfl
      · split <;> rfl

/-- what a request for the default portal does -/
theorem request_cases (fails : Bool) (s : St) : ∃ p s1,
    dfltNew s = (p, s1) ∧ s1.dflt = some p ∧ s1.sys = s.sys ∧ s1.usable = s.usable ∧
    s1.calls = s.calls ∧ s.next ≤ s1.next ∧ (s.dflt = none → p = s.next ∧ s1.next = s.next + 1) ∧
    (∀ q, s.dflt = some q → q = p ∧ s1 = s) ∧
    requestDefault fails s = (if s.calls > 0 then (some p, s1)
      else if fails then (none, { s1 with calls := s1.calls + 1 })
      else (some p, ({ s1 with calls := s1.calls + 1 } : St).init p)) := by
  unfold requestDefault dfltNew
  cases hd : s.dflt with
  | none =>
    refine ⟨_, _, rfl, rfl, rfl, rfl, rfl, Nat.le_succ _, fun _ => ⟨rfl, rfl⟩, ?_, ?_⟩
    · intro q h; cases h
    · by_cases hc : s.calls > 0
      · simp [dfltInit, hc]
      · cases fails <;> simp [dfltInit, hc]
  | some q =>
    refine ⟨q, s, rfl, hd, rfl, rfl, rfl, Nat.le_refl _, ?_, ?_, ?_⟩
    · intro h; cases h
    · intro q' h; cases h; exact ⟨rfl, rfl⟩
    · by_cases hc : s.calls > 0
      · simp [dfltInit, hc]
      · cases fails <;> simp [dfltInit, hc]

theorem inv0_step (s : St) (h : Inv0 s) (op : Op) : Inv0 (op.step s) := by
  cases op with
  | newPortal =>
    refine ⟨?_, register_nodup h.nodup _, ?_⟩
    · intro q hq
      have : q ∈ s.sys.all ∨ q = s.next := mem_register.mp hq
      show (q : Nat) < s.next + 1
      rcases this with h' | h'
      · exact Nat.lt_succ_of_lt (h.all_lt q h')
      · rw [h']; exact Nat.lt_succ_self _
    · intro p hp
      show (p : Nat) < s.next + 1
      exact Nat.lt_succ_of_lt (h.dflt_lt p hp)
  | request f =>
    obtain ⟨p, s1, h1, h2, h3, h4, h5, h6, h7, h8, h9⟩ := request_cases f s
    have hp : (p : Nat) < s1.next := by
      cases hd : s.dflt with
      | none =>
        obtain ⟨a, b⟩ := h7 hd
        rw [a, b]; exact Nat.lt_succ_self _
      | some q =>
        obtain ⟨e1, e2⟩ := h8 q hd
        rw [e2, ← e1]; exact h.dflt_lt q hd
    have i1 : Inv0 s1 := by
      refine ⟨?_, by rw [h3]; exact h.nodup, ?_⟩
      · intro q hq
        rw [h3] at hq
        exact Nat.lt_of_lt_of_le (h.all_lt q hq) h6
      · intro q hq
        rw [h2] at hq; cases hq; exact hp
    rw [Op.step, h9]
    split
    · exact i1
    · split
      · exact ⟨i1.all_lt, i1.nodup, i1.dflt_lt⟩
      · refine ⟨?_, register_nodup i1.nodup _, i1.dflt_lt⟩
        intro q hq
        show (q : Nat) < s1.next
        rcases mem_register.mp hq with h' | h'
        · exact i1.all_lt q h'
        · rw [h']; exact hp
  | enter p =>
    refine ⟨?_, ?_, h.dflt_lt⟩
    · intro q hq
      have hq : q ∈ ((Portal.enter p s.sys).toOption.getD s.sys).all := hq
      rw [enter_all] at hq; exact h.all_lt q hq
    · show ((Portal.enter p s.sys).toOption.getD s.sys).all.Nodup
      rw [enter_all]; exact h.nodup
  | exit p =>
    refine ⟨?_, ?_, h.dflt_lt⟩
    · intro q hq
      have hq : q ∈ ((Portal.exit p s.sys).toOption.getD s.sys).all := hq
      rw [exit_all] at hq; exact h.all_lt q hq
    · show ((Portal.exit p s.sys).toOption.getD s.sys).all.Nodup
      rw [exit_all]; exact h.nodup
  | clearBase =>
    exact ⟨(by intro q hq; cases hq), List.nodup_nil, h.dflt_lt⟩
  | clearDefault =>
    exact ⟨(by intro q hq; cases hq), List.nodup_nil, (by intro p hp; cases hp)⟩

theorem inv0_run (s : St) (h : Inv0 s) (ops : List Op) : Inv0 (runOps s ops) := by
  unfold runOps
  induction ops generalizing s with
  | nil => exact h
  | cons op ops ih => exact ih _ (inv0_step s h op)

theorem inv0_start : Inv0 {} :=
  ⟨(by intro q hq; cases hq), List.nodup_nil, (by intro p hp; cases hp)⟩

/-- an instance survives everything but a clear-all of the default portal class -/
theorem dflt_step (s : St) (p : PortalId) (h : s.dflt = some p) (op : Op)
    (hop : op ≠ .clearDefault) : (op.step s).dflt = some p := by
  cases op with
  | newPortal => exact h
  | request f =>
    obtain ⟨q, s1, h1, h2, h3, h4, h5, h6, h7, h8, h9⟩ := request_cases f s
    obtain ⟨e1, e2⟩ := h8 p h
    rw [Op.step, h9]
    split
    · rw [e2]; exact h
    · split
      · show s1.dflt = some p; rw [e2]; exact h
      · show s1.dflt = some p; rw [e2]; exact h
  | enter p => exact h
  | exit p => exact h
  | clearBase => exact h
  | clearDefault => exact absurd rfl hop

/-- **C66** (one instance): after a successful request, all later successful requests return the
same portal object, whatever happens in between except a clear-all of the default portal class. -/
theorem C66_one_instance (s : St) (f f' : Bool) (p q : PortalId) (s' : St)
    (h : requestDefault f s = (some p, s')) (ops : List Op) (hops : ∀ op ∈ ops, op ≠ .clearDefault)
    (h' : (requestDefault f' (runOps s' ops)).1 = some q) : q = p := by
  have hd : s'.dflt = some p := by
    obtain ⟨r, s1, h1, h2, h3, h4, h5, h6, h7, h8, h9⟩ := request_cases f s
    rw [h9] at h
    split at h
    · cases h; exact h2
    · split at h
      · cases h
      · cases h; exact h2
  have hd2 : (runOps s' ops).dflt = some p := by
    unfold runOps
    clear h h'
    induction ops generalizing s' with
    | nil => exact hd
    | cons op ops ih =>
      exact ih _ (fun o ho => hops o (by simp [ho])) (dflt_step s' p hd op (hops op (by simp)))
  obtain ⟨r, s1, h1, h2, h3, h4, h5, h6, h7, h8, h9⟩ := request_cases f' (runOps s' ops)
  obtain ⟨e1, -⟩ := h8 p hd2
  rw [h9] at h'
  split at h'
  · cases h'; exact e1.symm
  · split at h'
    · cases h'
    · cases h'; exact e1.symm

/-- the default portal exists iff it has been initialised, and then it is in order -/
def DInv (s : St) : Prop :=
  (s.dflt = none → s.calls = 0) ∧ (∀ p, s.dflt = some p → 0 < s.calls ∧ Good s p)

/-- operations of an orderly program: no clear-all through another class, no failing
initialisation of the default portal -/
def Orderly : Op → Prop
  | .clearBase => False
  | .request true => False
  | _ => True

theorem count_register {s : Sys} {p q : PortalId} (h : s.all.Nodup) (hq : q ∈ (register s p).all) :
    (register s p).all.count q = 1 := by
  have := (List.nodup_iff_count.mp (register_nodup h p)) q
  have := List.count_pos_iff.mpr hq
  omega

theorem dinv_step (s : St) (h0 : Inv0 s) (h : DInv s) (op : Op) (ho : Orderly op) :
    DInv (op.step s) := by
  cases op with
  | newPortal =>
    refine ⟨h.1, ?_⟩
    intro p hp
    obtain ⟨hc, hu, hn⟩ := h.2 p hp
    refine ⟨hc, ?_, ?_⟩
    · show (if p = s.next then true else s.usable p) = true
      rw [hu]; split <;> rfl
    · exact count_register h0.nodup (mem_register.mpr (.inl (List.count_pos_iff.mp (by omega))))
  | request f =>
    cases f with
    | true => exact ho.elim
    | false =>
      obtain ⟨q, s1, h1, h2, h3, h4, h5, h6, h7, h8, h9⟩ := request_cases false s
      rw [Op.step, h9]
      split
      · rename_i hc
        cases hd : s.dflt with
        | none => have := h.1 hd; omega
        | some p =>
          obtain ⟨e1, e2⟩ := h8 p hd
          show DInv s1
          rw [e2]; exact h
      · refine ⟨?_, ?_⟩
        · intro hd
          have : s1.dflt = none := hd
          rw [h2] at this; cases this
        · intro p hp
          have hp : s1.dflt = some p := hp
          rw [h2] at hp
          cases hp
          refine ⟨Nat.succ_pos _, ?_, ?_⟩
          · show (if q = q then true else s1.usable q) = true
            simp
          · show (register s1.sys q).all.count q = 1
            exact count_register (by rw [h3]; exact h0.nodup) (mem_register.mpr (.inr rfl))
  | enter p =>
    refine ⟨h.1, ?_⟩
    intro q hq
    obtain ⟨hc, hu, hn⟩ := h.2 q hq
    refine ⟨hc, hu, ?_⟩
    show ((Portal.enter p s.sys).toOption.getD s.sys).all.count q = 1
    rw [enter_all]; exact hn
  | exit p =>
    refine ⟨h.1, ?_⟩
    intro q hq
    obtain ⟨hc, hu, hn⟩ := h.2 q hq
    refine ⟨hc, hu, ?_⟩
    show ((Portal.exit p s.sys).toOption.getD s.sys).all.count q = 1
    rw [exit_all]; exact hn
  | clearBase => exact ho.elim
  | clearDefault => exact ⟨fun _ => rfl, by intro p hp; cases hp⟩

theorem dinv_run (s : St) (h0 : Inv0 s) (h : DInv s) (ops : List Op) (ho : ∀ op ∈ ops, Orderly op) :
    DInv (runOps s ops) := by
  unfold runOps
  induction ops generalizing s with
  | nil => exact h
  | cons op ops ih =>
    exact ih _ (inv0_step s h0 op) (dinv_step s h0 h op (ho op (by simp)))
      (fun o h' => ho o (by simp [h']))

/-- **C66**: in an orderly program, a request for the default portal succeeds and returns a portal
that is initialised, not cleared and registered exactly once; a repeated request returns the same
portal and changes nothing. -/
theorem C66_default_portal_partial (ops : List Op) (ho : ∀ op ∈ ops, Orderly op) :
    ∃ p s', requestDefault false (runOps {} ops) = (some p, s') ∧ Good s' p ∧
      ∀ ops', (∀ op ∈ ops', Orderly op ∧ op ≠ .clearDefault) →
        requestDefault false (runOps s' ops') = (some p, runOps s' ops') ∧
        Good (runOps s' ops') p := by
  have h0 := inv0_run {} inv0_start ops
  have hd := dinv_run {} inv0_start ⟨fun _ => rfl, by intro p hp; cases hp⟩ ops ho
  generalize runOps {} ops = s at h0 hd
  have hd' := dinv_step s h0 hd (.request false) trivial
  have h0' := inv0_step s h0 (.request false)
  obtain ⟨p, s1, h1, h2, h3, h4, h5, h6, h7, h8, h9⟩ := request_cases false s
  have key : ∃ s', requestDefault false s = (some p, s') ∧ s'.dflt = some p := by
    rw [h9]
    split
    · exact ⟨_, rfl, h2⟩
    · exact ⟨_, rfl, h2⟩
  obtain ⟨s', e, hdf⟩ := key
  rw [Op.step, e] at hd' h0'
  refine ⟨p, s', e, (hd'.2 p hdf).2, ?_⟩
  intro ops' ho'
  have hdr := dinv_run s' h0' hd' ops' (fun o h => (ho' o h).1)
  have hdf2 : (runOps s' ops').dflt = some p := by
    unfold runOps
    clear hdr e hd' h0'
    induction ops' generalizing s' with
    | nil => exact hdf
    | cons op ops ih =>
      exact ih _ (dflt_step s' p hdf op (ho' op (by simp)).2)
        (fun o h => ho' o (by simp [h]))
  obtain ⟨r, s2, g1, g2, g3, g4, g5, g6, g7, g8, g9⟩ := request_cases false (runOps s' ops')
  obtain ⟨e1, e2⟩ := g8 p hdf2
  have hc := (hdr.2 p hdf2).1
  rw [g9, if_pos hc, e2, e1]
  exact ⟨rfl, (e1 ▸ (hdr.2 p hdf2).2)⟩

/-- **C66** fails after a clear-all through another class, e.g. `initialize(...)`: in every orderly
program that has requested the default portal, the next request then returns the old portal, which
has been cleared and is not registered any more. -/
theorem C66_after_initialize_counterexample (ops : List Op) (ho : ∀ op ∈ ops, Orderly op)
    (p : PortalId) (s' : St) (h : requestDefault false (runOps {} ops) = (some p, s')) :
    ∃ s2, requestDefault false (runOps s' (initializeOps s')) = (some p, s2) ∧
      s2.usable p = false ∧ p ∉ s2.sys.all := by
  obtain ⟨p', s'', e, hg, -⟩ := C66_default_portal_partial ops ho
  rw [h] at e
  cases e
  have h0 := inv0_run {} inv0_start ops
  have hd := dinv_run {} inv0_start ⟨fun _ => rfl, by intro p hp; cases hp⟩ ops ho
  generalize runOps {} ops = s at h0 hd h
  have hd' := dinv_step s h0 hd (.request false) trivial
  have h0' := inv0_step s h0 (.request false)
  rw [Op.step, h] at hd' h0'
  have hdf : s'.dflt = some p := by
    obtain ⟨q, s1, h1, h2, h3, h4, h5, h6, h7, h8, h9⟩ := request_cases false s
    rw [h9] at h
    split at h
    · cases h; exact h2
    · simp only [Bool.false_eq_true, if_false] at h
      cases h; exact h2
  have hc : 0 < s'.calls := (hd'.2 p hdf).1
  have hp : p ∈ s'.sys.all := List.count_pos_iff.mp (by rw [hg.2]; decide)
  have hlt := h0'.all_lt p hp
  have hne : p ≠ s'.next := Nat.ne_of_lt hlt
  obtain ⟨q, s1, h1, h2, h3, h4, h5, h6, h7, h8, h9⟩ :=
    request_cases false (runOps s' (initializeOps s'))
  have hdf2 : (runOps s' (initializeOps s')).dflt = some p := hdf
  have hc2 : (runOps s' (initializeOps s')).calls = s'.calls := rfl
  obtain ⟨e1, e2⟩ := h8 p hdf2
  refine ⟨_, by rw [h9, if_pos (by rw [hc2]; exact hc), ← e1, e2], ?_, ?_⟩
  · show (if p = s'.next then true else if p ∈ s'.sys.all then false else s'.usable p) = false
    rw [if_neg hne, if_pos hp]
  · show p ∉ (register (clearAll s'.sys) s'.next).all
    rw [mem_register]
    rintro (h' | h')
    · cases h'
    · exact hne h'

/-- **C66** fails if the first initialisation raises: later requests return the uninitialised,
unregistered object. -/
theorem C66_failed_initialisation_counterexample :
    (requestDefault true {}).1 = none ∧
    (requestDefault false (requestDefault true {}).2).1 = some 0 ∧
    (requestDefault false (requestDefault true {}).2).2.usable 0 = false ∧
    (requestDefault false (requestDefault true {}).2).2.sys.all = [] := by
  decide +kernel

-- an orderly program: a portal is created and entered, the default portal requested, then cleared
example : ∀ op ∈ [Op.newPortal, .enter 0, .request false, .clearDefault, .newPortal],
    Orderly op := by
  simp [Orderly]

/-! ## C68 -/

theorem liftSys_run (m : PyM Err Sys Unit) (s : TSt) :
    (liftSys m s).2 = { s with sys := (m s.sys).2 } := by
  unfold liftSys
  cases h : m s.sys with
  | mk r t => cases r <;> rfl

/-- while a tester is current, programs (without clear-all) keep the tester and the stack -/
theorem run_inside (P : TProg) : ∀ (s : TSt) (t : Nat), P.NoClear → s.current = some t →
    Rep s.sys.stack s.sys.counters →
    (P.run s).2.current = some t ∧ (P.run s).2.sys.stack = s.sys.stack ∧
    (P.run s).2.sys.counters = s.sys.counters ∧ (P.run s).2.nextTester = s.nextTester := by
  induction P with
  | base p =>
    intro s t _ hc hr
    have := run_restores p s.sys hr
    rw [TProg.run, liftSys_run]
    exact ⟨hc, this.1, this.2.1, rfl⟩
  | clear => intro s t h; exact h.elim
  | seq a b iha ihb =>
    intro s t h hc hr
    have ha := iha s t h.1 hc hr
    simp only [TProg.run, PyM.run_bind]
    cases hx : a.run s with
    | mk r s1 =>
      rw [hx] at ha
      simp only at ha
      cases r with
      | error e => exact ha
      | ok u =>
        have hb := ihb s1 t h.2 ha.1 (by rw [ha.2.1, ha.2.2.1]; exact hr)
        exact ⟨hb.1, hb.2.1.trans ha.2.1, hb.2.2.1.trans ha.2.2.1, hb.2.2.2.trans ha.2.2.2⟩
  | tryExcept a b iha ihb =>
    intro s t h hc hr
    have ha := iha s t h.1 hc hr
    simp only [TProg.run, PyM.tryExcept]
    cases hx : a.run s with
    | mk r s1 =>
      rw [hx] at ha
      simp only at ha
      cases r with
      | ok u => exact ha
      | error e =>
        have hb := ihb s1 t h.2 ha.1 (by rw [ha.2.1, ha.2.2.1]; exact hr)
        exact ⟨hb.1, hb.2.1.trans ha.2.1, hb.2.2.1.trans ha.2.2.1, hb.2.2.2.trans ha.2.2.2⟩
  | tester make body ih =>
    intro s t h hc hr
    simp only [TProg.run, PyM.run_bind, testerInit, hc]
    exact ⟨trivial, trivial, trivial, trivial⟩

/-- **C68** (no nesting): while a tester is current, a tester block raises and changes nothing. -/
theorem C68_no_nesting (s : TSt) (t : Nat) (hc : s.current = some t)
    (make : Option (PortalId × Bool)) (body : TProg) :
    (TProg.tester make body).run s = (.error .nested, s) := by
  simp only [TProg.run, PyM.run_bind, testerInit, hc]

/-- the state in which the body of a tester block runs -/
def insideState (s : TSt) (make : Option (PortalId × Bool)) : TSt :=
  { sys := match make with
      | none => {}
      | some (q, _) => { all := [q], stack := [q], counters := [1] }
    current := some s.nextTester, nextTester := s.nextTester + 1 }

/-- **C68**: a tester block entered while no tester is current starts with nothing but the tester's
own portal known and entered. Whatever its body does (properly bracketed portal blocks, new
portals, exceptions, attempts to nest testers), afterwards no portal is known or entered, no tester
is current, and the outcome is the outcome of the body. -/
theorem C68_isolated_partial (s : TSt) (hc : s.current = none) (make : Option PortalId)
    (body : TProg) (hb : body.NoClear) :
    let mk := make.map fun q => (q, false)
    ((TProg.tester mk body).run s).1 = (body.run (insideState s mk)).1 ∧
    ((TProg.tester mk body).run s).2
      = { sys := {}, current := none, nextTester := s.nextTester + 1 } := by
  cases make with
  | none =>
    simp only [Option.map_none]
    have hrep : Rep ([] : List PortalId) ([] : List Int) := Rep.nil
    have hin := run_inside body (insideState s none) s.nextTester hb rfl hrep
    simp only [TProg.run, PyM.run_bind, testerInit, hc, testerEnter, testerEnter.enterBody,
      ne_eq, not_true_eq_false, if_false, PyM.tryFinally, testerExit]
    have e : TSt.mk (clearAll s.sys) (some s.nextTester) (s.nextTester + 1)
      = insideState s none := rfl
    rw [e]
    generalize body.run (insideState s none) = r at hin ⊢
    obtain ⟨r1, r2⟩ := r
    obtain ⟨-, -, -, h4⟩ := hin
    refine ⟨rfl, ?_⟩
    show ({ r2 with sys := clearAll r2.sys, current := none } : TSt) = _
    have h4 : r2.nextTester = s.nextTester + 1 := h4
    rw [← h4]; rfl
  | some q =>
    simp only [Option.map_some]
    have hrep : Rep [q] [1] := Rep.single q 1 (by decide)
    have hin := run_inside body (insideState s (some (q, false))) s.nextTester hb rfl hrep
    simp only [TProg.run, PyM.run_bind, testerInit, hc, testerEnter, testerEnter.enterBody,
      ne_eq, not_true_eq_false, if_false, PyM.tryFinally, testerExit, Bool.false_eq_true]
    have e : liftSys (PyM.liftE (Portal.enter q))
        (TSt.mk (register (clearAll s.sys) q) (some s.nextTester) (s.nextTester + 1))
        = (.ok (), insideState s (some (q, false))) := rfl
    rw [e]
    simp only []
    generalize body.run (insideState s (some (q, false))) = r at hin ⊢
    obtain ⟨r1, r2⟩ := r
    obtain ⟨-, h2, h3, h4⟩ := hin
    have h2 : r2.sys.stack = [q] := h2
    have h3 : r2.sys.counters = [1] := h3
    have h4 : r2.nextTester = s.nextTester + 1 := h4
    have ex : Portal.exit q r2.sys = .ok { r2.sys with stack := [], counters := [] } := by
      unfold Portal.exit
      rw [h2]
      simp [h3]
    simp only [liftSys, PyM.liftE, ex, PyM.run_modify]
    refine ⟨trivial, ?_⟩
    rw [← h4]; rfl

/-- **C68** fails if the body clears the portals itself (the portal can then not be left: the tester
stays current), if the portal's constructor raises, or if a tester is created but never entered:
in each case all later testers are refused. -/
theorem C68_stuck_counterexample :
    let next : TProg := .tester none (.base .skip)
    (((TProg.tester (some (1, false)) .clear).tryExcept next).run {}).1 = .error .nested ∧
    (((TProg.tester (some (1, true)) (.base .skip)).tryExcept next).run {}).1 = .error .nested ∧
    (next.run (testerInit {}).2).1 = .error .nested := by
  decide +kernel

namespace Ex
/-- a test that creates portals, nests blocks, tries to nest a tester, and fails -/
def body : TProg := .seq (.base (.seq (.new 5) (.withP 5 (.withP 1 (.new 6)))))
  (.seq (.tryExcept (.tester (some (8, false)) (.base .skip)) (.base (.withP 6 .skip)))
    (.base (.withP 5 (.raise 3))))
example : body.NoClear := by simp [body, TProg.NoClear]
example : ((TProg.tester (some (1, false)) body).run {}).1 = .error (.portal (.user 3)) ∧
    ((TProg.tester (some (1, false)) body).run {}).2 = { nextTester := 1 } := by decide +kernel
end Ex

end Pyth.Life
