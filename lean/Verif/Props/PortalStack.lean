import Verif.Proofs.PortalStack
/-!
# Properties C01-C06 (and the portal-context part of C57): the stack of entered portals

`reach h` is the state of the implementation after an arbitrary history `h` of API calls
(well-bracketed or not, failing calls included); `PlainStack.replay h` is the specification state.
-/
namespace Pyth.Portal

/-- C01: whatever program of nested `with` blocks, exceptions, try/except, portal creation and
state-dependent choices is run, in every reachable context, normally or exceptionally: afterwards
the portals entered (and how often) are exactly those before; and no known portal disappears. -/
theorem C01_with_blocks_restore_context (h : List Call) (q : Prog) :
    let s := reach h
    (q.run s).2.stack = s.stack ∧ (q.run s).2.counters = s.counters ∧ s.all <+: (q.run s).2.all :=
  run_restores q (reach h) (sim_reach h).1

/-- the hypothesis-free theorem applied to a program that re-enters, nests, raises and catches -/
example : ((Prog.withP 1 (.withP 1 (.tryExcept (.withP 2 (.seq (.new 7) (.raise 5)))
      (.withP 1 (.raise 6))))).run (reach [.new 1, .new 2, .enter 2])).2
    = { all := [1, 2, 7], stack := [2], counters := [1] } ∧
    ((Prog.withP 1 (.withP 1 (.tryExcept (.withP 2 (.seq (.new 7) (.raise 5)))
      (.withP 1 (.raise 6))))).run (reach [.new 1, .new 2, .enter 2])).1 = .error (.user 6) := by
  constructor <;> rfl

/-- C02 (a): inside `with p:` - before and after running any complete program inside the block - the
current portal is `p`. -/
theorem C02_current_is_innermost (h : List Call) (p : PortalId) (q : Prog) (level : PortalId → Nat)
    (cls : Nat) (hl : cls ≤ level p) :
    ∃ s1, enter p (reach h) = .ok s1 ∧
      mostRecentlyEntered level cls s1 = .ok (some p) ∧
      mostRecentlyEntered level cls (q.run s1).2 = .ok (some p) := by
  obtain ⟨s1, h1, h2, h3, h4, h5, h6⟩ := enter_spec (reach h) p (sim_reach h).1
  have hq := (run_restores q s1 h2).1
  refine ⟨s1, h1, ?_, ?_⟩
  · unfold mostRecentlyEntered
    cases hs : s1.stack with
    | nil => rw [hs] at h5; simp at h5
    | cons a st => rw [hs] at h5; simp at h5; subst h5; simp [hl]
  · unfold mostRecentlyEntered
    rw [hq]
    cases hs : s1.stack with
    | nil => rw [hs] at h5; simp at h5
    | cons a st => rw [hs] at h5; simp at h5; subst h5; simp [hl]

/-- C02 (b): the portal chosen for an operation: the explicit one, else the innermost entered, else
the most recently created, else the default local portal - and choosing changes nothing except for
the creation of the default portal. -/
theorem C02_best_portal_priority (h : List Call) (level : PortalId → Nat)
    (dflt : Sys → PortalId × Sys) (suggested : Option PortalId) :
    bestPortal level dflt suggested (reach h) =
      .ok (match suggested, PlainStack.current (PlainStack.replay h),
          (PlainStack.replay h).known.getLast? with
        | some p, _, _ => (p, reach h)
        | none, some p, _ => (p, reach h)
        | none, none, some p => (p, reach h)
        | none, none, none => dflt (reach h)) := by
  obtain ⟨hr, he, ha⟩ := sim_reach h
  have hh := expand_head hr
  rw [he] at hh
  unfold bestPortal mostRecentlyEntered mostRecentlyAdded PlainStack.current
  cases suggested with
  | some p => rfl
  | none =>
    rw [← ha]
    cases hs : (reach h).stack with
    | nil =>
      rw [hs] at hh
      rw [hh]
      simp
      cases (reach h).all.getLast? <;> rfl
    | cons p st =>
      rw [hs] at hh
      rw [hh]
      simp

example : bestPortal (fun _ => 3) (fun s => (99, s)) none (reach [.new 1, .new 2, .enter 1, .enter 1,
      .exit 1]) = .ok (1, reach [.new 1, .new 2, .enter 1, .enter 1, .exit 1]) ∧
    bestPortal (fun _ => 3) (fun s => (99, s)) none (reach [.new 1, .new 2, .enter 1, .exit 1])
      = .ok (2, reach [.new 1, .new 2, .enter 1, .exit 1]) := by
  constructor <;> rfl

/-- C03: leaving a portal which is not the innermost entered one raises and changes nothing; leaving
the innermost one succeeds. -/
theorem C03_exit_only_innermost (h : List Call) (p : PortalId) :
    (PlainStack.current (PlainStack.replay h) ≠ some p →
      ∃ e, PyM.liftE (exit p) (reach h) = (.error e, reach h)) ∧
    (PlainStack.current (PlainStack.replay h) = some p →
      ∃ s', PyM.liftE (exit p) (reach h) = (.ok (), s')) := by
  obtain ⟨hr, he, ha⟩ := sim_reach h
  have hh := expand_head hr
  rw [he] at hh
  unfold PlainStack.current
  rcases exit_spec (reach h) p hr with ⟨rest, hrest, s', hs', _⟩ | ⟨h1, h2⟩ | ⟨q, st, h1, h2, h3⟩
  · rw [← he, hrest]
    exact ⟨fun hc => absurd rfl hc, fun _ => ⟨s', by simp [PyM.liftE, hs']⟩⟩
  · rw [hh, h1]
    exact ⟨fun _ => ⟨_, exit_error_unchanged _ _ _ h2⟩, fun hc => by simp at hc⟩
  · rw [hh, h1]
    exact ⟨fun _ => ⟨_, exit_error_unchanged _ _ _ h3⟩, fun hc => by simp at hc; exact absurd hc h2⟩

example : PlainStack.current (PlainStack.replay [.new 1, .enter 1, .enter 2]) ≠ some 1 := by decide

/-- C04: exit-all terminates in every reachable context without raising, and leaves nothing entered;
known portals are unaffected.  (The number of loop iterations needed is the number of unfinished
enter events plus one.) -/
theorem C04_exit_all (h : List Call) :
    ∀ fuel, (PlainStack.replay h).events.length < fuel →
      exitAll fuel (reach h) = some (.ok { all := (reach h).all, stack := [], counters := [] }) := by
  intro fuel hf
  obtain ⟨hr, he, ha⟩ := sim_reach h
  rw [← he] at hf
  exact exitAll_spec fuel (reach h) hr hf

example : exitAll 6 (reach [.enter 1, .enter 1, .enter 2, .enter 2, .enter 1])
    = some (.ok { all := [], stack := [], counters := [] }) := by rfl

/-- C05 (a): the entered-portals list: each portal with an unfinished enter event exactly once,
innermost first (ordered by innermost occurrence); asked for a class that all of them have. -/
theorem C05_entered_list (h : List Call) (level : PortalId → Nat) (cls : Nat)
    (hl : ∀ p ∈ (PlainStack.replay h).events, cls ≤ level p) :
    ∃ l, entered level cls (reach h) = .ok l ∧ l.Nodup ∧
      (∀ p, p ∈ l ↔ p ∈ (PlainStack.replay h).events) ∧
      (∀ p ∈ l, ∀ q ∈ l, l.idxOf p < l.idxOf q ↔
        (PlainStack.replay h).events.idxOf p < (PlainStack.replay h).events.idxOf q) := by
  obtain ⟨hr, he, ha⟩ := sim_reach h
  have hfold := foldl_expand hr []
  rw [he] at hfold
  have hmem : ∀ p, p ∈ (reach h).stack.foldl dictInsert [] ↔ p ∈ (PlainStack.replay h).events := by
    intro p
    rw [← hfold, mem_foldl_dictInsert]
    simp
  refine ⟨(reach h).stack.foldl dictInsert [], ?_, ?_, hmem, ?_⟩
  · unfold entered
    simp only
    rw [if_pos]
    rw [List.all_eq_true]
    intro p hp
    simpa using hl p ((hmem p).1 hp)
  · exact nodup_foldl_dictInsert _ _ List.nodup_nil
  · intro p hp q hq
    rw [← hfold]
    exact idxOf_order _ [] List.nodup_nil p q ((hmem p).1 hp) ((hmem q).1 hq) (by simp) (by simp)

example : entered (fun _ => 2) 1 (reach [.enter 1, .enter 2, .enter 1, .enter 3, .enter 3])
    = .ok [3, 1, 2] := by rfl

/-- C05 (b): the noncurrent-portals list: exactly the known portals other than the current one, in
creation order (as a sublist of the creation-ordered list). -/
theorem C05_noncurrent_list (h : List Call) (level : PortalId → Nat) (cls : Nat)
    (hl : ∀ p ∈ (PlainStack.replay h).known, cls ≤ level p) :
    ∃ l, noncurrent level cls (reach h) = .ok l ∧ l.Sublist (PlainStack.replay h).known ∧
      (∀ p, p ∈ l ↔ p ∈ (PlainStack.replay h).known ∧
        PlainStack.current (PlainStack.replay h) ≠ some p) := by
  obtain ⟨hr, he, ha⟩ := sim_reach h
  have hh := expand_head hr
  rw [he] at hh
  unfold noncurrent PlainStack.current
  rw [hh, ← ha]
  rw [← ha] at hl
  cases hs : (reach h).stack with
  | nil =>
    refine ⟨_, if_pos ?_, List.Sublist.refl _, by simp⟩
    rw [List.all_eq_true]
    intro p hp
    simpa using hl p hp
  | cons c st =>
    refine ⟨_, if_pos ?_, List.filter_sublist, ?_⟩
    · rw [List.all_eq_true]
      intro p hp
      simpa using hl p (List.mem_filter.1 hp).1
    · intro p
      simp [List.mem_filter]
      intro _
      constructor
      · exact fun a b => a b.symm
      · exact fun a b => a b.symm

example : noncurrent (fun _ => 2) 1 (reach [.new 1, .new 2, .new 3, .enter 1, .enter 2, .enter 2])
    = .ok [1, 3] := by rfl

/-- C05 (c): known portals are listed once, in creation order. -/
theorem C05_known_nodup (h : List Call) : (reach h).all.Nodup := by
  rw [(sim_reach h).2.2]
  unfold PlainStack.replay
  suffices ∀ (cs : List Call) (t : PlainStack.State), t.known.Nodup →
      (cs.foldl PlainStack.step t).known.Nodup from this h {} List.nodup_nil
  intro cs
  induction cs with
  | nil => intro t ht; exact ht
  | cons c cs ih =>
    intro t ht
    apply ih
    cases c with
    | enter p => exact ht
    | exit p =>
      simp only [PlainStack.step, PlainStack.exit]
      cases t.events with
      | nil => exact ht
      | cons q r => by_cases hq : q = p <;> simp [hq, ht]
    | new p =>
      simp only [PlainStack.step]
      split
      · exact ht
      · rename_i hp
        rw [List.nodup_append]
        refine ⟨ht, by simp, ?_⟩
        intro x hx y hy
        simp at hy
        subst hy
        intro e; subst e; exact hp hx
    | exitAll => exact ht
    | clearAll => exact List.nodup_nil

/-- C06: refinement.  After any history of calls, the implementation with its counters and the plain
stack of enter events agree on the known portals, the current portal, and on the outcome (success,
or the very same error) of any further exit. Entering always succeeds. -/
theorem C06_counters_invisible (h : List Call) (level : PortalId → Nat) (p : PortalId) :
    (reach h).all = (PlainStack.replay h).known ∧
    mostRecentlyEntered level 0 (reach h) = .ok (PlainStack.current (PlainStack.replay h)) ∧
    (exit p (reach h)).map (fun _ => ()) = (PlainStack.exit p (PlainStack.replay h)).map (fun _ => ()) ∧
    (∃ s', enter p (reach h) = .ok s') := by
  obtain ⟨hr, he, ha⟩ := sim_reach h
  have hh := expand_head hr
  rw [he] at hh
  refine ⟨ha, ?_, ?_, ?_⟩
  · unfold mostRecentlyEntered PlainStack.current
    rw [hh]
    cases (reach h).stack <;> simp
  · unfold PlainStack.exit
    rcases exit_spec (reach h) p hr with ⟨rest, hrest, s', hs', _⟩ | ⟨h1, h2⟩ | ⟨q, st, h1, h2, h3⟩
    · rw [← he, hrest, hs']; simp [Except.map]
    · rw [h1] at hh
      cases hev : (PlainStack.replay h).events with
      | nil => rw [h2]; rfl
      | cons a b => rw [hev] at hh; simp at hh
    · rw [h1] at hh
      cases hev : (PlainStack.replay h).events with
      | nil => rw [hev] at hh; simp at hh
      | cons a b => rw [hev] at hh; simp at hh; subst hh; rw [h3]; simp [h2, Except.map]
  · obtain ⟨s', h1, _⟩ := enter_spec (reach h) p hr
    exact ⟨s', h1⟩

example : (exit 1 (reach [.enter 1, .enter 1, .exit 1, .exit 2, .enter 2, .exit 2])).map (fun _ => ())
    = .ok () := by rfl

/-- C57 (portal context): a portal block neither swallows nor replaces an exception of its body, and
does not invent one: the outcome of the block is the outcome of the body. -/
theorem C57_blocks_do_not_swallow (h : List Call) (p : PortalId) (body : Prog) :
    ∃ s1, enter p (reach h) = .ok s1 ∧
      ((Prog.withP p body).run (reach h)).1 = (body.run s1).1 :=
  with_outcome p body (reach h) (sim_reach h).1

example : ((Prog.withP 1 (.seq (.withP 2 (.raise 5)) .skip)).run (reach [])).1 = .error (.user 5) := by
  rfl

end Pyth.Portal
