import Verif.Spec.Connect
import Verif.Props.Lifecycle
/-! # C104: connecting to a portal makes a program work with it -/
namespace Pyth.Connect
open Pyth.Portal Pyth.Life

/-- the operations that a command consists of -/
theorem step_ops (s : St) (c : Cmd) : ∃ ops, c.step s = runOps s ops ∧ (Proper c → ∀ op ∈ ops, Orderly op) := by
  cases c with
  | init => exact ⟨_, rfl, fun h => h.elim⟩
  | connectLocal => exact ⟨[.newPortal], rfl, fun _ => by simp [Orderly]⟩
  | connectDefault f =>
    refine ⟨[.request f], ?_, ?_⟩
    · show (connectDefault f s).2 = (requestDefault f s).2
      unfold connectDefault
      generalize requestDefault f s = x
      obtain ⟨p, t⟩ := x
      cases p with
      | none => rfl
      | some p => by_cases h : t.usable p = true <;> simp [h]
    · intro h
      cases f with
      | true => exact h.elim
      | false => simp [Orderly]
  | use =>
    have h : (use s).2 = s ∨ (use s).2 = (requestDefault false s).2 := by
      unfold use
      cases s.sys.stack with
      | cons p st => exact .inl rfl
      | nil =>
        cases mostRecentlyAdded s.sys with
        | some p => exact .inl rfl
        | none => exact .inr rfl
    rcases h with h | h
    · exact ⟨[], h, fun _ => by simp⟩
    · exact ⟨[.request false], h, fun _ => by simp [Orderly]⟩
  | other op =>
    refine ⟨[op], rfl, ?_⟩
    intro h op' ho
    obtain rfl := List.mem_singleton.1 ho
    cases op' with
    | request f => cases f with
      | true => exact h.elim
      | false => trivial
    | clearBase => exact h.elim
    | _ => trivial

theorem runOps_append (s : St) (a b : List Op) : runOps s (a ++ b) = runOps (runOps s a) b := by
  simp [runOps]

theorem run_ops (s : St) (l : List Cmd) :
    ∃ ops, run s l = runOps s ops ∧ ((∀ c ∈ l, Proper c) → ∀ op ∈ ops, Orderly op) := by
  induction l generalizing s with
  | nil => exact ⟨[], rfl, fun _ => by simp⟩
  | cons c l ih =>
    obtain ⟨a, ha, pa⟩ := step_ops s c
    obtain ⟨b, hb, pb⟩ := ih (c.step s)
    refine ⟨a ++ b, ?_, ?_⟩
    · rw [runOps_append, ← ha, ← hb]; rfl
    · intro h op ho
      rcases List.mem_append.1 ho with ho | ho
      · exact pa (h c (by simp)) op ho
      · exact pb (fun c' h' => h c' (by simp [h'])) op ho

theorem inv0 (l : List Cmd) : Inv0 (run {} l) := by
  obtain ⟨ops, h, -⟩ := run_ops {} l
  rw [h]
  exact inv0_run {} inv0_start ops

theorem dinv (l : List Cmd) (hl : ∀ c ∈ l, Proper c) : DInv (run {} l) := by
  obtain ⟨ops, h, ho⟩ := run_ops {} l
  rw [h]
  exact dinv_run {} inv0_start ⟨fun _ => rfl, by intro p hp; cases hp⟩ ops (ho hl)

theorem register_last (s : Sys) (p : PortalId) (h : p ∉ s.all) : (register s p).all.getLast? = some p := by
  simp [register, h]

/-- **C104**: in every history, if no portal is entered, `connect_to_local_portal` makes a new portal, and the program works
with it from then on. -/
theorem C104_local_partial (l : List Cmd) (ho : Outside (run {} l)) :
    ∃ p s, connectLocal (run {} l) = (p, s) ∧ p ∉ (run {} l).sys.all ∧ s.sys.all = (run {} l).sys.all ++ [p] ∧
      WorksWith s p := by
  have h0 := inv0 l
  generalize run {} l = s at h0 ho
  have hn : (s.next : PortalId) ∉ s.sys.all := fun h => Nat.lt_irrefl _ (h0.all_lt _ h)
  refine ⟨_, _, rfl, hn, ?_, ?_, ?_⟩
  · show (register s.sys s.next).all = _
    simp [register, hn]
  · have h1 : (connectLocal s).2.sys.stack = [] := by
      show (register s.sys s.next).stack = []
      simp only [register, if_neg hn]; exact ho
    have h2 : mostRecentlyAdded (connectLocal s).2.sys = some s.next := register_last _ _ hn
    show use (connectLocal s).2 = (some s.next, (connectLocal s).2)
    rw [use, h1, h2]
  · show (if s.next = s.next then true else s.usable s.next) = true
    simp

/-- the portals entered stay the same -/
theorem calm_stack (s : St) (c : Cmd) (hc : Calm c) : (c.step s).sys.stack = s.sys.stack := by
  have hreq : ∀ f, (requestDefault f s).2.sys.stack = s.sys.stack := by
    intro f
    obtain ⟨p, s1, h1, h2, h3, h4, h5, h6, h7, h8, h9⟩ := request_cases f s
    rw [h9]
    by_cases hc : s.calls > 0
    · rw [if_pos hc]; exact congrArg Sys.stack h3
    · rw [if_neg hc]
      cases f with
      | true => exact congrArg Sys.stack h3
      | false =>
        show (register s1.sys p).stack = _
        unfold register
        by_cases hp : p ∈ s1.sys.all
        · rw [if_pos hp, h3]
        · rw [if_neg hp]; show s1.sys.stack = s.sys.stack; rw [h3]
  have hnew : (newPortal s).2.sys.stack = s.sys.stack := by
    show (register s.sys s.next).stack = _
    unfold register
    by_cases hp : s.next ∈ s.sys.all
    · rw [if_pos hp]
    · rw [if_neg hp]
  cases c with
  | init => exact hc.elim
  | connectLocal => exact hnew
  | connectDefault f =>
    rw [← hreq f]
    show (connectDefault f s).2.sys.stack = _
    unfold connectDefault
    generalize requestDefault f s = x
    obtain ⟨p, t⟩ := x
    cases p with
    | none => rfl
    | some p => by_cases h : t.usable p = true <;> simp [h]
  | use =>
    show (use s).2.sys.stack = _
    unfold use
    cases hs : s.sys.stack with
    | cons p st => exact hs
    | nil =>
      cases mostRecentlyAdded s.sys with
      | some p => exact hs
      | none => exact (hreq false).trans hs
  | other op =>
    cases op with
    | newPortal => exact hnew
    | request f => exact hreq f
    | _ => exact hc.elim

/-- **C104**: while a portal is entered, connecting to other portals has no effect on the portal that the program works with. -/
theorem C104_entered (s : St) (p : PortalId) (st : List PortalId) (hs : s.sys.stack = p :: st) (l : List Cmd)
    (hl : ∀ c ∈ l, Calm c) : use (run s l) = (some p, run s l) := by
  have h : (run s l).sys.stack = p :: st := by
    induction l generalizing s with
    | nil => exact hs
    | cons c l ih =>
      exact ih (c.step s) ((calm_stack s c (hl c (by simp))).trans hs) (fun c' h => hl c' (by simp [h]))
  rw [use, h]

/-- **C104**: after `initialize`, whatever happened before, there is one portal, the program works with it, no other portal is in
working order, and connecting to others does not change which portal the program works with. -/
theorem C104_initialize (l : List Cmd) :
    ∃ p s, initializeTo (run {} l) = (p, s) ∧ s.sys.all = [p] ∧ WorksWith s p ∧
      (∀ q ∈ (run {} l).sys.all, s.usable q = false) ∧
      ∀ l', (∀ c ∈ l', Calm c) → use (run s l') = (some p, run s l') := by
  have h0 := inv0 l
  generalize run {} l = s at h0
  refine ⟨_, _, rfl, rfl, ⟨rfl, ?_⟩, ?_, ?_⟩
  · show (if s.next = s.next then true else _) = true
    simp
  · intro q hq
    have hne : q ≠ s.next := Nat.ne_of_lt (h0.all_lt q hq)
    show (if q = s.next then true else if q ∈ s.sys.all then false else s.usable q) = false
    rw [if_neg hne, if_pos hq]
  · intro l' hl'
    exact C104_entered _ _ [] rfl l' hl'

/-- **C104** for the default portal: in a proper history, connecting to it succeeds; if this constructs it and no portal is entered,
the program works with it. -/
theorem C104_default_partial (l : List Cmd) (hl : ∀ c ∈ l, Proper c) :
    ∃ p s, connectDefault false (run {} l) = (some p, s) ∧ s.usable p = true ∧ p ∈ s.sys.all ∧
      (p ∉ (run {} l).sys.all → Outside (run {} l) → WorksWith s p) := by
  have h0 := inv0 l
  have hd := dinv l hl
  generalize run {} l = s at h0 hd
  obtain ⟨p, s1, h1, h2, h3, h4, h5, h6, h7, h8, h9⟩ := request_cases false s
  cases hdf : s.dflt with
  | some q =>
    obtain ⟨e1, e2⟩ := h8 q hdf
    subst e1
    obtain ⟨hc, hu, hn⟩ := hd.2 q hdf
    have hm : q ∈ s.sys.all := List.count_pos_iff.mp (by omega)
    refine ⟨q, s, ?_, hu, hm, fun h => absurd hm h⟩
    simp [connectDefault, h9, hc, e2, hu]
  | none =>
    have hc : ¬ s.calls > 0 := by rw [hd.1 hdf]; exact Nat.lt_irrefl 0
    obtain ⟨ep, -⟩ := h7 hdf
    have hn : p ∉ s.sys.all := fun h => Nat.lt_irrefl _ (ep ▸ h0.all_lt _ h)
    have hu : ((({ s1 with calls := s1.calls + 1 } : St).init p).usable p) = true := by simp [St.init]
    refine ⟨p, ({ s1 with calls := s1.calls + 1 } : St).init p, ?_, hu, ?_, ?_⟩
    · simp [connectDefault, h9, hc, hu]
    · exact mem_register.2 (.inr rfl)
    · intro _ hout
      refine ⟨?_, hu⟩
      have hn' : p ∉ s1.sys.all := by rw [h3]; exact hn
      have e1 : (({ s1 with calls := s1.calls + 1 } : St).init p).sys.stack = [] := by
        show (register s1.sys p).stack = []
        simp only [register, if_neg hn']; rw [h3]; exact hout
      have e2 : mostRecentlyAdded (({ s1 with calls := s1.calls + 1 } : St).init p).sys = some p :=
        register_last _ _ hn'
      rw [use, e1, e2]

/-- **C104** fails for a default portal that exists already: in every proper history, connecting to it again changes nothing, so
that the program goes on working with the portal it worked with – another one, if that was created after the default portal or
is entered. -/
theorem C104_default_again_counterexample (l : List Cmd) (hl : ∀ c ∈ l, Proper c) (p : PortalId)
    (hp : (run {} l).dflt = some p) :
    connectDefault false (run {} l) = (some p, run {} l) ∧
    ∀ q, use (run {} l) = (some q, run {} l) →
      use (connectDefault false (run {} l)).2 = (some q, (connectDefault false (run {} l)).2) := by
  have hd := dinv l hl
  generalize run {} l = s at hd hp
  obtain ⟨p', s1, h1, h2, h3, h4, h5, h6, h7, h8, h9⟩ := request_cases false s
  obtain ⟨e1, e2⟩ := h8 p hp
  subst e1
  obtain ⟨hc, hu, -⟩ := hd.2 p hp
  have key : connectDefault false s = (some p, s) := by simp [connectDefault, h9, hc, e2, hu]
  refine ⟨key, ?_⟩
  intro q hq
  rw [key]
  exact hq

/-- a program connects to the default portal, to a local one, and to the default portal again: it works with the local one -/
theorem C104_back_and_forth_counterexample :
    (connectDefault false (run {} [.connectDefault false, .connectLocal])).1 = some 0 ∧
    (use (run {} [.connectDefault false, .connectLocal, .connectDefault false])).1 = some 1 := by
  decide +kernel

/-- **C104** fails for the default portal after `initialize`, in every proper history that has used it: connecting raises, and the
program keeps the portal of `initialize`. -/
theorem C104_default_after_initialize_counterexample (l : List Cmd) (hl : ∀ c ∈ l, Proper c) (p : PortalId)
    (hp : (run {} l).dflt = some p) : (connectDefault false (initializeTo (run {} l)).2).1 = none := by
  obtain ⟨ops, h, ho⟩ := run_ops {} l
  have hd := dinv l hl
  rw [h] at hp hd ⊢
  have hreq : requestDefault false (runOps {} ops) = (some p, runOps {} ops) := by
    obtain ⟨p', s1, h1, h2, h3, h4, h5, h6, h7, h8, h9⟩ := request_cases false (runOps {} ops)
    obtain ⟨e1, e2⟩ := h8 p hp
    subst e1
    rw [h9, if_pos (hd.2 p hp).1, e2]
  obtain ⟨s2, e, hu, -⟩ := C66_after_initialize_counterexample ops (ho hl) p _ hreq
  show (connectDefault false (runOps (runOps {} ops) (initializeOps (runOps {} ops)))).1 = none
  simp [connectDefault, e, hu]

/-- **C104** (no connection at all): the first operation of a program that knows no portal, in a proper history, creates the default
portal, and the program works with it from then on. -/
theorem C104_first_use (l : List Cmd) (hl : ∀ c ∈ l, Proper c) (hk : (run {} l).sys.all = [])
    (ho : Outside (run {} l)) :
    ∃ p s, use (run {} l) = (some p, s) ∧ s.dflt = some p ∧ s.sys.all = [p] ∧ WorksWith s p := by
  have hd := dinv l hl
  generalize run {} l = s at hd hk ho
  obtain ⟨p, s1, h1, h2, h3, h4, h5, h6, h7, h8, h9⟩ := request_cases false s
  have hdf : s.dflt = none := by
    cases hdf : s.dflt with
    | none => rfl
    | some q =>
      have := (hd.2 q hdf).2.2
      rw [hk] at this; simp at this
  have hc : ¬ s.calls > 0 := by rw [hd.1 hdf]; exact Nat.lt_irrefl 0
  have ha : (register s1.sys p).all = [p] := by simp [register, h3, hk]
  have hst : (register s1.sys p).stack = [] := by
    simp only [register, h3, hk, List.not_mem_nil, if_false]; exact ho
  have hu : use s = (some p, ({ s1 with calls := s1.calls + 1 } : St).init p) := by
    have e : mostRecentlyAdded s.sys = none := by simp [mostRecentlyAdded, hk]
    rw [use, ho, e]
    simp [h9, hc]
  refine ⟨p, _, hu, h2, ha, ?_, ?_⟩
  · have e1 : (({ s1 with calls := s1.calls + 1 } : St).init p).sys.stack = [] := hst
    have e2 : mostRecentlyAdded (({ s1 with calls := s1.calls + 1 } : St).init p).sys = some p := by
      show (register s1.sys p).all.getLast? = some p
      rw [ha]; rfl
    rw [use, e1, e2]
  · simp [St.init]

/-! ### cases that meet the hypotheses -/

-- a history with a block of a portal, the default portal, connections; no portal is entered at the end
example : Outside (run {} [.use, .connectLocal, .other (.enter 1), .connectLocal, .other (.exit 1)]) ∧
    (use (run {} [.use, .connectLocal, .other (.enter 1), .connectLocal, .other (.exit 1)])).1 = some 2 ∧
    (use (run {} [.use, .connectLocal, .other (.enter 1), .connectLocal])).1 = some 1 := by
  unfold Outside
  decide +kernel
example : ∀ c ∈ [Cmd.use, .connectLocal, .other (.enter 1), .connectLocal, .other (.exit 1)], Proper c := by
  simp [Proper]
-- after `initialize`, connections do not count
example : (use (run {} [.connectLocal, .init, .connectLocal, .connectDefault false])).1 = some 1 := by
  decide +kernel
-- the first use
example : (run {} [.connectLocal, .other .clearDefault]).sys.all = [] ∧
    (use (run {} [.connectLocal, .other .clearDefault])).1 = some 1 := by decide +kernel

end Pyth.Connect
