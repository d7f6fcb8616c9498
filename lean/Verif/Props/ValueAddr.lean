import Verif.Proofs.ValueAddrProps
/-!
# Properties of value addresses: C14–C19

Every theorem is about an arbitrary session: a fresh start `w0` (whose portals may hold data of
earlier sessions) followed by an arbitrary history of operations, including failing ones,
out-of-order portal exits and values stored by other processes.
-/
set_option linter.unusedSectionVars false
set_option linter.unusedVariables false
namespace Pyth.ValueAddr
open Pyth.World Pyth.Portal

variable {A V E : Type} [DecidableEq A] [DecidableEq V]

/-- **C14** store then get.  In any session, creating an address for `v` succeeds; afterwards,
whatever happens (`later`), `get` of the address returns `v`. -/
theorem C14_store_then_get (addrOf : V → A) (w0 : World A V E) (h0 : Start addrOf w0)
    (before : List (Op V A)) (v : V) (p : Option PortalId)
    (huniq : ∀ v', addrOf v' = addrOf v → v' = v) :
    ∃ i w1, new addrOf v p (run addrOf w0 before) = (.ok i, w1) ∧
      ∀ later, ∃ w2, get i (run addrOf w1 later) = (.ok v, w2) := by
  have hi := h0.run_integ before
  have hok := h0.run_ok before
  obtain ⟨q, w1, e, ⟨o, ho, hc, hp, hv, _⟩, hst, _⟩ := new_ok addrOf v p _ hok (free_of hi huniq)
  refine ⟨_, w1, e, fun later => ?_⟩
  have hi1 : Integ addrOf w1 := by
    have := integ_step addrOf _ (.new v p) hi
    simp only [Op.step, e] at this
    exact this
  have hok1 : Ok w1 := by
    have := ok_step addrOf _ (.new v p) hok
    simp only [Op.step, e] at this
    exact this
  have hg := grow_run addrOf later w1
  exact get_held (ok_run addrOf later _ hok1) (integ_run addrOf later _ hi1) huniq
    (IsAddr.grow ⟨o, ho, hc, hp⟩ hg) (hg.store _ _ _ hst)

/-- **C14** the same for every other way to get hold of the address: the constructor files `v` in
the portal `q` the address is bound to (the requested portal, else the current one), and at any
later point (`mid`) a copy of the address, the address rebuilt from its strings (with or without
the readiness check), and the address unpickled while `q` is current exist, and each of them still
returns `v` after any further history (`later`). -/
theorem C14_copies_get (addrOf : V → A) (w0 : World A V E) (h0 : Start addrOf w0)
    (before : List (Op V A)) (v : V) (p : Option PortalId)
    (huniq : ∀ v', addrOf v' = addrOf v → v' = v) :
    ∃ i q w1, new addrOf v p (run addrOf w0 before) = (.ok i, w1) ∧
      HoldsVal w1 q (addrOf v) v ∧ IsAddr w1 i (addrOf v) (some q) ∧
      (∀ q', p = some q' → q = q') ∧
      (p = none → ∀ c, (run addrOf w0 before).sys.stack.head? = some c → q = c) ∧
      ∀ mid : List (Op V A), let w := run addrOf w1 mid
        (∃ j w2, copy i w = (.ok j, w2) ∧ ∀ later, ∃ w3, get j (run addrOf w2 later) = (.ok v, w3)) ∧
        (∀ check, ∃ j w2, fromStrings (addrOf v) (some q) check w = (.ok j, w2) ∧
          ∀ later, ∃ w3, get j (run addrOf w2 later) = (.ok v, w3)) ∧
        (∃ j w2, withP q (unpickle i) w = (.ok j, w2) ∧
          ∀ later, ∃ w3, get j (run addrOf w2 later) = (.ok v, w3)) := by
  have hi := h0.run_integ before
  have hok := h0.run_ok before
  obtain ⟨q, w1, e, ⟨o, ho, hc, hp, hv, _⟩, hst, hq1, hq2⟩ :=
    new_ok addrOf v p _ hok (free_of hi huniq)
  have hi1 : Integ addrOf w1 := by
    have := integ_step addrOf _ (.new v p) hi
    simp only [Op.step, e] at this
    exact this
  have hok1 : Ok w1 := by
    have := ok_step addrOf _ (.new v p) hok
    simp only [Op.step, e] at this
    exact this
  refine ⟨_, q, w1, e, hst, ⟨o, ho, hc, hp⟩, hq1, fun hn c hcc => ?_, fun mid => ?_⟩
  · cases hs : (run addrOf w0 before).sys.stack with
    | nil => rw [hs] at hcc; cases hcc
    | cons d ds => rw [hs] at hcc; cases hcc; exact hq2 hn _ _ hs
  have hg := grow_run addrOf mid w1
  have hi2 := integ_run addrOf mid w1 hi1
  have hok2 := ok_run addrOf mid w1 hok1
  obtain ⟨o2, ho2, hc2, hp2, _⟩ := hg.heap _ _ ho
  have hst2 : HoldsVal (run addrOf w1 mid) q (addrOf v) v := hg.store _ _ _ hst
  have hp2' := hp2.trans hp
  have hc2' := hc2.trans hc
  -- a new object with the same text, bound to `q`, in a later state
  have key : ∀ (j : Nat) (w2 : World A V E), Grow (run addrOf w1 mid) w2 → Integ addrOf w2 → Ok w2 →
      IsAddr w2 j (addrOf v) (some q) → ∀ later, ∃ w3, get j (run addrOf w2 later) = (.ok v, w3) := by
    intro j w2 g2 i2 k2 a2 later
    have g3 := grow_run addrOf later w2
    exact get_held (ok_run addrOf later w2 k2) (integ_run addrOf later w2 i2) huniq (a2.grow g3)
      (g3.store _ _ _ (g2.store _ _ _ hst2))
  refine ⟨?_, fun check => ?_, ?_⟩
  · refine ⟨_, _, copy_run _ o2 q _ ho2 hp2', ?_⟩
    have e2 := copy_run _ o2 q _ ho2 hp2'
    have g := grow_step addrOf (run addrOf w1 mid) (.copy (run addrOf w0 before).heap.length)
    have i := integ_step addrOf (run addrOf w1 mid) (.copy (run addrOf w0 before).heap.length) hi2
    have k := ok_step addrOf (run addrOf w1 mid) (.copy (run addrOf w0 before).heap.length) hok2
    simp only [Op.step, e2] at g i k
    exact key _ _ g i k ⟨_, (has_alloc _ _).2, hc2', rfl⟩
  · obtain ⟨w2, e2, a2⟩ := fromStrings_run (addrOf v) q check v _ hst2
    refine ⟨_, w2, e2, ?_⟩
    have g := grow_step addrOf (run addrOf w1 mid) (.fromStrings (addrOf v) (some q) check)
    have i := integ_step addrOf (run addrOf w1 mid) (.fromStrings (addrOf v) (some q) check) hi2
    have k := ok_step addrOf (run addrOf w1 mid) (.fromStrings (addrOf v) (some q) check) hok2
    simp only [Op.step, e2] at g i k
    exact key _ _ g i k a2
  · obtain ⟨w2, e2, a2⟩ := unpickle_run _ o2 q _ hok2 ho2
    rw [hc2'] at a2
    refine ⟨_, w2, e2, ?_⟩
    have hh := integFree (E := E) addrOf
    have g := Resp.withP (growFree (A := A) (V := V) (E := E)) q
      (resp_unpickle growFree Resp.storeSetGrow Resp.valGrow Resp.readyGrow Resp.allocGrow
        (run addrOf w0 before).heap.length) (run addrOf w1 mid)
    have i := Resp.withP hh q (m := unpickle (run addrOf w0 before).heap.length)
      (fun s hs => integ_step addrOf s (.unpickle _) hs) (run addrOf w1 mid) hi2
    have k := (Keeps.withP q (keeps_unpickle (run addrOf w0 before).heap.length)
      (run addrOf w1 mid) hok2).ok hok2
    rw [e2] at g i k
    exact key _ _ g i k a2

/-- **C15** content integrity: in every reachable state every portal holds under an address only
values having that address, and whatever `get` returns for an address object has the object's
address. -/
theorem C15_content_integrity (addrOf : V → A) (w0 : World A V E) (h0 : Start addrOf w0)
    (ops : List (Op V A)) :
    (∀ p a v, HoldsVal (run addrOf w0 ops) p a v → addrOf v = a) ∧
    (∀ i a p, IsAddr (run addrOf w0 ops) i a p → ∀ v w, get i (run addrOf w0 ops) = (.ok v, w) →
      addrOf v = a) := by
  have hi := h0.run_integ ops
  refine ⟨hi.1, fun i a p ⟨o, h1, h2, _⟩ v w e => ?_⟩
  have := (tri_get addrOf i a (run addrOf w0 ops) ⟨hi, o, h1, h2⟩).2 v
  rw [e] at this
  exact this rfl

/-- **C16** (values) no operation, successful or failing, removes or changes a stored value.  For
execution results see `C16_results_only_grow`. -/
theorem C16_values_only_grow (addrOf : V → A) (w : World A V E) (ops : List (Op V A))
    (p : PortalId) (a : A) (v : V) (h : HoldsVal w p a v) : HoldsVal (run addrOf w ops) p a v :=
  (grow_run addrOf ops w).store p a v h

/-- **C17** cross-portal lookup by `get`: the own portal `p` lacks the value, a known portal other
than the current one holds it: `get` returns it and copies it into `p`. -/
theorem C17_get_copies (addrOf : V → A) (w0 : World A V E) (h0 : Start addrOf w0)
    (ops : List (Op V A)) (i : Nat) (v : V) (p q : PortalId)
    (huniq : ∀ v', addrOf v' = addrOf v → v' = v)
    (hi : IsAddr (run addrOf w0 ops) i (addrOf v) (some p))
    (hfresh : ∀ o, (run addrOf w0 ops).heap[i]? = some o → o.value = none)
    (hp : ∀ v', ¬ HoldsVal (run addrOf w0 ops) p (addrOf v) v')
    (hq : KnownNoncurrent (run addrOf w0 ops) q) (hqv : HoldsVal (run addrOf w0 ops) q (addrOf v) v) :
    ∃ w', get i (run addrOf w0 ops) = (.ok v, w') ∧ HoldsVal w' p (addrOf v) v := by
  obtain ⟨o, ho, hc, hpo⟩ := hi
  have hint := h0.run_integ ops
  have hpn : ((run addrOf w0 ops).store p).data o.chain = none := by
    rw [hc]
    exact Option.eq_none_iff_forall_ne_some.2 hp
  obtain ⟨v', q', w', _, h2, h3, h4⟩ := get_elsewhere i o p _ (h0.run_ok ops) ho (hfresh o ho) hpo hpn
    ⟨q, (mem_noncurrent _ q).2 hq, by rw [hc, hqv]; rfl⟩
  have : v' = v := huniq v' (hc ▸ hint.1 q' _ v' h2)
  subst this
  exact ⟨w', h3, hc ▸ h4⟩

/-- **C17** the same for `ready` (on an address not yet known to be ready). -/
theorem C17_ready_copies (addrOf : V → A) (w0 : World A V E) (h0 : Start addrOf w0)
    (ops : List (Op V A)) (i : Nat) (v : V) (p q : PortalId)
    (huniq : ∀ v', addrOf v' = addrOf v → v' = v)
    (hi : IsAddr (run addrOf w0 ops) i (addrOf v) (some p))
    (hfresh : ∀ o, (run addrOf w0 ops).heap[i]? = some o → o.ready = false)
    (hp : ∀ v', ¬ HoldsVal (run addrOf w0 ops) p (addrOf v) v')
    (hq : KnownNoncurrent (run addrOf w0 ops) q) (hqv : HoldsVal (run addrOf w0 ops) q (addrOf v) v) :
    ∃ w', ready i (run addrOf w0 ops) = (.ok true, w') ∧ HoldsVal w' p (addrOf v) v := by
  obtain ⟨o, ho, hc, hpo⟩ := hi
  have hint := h0.run_integ ops
  have hpn : ((run addrOf w0 ops).store p).data o.chain = none := by
    rw [hc]
    exact Option.eq_none_iff_forall_ne_some.2 hp
  obtain ⟨v', q', w', _, h2, h3, h4⟩ := ready_elsewhere i o p _ (h0.run_ok ops) ho (hfresh o ho) hpo hpn
    ⟨q, (mem_noncurrent _ q).2 hq, by rw [hc, hqv]; rfl⟩
  have : v' = v := huniq v' (hc ▸ hint.1 q' _ v' h2)
  subst this
  exact ⟨w', h3, hc ▸ h4⟩

/-- **C18** (part) an address can be resolved if its own portal, or any known portal other than the
*current* one, holds the value.  Missing: a value held only by the current portal
(`C18_current_portal_counterexample`). -/
theorem C18_held_elsewhere_partial (addrOf : V → A) (w0 : World A V E) (h0 : Start addrOf w0)
    (ops : List (Op V A)) (i : Nat) (v : V) (p q : PortalId)
    (huniq : ∀ v', addrOf v' = addrOf v → v' = v)
    (hi : IsAddr (run addrOf w0 ops) i (addrOf v) (some p))
    (hq : q = p ∨ KnownNoncurrent (run addrOf w0 ops) q)
    (hqv : HoldsVal (run addrOf w0 ops) q (addrOf v) v) :
    ∃ w', get i (run addrOf w0 ops) = (.ok v, w') := by
  have hint := h0.run_integ ops
  have hok := h0.run_ok ops
  obtain ⟨o, ho, hc, hpo⟩ := id hi
  cases hv : o.value with
  | some v' =>
    have : v' = v := huniq v' (hc ▸ hint.2 i o ho v' hv)
    subst this
    exact ⟨_, get_cached i o v' _ ho hv⟩
  | none =>
    rcases free_of hint huniq p with h | h
    · rcases hq with rfl | hq
      · exact absurd hqv (by unfold HoldsVal; rw [h]; simp)
      · obtain ⟨w', e, _⟩ := C17_get_copies addrOf w0 h0 ops i v p q huniq hi
          (fun o' ho' => by rw [ho] at ho'; cases ho'; exact hv)
          (fun v' hv' => by unfold HoldsVal at hv'; rw [h] at hv'; cases hv') hq hqv
        exact ⟨w', e⟩
    · exact get_held hok hint huniq hi h

/-- **C18** and otherwise `get` raises `KeyError`: this is exactly the set of situations in which an
address without a cached value can be resolved. -/
theorem C18_not_found (addrOf : V → A) (w0 : World A V E) (h0 : Start addrOf w0)
    (ops : List (Op V A)) (i : Nat) (a : A) (p : PortalId)
    (hi : IsAddr (run addrOf w0 ops) i a (some p))
    (hfresh : ∀ o, (run addrOf w0 ops).heap[i]? = some o → o.value = none)
    (hp : ∀ v', ¬ HoldsVal (run addrOf w0 ops) p a v')
    (hq : ∀ q, KnownNoncurrent (run addrOf w0 ops) q → ∀ v', ¬ HoldsVal (run addrOf w0 ops) q a v') :
    ∃ e w', get i (run addrOf w0 ops) = (.error e, w') ∧ e.kind = .keyError := by
  obtain ⟨o, ho, hc, hpo⟩ := hi
  subst hc
  obtain ⟨e, w', h1, h2, _⟩ := get_nowhere i o p _ (h0.run_ok ops) ho (hfresh o ho) hpo
    (Option.eq_none_iff_forall_ne_some.2 hp)
    (fun q hq' => Option.eq_none_iff_forall_ne_some.2 (hq q ((mem_noncurrent _ q).1 hq')))
  exact ⟨e, w', h1, h2⟩

/-- **C19** (part) in histories that convert only addresses known to be ready: when `ready` answers
True then `get` succeeds, immediately and after any further such history.  Missing: conversion of
unchecked addresses (`C19_converted_unchecked_counterexample`). -/
theorem C19_ready_then_get_partial (addrOf : V → A) (w0 : World A V E) (h0 : Start addrOf w0)
    (ops : List (Op V A)) (hsafe : SafeHistory addrOf w0 ops) (i : Nat) (w1 : World A V E)
    (hr : ready i (run addrOf w0 ops) = (.ok true, w1)) (later : List (Op V A)) :
    ∃ v w2, get i (run addrOf w1 later) = (.ok v, w2) := by
  obtain ⟨c, q, v, o, h1, h2, h3, h4, h5⟩ := ready_true (h0.run_ok ops)
    (honest_run addrOf ops w0 hsafe h0.honest) i hr
  have hg := grow_run addrOf later w1
  obtain ⟨o', a1, a2, a3, _⟩ := hg.heap i o h1
  exact get_after _ (ok_run addrOf later w1 h5) i c q v o' a1 (a2.trans h2) (a3.trans h3)
    (hg.store _ _ _ h4)

/-! ### Concrete cases -/
section examples

/-- values are numbers, the address of a value is the number itself -/
abbrev addr : Nat → Nat := id

/-- three portals, portal 1 holds the value 7 from an earlier session -/
def w7 : World Nat Nat Unit where
  store p := { data := fun k => if p = 1 ∧ k = 7 then some 7 else none, pCheck := some 0 }
  crashes _ := []
  draws _ := 1 / 2
  ext := ()

theorem start7 : Start addr w7 := by
  refine ⟨rfl, rfl, rfl, fun p a v h => ?_⟩
  simp only [w7] at h
  split at h
  · rename_i hh; cases h; exact hh.2.symm
  · cases h

/-- C14–C16: the hypotheses are met, with a non-trivial history (stores, failing gets, exits out of
order) before and after -/
example : ∃ i w1, new addr 5 none (run addr w7 [.newPortal 1, .newPortal 2, .enter 2, .get 9, .exit 1])
    = (.ok i, w1) ∧ ∃ w2, get i (run addr w1 [.new 8 (some 1), .exit 2, .ready 0, .foreign 2 5])
    = (.ok 5, w2) := by
  obtain ⟨i, w1, h1, h2⟩ := C14_store_then_get addr w7 start7
    [.newPortal 1, .newPortal 2, .enter 2, .get 9, .exit 1] 5 none (fun _ h => h)
  exact ⟨i, w1, h1, h2 _⟩


/-- the observable result of running an operation after a history -/
def outcome {α : Type} (r : Except Exc α × World Nat Nat Unit) : Except Kind α :=
  match r.1 with
  | .ok a => .ok a
  | .error e => .error e.kind

/-- C17: address 0 has text 7 and is bound to portal 0, which lacks the value; portal 1 is known,
not current and holds it -/
example : let ops : List (Op Nat Nat) := [.newPortal 0, .newPortal 1, .newPortal 2, .enter 2, .fromStrings 7 (some 0) false]
    IsAddr (run addr w7 ops) 0 7 (some 0) ∧ KnownNoncurrent (run addr w7 ops) 1 ∧
    HoldsVal (run addr w7 ops) 1 7 7 ∧ (∀ v', ¬ HoldsVal (run addr w7 ops) 0 7 v') ∧
    (∀ o, (run addr w7 ops).heap[0]? = some o → o.value = none ∧ o.ready = false) := by
  refine ⟨⟨_, rfl, rfl, rfl⟩, ⟨by decide, by decide⟩, rfl, fun v' h => ?_, fun o ho => ?_⟩
  · cases h
  · cases ho; exact ⟨rfl, rfl⟩

/-- **C18** is false in general: portal 1 holds the value 7 and is the current portal; an address
with text 7 bound to portal 0 cannot be resolved (`get` raises `KeyError`), although a known portal
holds the value. -/
theorem C18_current_portal_counterexample :
    let ops : List (Op Nat Nat) := [.newPortal 0, .newPortal 1, .enter 1, .fromStrings 7 (some 0) false]
    Start addr w7 ∧ 1 ∈ (run addr w7 ops).sys.all ∧ HoldsVal (run addr w7 ops) 1 7 7 ∧
    IsAddr (run addr w7 ops) 0 7 (some 0) ∧
    outcome (get 0 (run addr w7 ops)) = .error .keyError ∧
    outcome (ready 0 (run addr w7 ops)) = .ok false := by
  refine ⟨start7, by decide, rfl, ⟨_, rfl, rfl, rfl⟩, by decide +kernel, by decide +kernel⟩

/-- **C19** is false in general: `ValueAddr(addr)` of an unchecked address in the same portal is
reported ready although no portal holds a value for it, and `get` raises `KeyError`. -/
theorem C19_converted_unchecked_counterexample :
    let ops : List (Op Nat Nat) := [.newPortal 0, .fromStrings 3 (some 0) false, .conv 0 (some 0)]
    Start addr w7 ∧
    outcome (ready 1 (run addr w7 ops)) = .ok true ∧
    outcome (get 1 (ready 1 (run addr w7 ops)).2) = .error .keyError := by
  refine ⟨start7, by decide +kernel, by decide +kernel⟩

/-- C19: a safe history with a conversion, in which `ready` answers True -/
example : let ops : List (Op Nat Nat) := [.newPortal 0, .newPortal 1, .fromStrings 7 (some 1) true, .conv 0 (some 0)]
    SafeHistory addr w7 ops ∧ outcome (ready 1 (run addr w7 ops)) = .ok true := by
  refine ⟨⟨fun j p h => (by cases h), fun j p h => (by cases h), fun j p h => (by cases h),
    fun j p h o ho => ?_, trivial⟩, by decide +kernel⟩
  cases h
  have key : (run addr w7 [.newPortal 0, .newPortal 1, .fromStrings 7 (some 1) true]).heap[0]? =
      some { chain := 7, portal := some 1, value := none, ready := true } := by decide +kernel
  have e := key.symm.trans ho
  cases e
  rfl

end examples

end Pyth.ValueAddr
