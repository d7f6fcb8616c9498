import Verif.Proofs.ValueAddrFun
import Verif.Spec.ValueAddr
set_option linter.unusedSectionVars false
set_option linter.unusedVariables false
set_option linter.unusedSimpArgs false
namespace Pyth.ValueAddr
open Pyth.World Pyth.Portal

variable {A V E α : Type} [DecidableEq A] [DecidableEq V]

theorem Start.ok {addrOf : V → A} {w : World A V E} (h : Start addrOf w) : Ok w := by
  unfold Ok
  rw [h.stack, h.counters]
  exact .nil

theorem Start.integ {addrOf : V → A} {w : World A V E} (h : Start addrOf w) : Integ addrOf w :=
  ⟨h.stored, fun i o ho => by rw [h.heap] at ho; simp at ho⟩

theorem Start.honest {addrOf : V → A} {w : World A V E} (h : Start addrOf w) : Honest w :=
  fun i o ho => by rw [h.heap] at ho; simp at ho

theorem Start.run_ok {addrOf : V → A} {w : World A V E} (h : Start addrOf w) (ops : List (Op V A)) :
    Ok (run addrOf w ops) := ok_run addrOf ops w h.ok
theorem Start.run_integ {addrOf : V → A} {w : World A V E} (h : Start addrOf w) (ops : List (Op V A)) :
    Integ addrOf (run addrOf w ops) := integ_run addrOf ops w h.integ

theorem bestPortal_run (p : Option PortalId) (s : World A V E) :
    ∃ q sys, World.bestPortal p s = (.ok q, { s with sys := sys }) ∧
      sys.stack = s.sys.stack ∧ sys.counters = s.sys.counters ∧ (∀ q', p = some q' → q = q') ∧
      (p = none → ∀ c cs, s.sys.stack = c :: cs → q = c) := by
  unfold World.bestPortal
  cases p with
  | some q => exact ⟨q, s.sys, rfl, rfl, rfl, fun _ h => Option.some.inj h, fun h => (by cases h)⟩
  | none =>
    cases hs : s.sys.stack with
    | cons c cs =>
      exact ⟨c, s.sys, rfl, hs, rfl, fun _ h => (by cases h), fun _ _ _ h => (by cases h; rfl)⟩
    | nil =>
      simp only
      cases hl : s.sys.all.getLast? with
      | some q => exact ⟨q, s.sys, rfl, hs, rfl, fun _ h => (by cases h), fun _ _ _ h => (by cases h)⟩
      | none =>
        refine ⟨s.dflt, _, rfl, ?_, ?_, fun _ h => (by cases h), fun _ _ _ h => (by cases h)⟩
        · unfold Portal.register; split <;> simp [hs]
        · unfold Portal.register; split <;> rfl

theorem withP_unit (p : PortalId) (s : World A V E) (hs : Ok s) :
    ∃ s', withP p (pure ()) s = (.ok (), s') ∧ Same s s' := by
  rw [withP_eq p _ s hs (Keeps.pure ())]
  obtain ⟨_, h2, h3, _, h5, h6, h7, h8, h9, h10⟩ := inside_ok p s hs
  have hl := same_logger (inside p s)
  refine ⟨_, rfl, ?_⟩
  exact ⟨hl.store.trans h5, hl.heap.trans h6, hl.ext.trans h7, hl.draws.trans h8, hl.nd.trans h9,
    hl.dflt.trans h10, by simp [h3], hl.handling.trans h2⟩

/-- creating an address for a value succeeds if its address is not taken by another value -/
theorem new_ok (addrOf : V → A) (v : V) (p : Option PortalId) (s : World A V E) (hs : Ok s)
    (hfree : ∀ q, (s.store q).data (addrOf v) = none ∨ (s.store q).data (addrOf v) = some v) :
    ∃ q s', new addrOf v p s = (.ok s.heap.length, s') ∧
      (∃ o, s'.heap[s.heap.length]? = some o ∧ o.chain = addrOf v ∧ o.portal = some q ∧
        o.value = some v ∧ o.ready = true) ∧
      (s'.store q).data (addrOf v) = some v ∧ (∀ q', p = some q' → q = q') ∧
      (p = none → ∀ c cs, s.sys.stack = c :: cs → q = c) := by
  obtain ⟨q, sys, e1, h1, h2, h3, h4⟩ := bestPortal_run p s
  have hok1 : Ok ({ s with sys := sys } : World A V E) := by
    unfold Ok; simp only [h1, h2]; exact hs
  obtain ⟨s2, e2, hsame⟩ := withP_unit q _ hok1
  have hheap : s2.heap = s.heap := hsame.heap
  have hstore : s2.store = s.store := hsame.store
  have hok3 : Ok (alloc { chain := addrOf v, portal := some q } s2).2 := hsame.ok hok1
  obtain ⟨s4, e4, hw⟩ := withP_storeSet q (addrOf v) v (alloc { chain := addrOf v, portal := some q } s2).2
    hok3 (by simp only [alloc, hstore]; exact hfree q)
  refine ⟨q, { s4 with
    heap := s4.heap.modify s.heap.length (fun x => { x with value := some v, ready := true }) }, ?_, ?_, ?_, h3, h4⟩
  · unfold new
    rw [PyM.run_bind, e1]
    simp only
    rw [PyM.run_bind, e2]
    simp only
    rw [PyM.run_bind]
    simp only [alloc] at e4 ⊢
    rw [PyM.run_bind, e4]
    simp only
    rw [hheap]
    rfl
  · simp only
    rw [hw.heap]
    simp only [alloc, hheap]
    rw [List.getElem?_modify]
    simp
  · simp only
    rw [hw.store]
    simp only [alloc, hstore]
    rcases hfree q with h | h <;> simp [h]

theorem free_of {addrOf : V → A} {v : V} {s : World A V E} (hi : Integ addrOf s)
    (hu : ∀ v', addrOf v' = addrOf v → v' = v) (q : PortalId) :
    (s.store q).data (addrOf v) = none ∨ (s.store q).data (addrOf v) = some v := by
  cases h : (s.store q).data (addrOf v) with
  | none => exact .inl rfl
  | some v' => exact .inr (by rw [hu v' (hi.1 q _ v' h)])

/-- an address bound to a portal that holds its value can be resolved -/
theorem get_held {addrOf : V → A} {v : V} {s : World A V E} (hok : Ok s) (hi : Integ addrOf s)
    (hu : ∀ v', addrOf v' = addrOf v → v' = v) {i : Nat} {q : PortalId}
    (ho : IsAddr s i (addrOf v) (some q)) (hst : HoldsVal s q (addrOf v) v) :
    ∃ s', get i s = (.ok v, s') := by
  obtain ⟨o, h1, h2, h3⟩ := ho
  cases hv : o.value with
  | some v' =>
    have := hi.2 i o h1 v' hv
    rw [h2] at this
    rw [hu v' this] at hv
    exact ⟨s, get_cached i o v s h1 hv⟩
  | none =>
    obtain ⟨s', e, _⟩ := get_own i o q v s hok h1 hv h3 (by rw [h2]; exact hst)
    exact ⟨s', e⟩

theorem IsAddr.grow {s s' : World A V E} {i : Nat} {a : A} {p : Option PortalId}
    (h : IsAddr s i a p) (hg : Grow s s') : IsAddr s' i a p := Obj.grow h hg

theorem copy_run (i : Nat) (o : AddrObj A V) (q : PortalId) (s : World A V E)
    (ho : s.heap[i]? = some o) (hp : o.portal = some q) :
    copy i s = (.ok s.heap.length, (alloc { chain := o.chain, portal := some q } s).2) := by
  unfold copy
  rw [PyM.run_bind, readObj_run i o s ho]
  simp only [hp]
  rfl

theorem fromStrings_run (a : A) (q : PortalId) (c : Bool) (v : V) (s : World A V E)
    (hst : HoldsVal s q a v) :
    ∃ s', fromStrings a (some q) c s = (.ok s.heap.length, s') ∧ IsAddr s' s.heap.length a (some q) := by
  cases c with
  | false =>
    exact ⟨(alloc { chain := a, portal := some q } s).2, rfl, _, (has_alloc _ s).2, rfl, rfl⟩
  | true =>
    have hr := ready_own s.heap.length { chain := a, portal := some q } q v
      (alloc { chain := a, portal := some q } s).2 (has_alloc _ s).2 rfl rfl hst
    refine ⟨{ (alloc { chain := a, portal := some q } s).2 with
      heap := (alloc { chain := a, portal := some q } s).2.heap.modify s.heap.length
        (fun x => { x with ready := true }) }, ?_, ?_⟩
    · unfold fromStrings
      rw [PyM.run_bind]
      simp only [World.bestPortal]
      rw [PyM.run_bind]
      simp only [alloc, if_true] at hr ⊢
      rw [PyM.run_bind, hr]
      rfl
    · refine ⟨{ chain := a, portal := some q, ready := true }, ?_, rfl, rfl⟩
      simp only [alloc]
      rw [List.getElem?_modify]
      simp

theorem unpickle_run (i : Nat) (o : AddrObj A V) (q : PortalId) (s : World A V E) (hs : Ok s)
    (ho : s.heap[i]? = some o) :
    ∃ s', withP q (unpickle i) s = (.ok s.heap.length, s') ∧
      IsAddr s' s.heap.length o.chain (some q) := by
  rw [withP_eq q _ s hs (keeps_unpickle i)]
  obtain ⟨_, h2, h3, h4, h5, h6, h7, h8, h9, h10⟩ := inside_ok q s hs
  have e : unpickle i (inside q s) = (.ok s.heap.length,
      (alloc { chain := o.chain, portal := some q } (inside q s)).2) := by
    unfold unpickle
    rw [PyM.run_bind, readObj_run i o _ (by rw [h6]; exact ho)]
    simp only
    rw [PyM.run_bind]
    simp only [PyM.get, alloc, h4, h6]
  rw [e]
  refine ⟨_, rfl, ?_⟩
  refine ⟨{ chain := o.chain, portal := some q }, ?_, rfl, rfl⟩
  have hl := same_logger (alloc { chain := o.chain, portal := some q } (inside q s)).2
  simp only
  rw [hl.heap]
  simp [alloc, h6]

theorem mem_noncurrent (s : World A V E) (q : PortalId) :
    q ∈ noncurrentList s ↔ KnownNoncurrent s q := by
  unfold noncurrentList KnownNoncurrent
  cases s.sys.stack with
  | nil => simp
  | cons c cs =>
    simp only [List.mem_filter, List.head?_cons, ne_eq, Option.some.injEq]
    constructor
    · rintro ⟨a, b⟩; exact ⟨a, fun e => by simp [e] at b⟩
    · rintro ⟨a, b⟩; exact ⟨a, by simp; exact fun e => b e.symm⟩

theorem honest_step (addrOf : V → A) (w : World A V E) (op : Op V A)
    (hop : ∀ j p, op = .conv j p → ∀ o, w.heap[j]? = some o → o.ready = true) (hw : Honest w) :
    Honest (op.step addrOf w) := by
  have h := honest_frame (A := A) (V := V) (E := E)
  cases op with
  | new v p => exact honest_new addrOf v p w hw
  | conv i p => exact honest_conv i p w hw fun d hd => hw i d hd (.inl (hop i p rfl d hd))
  | fromStrings a p c => exact honest_fromStrings a p c w hw
  | copy i =>
    exact Resp.bind h.toPreOrd (Resp.readObj h i) (fun o => honest_fromStrings _ _ _) w hw
  | unpickle i =>
    exact Resp.bind h.toPreOrd (Resp.readObj h i) (fun o =>
      Resp.bind h.toPreOrd (Resp.get h.toPreOrd) fun s t ht => honest_alloc _ rfl rfl t ht) w hw
  | get i => exact honest_get i w hw
  | ready i => exact honest_ready i w hw
  | newPortal p => exact hw
  | enter p => exact Resp.enterP h p w hw
  | exit p => exact Resp.exitP h p w hw
  | beginExcept k => exact hw
  | endExcept => exact hw
  | foreign p v => exact honest_storeSet p _ v w hw

theorem honest_run (addrOf : V → A) (ops : List (Op V A)) : ∀ (w : World A V E),
    SafeHistory addrOf w ops → Honest w → Honest (run addrOf w ops) := by
  induction ops with
  | nil => exact fun w _ h => h
  | cons op ops ih => exact fun w hs h => ih _ hs.2 (honest_step addrOf w op hs.1 h)

/-- a positive answer of `ready` in an honest state -/
theorem ready_true {s s' : World A V E} (hok : Ok s) (hh : Honest s) (i : Nat)
    (hr : ready i s = (.ok true, s')) :
    ∃ c q v o, s'.heap[i]? = some o ∧ o.chain = c ∧ o.portal = some q ∧
      (s'.store q).data c = some v ∧ Ok s' := by
  cases ho : s.heap[i]? with
  | none =>
    unfold ready at hr
    rw [PyM.run_bind, readObj_none i s ho] at hr
    cases hr
  | some o =>
    have := (ho_ready i o.chain o.portal s ⟨hh, o, ho, rfl, rfl⟩).1 true s' hr
    obtain ⟨q, v, h1, h2⟩ := this.2 rfl
    obtain ⟨o', a1, a2, a3⟩ := this.1.2
    have hk := keeps_ready i s hok
    rw [hr] at hk
    exact ⟨o.chain, q, v, o', a1, a2, a3.trans h1, h2, hk.ok hok⟩

theorem get_after (s : World A V E) (hok : Ok s) (i : Nat) (c : A) (q : PortalId) (v : V)
    (o : AddrObj A V) (ho : s.heap[i]? = some o) (hc : o.chain = c) (hp : o.portal = some q)
    (hst : (s.store q).data c = some v) : ∃ v' s', get i s = (.ok v', s') := by
  cases hv : o.value with
  | some v' => exact ⟨v', s, get_cached i o v' s ho hv⟩
  | none =>
    obtain ⟨s', e, _⟩ := get_own i o q v s hok ho hv hp (by rw [hc]; exact hst)
    exact ⟨v, s', e⟩

end Pyth.ValueAddr
