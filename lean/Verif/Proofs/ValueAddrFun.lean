import Verif.Proofs.ValueAddr
import Verif.Proofs.Hoare
/-! Exact results of the value-address operations. -/
set_option linter.unusedSectionVars false
set_option linter.unusedVariables false
set_option linter.unusedSimpArgs false
namespace Pyth.ValueAddr
open Pyth.World Pyth.Portal

variable {A V E α β : Type} [DecidableEq A] [DecidableEq V]

/-- only exceptions and logs differ -/
structure Same (s s' : World A V E) : Prop where
  store : s'.store = s.store
  heap : s'.heap = s.heap
  ext : s'.ext = s.ext
  draws : s'.draws = s.draws
  nd : s'.nd = s.nd
  dflt : s'.dflt = s.dflt
  sys : s'.sys = s.sys
  handling : s'.handling = s.handling

theorem Same.refl (s : World A V E) : Same s s := ⟨rfl, rfl, rfl, rfl, rfl, rfl, rfl, rfl⟩
theorem Same.trans {a b c : World A V E} (h : Same a b) (h' : Same b c) : Same a c :=
  ⟨h'.store.trans h.store, h'.heap.trans h.heap, h'.ext.trans h.ext, h'.draws.trans h.draws,
   h'.nd.trans h.nd, h'.dflt.trans h.dflt, h'.sys.trans h.sys, h'.handling.trans h.handling⟩
theorem Same.ok {s s' : World A V E} (h : Same s s') (hs : Ok s) : Ok s' := by
  unfold Ok; rw [h.sys]; exact hs
theorem Same.grow {s s' : World A V E} (h : Same s s') : Grow s s' :=
  ⟨fun p a v x => by rw [h.store]; exact x, fun i o x => ⟨o, by rw [h.heap]; exact x, rfl, rfl, id, id⟩⟩

theorem same_logger (s : World A V E) : Same s (exceptionLogger s) := by
  unfold exceptionLogger
  split
  · exact .refl s
  · unfold persistExc
    split
    · exact .refl s
    · exact ⟨rfl, rfl, rfl, rfl, rfl, rfl, rfl, rfl⟩

theorem withP_storeGet_some (q : PortalId) (a : A) (v : V) (s : World A V E) (hs : Ok s)
    (h : (s.store q).data a = some v) :
    ∃ s', withP q (storeGet q a) s = (.ok v, s') ∧ Same s s' := by
  rw [withP_eq q _ s hs (Keeps.storeGet q a)]
  obtain ⟨_, h2, h3, _, h5, h6, h7, h8, h9, h10⟩ := inside_ok q s hs
  have e : storeGet q a (inside q s) = (.ok v, inside q s) := by simp [storeGet, h5, h]
  rw [e]
  have hl := same_logger (inside q s)
  refine ⟨_, rfl, ⟨hl.store.trans h5, hl.heap.trans h6, hl.ext.trans h7, hl.draws.trans h8,
    hl.nd.trans h9, hl.dflt.trans h10, ?_, hl.handling.trans h2⟩⟩
  simp only [h3]

theorem withP_storeGet_none (q : PortalId) (a : A) (s : World A V E) (hs : Ok s)
    (h : (s.store q).data a = none) :
    ∃ e s', withP q (storeGet q a) s = (.error e, s') ∧ e.kind = .keyError ∧ Same s s' := by
  rw [withP_eq q _ s hs (Keeps.storeGet q a)]
  obtain ⟨_, h2, h3, _, h5, h6, h7, h8, h9, h10⟩ := inside_ok q s hs
  have e : storeGet q a (inside q s) = (.error ⟨(inside q s).nextExc, .keyError⟩,
      { inside q s with nextExc := (inside q s).nextExc + 1 }) := by
    simp [storeGet, h5, h, raiseNew]
  rw [e]
  simp only
  refine ⟨_, _, rfl, rfl, ?_⟩
  have hl := same_logger (A := A) (V := V) (E := E) { inside q s with
    nextExc := (inside q s).nextExc + 1,
    handling := ⟨(inside q s).nextExc, .keyError⟩ :: (inside q s).handling }
  refine ⟨hl.store.trans h5, hl.heap.trans h6, hl.ext.trans h7, hl.draws.trans h8,
    hl.nd.trans h9, hl.dflt.trans h10, ?_, h2⟩
  simp only [h3]

/-- what an assignment to a store changes -/
structure Wrote (p : PortalId) (a : A) (v : V) (s s' : World A V E) : Prop where
  store : ∀ q k, (s'.store q).data k = ((s.store q).data k).or (if q = p ∧ k = a then some v else none)
  pCheck : ∀ q, (s'.store q).pCheck = (s.store q).pCheck
  heap : s'.heap = s.heap
  ext : s'.ext = s.ext
  sys : s'.sys = s.sys
  handling : s'.handling = s.handling

theorem wrote_of_run {p : PortalId} {a : A} {v : V} {s s' : World A V E} {d : FirstEntry.Dict A V}
    {n : Nat} (h1 : s' = { s with
        nd := s.nd + 1, nextExc := n, store := fun q => if q = p then d else s.store q })
    (h2 : d.data = (fun k => ((s.store p).data k).or (if k = a then some v else none)))
    (h3 : d.pCheck = (s.store p).pCheck) :
    Wrote p a v s s' := by
  subst h1
  refine ⟨?_, ?_, rfl, rfl, rfl, rfl⟩
  · intro q k
    simp only
    by_cases hq : q = p
    · subst hq; simp [h2]
    · simp [hq]
  · intro q
    simp only
    split
    · rename_i e; subst e; exact h3
    · rfl

theorem storeSet_ok (p : PortalId) (a : A) (v : V) (s : World A V E)
    (h : (s.store p).data a = none ∨ (s.store p).data a = some v) :
    ∃ s', storeSet p a v s = (.ok (), s') ∧ Wrote p a v s s' := by
  obtain ⟨d, n, h1, h2, h3, h4⟩ := storeSet_run p a v s
  refine ⟨(storeSet p a v s).2, ?_, wrote_of_run h1 h2 h3⟩
  rw [← h4 h]

theorem withP_storeSet (p : PortalId) (a : A) (v : V) (s : World A V E) (hs : Ok s)
    (h : (s.store p).data a = none ∨ (s.store p).data a = some v) :
    ∃ s', withP p (storeSet p a v) s = (.ok (), s') ∧ Wrote p a v s s' := by
  rw [withP_eq p _ s hs (Keeps.storeSet p a v)]
  obtain ⟨_, h2, h3, _, h5, h6, h7, h8, h9, h10⟩ := inside_ok p s hs
  obtain ⟨s1, e, hw⟩ := storeSet_ok p a v (inside p s) (by rw [h5]; exact h)
  rw [e]
  have hl := same_logger s1
  refine ⟨_, rfl, ?_⟩
  refine ⟨?_, ?_, (hl.heap.trans hw.heap).trans h6, (hl.ext.trans hw.ext).trans h7, ?_,
    (hl.handling.trans hw.handling).trans h2⟩
  · intro q k
    simp only
    rw [hl.store, hw.store, h5]
  · intro q; simp only; rw [hl.store, hw.pCheck, h5]
  · simp only; rw [hw.sys, h3]

theorem getTry_some (i : Nat) (o : AddrObj A V) (p q : PortalId) (v : V) (s : World A V E) (hs : Ok s)
    (hp : o.portal = some p)
    (hpa : (s.store p).data o.chain = none ∨ (s.store p).data o.chain = some v)
    (hq : (s.store q).data o.chain = some v) :
    ∃ s', getTry i o q s = (.ok v, s') ∧ (s'.store p).data o.chain = some v ∧
      s'.heap = s.heap.modify i (fun x => { x with value := some v }) := by
  obtain ⟨s1, e1, h1⟩ := withP_storeGet_some q o.chain v s hs hq
  obtain ⟨s2, e2, h2⟩ := withP_storeSet p o.chain v s1 (h1.ok hs) (by rw [h1.store]; exact hpa)
  have e2' : withOpt o.portal (fun p => storeSet p o.chain v) s1 = (.ok (), s2) := by
    rw [hp]; exact e2
  refine ⟨{ s2 with heap := s2.heap.modify i (fun x => { x with value := some v }) }, ?_, ?_, ?_⟩
  · unfold getTry
    rw [PyM.run_bind, e1]; simp only
    rw [PyM.run_bind, e2']; simp only
    rfl
  · simp only
    rw [h2.store, h1.store]
    rcases hpa with h | h <;> simp [h]
  · simp only; rw [h2.heap, h1.heap]

theorem getTry_none (i : Nat) (o : AddrObj A V) (q : PortalId) (s : World A V E) (hs : Ok s)
    (hq : (s.store q).data o.chain = none) :
    ∃ e s', getTry i o q s = (.error e, s') ∧ Same s s' := by
  obtain ⟨e, s1, e1, _, h1⟩ := withP_storeGet_none q o.chain s hs hq
  refine ⟨e, s1, ?_, h1⟩
  unfold getTry
  rw [PyM.run_bind, e1]

theorem getLoop_found (i : Nat) (o : AddrObj A V) (p : PortalId) (hp : o.portal = some p)
    (qs : List PortalId) : ∀ (s : World A V E), Ok s → (s.store p).data o.chain = none →
    (∃ q ∈ qs, ((s.store q).data o.chain).isSome) →
    ∃ v q s', q ∈ qs ∧ (s.store q).data o.chain = some v ∧ getLoop i o qs s = (.ok v, s') ∧
      (s'.store p).data o.chain = some v := by
  induction qs with
  | nil => intro s _ _ h; simp at h
  | cons q qs ih =>
    intro s hs hpn h
    cases hq : (s.store q).data o.chain with
    | some v =>
      obtain ⟨s', e, h1, _⟩ := getTry_some i o p q v s hs hp (.inl hpn) hq
      exact ⟨v, q, s', by simp, hq, by rw [getLoop_cons, e], h1⟩
    | none =>
      obtain ⟨e, s1, e1, h1⟩ := getTry_none i o q s hs hq
      obtain ⟨q', hq', hsome⟩ := h
      rcases List.mem_cons.1 hq' with rfl | hq'
      · rw [hq] at hsome; simp at hsome
      · obtain ⟨v, q2, s', a1, a2, a3, a4⟩ := ih s1 (h1.ok hs) (by rw [h1.store]; exact hpn)
          ⟨q', hq', by rw [h1.store]; exact hsome⟩
        rw [h1.store] at a2
        exact ⟨v, q2, s', by simp [a1], a2, by rw [getLoop_cons, e1]; exact a3, a4⟩

theorem getLoop_notFound (i : Nat) (o : AddrObj A V) (qs : List PortalId) : ∀ (s : World A V E),
    Ok s → (∀ q ∈ qs, (s.store q).data o.chain = none) →
    ∃ e s', getLoop i o qs s = (.error e, s') ∧ e.kind = .keyError ∧ Same s s' := by
  induction qs with
  | nil => intro s hs _; exact ⟨_, _, rfl, rfl, ⟨rfl, rfl, rfl, rfl, rfl, rfl, rfl, rfl⟩⟩
  | cons q qs ih =>
    intro s hs h
    obtain ⟨e, s1, e1, h1⟩ := getTry_none i o q s hs (h q (by simp))
    obtain ⟨e2, s', a1, a2, a3⟩ := ih s1 (h1.ok hs)
      (fun q' hq' => by rw [h1.store]; exact h q' (by simp [hq']))
    exact ⟨e2, s', by rw [getLoop_cons, e1]; exact a1, a2, h1.trans a3⟩

/-! `get` -/

theorem get_cached (i : Nat) (o : AddrObj A V) (v : V) (s : World A V E)
    (ho : s.heap[i]? = some o) (hv : o.value = some v) : get i s = (.ok v, s) := by
  unfold get
  rw [PyM.run_bind, readObj_run i o s ho]
  simp [hv]

theorem get_uncached (i : Nat) (o : AddrObj A V) (s : World A V E)
    (ho : s.heap[i]? = some o) (hv : o.value = none) :
    get i s = tryE (getFromCurrent i) (fun _ => getFromNoncurrent i) s := by
  unfold get
  rw [PyM.run_bind, readObj_run i o s ho]
  simp only [hv]

/-- the `with` block of `get_from_current_portal` -/
def curBlock (i : Nat) (p : PortalId) (c : A) : M A V E V := do
  let r ← storeGet p c
  updObj i (fun x => { x with value := some r })
  pure r

theorem keeps_curBlock (i : Nat) (p : PortalId) (c : A) : Keeps (curBlock i p c : M A V E V) :=
  Keeps.bind (Keeps.storeGet p _) fun r => Keeps.bind (Keeps.updObj i _) fun _ => Keeps.pure r

theorem getFromCurrent_eq (i : Nat) (o : AddrObj A V) (p : PortalId) (s : World A V E)
    (ho : s.heap[i]? = some o) (hv : o.value = none) (hp : o.portal = some p) :
    getFromCurrent i s = withP p (curBlock i p o.chain) s := by
  unfold getFromCurrent
  rw [PyM.run_bind, readObj_run i o s ho]
  simp only [hv, hp]
  rfl

theorem getFromCurrent_found (i : Nat) (o : AddrObj A V) (p : PortalId) (v : V) (s : World A V E)
    (hs : Ok s) (ho : s.heap[i]? = some o) (hv : o.value = none) (hp : o.portal = some p)
    (h : (s.store p).data o.chain = some v) :
    ∃ s', getFromCurrent i s = (.ok v, s') ∧ s'.store = s.store ∧ s'.ext = s.ext ∧
      s'.sys = s.sys ∧ s'.handling = s.handling := by
  rw [getFromCurrent_eq i o p s ho hv hp, withP_eq p _ s hs (keeps_curBlock i p o.chain)]
  obtain ⟨_, h2, h3, _, h5, h6, h7, h8, h9, h10⟩ := inside_ok p s hs
  have e : curBlock i p o.chain (inside p s) = (.ok v, { inside p s with
      heap := (inside p s).heap.modify i (fun x => { x with value := some v }) }) := by
    simp [curBlock, PyM.run_bind, storeGet, h5, h, updObj]
  rw [e]
  simp only
  have hl := same_logger (A := A) (V := V) (E := E) { inside p s with
    heap := (inside p s).heap.modify i (fun x => { x with value := some v }) }
  refine ⟨_, rfl, hl.store.trans h5, hl.ext.trans h7, ?_, hl.handling.trans h2⟩
  simp only [h3]

theorem getFromCurrent_notFound (i : Nat) (o : AddrObj A V) (p : PortalId) (s : World A V E)
    (hs : Ok s) (ho : s.heap[i]? = some o) (hv : o.value = none) (hp : o.portal = some p)
    (h : (s.store p).data o.chain = none) :
    ∃ e s', getFromCurrent i s = (.error e, s') ∧ Same s s' := by
  rw [getFromCurrent_eq i o p s ho hv hp, withP_eq p _ s hs (keeps_curBlock i p o.chain)]
  obtain ⟨_, h2, h3, _, h5, h6, h7, h8, h9, h10⟩ := inside_ok p s hs
  have e : curBlock i p o.chain (inside p s) = (.error ⟨(inside p s).nextExc, .keyError⟩,
      { inside p s with nextExc := (inside p s).nextExc + 1 }) := by
    simp [curBlock, PyM.run_bind, storeGet, h5, h, raiseNew]
  rw [e]
  simp only
  refine ⟨_, _, rfl, ?_⟩
  have hl := same_logger (A := A) (V := V) (E := E) { inside p s with
    nextExc := (inside p s).nextExc + 1,
    handling := ⟨(inside p s).nextExc, .keyError⟩ :: (inside p s).handling }
  refine ⟨hl.store.trans h5, hl.heap.trans h6, hl.ext.trans h7, hl.draws.trans h8,
    hl.nd.trans h9, hl.dflt.trans h10, ?_, h2⟩
  simp only [h3]

/-- the value is in the address's own portal -/
theorem get_own (i : Nat) (o : AddrObj A V) (p : PortalId) (v : V) (s : World A V E)
    (hs : Ok s) (ho : s.heap[i]? = some o) (hv : o.value = none) (hp : o.portal = some p)
    (h : (s.store p).data o.chain = some v) :
    ∃ s', get i s = (.ok v, s') ∧ s'.store = s.store ∧ s'.ext = s.ext ∧ s'.sys = s.sys ∧
      s'.handling = s.handling := by
  obtain ⟨s', e, rest⟩ := getFromCurrent_found i o p v s hs ho hv hp h
  refine ⟨s', ?_, rest⟩
  rw [get_uncached i o s ho hv]
  unfold tryE; rw [e]

/-- the value is missing in the own portal: fall back to the noncurrent portals -/
theorem get_fallback (i : Nat) (o : AddrObj A V) (p : PortalId) (s : World A V E)
    (hs : Ok s) (ho : s.heap[i]? = some o) (hv : o.value = none) (hp : o.portal = some p)
    (h : (s.store p).data o.chain = none) :
    ∃ e s1, Same s { s1 with handling := s.handling } ∧ s1.handling = e :: s.handling ∧
      get i s = ((getLoop i o (noncurrentList s) s1).1,
        { (getLoop i o (noncurrentList s) s1).2 with
          handling := (getLoop i o (noncurrentList s) s1).2.handling.tail }) := by
  obtain ⟨e, s1, e1, h1⟩ := getFromCurrent_notFound i o p s hs ho hv hp h
  refine ⟨e, { s1 with handling := e :: s1.handling },
    ⟨h1.store, h1.heap, h1.ext, h1.draws, h1.nd, h1.dflt, h1.sys, rfl⟩, by simp [h1.handling], ?_⟩
  rw [get_uncached i o s ho hv]
  unfold tryE; rw [e1]
  simp only [handlingE]
  have : getFromNoncurrent i { s1 with handling := e :: s1.handling } =
      getLoop i o (noncurrentList s) { s1 with handling := e :: s1.handling } := by
    unfold getFromNoncurrent
    rw [PyM.run_bind, readObj_run i o _ (by simp only; rw [h1.heap]; exact ho)]
    simp only
    rw [PyM.run_bind]
    have : noncurrentList ({ s1 with handling := e :: s1.handling } : World A V E) = noncurrentList s := by
      simp only [noncurrentList, h1.sys]
    simp only [PyM.run_get, this]
  rw [this]

theorem get_elsewhere (i : Nat) (o : AddrObj A V) (p : PortalId) (s : World A V E)
    (hs : Ok s) (ho : s.heap[i]? = some o) (hv : o.value = none) (hp : o.portal = some p)
    (h : (s.store p).data o.chain = none)
    (hq : ∃ q ∈ noncurrentList s, ((s.store q).data o.chain).isSome) :
    ∃ v q s', q ∈ noncurrentList s ∧ (s.store q).data o.chain = some v ∧ get i s = (.ok v, s') ∧
      (s'.store p).data o.chain = some v := by
  obtain ⟨e, s1, hsame, hh, hg⟩ := get_fallback i o p s hs ho hv hp h
  have hst : s1.store = s.store := hsame.store
  have hok : Ok s1 := by unfold Ok; rw [show s1.sys = s.sys from hsame.sys]; exact hs
  obtain ⟨v, q, s', a1, a2, a3, a4⟩ := getLoop_found i o p hp (noncurrentList s) s1 hok
    (by rw [hst]; exact h) (by rw [hst]; exact hq)
  rw [hst] at a2
  refine ⟨v, q, { s' with handling := s'.handling.tail }, a1, a2, ?_, a4⟩
  rw [hg, a3]

theorem get_nowhere (i : Nat) (o : AddrObj A V) (p : PortalId) (s : World A V E)
    (hs : Ok s) (ho : s.heap[i]? = some o) (hv : o.value = none) (hp : o.portal = some p)
    (h : (s.store p).data o.chain = none)
    (hq : ∀ q ∈ noncurrentList s, (s.store q).data o.chain = none) :
    ∃ e s', get i s = (.error e, s') ∧ e.kind = .keyError ∧ s'.store = s.store := by
  obtain ⟨e, s1, hsame, hh, hg⟩ := get_fallback i o p s hs ho hv hp h
  have hst : s1.store = s.store := hsame.store
  have hok : Ok s1 := by unfold Ok; rw [show s1.sys = s.sys from hsame.sys]; exact hs
  obtain ⟨e2, s', a1, a2, a3⟩ := getLoop_notFound i o (noncurrentList s) s1 hok
    (by rw [hst]; exact hq)
  refine ⟨e2, { s' with handling := s'.handling.tail }, ?_, a2, a3.store.trans hst⟩
  rw [hg, a1]

/-! `ready` -/

theorem ready_cached (i : Nat) (o : AddrObj A V) (s : World A V E)
    (ho : s.heap[i]? = some o) (hr : o.ready = true) : ready i s = (.ok true, s) := by
  unfold ready
  rw [PyM.run_bind, readObj_run i o s ho]
  simp [hr]

/-- the part of `ready` after both checks of the own portal failed -/
def readyRest (i : Nat) (o : AddrObj A V) (l : List PortalId) : M A V E Bool := do
  let r ← readyLoop i o l
  if r then do
    updObj i (fun x => { x with ready := true })
    pure true
  else pure false

theorem ready_fallback (i : Nat) (o : AddrObj A V) (p : PortalId) (s : World A V E)
    (ho : s.heap[i]? = some o) (hr : o.ready = false) (hp : o.portal = some p)
    (h : (s.store p).data o.chain = none) :
    ready i s = readyRest i o (noncurrentList s) s := by
  unfold ready
  rw [PyM.run_bind, readObj_run i o s ho]
  simp only [hr, hp, needPortal]
  simp [PyM.run_bind, storeHas, h]
  rfl

theorem ready_own (i : Nat) (o : AddrObj A V) (p : PortalId) (v : V) (s : World A V E)
    (ho : s.heap[i]? = some o) (hr : o.ready = false) (hp : o.portal = some p)
    (h : (s.store p).data o.chain = some v) :
    ready i s = (.ok true, { s with heap := s.heap.modify i (fun x => { x with ready := true }) }) := by
  unfold ready
  rw [PyM.run_bind, readObj_run i o s ho]
  simp only [hr, hp, needPortal]
  simp [PyM.run_bind, storeHas, h, updObj]

theorem readyTry_none (i : Nat) (o : AddrObj A V) (q : PortalId) (s : World A V E) (hs : Ok s)
    (hq : (s.store q).data o.chain = none) :
    ∃ s', withP q (readyTry i o q) s = (.ok false, s') ∧ Same s s' := by
  rw [withP_eq q _ s hs (keeps_readyTry i o q)]
  obtain ⟨_, h2, h3, _, h5, h6, h7, h8, h9, h10⟩ := inside_ok q s hs
  have e : readyTry i o q (inside q s) = (.ok false, inside q s) := by
    simp [readyTry, PyM.run_bind, storeHas, h5, hq]
  rw [e]
  have hl := same_logger (inside q s)
  refine ⟨_, rfl, ⟨hl.store.trans h5, hl.heap.trans h6, hl.ext.trans h7, hl.draws.trans h8,
    hl.nd.trans h9, hl.dflt.trans h10, ?_, hl.handling.trans h2⟩⟩
  simp only [h3]

theorem readyTry_some (i : Nat) (o : AddrObj A V) (p q : PortalId) (v : V) (s : World A V E) (hs : Ok s)
    (hp : o.portal = some p) (hpn : (s.store p).data o.chain = none)
    (hq : (s.store q).data o.chain = some v) :
    ∃ s', withP q (readyTry i o q) s = (.ok true, s') ∧ (s'.store p).data o.chain = some v := by
  rw [withP_eq q _ s hs (keeps_readyTry i o q)]
  obtain ⟨hok, h2, h3, _, h5, h6, h7, h8, h9, h10⟩ := inside_ok q s hs
  obtain ⟨s2, e2, w2⟩ := withP_storeSet p o.chain v (inside q s) hok (.inl (by rw [h5]; exact hpn))
  have e : readyTry i o q (inside q s) = (.ok true, { s2 with
      heap := s2.heap.modify i (fun x => { x with ready := true }) }) := by
    unfold readyTry
    simp only [PyM.run_bind, storeHas, h5, hq, storeGet, withOpt, hp, e2, updObj, Option.isSome,
      if_true, PyM.run_pure]
  rw [e]
  have hl := same_logger (A := A) (V := V) (E := E) { s2 with
      heap := s2.heap.modify i (fun x => { x with ready := true }) }
  refine ⟨_, rfl, ?_⟩
  simp only
  rw [hl.store, w2.store, h5, hpn]
  simp

theorem readyLoop_cons (i : Nat) (o : AddrObj A V) (q : PortalId) (qs : List PortalId) :
    (readyLoop i o (q :: qs) : M A V E Bool) = (do
      let found ← withP q (readyTry i o q)
      if found then pure true else readyLoop i o qs) := rfl

theorem readyLoop_found (i : Nat) (o : AddrObj A V) (p : PortalId) (hp : o.portal = some p)
    (qs : List PortalId) : ∀ (s : World A V E), Ok s → (s.store p).data o.chain = none →
    (∃ q ∈ qs, ((s.store q).data o.chain).isSome) →
    ∃ v q s', q ∈ qs ∧ (s.store q).data o.chain = some v ∧ readyLoop i o qs s = (.ok true, s') ∧
      (s'.store p).data o.chain = some v := by
  induction qs with
  | nil => intro s _ _ h; simp at h
  | cons q qs ih =>
    intro s hs hpn h
    cases hq : (s.store q).data o.chain with
    | some v =>
      obtain ⟨s', e, h1⟩ := readyTry_some i o p q v s hs hp hpn hq
      refine ⟨v, q, s', by simp, hq, ?_, h1⟩
      rw [readyLoop_cons, PyM.run_bind, e]
      simp
    | none =>
      obtain ⟨s1, e1, h1⟩ := readyTry_none i o q s hs hq
      obtain ⟨q', hq', hsome⟩ := h
      rcases List.mem_cons.1 hq' with rfl | hq'
      · rw [hq] at hsome; simp at hsome
      · obtain ⟨v, q2, s', a1, a2, a3, a4⟩ := ih s1 (h1.ok hs) (by rw [h1.store]; exact hpn)
          ⟨q', hq', by rw [h1.store]; exact hsome⟩
        rw [h1.store] at a2
        refine ⟨v, q2, s', by simp [a1], a2, ?_, a4⟩
        rw [readyLoop_cons, PyM.run_bind, e1]
        simp [a3]

theorem readyLoop_notFound (i : Nat) (o : AddrObj A V) (qs : List PortalId) : ∀ (s : World A V E),
    Ok s → (∀ q ∈ qs, (s.store q).data o.chain = none) →
    ∃ s', readyLoop i o qs s = (.ok false, s') ∧ Same s s' := by
  induction qs with
  | nil => intro s hs _; exact ⟨s, rfl, .refl s⟩
  | cons q qs ih =>
    intro s hs h
    obtain ⟨s1, e1, h1⟩ := readyTry_none i o q s hs (h q (by simp))
    obtain ⟨s', a1, a2⟩ := ih s1 (h1.ok hs)
      (fun q' hq' => by rw [h1.store]; exact h q' (by simp [hq']))
    refine ⟨s', ?_, h1.trans a2⟩
    rw [readyLoop_cons, PyM.run_bind, e1]
    simp [a1]

theorem ready_elsewhere (i : Nat) (o : AddrObj A V) (p : PortalId) (s : World A V E)
    (hs : Ok s) (ho : s.heap[i]? = some o) (hr : o.ready = false) (hp : o.portal = some p)
    (h : (s.store p).data o.chain = none)
    (hq : ∃ q ∈ noncurrentList s, ((s.store q).data o.chain).isSome) :
    ∃ v q s', q ∈ noncurrentList s ∧ (s.store q).data o.chain = some v ∧
      ready i s = (.ok true, s') ∧ (s'.store p).data o.chain = some v := by
  obtain ⟨v, q, s', a1, a2, a3, a4⟩ := readyLoop_found i o p hp (noncurrentList s) s hs h hq
  refine ⟨v, q, { s' with heap := s'.heap.modify i (fun x => { x with ready := true }) }, a1, a2, ?_, ?_⟩
  · rw [ready_fallback i o p s ho hr hp h]
    unfold readyRest
    rw [PyM.run_bind, a3]
    simp only [if_true]
    rw [PyM.run_bind]
    rfl
  · exact a4

theorem ready_nowhere (i : Nat) (o : AddrObj A V) (p : PortalId) (s : World A V E)
    (hs : Ok s) (ho : s.heap[i]? = some o) (hr : o.ready = false) (hp : o.portal = some p)
    (h : (s.store p).data o.chain = none)
    (hq : ∀ q ∈ noncurrentList s, (s.store q).data o.chain = none) :
    ∃ s', ready i s = (.ok false, s') ∧ Same s s' := by
  obtain ⟨s', a1, a2⟩ := readyLoop_notFound i o (noncurrentList s) s hs hq
  refine ⟨s', ?_, a2⟩
  rw [ready_fallback i o p s ho hr hp h]
  unfold readyRest
  rw [PyM.run_bind, a1]
  simp

/-! ### the flags are honest -/

/-- object `i` has this text and portal -/
def Obj (i : Nat) (c : A) (p : Option PortalId) (s : World A V E) : Prop :=
  ∃ o, s.heap[i]? = some o ∧ o.chain = c ∧ o.portal = p

theorem Obj.grow {i : Nat} {c : A} {p : Option PortalId} {s s' : World A V E} (h : Obj i c p s)
    (hg : Grow s s') : Obj i c p s' := by
  obtain ⟨o, h1, h2, h3⟩ := h
  obtain ⟨o', h4, h5, h6, _⟩ := hg.heap i o h1
  exact ⟨o', h4, h5.trans h2, h6.trans h3⟩

/-- the portal holds something under the text -/
def Holds (c : A) (p : Option PortalId) (s : World A V E) : Prop :=
  ∃ q v, p = some q ∧ (s.store q).data c = some v

theorem Holds.grow {c : A} {p : Option PortalId} {s s' : World A V E} (h : Holds c p s)
    (hg : Grow s s') : Holds c p s' := by
  obtain ⟨q, v, h1, h2⟩ := h
  exact ⟨q, v, h1, hg.store q c v h2⟩

/-- an address object marked ready, or with a cached value, is held by its own portal -/
def Honest (s : World A V E) : Prop :=
  ∀ (i : Nat) (o : AddrObj A V), s.heap[i]? = some o → (o.ready = true ∨ o.value.isSome) →
    Holds o.chain o.portal s

def HI (i : Nat) (c : A) (p : Option PortalId) (s : World A V E) : Prop := Honest s ∧ Obj i c p s
def HH (i : Nat) (c : A) (p : Option PortalId) (s : World A V E) : Prop := HI i c p s ∧ Holds c p s

theorem hi_fr (i : Nat) (c : A) (p : Option PortalId) : Fr (HI i c p : World A V E → Prop) :=
  fun s _ _ _ _ _ h => h
theorem hh_fr (i : Nat) (c : A) (p : Option PortalId) : Fr (HH i c p : World A V E → Prop) :=
  fun s _ _ _ _ _ h => h

theorem honest_storeSet (p : PortalId) (a : A) (v : V) (s : World A V E) (h : Honest s) :
    Honest (storeSet p a v s).2 := by
  have hg := Resp.storeSetGrow (E := E) p a v s
  obtain ⟨d, n, h1, h2, _⟩ := storeSet_run p a v s
  intro i o ho hr
  have ho' : s.heap[i]? = some o := by rw [h1] at ho; exact ho
  exact (h i o ho' hr).grow hg

theorem holds_storeSet (p : PortalId) (a : A) (v : V) (s : World A V E) :
    Holds a (some p) (storeSet p a v s).2 := by
  obtain ⟨d, n, h1, h2, _⟩ := storeSet_run p a v s
  rw [h1]
  cases h : (s.store p).data a with
  | some w => exact ⟨p, w, rfl, by simp [h2, h]⟩
  | none => exact ⟨p, v, rfl, by simp [h2, h]⟩

theorem hoare_of (P : World A V E → Prop) (m : M A V E α) (Q : α → World A V E → Prop)
    (X : World A V E → Prop) (h : ∀ s, P s → (∀ a, (m s).1 = .ok a → Q a (m s).2) ∧
      (∀ e, (m s).1 = .error e → X (m s).2)) : Hoare P m Q X := by
  intro s hs
  have := h s hs
  refine ⟨fun a s' e => ?_, fun e s' e' => ?_⟩
  · have := this.1 a (by rw [e]); rw [e] at this; exact this
  · have := this.2 e (by rw [e']); rw [e'] at this; exact this

theorem ho_storeSet (i : Nat) (c : A) (q : PortalId) (v : V) (X : World A V E → Prop)
    (hX : ∀ s, HI i c (some q) s → X s) :
    Hoare (HI i c (some q)) (storeSet q c v : M A V E Unit) (fun _ => HH i c (some q)) X := by
  refine hoare_of _ _ _ _ fun s hs => ?_
  have h1 : HI i c (some q) (storeSet q c v s).2 :=
    ⟨honest_storeSet q c v s hs.1, hs.2.grow (Resp.storeSetGrow q c v s)⟩
  exact ⟨fun _ _ => ⟨h1, holds_storeSet q c v s⟩, fun _ _ => hX _ h1⟩

theorem honest_upd (i : Nat) (c : A) (p : Option PortalId) (f : AddrObj A V → AddrObj A V)
    (hf1 : ∀ o, (f o).chain = o.chain) (hf2 : ∀ o, (f o).portal = o.portal) (s : World A V E)
    (h : HH i c p s) : Honest (updObj i f s).2 := by
  obtain ⟨⟨h1, o, ho, hc, hp⟩, hh⟩ := h
  intro j x
  simp only [updObj, List.getElem?_modify]
  by_cases hij : i = j
  · subst hij
    simp only [if_true, ho, Option.map_some]
    intro e hr; injection e with e; subst e
    rw [hf1, hf2, hc, hp]; exact hh
  · simp only [hij, if_false]
    intro e hr
    have e' : s.heap[j]? = some x := by simpa using e
    exact h1 j x e' hr

theorem ho_upd (i : Nat) (c : A) (p : Option PortalId) (f : AddrObj A V → AddrObj A V)
    (hf1 : ∀ o, (f o).chain = o.chain) (hf2 : ∀ o, (f o).portal = o.portal)
    (hf3 : ∀ o, o.value.isSome → (f o).value.isSome)
    (hf4 : ∀ o, o.ready = true → (f o).ready = true) (X : World A V E → Prop) :
    Hoare (HH i c p) (updObj i f : M A V E Unit) (fun _ => HH i c p) X := by
  refine hoare_of _ _ _ _ fun s hs => ⟨fun _ _ => ?_, fun _ e => by cases e⟩
  have hg := Resp.updGrow (E := E) i f hf1 hf2 hf3 hf4 s
  exact ⟨⟨honest_upd i c p f hf1 hf2 s hs, hs.1.2.grow hg⟩, hs.2.grow hg⟩

theorem ho_storeGet (i : Nat) (c : A) (p : Option PortalId) (q : PortalId) (a : A) :
    Hoare (HI i c p) (storeGet q a : M A V E V) (fun _ => HI i c p) (HI i c p) := by
  refine hoare_of _ _ _ _ fun s hs => ?_
  have := Resp.storeGet (hi_fr i c p).free q a s hs
  exact ⟨fun _ _ => this, fun _ _ => this⟩

theorem ho_getTry (i : Nat) (o : AddrObj A V) (q : PortalId) :
    Hoare (HI i o.chain o.portal) (getTry i o q : M A V E V) (fun _ => HI i o.chain o.portal)
      (HI i o.chain o.portal) := by
  have fr := hi_fr (A := A) (V := V) (E := E) i o.chain o.portal
  have frh := hh_fr (A := A) (V := V) (E := E) i o.chain o.portal
  refine Hoare.bind (Hoare.withP q fr (fun _ => fr) fr (fun _ h => h) (fun _ _ h => h)
    (ho_storeGet i _ _ q _)) fun r => ?_
  refine Hoare.bind (Q := fun _ => HH i o.chain o.portal)
    (Hoare.withOpt _ fr (fun _ => frh) fr (fun _ h => h) (fun _ _ h => h.1) ?_) fun _ => ?_
  · intro p hp
    rw [hp]
    exact ho_storeSet i _ p r _ fun _ h => h
  · refine Hoare.bind (ho_upd i _ _ (fun x => { x with value := some r })
      (fun _ => rfl) (fun _ => rfl) (fun _ _ => rfl) (fun _ h => h) _) fun _ => ?_
    exact Hoare.pure fun s h => h.1

theorem ho_getLoop (i : Nat) (o : AddrObj A V) (qs : List PortalId) :
    Hoare (HI i o.chain o.portal) (getLoop i o qs : M A V E V) (fun _ => HI i o.chain o.portal)
      (HI i o.chain o.portal) := by
  have fr := hi_fr (A := A) (V := V) (E := E) i o.chain o.portal
  induction qs with
  | nil => exact Hoare.raiseNew _ fr (fun _ h => h)
  | cons q qs ih =>
    intro s hs
    rw [getLoop_cons]
    have h1 := ho_getTry i o q s hs
    cases hg : getTry i o q s with
    | mk r s' =>
      cases r with
      | ok a =>
        refine ⟨fun b t h => ?_, fun e' t h => by cases h⟩
        cases h; exact h1.1 _ _ hg
      | error e => exact ih s' (h1.2 _ _ hg)

theorem ho_readObj (i : Nat) (c : A) (p : Option PortalId) :
    Hoare (HI i c p) (readObj i : M A V E (AddrObj A V))
      (fun o s => HI i c p s ∧ o.chain = c ∧ o.portal = p ∧ s.heap[i]? = some o) (HI i c p) := by
  refine hoare_of _ _ _ _ fun s hs => ?_
  obtain ⟨o, ho, hc, hp⟩ := hs.2
  rw [readObj_run i o s ho]
  refine ⟨fun x e => ?_, fun _ e => (by cases e)⟩
  injection e with e; subst e
  exact ⟨hs, hc, hp, ho⟩

/-- a successful read from a store -/
theorem ho_storeGet' (i : Nat) (c : A) (q : PortalId) :
    Hoare (HI i c (some q)) (storeGet q c : M A V E V) (fun _ => HH i c (some q))
      (HI i c (some q)) := by
  intro s hs
  unfold storeGet
  cases h : (s.store q).data c with
  | some v =>
    refine ⟨fun b t e => ?_, fun e' t e => by cases e⟩
    cases e; exact ⟨hs, q, v, rfl, h⟩
  | none =>
    refine ⟨fun b t e => (by cases e), fun e' t e => ?_⟩
    cases e; exact hs

theorem Hoare.pre {P P' : World A V E → Prop} {m : M A V E α} {Q : α → World A V E → Prop}
    {X : World A V E → Prop} (h : Hoare P m Q X) (hp : ∀ s, P' s → P s) : Hoare P' m Q X :=
  fun s hs => h s (hp s hs)

/-- triples with a precondition that includes a state-independent fact -/
theorem Hoare.fact {P : World A V E → Prop} {F : Prop} {m : M A V E α} {Q : α → World A V E → Prop}
    {X : World A V E → Prop} (h : F → Hoare P m Q X) : Hoare (fun s => P s ∧ F) m Q X :=
  fun s hs => h hs.2 s hs.1

theorem ho_getFromCurrent (i : Nat) (c : A) (p : Option PortalId) :
    Hoare (HI i c p) (getFromCurrent i : M A V E V) (fun _ => HI i c p) (HI i c p) := by
  have fr := hi_fr (A := A) (V := V) (E := E) i c p
  refine Hoare.bind (ho_readObj i c p) fun o => ?_
  refine Hoare.pre (Hoare.fact (F := o.chain = c ∧ o.portal = p) fun hF => ?_)
    (fun s h => ⟨h.1, h.2.1, h.2.2.1⟩)
  cases o.value with
  | some v => exact Hoare.pure fun s h => h
  | none =>
    refine Hoare.withOpt _ fr (fun _ => fr) fr (fun _ h => h) (fun _ _ h => h) ?_
    intro q hq
    rw [hF.1]
    rw [hF.2] at hq; subst hq
    refine Hoare.bind (ho_storeGet' i c q) fun r => ?_
    refine Hoare.bind (ho_upd i _ _ (fun x => { x with value := some r })
      (fun _ => rfl) (fun _ => rfl) (fun _ _ => rfl) (fun _ h => h) _) fun _ => ?_
    exact Hoare.pure fun s h => h.1

theorem ho_getFromNoncurrent (i : Nat) (c : A) (p : Option PortalId) :
    Hoare (HI i c p) (getFromNoncurrent i : M A V E V) (fun _ => HI i c p) (HI i c p) := by
  refine Hoare.bind (ho_readObj i c p) fun o => ?_
  refine Hoare.pre (Hoare.fact (F := o.chain = c ∧ o.portal = p) fun hF => ?_)
    (fun s h => ⟨h.1, h.2.1, h.2.2.1⟩)
  refine Hoare.bind Hoare.get fun s => ?_
  have := ho_getLoop (E := E) i o (noncurrentList s)
  rw [hF.1, hF.2] at this
  exact this

theorem ho_get (i : Nat) (c : A) (p : Option PortalId) :
    Hoare (HI i c p) (get i : M A V E V) (fun _ => HI i c p) (HI i c p) := by
  have fr := hi_fr (A := A) (V := V) (E := E) i c p
  refine Hoare.bind (ho_readObj i c p) fun o => ?_
  refine Hoare.pre (Hoare.fact (F := o.chain = c ∧ o.portal = p) fun hF => ?_)
    (fun s h => ⟨h.1, h.2.1, h.2.2.1⟩)
  cases o.value with
  | some v => exact Hoare.pure fun s h => h
  | none =>
    exact Hoare.tryE fr fr (fun _ => fr) (ho_getFromCurrent i c p)
      fun _ => ho_getFromNoncurrent i c p

/-- after a positive answer the portal holds the value -/
def HB (i : Nat) (c : A) (p : Option PortalId) (b : Bool) (s : World A V E) : Prop :=
  HI i c p s ∧ (b = true → Holds c p s)

theorem hb_fr (i : Nat) (c : A) (p : Option PortalId) (b : Bool) :
    Fr (HB i c p b : World A V E → Prop) := fun s _ _ _ _ _ h => h

theorem ho_readyTry (i : Nat) (o : AddrObj A V) (q : PortalId) :
    Hoare (HI i o.chain o.portal) (readyTry i o q : M A V E Bool) (HB i o.chain o.portal)
      (HI i o.chain o.portal) := by
  have fr := hi_fr (A := A) (V := V) (E := E) i o.chain o.portal
  have frh := hh_fr (A := A) (V := V) (E := E) i o.chain o.portal
  refine Hoare.bind (Q := fun _ => HI i o.chain o.portal) ?_ fun b => ?_
  · exact hoare_of _ _ _ _ fun s hs => ⟨fun _ _ => hs, fun _ _ => hs⟩
  refine Hoare.ite (fun _ => ?_) (fun _ => Hoare.pure fun s h => ⟨h, by simp⟩)
  refine Hoare.bind (ho_storeGet i _ _ q _) fun r => ?_
  refine Hoare.bind (Q := fun _ => HH i o.chain o.portal)
    (Hoare.withOpt _ fr (fun _ => frh) fr (fun _ h => h) (fun _ _ h => h.1) ?_) fun _ => ?_
  · intro p hp
    rw [hp]
    exact ho_storeSet i _ p r _ fun _ h => h
  · refine Hoare.bind (ho_upd i _ _ (fun x => { x with ready := true })
      (fun _ => rfl) (fun _ => rfl) (fun _ h => h) (fun _ _ => rfl) _) fun _ => ?_
    exact Hoare.pure fun s h => ⟨h.1, fun _ => h.2⟩

theorem ho_readyLoop (i : Nat) (o : AddrObj A V) (qs : List PortalId) :
    Hoare (HI i o.chain o.portal) (readyLoop i o qs : M A V E Bool) (HB i o.chain o.portal)
      (HI i o.chain o.portal) := by
  have fr := hi_fr (A := A) (V := V) (E := E) i o.chain o.portal
  induction qs with
  | nil => exact Hoare.pure fun s h => ⟨h, by simp⟩
  | cons q qs ih =>
    rw [readyLoop_cons]
    refine Hoare.bind (Hoare.withP q fr (fun b => hb_fr i _ _ b) fr (fun _ h => h) (fun _ _ h => h.1)
      (ho_readyTry i o q)) fun f => ?_
    refine Hoare.ite (fun hf => Hoare.pure fun s h => ?_) (fun _ => Hoare.pre ih fun s h => h.1)
    exact ⟨h.1, fun _ => h.2 hf⟩

theorem ho_ready (i : Nat) (c : A) (p : Option PortalId) :
    Hoare (HI i c p) (ready i : M A V E Bool) (HB i c p) (HI i c p) := by
  have fr := hi_fr (A := A) (V := V) (E := E) i c p
  refine Hoare.bind (ho_readObj i c p) fun o => ?_
  refine Hoare.ite (fun hr => Hoare.pure fun s h => ?_) (fun _ => ?_)
  · refine ⟨h.1, fun _ => ?_⟩
    have := h.1.1 i o h.2.2.2 (.inl hr)
    rw [h.2.1, h.2.2.1] at this; exact this
  refine Hoare.pre (Hoare.fact (F := o.chain = c ∧ o.portal = p) fun hF => ?_)
    (fun s h => ⟨h.1, h.2.1, h.2.2.1⟩)
  refine Hoare.bind (Q := fun q s => HI i c p s ∧ p = some q) ?_ fun q => ?_
  · rw [hF.2]
    cases p with
    | none => exact Hoare.raiseNew _ fr (fun _ h => h)
    | some q =>
      refine hoare_of _ _ _ _ fun s hs => ⟨fun a e => ?_, fun _ e => by cases e⟩
      cases e; exact ⟨hs, rfl⟩
  refine Hoare.fact fun hq => ?_
  subst hq
  refine Hoare.bind (Q := fun b s => HB i c (some q) b s) ?_ fun b => ?_
  · intro s hs
    refine ⟨fun b t e => ?_, fun _ _ e => by cases e⟩
    cases e
    refine ⟨hs, fun hb => ?_⟩
    rw [hF.1] at hb
    obtain ⟨v, hv⟩ := Option.isSome_iff_exists.1 hb
    exact ⟨q, v, rfl, hv⟩
  refine Hoare.ite (fun hb => ?_) (fun hb => ?_)
  · refine Hoare.bind (Hoare.pre (ho_upd i c (some q) (fun x => { x with ready := true })
      (fun _ => rfl) (fun _ => rfl) (fun _ h => h) (fun _ _ => rfl) _)
      (fun s h => ⟨h.1, h.2 hb⟩)) fun _ => ?_
    exact Hoare.pure fun s h => ⟨h.1, fun _ => h.2⟩
  · refine Hoare.bind Hoare.get fun s => ?_
    have := ho_readyLoop (E := E) i o (noncurrentList s)
    rw [hF.1, hF.2] at this
    refine Hoare.bind (Hoare.pre this fun s h => h.1) fun r => ?_
    refine Hoare.ite (fun hr => ?_) (fun _ => Hoare.pure fun s h => ⟨h.1, by simp⟩)
    refine Hoare.bind (Hoare.pre (ho_upd i c (some q) (fun x => { x with ready := true })
      (fun _ => rfl) (fun _ => rfl) (fun _ h => h) (fun _ _ => rfl) _)
      (fun s h => ⟨h.1, h.2 hr⟩)) fun _ => ?_
    exact Hoare.pure fun s h => ⟨h.1, fun _ => h.2⟩

theorem honest_alloc (o : AddrObj A V) (h1 : o.ready = false) (h2 : o.value = none)
    (s : World A V E) (h : Honest s) : Honest (alloc o s).2 := by
  intro j x
  simp only [alloc]
  rw [List.getElem?_append]
  split
  · exact fun a b => (h j x a b : Holds _ _ s)
  · intro hx hr
    have : x = o := by
      rw [List.getElem?_singleton] at hx
      split at hx
      · injection hx with hx; exact hx.symm
      · cases hx
    subst this; simp [h1, h2] at hr

theorem honest_frame : CtxFree (fun s s' : World A V E => Honest s → Honest s') where
  refl _ h := h
  trans h h' x := h' (h x)
  frame _ _ _ _ _ _ h := h

theorem honest_of_hoare {i : Nat} {m : M A V E α} {Q : A → Option PortalId → α → World A V E → Prop}
    (h : ∀ c p, Hoare (HI i c p) m (Q c p) (HI i c p)) (hQ : ∀ c p a s, Q c p a s → HI i c p s)
    (hnone : ∀ s : World A V E, s.heap[i]? = none → Honest s → Honest (m s).2) :
    Resp (fun s s' => Honest s → Honest s') m := by
  intro s hs
  cases ho : s.heap[i]? with
  | none => exact hnone s ho hs
  | some o =>
    have h1 := h o.chain o.portal s ⟨hs, o, ho, rfl, rfl⟩
    cases hm : m s with
    | mk r s' =>
      cases r with
      | ok a => exact (hQ _ _ _ _ (h1.1 a s' hm)).1
      | error e => exact (h1.2 e s' hm).1

theorem honest_get (i : Nat) : Resp (fun s s' => Honest s → Honest s') (get i : M A V E V) := by
  refine honest_of_hoare (Q := fun c p _ => HI i c p) (ho_get i) (fun _ _ _ _ h => h) ?_
  intro s h hs
  unfold get
  rw [PyM.run_bind, readObj_none i s h]
  exact hs

theorem honest_ready (i : Nat) : Resp (fun s s' => Honest s → Honest s') (ready i : M A V E Bool) := by
  refine honest_of_hoare (Q := fun c p => HB i c p) (ho_ready i) (fun _ _ _ _ h => h.1) ?_
  intro s h hs
  unfold ready
  rw [PyM.run_bind, readObj_none i s h]
  exact hs

theorem honest_fromStrings (a : A) (p : Option PortalId) (c : Bool) :
    Resp (fun s s' => Honest s → Honest s') (fromStrings a p c : M A V E Nat) := by
  have h := honest_frame (A := A) (V := V) (E := E)
  refine Resp.bind h.toPreOrd (Resp.bestPortal h p) fun q => ?_
  refine Resp.bind h.toPreOrd (fun s hs => honest_alloc _ rfl rfl s hs) fun i =>
    Resp.ite ?_ (Resp.pure h.toPreOrd _)
  exact Resp.bind h.toPreOrd (honest_ready i) fun r =>
    Resp.ite (Resp.pure h.toPreOrd _) (Resp.raiseNew h _)

theorem honest_new (addrOf : V → A) (v : V) (p : Option PortalId) :
    Resp (fun s s' => Honest s → Honest s') (new addrOf v p : M A V E Nat) := by
  have h := honest_frame (A := A) (V := V) (E := E)
  refine Resp.bind h.toPreOrd (Resp.bestPortal h p) fun q => ?_
  refine Resp.bind h.toPreOrd (Resp.withP h q (Resp.pure h.toPreOrd _)) fun _ => ?_
  intro s hs
  rw [PyM.run_bind]
  simp only [alloc]
  have hs1 : HI s.heap.length (addrOf v) (some q)
      (alloc { chain := addrOf v, portal := some q } s).2 :=
    ⟨honest_alloc _ rfl rfl s hs, _, (has_alloc _ s).2, rfl, rfl⟩
  have fr := hi_fr (V := V) (E := E) s.heap.length (addrOf v) (some q)
  have frh := hh_fr (V := V) (E := E) s.heap.length (addrOf v) (some q)
  have key : Hoare (HI s.heap.length (addrOf v) (some q))
      (newTail addrOf v q s.heap.length : M A V E Nat)
      (fun _ => HI s.heap.length (addrOf v) (some q)) (HI s.heap.length (addrOf v) (some q)) := by
    refine Hoare.bind (Hoare.withP q fr (fun _ => frh) fr (fun _ h => h) (fun _ _ h => h.1)
      (ho_storeSet _ _ q v _ fun _ h => h)) fun _ => ?_
    refine Hoare.bind (ho_upd _ _ _ (fun x => { x with value := some v, ready := true })
      (fun _ => rfl) (fun _ => rfl) (fun _ _ => rfl) (fun _ _ => rfl) _) fun _ => ?_
    exact Hoare.pure fun s h => h.1
  have h1 := key _ hs1
  have e : ((do
      withP q (storeSet q (addrOf v) v)
      updObj s.heap.length (fun x => { x with value := some v, ready := true })
      pure s.heap.length : M A V E Nat)) = newTail addrOf v q s.heap.length := rfl
  rw [e]
  cases hm : (newTail addrOf v q s.heap.length : M A V E Nat)
      (alloc { chain := addrOf v, portal := some q } s).2 with
  | mk r s' =>
    have hm' := hm
    simp only [alloc] at hm'
    rw [hm']
    cases r with
    | ok a => exact (h1.1 a s' hm).1
    | error e => exact (h1.2 e s' hm).1

/-- conversion of an address object whose portal holds its value -/
theorem honest_convBody (j : Nat) (q : PortalId) (s : World A V E) (hs : Honest s)
    (hj : ∀ d, s.heap[j]? = some d → Holds d.chain d.portal s) :
    Honest (convBody j q s).2 := by
  unfold convBody
  rw [PyM.run_bind]
  cases ho : s.heap[j]? with
  | none => rw [readObj_none j s ho]; exact hs
  | some d =>
    rw [readObj_run j d s ho]
    simp only
    rw [PyM.run_bind]
    have hd := hj d ho
    have hs1 : (HI s.heap.length d.chain (some q) (alloc { chain := d.chain, portal := some q } s).2
        ∧ Obj j d.chain d.portal (alloc { chain := d.chain, portal := some q } s).2) ∧
        Holds d.chain d.portal (alloc { chain := d.chain, portal := some q } s).2 :=
      ⟨⟨⟨honest_alloc _ rfl rfl s hs, _, (has_alloc _ s).2, rfl, rfl⟩,
        Obj.grow (s := s) ⟨d, ho, rfl, rfl⟩ (Resp.allocGrow _ s)⟩, hd.grow (Resp.allocGrow _ s)⟩
    simp only [alloc] at hs1 ⊢
    generalize s.heap.length = i at hs1 ⊢
    generalize ({ s with heap := s.heap ++ [{ chain := d.chain, portal := some q }] } : World A V E) = t at hs1 ⊢
    have hupd : Hoare (HH i d.chain (some q)) (do
        updObj i (fun x => { x with ready := true })
        pure i : M A V E Nat) (fun _ => Honest) Honest := by
      refine Hoare.bind (ho_upd _ _ _ (fun x => { x with ready := true })
        (fun _ => rfl) (fun _ => rfl) (fun _ h => h) (fun _ _ => rfl) _) fun _ => ?_
      exact Hoare.pure fun s h => h.1.1
    have fin : ∀ (m : M A V E Nat) (t' : World A V E), Hoare (HH i d.chain (some q)) m
        (fun _ => Honest) Honest → HH i d.chain (some q) t' → Honest (m t').2 := by
      intro m t' hm ht
      have := hm t' ht
      cases hx : m t' with
      | mk r s' =>
        cases r with
        | ok a => exact this.1 a s' hx
        | error e => exact this.2 e s' hx
    rw [PyM.run_bind]
    simp only [storeHas]
    split
    · -- copy from elsewhere
      rw [PyM.run_bind]
      have hg := honest_get j t hs1.1.1.1
      have hgr := grow_get j t
      cases hx : get j t with
      | mk r s' =>
        rw [hx] at hg hgr
        cases r with
        | error e => exact hg
        | ok v =>
          simp only
          rw [PyM.run_bind]
          have hw := ho_storeSet (E := E) i d.chain q v Honest (fun s h => h.1) s'
            ⟨hg, hs1.1.1.2.grow hgr⟩
          cases hy : storeSet q d.chain v s' with
          | mk r s2 =>
            cases r with
            | error e => exact hw.2 _ _ hy
            | ok _ => exact fin (do
                updObj i (fun x => { x with ready := true })
                pure i) s2 hupd (hw.1 _ _ hy)
    · rename_i hc
      refine fin (do
        updObj i (fun x => { x with ready := true })
        pure i) t hupd ⟨hs1.1.1, ?_⟩
      by_cases hq : some q = d.portal
      · rw [hq]; exact hs1.2
      · have : ((t.store q).data d.chain).isSome ≠ false := fun e => hc ⟨hq, e⟩
        have : ((t.store q).data d.chain).isSome = true := by
          cases h : ((t.store q).data d.chain).isSome
          · exact absurd h this
          · rfl
        obtain ⟨v, hv⟩ := Option.isSome_iff_exists.1 this
        exact ⟨q, v, rfl, hv⟩

theorem honest_conv (j : Nat) (p : Option PortalId) (s : World A V E) (hs : Honest s)
    (hj : ∀ d, s.heap[j]? = some d → Holds d.chain d.portal s) : Honest (conv j p s).2 := by
  have h := honest_frame (A := A) (V := V) (E := E)
  unfold conv
  rw [PyM.run_bind]
  have hb : ∃ q s1, World.bestPortal p s = (.ok q, s1) ∧ s1.heap = s.heap ∧ s1.store = s.store := by
    unfold World.bestPortal
    cases p with
    | some q => exact ⟨q, s, rfl, rfl, rfl⟩
    | none =>
      simp only
      split
      · exact ⟨_, _, rfl, rfl, rfl⟩
      · split
        · exact ⟨_, _, rfl, rfl, rfl⟩
        · exact ⟨_, _, rfl, rfl, rfl⟩
  obtain ⟨q, s1, e1, e2, e3⟩ := hb
  rw [e1]
  simp only
  -- the relation used for the block
  let J : World A V E → Prop := fun s => Honest s ∧ ∀ d, s.heap[j]? = some d → Holds d.chain d.portal s
  have hJ : Fr J := fun s _ _ _ _ _ h => h
  have hH : Fr (Honest : World A V E → Prop) := fun s _ _ _ _ _ h => h
  have hJ1 : J s1 := by
    refine ⟨?_, ?_⟩
    · intro i o ho hr
      rw [e2] at ho
      obtain ⟨x, v, a1, a2⟩ := hs i o ho hr
      exact ⟨x, v, a1, by rw [e3]; exact a2⟩
    · intro d hd
      rw [e2] at hd
      obtain ⟨x, v, a1, a2⟩ := hj d hd
      exact ⟨x, v, a1, by rw [e3]; exact a2⟩
  have key : Hoare J (convBody j q : M A V E Nat) (fun _ => Honest) Honest := by
    refine hoare_of _ _ _ _ fun t ht => ?_
    have := honest_convBody j q t ht.1 ht.2
    exact ⟨fun _ _ => this, fun _ _ => this⟩
  have := Hoare.withP q hJ (fun _ => hH) hH (fun _ h => h.1) (fun _ _ h => h) key s1 hJ1
  have e : (withP q (convBody j q) : M A V E Nat) = withP q (do
    let d ← readObj j
    let i ← alloc { chain := d.chain, portal := some q }
    let h ← storeHas q d.chain
    if (some q ≠ d.portal) ∧ h = false then do
      let data ← get j
      storeSet q d.chain data
      updObj i (fun x => { x with ready := true })
      pure i
    else do
      updObj i (fun x => { x with ready := true })
      pure i) := rfl
  rw [← e]
  cases hx : withP q (convBody j q) s1 with
  | mk r s' =>
    cases r with
    | ok a => exact this.1 a s' hx
    | error e => exact this.2 e s' hx

end Pyth.ValueAddr
