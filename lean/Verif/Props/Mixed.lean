import Verif.Spec.Mixed
/-!
# C91: an additional portal does not disturb
-/
namespace Pyth.Mixed
open Pyth.Portal (PortalId Sys)

variable {A V : Type} [DecidableEq A] {h : V → A}

/-- the known portals without the current one -/
def others (s : Sys) : List PortalId :=
  match s.stack with
  | [] => s.all
  | x :: _ => s.all.filter (fun p => p != x)

theorem noncurrent_eq (level : PortalId → Nat) (cls : Nat) (s : Sys) :
    Portal.noncurrent level cls s =
      if (others s).all (fun p => decide (cls ≤ level p)) then .ok (others s) else .error .assertionError := rfl

theorem mem_others {s : Sys} {q : PortalId} : q ∈ others s ↔ q ∈ s.all ∧ some q ≠ s.stack.head? := by
  unfold others
  cases e : s.stack with
  | nil => simp
  | cons x st => simp

theorem foreign_iff (c : Ctx) (cls : Nat) :
    Foreign c cls ↔ (others c.sys).all (fun p => decide (cls ≤ c.level p)) = false := by
  rw [← Bool.not_eq_true, List.all_eq_true]
  constructor
  · rintro ⟨q, h1, h2, h3⟩ hx
    have := hx q (mem_others.2 ⟨h1, h2⟩)
    simp only [decide_eq_true_eq] at this
    omega
  · intro hx
    by_contra hy
    refine hx fun q hq => ?_
    obtain ⟨h1, h2⟩ := mem_others.1 hq
    by_contra hz
    exact hy ⟨q, h1, h2, by simpa using hz⟩

theorem noncurrent_foreign {c : Ctx} {cls : Nat} (x : Foreign c cls) :
    Portal.noncurrent c.level cls c.sys = .error .assertionError := by
  rw [noncurrent_eq, (foreign_iff c cls).1 x]; rfl

theorem noncurrent_ok {c : Ctx} {cls : Nat} (x : ¬ Foreign c cls) :
    Portal.noncurrent c.level cls c.sys = .ok (others c.sys) := by
  rw [foreign_iff, Bool.not_eq_false] at x
  rw [noncurrent_eq, x]; rfl

/-! ### what is in the own portal is found, whatever other portals there are -/

/-- **C91** A value held by the portal of its address is returned, whatever other portals of whatever class there are. -/
theorem C91_own_value (c : Ctx) (p : PortalId) (a : A) (v : V) (m : Mem A V) (hv : m.store p a = some v) :
    fetch c p a m = (.ok v, m) := by
  simp [fetch, hv]

theorem storeArgs_spec (c : Ctx) (p : PortalId) (hp : c.data ≤ c.level p) (vs : List V) :
    ∀ m : Mem A V, ∃ m', storeArgs h c p vs m = (.ok (), m') ∧ m'.results = m.results ∧
      (∀ q, q ≠ p → m'.store q = m.store q) ∧
      ∀ a v, m.store p a = some v → (∀ x, a = h x → v = x) → m'.store p a = some v := by
  induction vs with
  | nil => exact fun m => ⟨m, rfl, rfl, fun _ _ => rfl, fun _ _ x _ => x⟩
  | cons v vs ih =>
    intro m
    obtain ⟨m', h1, h2, h3, h4⟩ := ih (m.put p (h v) v)
    refine ⟨m', ?_, h2, fun q hq => ?_, fun a w hw hx => ?_⟩
    · simp [storeArgs, storeValue, hp, h1]
    · rw [h3 q hq]; simp [Mem.put, hq]
    · refine h4 a w ?_ hx
      by_cases e : a = h v
      · rw [hx v e]; simp [Mem.put, e]
      · simp [Mem.put, e, hw]

/-- **C91** A call whose result is held by the portal of the function is answered with it, without running the code,
whatever other portals of whatever class there are. -/
theorem C91_own_result (c : Ctx) (p : PortalId) (hp : c.data ≤ c.level p) (a r : A) (v : V) (vs : List V) (m : Mem A V)
    (hr : m.results p a = some r) (hv : m.store p r = some v) (ok : ∀ x, r = h x → v = x) :
    ∃ m', ∀ body, call h c p a vs body m = (.ok v, m') := by
  obtain ⟨m', h1, h2, h3, h4⟩ := storeArgs_spec (h := h) (c.within p) p hp vs m
  refine ⟨m', fun body => ?_⟩
  simp [call, h1, ready, h2, hr, readResult, h4 r v hv ok]

/-! ### exactly when other portals get in the way -/

/-- **C91** Retrieving a value that the portal of the address does not hold raises an `AssertionError` — and changes
nothing — exactly if some known portal other than the current one is not a data portal. -/
theorem C91_fetch_refused_iff (c : Ctx) (p : PortalId) (a : A) (m : Mem A V) (hm : m.store p a = none) :
    fetch c p a m = (.error .wrongClass, m) ↔ Foreign c c.data := by
  constructor
  · intro x
    by_contra hy
    rw [fetch, hm] at x
    simp only [noncurrent_ok hy] at x
    cases e : firstValue m a (others c.sys) with
    | none => rw [e] at x; cases x
    | some v => rw [e] at x; cases x
  · intro x
    simp [fetch, hm, noncurrent_foreign x]

/-- **C91** Otherwise the value of the first other portal that holds one is returned, and from then on the portal of the
address holds it, too, and nothing else has changed; if none holds one, `KeyError` is raised and nothing changes. -/
theorem C91_fetch_elsewhere (c : Ctx) (p : PortalId) (a : A) (m : Mem A V) (hm : m.store p a = none)
    (hf : ¬ Foreign c c.data) :
    (∃ before q after v m', others c.sys = before ++ q :: after ∧ (∀ x ∈ before, m.store x a = none) ∧
      m.store q a = some v ∧ fetch c p a m = (.ok v, m') ∧ m'.store p a = some v ∧ m'.results = m.results ∧
      ∀ r b, ¬ (r = p ∧ b = a) → m'.store r b = m.store r b) ∨
    ((∀ x ∈ others c.sys, m.store x a = none) ∧ fetch c p a m = (.error .notFound, m)) := by
  have key : ∀ qs, (∃ before q after v, qs = before ++ q :: after ∧ (∀ x ∈ before, m.store x a = none) ∧
      m.store q a = some v ∧ firstValue m a qs = some v) ∨
      ((∀ x ∈ qs, m.store x a = none) ∧ firstValue m a qs = none) := by
    intro qs
    induction qs with
    | nil => exact .inr ⟨fun _ hx => (nomatch hx), rfl⟩
    | cons q qs ih =>
      cases e : m.store q a with
      | some v => exact .inl ⟨[], q, qs, v, rfl, fun _ hx => (nomatch hx), e, by simp [firstValue, e]⟩
      | none =>
        have e' : firstValue m a (q :: qs) = firstValue m a qs := by simp [firstValue, e]
        rw [e']
        rcases ih with ⟨b, r, l, v, h1, h2, h3, h4⟩ | ⟨h1, h2⟩
        · refine .inl ⟨q :: b, r, l, v, by rw [h1]; rfl, fun x hx => ?_, h3, h4⟩
          rcases List.mem_cons.1 hx with rfl | hx
          · exact e
          · exact h2 x hx
        · refine .inr ⟨fun x hx => ?_, h2⟩
          rcases List.mem_cons.1 hx with rfl | hx
          · exact e
          · exact h1 x hx
  rw [fetch, hm]
  simp only [noncurrent_ok hf]
  rcases key (others c.sys) with ⟨b, q, l, v, h1, h2, h3, h4⟩ | ⟨h1, h2⟩
  · refine .inl ⟨b, q, l, v, m.put p a v, h1, h2, h3, by rw [h4], by simp [Mem.put], rfl, fun r x hx => ?_⟩
    unfold Mem.put
    by_cases e : r = p
    · subst e
      have : x ≠ a := fun e => hx ⟨rfl, e⟩
      simp [this]
    · simp [e]
  · exact .inr ⟨h1, by rw [h2]⟩

theorem foreign_within (c : Ctx) (p : PortalId) (cls : Nat) :
    Foreign (c.within p) cls ↔ ∃ q ∈ c.sys.all, q ≠ p ∧ c.level q < cls := by
  simp [Foreign, Ctx.within]

theorem call_refused {c : Ctx} {p : PortalId} (hp : c.data ≤ c.level p) {a : A} (vs : List V) {m : Mem A V}
    (hm : m.results p a = none) (x : ∃ q ∈ c.sys.all, q ≠ p ∧ c.level q < c.pure) :
    ∃ m', m'.results = m.results ∧ ∀ body, call h c p a vs body m = (.error .wrongClass, m') := by
  obtain ⟨m', h1, h2, h3, h4⟩ := storeArgs_spec (h := h) (c.within p) p hp vs m
  refine ⟨m', h2, fun body => ?_⟩
  have := noncurrent_foreign ((foreign_within c p c.pure).2 x)
  simp only [call, h1, ready, h2, hm]
  rw [show (c.within p).pure = c.pure from rfl, this]

/-- **C91** A call whose result the portal of the function does not hold raises an `AssertionError`, without running the
code and without a new result anywhere, exactly if some other known portal cannot hold results. -/
theorem C91_call_refused_iff (c : Ctx) (p : PortalId) (hp : c.data ≤ c.level p) (a : A) (vs : List V) (m : Mem A V)
    (hm : m.results p a = none) (body : Mem A V → Except Nat V × Mem A V) :
    ((call h c p a vs body m).1 = .error .wrongClass ∧ (call h c p a vs body m).2.results = m.results ∧
      ∀ body', call h c p a vs body' m = call h c p a vs body m) ↔
      ∃ q ∈ c.sys.all, q ≠ p ∧ c.level q < c.pure := by
  constructor
  · rintro ⟨h1, -, h2⟩
    by_contra hy
    obtain ⟨m', e1, e2, e3, e4⟩ := storeArgs_spec (h := h) (c.within p) p hp vs m
    have hn : ¬ Foreign (c.within p) c.pure := fun z => hy ((foreign_within c p c.pure).1 z)
    have h3 := h2 fun m => (.error 0, m)
    rw [← h3] at h1
    simp only [call, e1, ready, e2, hm] at h1
    rw [show (c.within p).pure = c.pure from rfl, noncurrent_ok hn] at h1
    simp only at h1
    cases e : firstResult m' a (others (c.within p).sys) with
    | none => rw [e] at h1; cases h1
    | some x =>
      obtain ⟨q, r⟩ := x
      rw [e] at h1
      simp only at h1
      cases e' : m'.store q r with
      | none => rw [e'] at h1; cases h1
      | some v =>
        rw [e'] at h1
        simp only at h1
        unfold readResult at h1
        cases e5 : ((m'.put p (h v) v).setResult p a (h v)).results p a with
        | none => rw [e5] at h1; cases h1
        | some r2 =>
          rw [e5] at h1
          simp only at h1
          cases e6 : ((m'.put p (h v) v).setResult p a (h v)).store p r2 with
          | none => rw [e6] at h1; cases h1
          | some w => rw [e6] at h1; cases h1
  · intro x
    obtain ⟨m', h1, h2⟩ := call_refused (h := h) hp vs hm x
    rw [h2]
    exact ⟨rfl, h1, h2⟩

theorem firstResult_cases (m : Mem A V) (a : A) (qs : List PortalId) :
    (∃ before q after r, qs = before ++ q :: after ∧ (∀ x ∈ before, m.results x a = none) ∧ m.results q a = some r ∧
      firstResult m a qs = some (q, r)) ∨ ((∀ x ∈ qs, m.results x a = none) ∧ firstResult m a qs = none) := by
  induction qs with
  | nil => exact .inr ⟨fun _ hx => (nomatch hx), rfl⟩
  | cons q qs ih =>
    cases e : m.results q a with
    | some r => exact .inl ⟨[], q, qs, r, rfl, fun _ hx => (nomatch hx), e, by simp [firstResult, e]⟩
    | none =>
      have e' : firstResult m a (q :: qs) = firstResult m a qs := by simp [firstResult, e]
      rw [e']
      rcases ih with ⟨b, x, l, r, h1, h2, h3, h4⟩ | ⟨h1, h2⟩
      · refine .inl ⟨q :: b, x, l, r, by rw [h1]; rfl, fun y hy => ?_, h3, h4⟩
        rcases List.mem_cons.1 hy with rfl | hy
        · exact e
        · exact h2 y hy
      · refine .inr ⟨fun y hy => ?_, h2⟩
        rcases List.mem_cons.1 hy with rfl | hy
        · exact e
        · exact h1 y hy

/-- a result is written where there was none -/
theorem setResult_new {m : Mem A V} {p : PortalId} {a r : A} (hm : m.results p a = none) :
    (m.setResult p a r).results p a = some r ∧ (m.setResult p a r).store = m.store ∧
      ∀ q b, ¬ (q = p ∧ b = a) → (m.setResult p a r).results q b = m.results q b := by
  simp only [Mem.setResult, hm]
  refine ⟨by simp, by trivial, fun q b hx => ?_⟩
  by_cases e : q = p
  · subst e
    have : b ≠ a := fun e => hx ⟨rfl, e⟩
    simp [this]
  · simp [e]

/-- a result that is there already stays -/
theorem setResult_old {m : Mem A V} {p : PortalId} {a r r' : A} (hm : m.results p a = some r') : m.setResult p a r = m := by
  simp [Mem.setResult, hm]

/-- **C91** If all the other known portals can hold results, and the portal of the function holds none for the call, the other
portals are searched in order.  If one holds a result, the call is answered with the value that the first of them holds for it,
without running the code, and the portal of the function holds value and result from then on; if the value is lost,
`KeyError` is raised and no result is recorded. -/
theorem C91_result_elsewhere (c : Ctx) (p : PortalId) (hp : c.data ≤ c.level p) (a : A) (vs : List V) (m : Mem A V)
    (hm : m.results p a = none) (hf : ¬ ∃ q ∈ c.sys.all, q ≠ p ∧ c.level q < c.pure)
    (hx : ∃ q ∈ c.sys.all, q ≠ p ∧ m.results q a ≠ none) :
    ∃ before q after r, c.sys.all.filter (· ≠ p) = before ++ q :: after ∧ (∀ x ∈ before, m.results x a = none) ∧
      m.results q a = some r ∧
      ((∃ v m', m.store q r = some v ∧ (∀ body, call h c p a vs body m = (.ok v, m')) ∧
          m'.store p (h v) = some v ∧ m'.results p a = some (h v) ∧
          ∀ q' b, ¬ (q' = p ∧ b = a) → m'.results q' b = m.results q' b) ∨
        (m.store q r = none ∧ ∃ m', (∀ body, call h c p a vs body m = (.error .notFound, m')) ∧ m'.results = m.results)) := by
  obtain ⟨m0, e1, e2, e3, e4⟩ := storeArgs_spec (h := h) (c.within p) p hp vs m
  have hn : ¬ Foreign (c.within p) c.pure := fun z => hf ((foreign_within c p c.pure).1 z)
  have ho : others (c.within p).sys = c.sys.all.filter (· ≠ p) := by
    simp only [others, Ctx.within]
    congr 1
    funext x
    by_cases e : x = p <;> simp [e]
  rcases firstResult_cases m0 a (c.sys.all.filter (· ≠ p)) with ⟨b, q, l, r, g1, g2, g3, g4⟩ | ⟨g1, -⟩
  · refine ⟨b, q, l, r, g1, fun x hx => by rw [← e2]; exact g2 x hx, by rw [← e2]; exact g3, ?_⟩
    have hq : q ≠ p := by
      have : q ∈ c.sys.all.filter (· ≠ p) := by rw [g1]; simp
      simpa using (List.mem_filter.1 this).2
    have hr : ∀ x, m0.store q r = x → ready h (c.within p) p a m0 = (match x with
        | none => (.error .notFound, m0)
        | some v => (.ok true, (m0.put p (h v) v).setResult p a (h v))) := by
      intro x hs
      rw [ready, e2, hm, show (c.within p).pure = c.pure from rfl, noncurrent_ok hn, ho]
      simp only [g4, hs]
      cases x <;> rfl
    replace hr := hr _ rfl
    rw [e3 q hq] at hr
    cases hv : m.store q r with
    | none =>
      rw [hv] at hr
      exact .inr ⟨rfl, m0, fun body => by rw [call, e1]; simp only [hr], e2⟩
    | some v =>
      rw [hv] at hr
      have hm0 : (m0.put p (h v) v).results p a = none := by
        show m0.results p a = none
        rw [e2]; exact hm
      obtain ⟨k1, k2, k3⟩ := setResult_new (r := h v) hm0
      have k4 : ((m0.put p (h v) v).setResult p a (h v)).store p (h v) = some v := by rw [k2]; simp [Mem.put]
      refine .inl ⟨v, _, rfl, fun body => ?_, k4, k1, fun q' b' hb => ?_⟩
      · rw [call, e1]
        simp only [hr, readResult, k1, k4]
      · rw [k3 q' b' hb]
        show m0.results q' b' = _
        rw [e2]
  · obtain ⟨q, h1, h2, h3⟩ := hx
    refine absurd ?_ h3
    rw [← e2]
    exact g1 q (List.mem_filter.2 ⟨h1, by simpa using h2⟩)

/-- **C91** If no portal holds a result, and all other portals can, the code runs; when it returns a value, the call does, too,
and the portal of the function holds value and result – unless the code has brought about a result of the same call, which
then stays; when it raises, the call does. -/
theorem C91_result_nowhere (c : Ctx) (p : PortalId) (hp : c.data ≤ c.level p) (a : A) (vs : List V) (m : Mem A V)
    (hf : ¬ ∃ q ∈ c.sys.all, q ≠ p ∧ c.level q < c.pure) (hm : m.results p a = none)
    (hx : ∀ q ∈ c.sys.all, q ≠ p → m.results q a = none) :
    ∃ m0, m0.results = m.results ∧ ∀ body,
      (∀ n m1, body m0 = (.error n, m1) → call h c p a vs body m = (.error (.body n), m1)) ∧
      (∀ v m1, body m0 = (.ok v, m1) → ∃ m2, call h c p a vs body m = (.ok v, m2) ∧ m2.store p (h v) = some v ∧
        m2.results p a = some ((m1.results p a).getD (h v)) ∧
        ∀ q b, ¬ (q = p ∧ b = a) → m2.results q b = m1.results q b) := by
  obtain ⟨m0, e1, e2, e3, e4⟩ := storeArgs_spec (h := h) (c.within p) p hp vs m
  have hn : ¬ Foreign (c.within p) c.pure := fun z => hf ((foreign_within c p c.pure).1 z)
  have hfirst : firstResult m0 a (others (c.within p).sys) = none := by
    rcases firstResult_cases m0 a (others (c.within p).sys) with ⟨b, q, l, r, g1, g2, g3, g4⟩ | ⟨-, g⟩
    · have hq : q ∈ others (c.within p).sys := by rw [g1]; simp
      obtain ⟨h1, h2⟩ := mem_others.1 hq
      have hne : q ≠ p := by simpa [Ctx.within] using h2
      rw [e2, hx q h1 hne] at g3
      cases g3
    · exact g
  have hr : ready h (c.within p) p a m0 = (.ok false, m0) := by
    rw [ready, e2, hm, show (c.within p).pure = c.pure from rfl, noncurrent_ok hn]
    simp only [hfirst]
  refine ⟨m0, e2, fun body => ⟨fun n m1 hb => ?_, fun v m1 hb => ?_⟩⟩
  · rw [call, e1]; simp only [hr, hb]
  · have hs : storeValue h (c.within p) p v m1 = (.ok (h v), m1.put p (h v) v) := by
      rw [storeValue, if_pos (show (c.within p).data ≤ (c.within p).level p from hp)]
    refine ⟨(m1.put p (h v) v).setResult p a (h v), by rw [call, e1]; simp only [hr, hb, hs], ?_⟩
    cases h1 : m1.results p a with
    | some r =>
      rw [setResult_old (r' := r) (show (m1.put p (h v) v).results p a = some r from h1)]
      exact ⟨by simp [Mem.put], h1, fun _ _ _ => rfl⟩
    | none =>
      obtain ⟨k1, k2, k3⟩ := setResult_new (r := h v) (show (m1.put p (h v) v).results p a = none from h1)
      exact ⟨by rw [k2]; simp [Mem.put], k1, k3⟩

/-! ### one more portal -/

theorem firstValue_append {m : Mem A V} {q : PortalId} (hq : m.Empty q) (a : A) (qs : List PortalId) :
    firstValue m a (qs ++ [q]) = firstValue m a qs := by
  induction qs with
  | nil => simp [firstValue, hq.1 a]
  | cons x qs ih => simp only [List.cons_append, firstValue, ih]

theorem firstResult_append {m : Mem A V} {q : PortalId} (hq : m.Empty q) (a : A) (qs : List PortalId) :
    firstResult m a (qs ++ [q]) = firstResult m a qs := by
  induction qs with
  | nil => simp [firstResult, hq.2 a]
  | cons x qs ih => simp only [List.cons_append, firstResult, ih]

theorem others_add {c : Ctx} {q : PortalId} (hq : some q ≠ c.sys.stack.head?) :
    others (c.add q).sys = others c.sys ++ [q] := by
  unfold others Ctx.add
  cases e : c.sys.stack with
  | nil => rfl
  | cons x st =>
    rw [e] at hq
    have : q ≠ x := fun y => hq (by rw [y]; rfl)
    simp [List.filter_append, this]

theorem foreign_add {c : Ctx} {q : PortalId} {cls : Nat} (hq : cls ≤ c.level q) : Foreign (c.add q) cls ↔ Foreign c cls := by
  constructor
  · rintro ⟨x, h1, h2, h3⟩
    rcases List.mem_append.1 h1 with h1 | h1
    · exact ⟨x, h1, h2, h3⟩
    · cases List.mem_singleton.1 h1
      exact absurd h3 (by simpa [Ctx.add] using hq)
  · rintro ⟨x, h1, h2, h3⟩
    exact ⟨x, List.mem_append_left _ h1, h2, h3⟩

theorem ready_add (c : Ctx) (p : PortalId) (a : A) (m : Mem A V) (q : PortalId) (hq : some q ≠ c.sys.stack.head?)
    (hc : c.pure ≤ c.level q) (he : m.Empty q) : ready h (c.add q) p a m = ready h c p a m := by
  unfold ready
  by_cases x : Foreign c c.pure
  · rw [show (c.add q).pure = c.pure from rfl, noncurrent_foreign ((foreign_add (c := c) hc).2 x), noncurrent_foreign x]
  · rw [show (c.add q).pure = c.pure from rfl, noncurrent_ok (fun y => x ((foreign_add (c := c) hc).1 y)), noncurrent_ok x,
      others_add hq]
    simp only [firstResult_append he]

/-- **C91** A further portal, with nothing in it and of a class that can hold values, changes nothing about retrieving
values: the same answer or exception, and the same contents of all portals. -/
theorem C91_extra_portal_fetch_partial (c : Ctx) (p : PortalId) (a : A) (m : Mem A V) (q : PortalId)
    (hq : some q ≠ c.sys.stack.head?) (hc : c.data ≤ c.level q) (he : m.Empty q) :
    fetch (c.add q) p a m = fetch c p a m := by
  unfold fetch
  by_cases x : Foreign c c.data
  · rw [show (c.add q).data = c.data from rfl, noncurrent_foreign ((foreign_add (c := c) hc).2 x), noncurrent_foreign x]
  · rw [show (c.add q).data = c.data from rfl, noncurrent_ok (fun y => x ((foreign_add (c := c) hc).1 y)), noncurrent_ok x,
      others_add hq]
    simp only [firstValue_append he]

/-- **C91** A further portal, with nothing in it and of a class that can hold results, changes nothing about calls: the
code runs exactly when it ran before, with the same answer or exception, and the same contents of all portals. -/
theorem C91_extra_portal_call_partial (c : Ctx) (p : PortalId) (a : A) (vs : List V)
    (body : Mem A V → Except Nat V × Mem A V) (m : Mem A V) (q : PortalId) (hq : q ≠ p) (hc : c.pure ≤ c.level q)
    (he : m.Empty q) : call h (c.add q) p a vs body m = call h c p a vs body m := by
  have e1 : (c.add q).within p = (c.within p).add q := rfl
  have e2 : ∀ vs m, storeArgs h ((c.within p).add q) p vs m = storeArgs h (c.within p) p vs m := by
    intro vs
    induction vs with
    | nil => intro m; rfl
    | cons v vs ih => intro m; simp only [storeArgs]; rw [show storeValue h ((c.within p).add q) p v m = storeValue h (c.within p) p v m from rfl]; simp only [ih]
  unfold call
  rw [e1, e2]
  by_cases hp : (c.within p).data ≤ (c.within p).level p
  · obtain ⟨m', h1, h2, h3, h4⟩ := storeArgs_spec (h := h) (c.within p) p hp vs m
    rw [h1]
    have he' : m'.Empty q := ⟨fun b => by rw [h3 q hq]; exact he.1 b, fun b => by rw [h2]; exact he.2 b⟩
    simp only [ready_add (h := h) (c.within p) p a m' q (by simpa [Ctx.within] using hq) hc he']
    rfl
  · cases vs with
    | nil =>
      simp only [storeArgs]
      rw [ready_add (h := h) (c.within p) p a m q (by simpa [Ctx.within] using hq) hc he]
      rfl
    | cons v vs => simp only [storeArgs, storeValue, hp]; rfl

/-- **C91** (counterexample, for every program) One further portal that cannot hold results — a `DataPortal` kept as an
archive, say — makes every call that is not answered from the function's own portal fail, even those answered before
from another portal. -/
theorem C91_extra_data_portal_counterexample (c : Ctx) (p : PortalId) (hp : c.data ≤ c.level p) (a : A) (vs : List V)
    (m : Mem A V) (q : PortalId) (hq : q ≠ p) (hc : c.level q < c.pure) (hm : m.results p a = none)
    (body : Mem A V → Except Nat V × Mem A V) :
    (call h (c.add q) p a vs body m).1 = .error .wrongClass := by
  obtain ⟨m', _, h2⟩ := call_refused (h := h) (c := c.add q) (p := p) hp vs hm
    ⟨q, List.mem_append_right _ (List.mem_singleton.2 rfl), hq, hc⟩
  rw [h2]

/-- **C91** (counterexample, for every program) One further portal that cannot hold values makes every retrieval of a
value from another portal fail. -/
theorem C91_extra_logging_portal_counterexample (c : Ctx) (p : PortalId) (a : A) (m : Mem A V) (q : PortalId)
    (hq : some q ≠ c.sys.stack.head?) (hc : c.level q < c.data) (hm : m.store p a = none) :
    (fetch (c.add q) p a m).1 = .error .wrongClass := by
  rw [(C91_fetch_refused_iff (c.add q) p a m hm).2 ⟨q, List.mem_append_right _ (List.mem_singleton.2 rfl), hq, hc⟩]

/-! ### examples -/

namespace Ex

/-- portals 0 (pure), 1 (pure), 2 (data), 3 (logging); 0 and 1 are known, nothing is entered -/
def c : Ctx where
  sys := { all := [0, 1], stack := [], counters := [] }
  level := fun | 2 => 2 | 3 => 1 | _ => 6
  data := 2
  pure := 6

/-- portal 1 holds value 5 under address 5, and the result 5 of call 100 -/
def m : Mem Nat Nat where
  store p a := if p = 1 ∧ a = 5 then some 5 else none
  results p a := if p = 1 ∧ a = 100 then some 5 else none

def body : Mem Nat Nat → Except Nat Nat × Mem Nat Nat := fun m => (.ok 7, m)

/-- a result is copied from another portal; a call without result is run -/
example : (call id c 0 100 [3] body m).1 = .ok 5 ∧ (call id c 0 101 [3] body m).1 = .ok 7 ∧
    (fetch c 0 5 m).1 = .ok 5 := by decide

/-- the hypotheses about results elsewhere, and nowhere -/
example : (m.results 0 100 = none ∧ (∃ q ∈ c.sys.all, q ≠ 0 ∧ m.results q 100 ≠ none)) ∧
    (m.results 0 101 = none ∧ ∀ q ∈ c.sys.all, q ≠ 0 → m.results q 101 = none) ∧
    ¬ ∃ q ∈ c.sys.all, q ≠ 0 ∧ c.level q < c.pure := by decide

/-- so it is with a further pure portal … -/
example : (call id (c.add 4) 0 100 [3] body m).1 = .ok 5 := by
  rw [C91_extra_portal_call_partial c 0 100 [3] body m 4 (by decide) (by decide) ⟨fun a => by simp [m], fun a => by simp [m]⟩]
  decide

/-- … but not with a data portal or a logging portal -/
example : (call id (c.add 2) 0 100 [3] body m).1 = .error .wrongClass ∧ (fetch (c.add 2) 0 5 m).1 = .ok 5 ∧
    (fetch (c.add 3) 0 5 m).1 = .error .wrongClass := by
  refine ⟨C91_extra_data_portal_counterexample c 0 (by decide) 100 [3] m 2 (by decide) (by decide) (by simp [m]) body, ?_, ?_⟩
  · decide
  · exact C91_extra_logging_portal_counterexample c 0 5 m 3 (by decide) (by decide) (by simp [m])

end Ex

end Pyth.Mixed
