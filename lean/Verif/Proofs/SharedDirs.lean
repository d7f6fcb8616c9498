import Verif.Spec.SharedDirs
import Verif.Proofs.PortalStack
import Verif.Proofs.World
import Mathlib.Data.List.Nodup
/-! Helper lemmas for portals that share directories (C85). -/
namespace Pyth.Shared
open Pyth.Portal (PortalId Sys Rep)
open Pyth.World (Exc Kind ctxKind)

variable {conf : Conf}

/-! ### writing one record into several portals -/

theorem putAll_mem (r : Nat) : ∀ (ps : List PortalId) (t : Dir → List Nat) (d : Dir) (x : Nat),
    x ∈ (putAll conf r ps t).2 d → x ∈ t d ∨ x = r := by
  intro ps
  induction ps with
  | nil => intro t d x h; exact .inl h
  | cons p ps ih =>
    intro t d x h
    unfold putAll at h
    by_cases hr : r ∈ t (conf.dirOf p)
    · rw [if_pos hr] at h; exact .inl h
    · rw [if_neg hr] at h
      rcases ih _ _ _ h with h1 | h1
      · by_cases hd : d = conf.dirOf p
        · simp only [hd, if_true, List.mem_append, List.mem_singleton] at h1
          rcases h1 with h1 | h1
          · exact .inl (hd ▸ h1)
          · exact .inr h1
        · simp only [hd, if_false] at h1; exact .inl h1
      · exact .inr h1

theorem putAll_ok (r : Nat) : ∀ (ps : List PortalId) (t : Dir → List Nat),
    (∀ p ∈ ps, r ∉ t (conf.dirOf p)) → (ps.map conf.dirOf).Nodup →
    putAll conf r ps t = (true, fun d => if d ∈ ps.map conf.dirOf then t d ++ [r] else t d) := by
  intro ps
  induction ps with
  | nil => intro t _ _; unfold putAll; simp
  | cons p ps ih =>
    intro t h hn
    rw [List.map_cons, List.nodup_cons] at hn
    unfold putAll
    rw [if_neg (h p (by simp)), ih _ ?_ hn.2]
    · refine Prod.ext rfl (funext fun d => ?_)
      by_cases hd : d = conf.dirOf p
      · subst hd; simp [hn.1]
      · simp [hd]
    · intro q hq
      have hne : conf.dirOf q ≠ conf.dirOf p := fun e => hn.1 (e ▸ List.mem_map_of_mem hq)
      simp only [hne, if_false]
      exact h q (by simp [hq])

theorem putAll_fail_mem (r : Nat) : ∀ (ps : List PortalId) (t : Dir → List Nat) (p : PortalId), p ∈ ps →
    r ∈ t (conf.dirOf p) → (putAll conf r ps t).1 = false := by
  intro ps
  induction ps with
  | nil => intro t p h; cases h
  | cons q ps ih =>
    intro t p hp hr
    unfold putAll
    by_cases hq : r ∈ t (conf.dirOf q)
    · rw [if_pos hq]
    · rw [if_neg hq]
      rcases List.mem_cons.1 hp with rfl | hp
      · exact absurd hr hq
      · refine ih _ p hp ?_
        by_cases hd : conf.dirOf p = conf.dirOf q
        · rw [hd] at hr; exact absurd hr hq
        · simp only [hd, if_false]; exact hr

theorem putAll_fail (r : Nat) : ∀ (ps : List PortalId) (t : Dir → List Nat),
    ¬ (ps.map conf.dirOf).Nodup → (putAll conf r ps t).1 = false := by
  intro ps
  induction ps with
  | nil => intro t h; exact absurd List.nodup_nil h
  | cons p ps ih =>
    intro t hn
    unfold putAll
    by_cases hp : r ∈ t (conf.dirOf p)
    · rw [if_pos hp]
    · rw [if_neg hp]
      rw [List.map_cons, List.nodup_cons] at hn
      by_cases hm : conf.dirOf p ∈ ps.map conf.dirOf
      · obtain ⟨q, hq, he⟩ := List.mem_map.1 hm
        refine putAll_fail_mem r ps _ q hq ?_
        simp [he]
      · exact ih _ fun h => hn ⟨hm, h⟩

/-! ### the entered portals -/

theorem entered_ok {s : Sys} (h : ∀ p ∈ s.stack, 1 ≤ conf.level p) :
    Portal.entered conf.level 1 s = .ok (s.stack.foldl Portal.dictInsert []) := by
  unfold Portal.entered
  simp only
  rw [if_pos]
  rw [List.all_eq_true]
  intro p hp
  rw [Portal.mem_foldl_dictInsert] at hp
  rcases hp with hp | hp
  · cases hp
  · exact decide_eq_true (h p hp)

theorem entered_error {s : Sys} (h : ¬ ∀ p ∈ s.stack, 1 ≤ conf.level p) :
    Portal.entered conf.level 1 s = .error .assertionError := by
  unfold Portal.entered
  simp only
  rw [if_neg]
  rw [List.all_eq_true]
  intro hall
  refine h fun p hp => ?_
  exact of_decide_eq_true (hall p ((Portal.mem_foldl_dictInsert _ _ _).2 (.inr hp)))

theorem dirs_nodup {st : List PortalId} :
    ((st.foldl Portal.dictInsert []).map conf.dirOf).Nodup ↔ ∀ p ∈ st, ∀ q ∈ st, conf.dirOf p = conf.dirOf q → p = q := by
  have hmem : ∀ x, x ∈ st.foldl Portal.dictInsert [] ↔ x ∈ st := fun x => by
    rw [Portal.mem_foldl_dictInsert]; simp
  have hnd : (st.foldl Portal.dictInsert []).Nodup := Portal.nodup_foldl_dictInsert st [] List.nodup_nil
  constructor
  · intro h p hp q hq he
    exact List.inj_on_of_nodup_map h ((hmem p).2 hp) ((hmem q).2 hq) he
  · intro h
    exact List.Nodup.map_on (fun p hp q hq he => h p ((hmem p).1 hp) q ((hmem q).1 hq) he) hnd

/-! ### invariants of all sessions -/

/-- signatures in the logs were drawn before -/
structure Inv (s : St) : Prop where
  rep : Rep s.sys.stack s.sys.counters
  crash : ∀ d r, r ∈ s.crash d → r < s.sig
  events : ∀ d r, r ∈ s.events d → r < s.sig

def Keeps (m : M) : Prop := ∀ s, Inv s → Inv (m s).2

theorem keeps_ret : Keeps (PyM.ret ()) := fun _ h => h
theorem keeps_raise (k : Kind) : Keeps (raiseNew k) := fun _ h => ⟨h.1, h.2, h.3⟩

theorem keeps_bind {m : M} {k : Unit → M} (hm : Keeps m) (hk : ∀ u, Keeps (k u)) : Keeps (PyM.bind m k) := by
  intro s hs
  have := hm s hs
  unfold PyM.bind
  cases h : m s with
  | mk r s' => rw [h] at this; cases r with
    | ok u => exact hk u s' this
    | error e => exact this

theorem keeps_handling {m : M} (e : Exc) (hm : Keeps m) : Keeps (handlingE e m) := by
  intro s hs
  have := hm { s with handling := e :: s.handling } ⟨hs.1, hs.2, hs.3⟩
  unfold handlingE
  cases h : m { s with handling := e :: s.handling } with
  | mk r s' => rw [h] at this; exact ⟨this.1, this.2, this.3⟩

theorem keeps_persist (e : Exc) : Keeps (persist conf e) := by
  intro s hs
  unfold persist
  by_cases hm : e.id ∈ s.marked
  · rw [if_pos hm]; exact hs
  · rw [if_neg hm]
    simp only
    have hc : ∀ d r, r ∈ s.crash d → r < s.sig + 1 := fun d r h => Nat.lt_succ_of_lt (hs.2 d r h)
    have he : ∀ d r, r ∈ s.events d → r < s.sig + 1 := fun d r h => Nat.lt_succ_of_lt (hs.3 d r h)
    cases Portal.entered conf.level 1 s.sys with
    | error x => exact ⟨hs.1, hc, he⟩
    | ok ps =>
      simp only
      have hp := fun d x => putAll_mem (conf := conf) s.sig ps s.crash d x
      cases h : putAll conf s.sig ps s.crash with
      | mk b t =>
        rw [h] at hp
        have ht : ∀ d r, r ∈ t d → r < s.sig + 1 := fun d r hr => by
          rcases hp d r hr with h1 | h1
          · exact hc d r h1
          · omega
        cases b with
        | true => exact ⟨hs.1, ht, he⟩
        | false => exact ⟨hs.1, ht, he⟩

theorem keeps_logger : Keeps (exceptionLogger conf) := by
  intro s hs
  unfold exceptionLogger
  cases s.handling with
  | nil => exact hs
  | cons e l => exact keeps_persist e s hs

theorem keeps_baseExit (p : PortalId) : Keeps (baseExit p) := by
  intro s hs
  unfold baseExit
  rcases Portal.exit_spec s.sys p hs.1 with ⟨_, _, s', h1, h2, _⟩ | ⟨_, h1⟩ | ⟨_, _, _, _, h1⟩
  · rw [h1]; exact ⟨h2, hs.2, hs.3⟩
  · rw [h1]; exact ⟨hs.1, hs.2, hs.3⟩
  · rw [h1]; exact ⟨hs.1, hs.2, hs.3⟩

theorem keeps_exitP (p : PortalId) : Keeps (exitP conf p) := by
  unfold exitP
  split
  · exact keeps_bind keeps_logger fun _ => keeps_baseExit p
  · exact keeps_baseExit p

theorem enterP_eq {s : St} (hs : Inv s) (p : PortalId) :
    ∃ sys', Portal.enter p s.sys = .ok sys' ∧ enterP p s = (.ok (), { s with sys := sys' }) ∧ Rep sys'.stack sys'.counters ∧
      Portal.exit p sys' = .ok s.sys := by
  obtain ⟨sys', h1, h2, _, _, _, h6⟩ := Portal.enter_spec s.sys p hs.1
  exact ⟨sys', h1, by unfold enterP; rw [h1], h2, h6⟩

theorem keeps_enterP (p : PortalId) : Keeps (enterP p) := by
  intro s hs
  obtain ⟨sys', _, h, h2, _⟩ := enterP_eq hs p
  rw [h]; exact ⟨h2, hs.2, hs.3⟩

theorem keeps_withP (p : PortalId) {m : M} (hm : Keeps m) : Keeps (withP conf p m) := by
  intro s hs
  unfold withP
  have h1 := keeps_enterP p s hs
  cases he : enterP p s with
  | mk r s1 =>
    rw [he] at h1
    cases r with
    | error e => exact h1
    | ok u =>
      have h2 := hm s1 h1
      simp only
      cases hb : m s1 with
      | mk r s2 =>
        rw [hb] at h2
        cases r with
        | ok u => exact keeps_exitP p s2 h2
        | error e =>
          have h3 := keeps_handling e (keeps_exitP (conf := conf) p) s2 h2
          simp only
          cases hx : handlingE e (exitP conf p) s2 with
          | mk r s3 => rw [hx] at h3; cases r <;> exact h3

theorem keeps_logEvent : Keeps (logEvent conf) := by
  intro s hs
  unfold logEvent
  simp only
  have hc : ∀ d r, r ∈ s.crash d → r < s.sig + 1 := fun d r h => Nat.lt_succ_of_lt (hs.2 d r h)
  have he : ∀ d r, r ∈ s.events d → r < s.sig + 1 := fun d r h => Nat.lt_succ_of_lt (hs.3 d r h)
  cases Portal.entered conf.level 1 s.sys with
  | error x => exact ⟨hs.1, hc, he⟩
  | ok ps =>
    simp only
    have hp := fun d x => putAll_mem (conf := conf) s.sig ps s.events d x
    cases h : putAll conf s.sig ps s.events with
    | mk b t =>
      rw [h] at hp
      have ht : ∀ d r, r ∈ t d → r < s.sig + 1 := fun d r hr => by
        rcases hp d r hr with h1 | h1
        · exact he d r h1
        · omega
      cases b with
      | true => exact ⟨hs.1, hc, ht⟩
      | false => exact ⟨hs.1, hc, ht⟩

theorem keeps_run : ∀ (a : Prog), Keeps (a.run conf)
  | .skip => keeps_ret
  | .raise k => keeps_raise k
  | .logEvent => keeps_logEvent
  | .new p => by
    intro s hs
    refine ⟨?_, hs.2, hs.3⟩
    show Rep (Portal.register s.sys p).stack (Portal.register s.sys p).counters
    unfold Portal.register
    split <;> exact hs.1
  | .seq a b => keeps_bind (keeps_run a) fun _ => keeps_run b
  | .tryExcept a b => by
    intro s hs
    have h1 := keeps_run a s hs
    show Inv (PyM.tryExcept (a.run conf) (fun e => handlingE e (b.run conf)) s).2
    unfold PyM.tryExcept
    cases h : a.run conf s with
    | mk r s' =>
      rw [h] at h1
      cases r with
      | ok u => exact h1
      | error e => exact keeps_handling e (keeps_run b) s' h1
  | .within p a => keeps_withP p (keeps_run a)

theorem inv_session (l : List Cmd) : Inv (session conf l) := by
  have : ∀ (l : List Cmd) (s : St), Inv s → Inv (l.foldl (Cmd.step conf) s) := by
    intro l
    induction l with
    | nil => intro s hs; exact hs
    | cons c l ih =>
      intro s hs
      refine ih _ ?_
      cases c with
      | prog a => exact keeps_run a s hs
      | enter p => exact keeps_enterP p s hs
  exact this l {} ⟨.nil, fun d r h => (List.not_mem_nil h).elim, fun d r h => (List.not_mem_nil h).elim⟩

/-- exceptions are handled in nested order, and marked exceptions exist already -/
structure Tidy (s s' : St) : Prop where
  handling : s'.handling = s.handling
  next : s.next ≤ s'.next
  marked : ∀ e, e ∈ s'.marked → e ∈ s.marked ∨ e < s'.next

/-- exceptions being handled exist already -/
def Fresh (s : St) : Prop := (∀ e ∈ s.handling, e.id < s.next) ∧ ∀ e ∈ s.marked, e < s.next

theorem Tidy.refl (s : St) : Tidy s s := ⟨rfl, Nat.le_refl _, fun _ h => .inl h⟩

theorem Tidy.fresh {s s' : St} (h : Tidy s s') (hs : Fresh s) : Fresh s' :=
  ⟨fun e he => Nat.lt_of_lt_of_le (hs.1 e (h.handling ▸ he)) h.next, fun e he => (h.marked e he).elim (fun h1 => Nat.lt_of_lt_of_le (hs.2 e h1) h.next) id⟩

theorem Tidy.trans {s s' s'' : St} (h : Tidy s s') (h' : Tidy s' s'') : Tidy s s'' :=
  ⟨h'.handling.trans h.handling, Nat.le_trans h.next h'.next, fun e he => (h'.marked e he).elim
    (fun h1 => (h.marked e h1).imp id fun h2 => Nat.lt_of_lt_of_le h2 h'.next) .inr⟩

/-- `m` is tidy, and the exceptions it raises exist afterwards -/
def TidyM (m : M) : Prop := ∀ s, Fresh s → Tidy s (m s).2 ∧ ∀ e, (m s).1 = .error e → e.id < (m s).2.next

theorem tidy_raise (k : Kind) : TidyM (raiseNew k) := fun s _ =>
  ⟨⟨rfl, Nat.le_succ _, fun _ h => .inl h⟩, fun e h => by injection h with h; rw [← h]; exact Nat.lt_succ_self _⟩

theorem tidy_bind {m : M} {k : Unit → M} (hm : TidyM m) (hk : ∀ u, TidyM (k u)) : TidyM (PyM.bind m k) := by
  intro s hs
  obtain ⟨h1, h2⟩ := hm s hs
  unfold PyM.bind
  cases h : m s with
  | mk r s' =>
    rw [h] at h1 h2
    cases r with
    | ok u => exact ⟨h1.trans (hk u s' (h1.fresh hs)).1, (hk u s' (h1.fresh hs)).2⟩
    | error e => exact ⟨h1, h2⟩

theorem tidy_handling {m : M} {e : Exc} (hm : TidyM m) : ∀ s, Fresh s → e.id < s.next →
    Tidy s (handlingE e m s).2 ∧ ∀ x, (handlingE e m s).1 = .error x → x.id < (handlingE e m s).2.next := by
  intro s hs he
  obtain ⟨h1, h2⟩ := hm { s with handling := e :: s.handling } ⟨by
    intro x hx
    rcases List.mem_cons.1 hx with h | h
    · rw [h]; exact he
    · exact hs.1 x h, hs.2⟩
  unfold handlingE
  cases h : m { s with handling := e :: s.handling } with
  | mk r s' =>
    rw [h] at h1 h2
    refine ⟨⟨?_, h1.next, h1.marked⟩, h2⟩
    show s'.handling.tail = s.handling
    rw [h1.handling]; rfl

theorem tidy_persist (e : Exc) : ∀ s, Fresh s → e.id < s.next →
    Tidy s (persist conf e s).2 ∧ ∀ x, (persist conf e s).1 = .error x → x.id < (persist conf e s).2.next := by
  intro s hs he
  unfold persist
  by_cases hm : e.id ∈ s.marked
  · rw [if_pos hm]; exact ⟨.refl s, fun x h => nomatch h⟩
  · rw [if_neg hm]
    simp only
    cases Portal.entered conf.level 1 s.sys with
    | error x => exact ⟨⟨rfl, Nat.le_succ _, fun _ h => .inl h⟩, fun e h => by injection h with h; rw [← h]; exact Nat.lt_succ_self _⟩
    | ok ps =>
      simp only
      cases putAll conf s.sig ps s.crash with
      | mk b t =>
        cases b with
        | true =>
          refine ⟨⟨rfl, Nat.le_refl _, fun x h => ?_⟩, fun x h => nomatch h⟩
          rcases List.mem_cons.1 h with h | h
          · rw [h]; exact .inr he
          · exact .inl h
        | false => exact ⟨⟨rfl, Nat.le_succ _, fun _ h => .inl h⟩, fun e h => by injection h with h; rw [← h]; exact Nat.lt_succ_self _⟩

theorem tidy_logger : TidyM (exceptionLogger conf) := by
  intro s hs
  unfold exceptionLogger
  cases hh : s.handling with
  | nil => exact ⟨.refl s, fun x h => nomatch h⟩
  | cons e l => exact tidy_persist e s hs (hs.1 e (by rw [hh]; simp))

theorem tidy_baseExit (p : PortalId) : TidyM (baseExit p) := by
  intro s hs
  unfold baseExit
  cases Portal.exit p s.sys with
  | ok sys => exact ⟨⟨rfl, Nat.le_refl _, fun _ h => .inl h⟩, fun x h => nomatch h⟩
  | error e => exact tidy_raise _ s hs

theorem tidy_enterP (p : PortalId) : TidyM (enterP p) := by
  intro s hs
  unfold enterP
  cases Portal.enter p s.sys with
  | ok sys => exact ⟨⟨rfl, Nat.le_refl _, fun _ h => .inl h⟩, fun x h => nomatch h⟩
  | error e => exact tidy_raise _ s hs

theorem tidy_exitP (p : PortalId) : TidyM (exitP conf p) := by
  unfold exitP
  split
  · exact tidy_bind tidy_logger fun _ => tidy_baseExit p
  · exact tidy_baseExit p

theorem tidy_withP (p : PortalId) {m : M} (hm : TidyM m) : TidyM (withP conf p m) := by
  intro s hs
  unfold withP
  obtain ⟨h1, h1'⟩ := tidy_enterP p s hs
  cases he : enterP p s with
  | mk r s1 =>
    rw [he] at h1 h1'
    cases r with
    | error e => exact ⟨h1, h1'⟩
    | ok u =>
      obtain ⟨h2, h2'⟩ := hm s1 (h1.fresh hs)
      simp only
      cases hb : m s1 with
      | mk r s2 =>
        rw [hb] at h2 h2'
        have h12 := h1.trans h2
        cases r with
        | ok u =>
          obtain ⟨h3, h3'⟩ := tidy_exitP (conf := conf) p s2 (h12.fresh hs)
          exact ⟨h12.trans h3, h3'⟩
        | error e =>
          have hlt : e.id < s2.next := h2' e rfl
          obtain ⟨h3, h3'⟩ := tidy_handling (tidy_exitP (conf := conf) p) s2 (h12.fresh hs) hlt
          simp only
          cases hx : handlingE e (exitP conf p) s2 with
          | mk r s3 =>
            rw [hx] at h3 h3'
            cases r with
            | ok u =>
              refine ⟨h12.trans h3, fun x h => ?_⟩
              injection h with h
              rw [← h]; exact Nat.lt_of_lt_of_le hlt h3.next
            | error e' => exact ⟨h12.trans h3, h3'⟩

theorem tidy_run : ∀ (a : Prog), TidyM (a.run conf)
  | .skip => fun s _ => ⟨.refl s, fun x h => nomatch h⟩
  | .raise k => tidy_raise k
  | .logEvent => by
    intro s hs
    show Tidy s (logEvent conf s).2 ∧ ∀ e, (logEvent conf s).1 = .error e → e.id < (logEvent conf s).2.next
    unfold logEvent
    simp only
    cases Portal.entered conf.level 1 s.sys with
    | error x => exact ⟨⟨rfl, Nat.le_succ _, fun _ h => .inl h⟩, fun e h => by injection h with h; rw [← h]; exact Nat.lt_succ_self _⟩
    | ok ps =>
      simp only
      cases putAll conf s.sig ps s.events with
      | mk b t =>
        cases b with
        | true => exact ⟨⟨rfl, Nat.le_refl _, fun _ h => .inl h⟩, fun x h => nomatch h⟩
        | false => exact ⟨⟨rfl, Nat.le_succ _, fun _ h => .inl h⟩, fun e h => by injection h with h; rw [← h]; exact Nat.lt_succ_self _⟩
  | .new p => fun s _ => ⟨⟨rfl, Nat.le_refl _, fun _ h => .inl h⟩, fun x h => nomatch h⟩
  | .seq a b => tidy_bind (tidy_run a) fun _ => tidy_run b
  | .tryExcept a b => by
    intro s hs
    obtain ⟨h1, h1'⟩ := tidy_run a s hs
    show Tidy s (PyM.tryExcept (a.run conf) (fun e => handlingE e (b.run conf)) s).2 ∧
      ∀ e, (PyM.tryExcept (a.run conf) (fun e => handlingE e (b.run conf)) s).1 = .error e →
        e.id < (PyM.tryExcept (a.run conf) (fun e => handlingE e (b.run conf)) s).2.next
    unfold PyM.tryExcept
    cases h : a.run conf s with
    | mk r s' =>
      rw [h] at h1 h1'
      cases r with
      | ok u => exact ⟨h1, h1'⟩
      | error e =>
        obtain ⟨h2, h2'⟩ := tidy_handling (e := e) (tidy_run b) s' (h1.fresh hs) (h1' e rfl)
        exact ⟨h1.trans h2, h2'⟩
  | .within p a => tidy_withP p (tidy_run a)

theorem tidy_session (l : List Cmd) : Tidy {} (session conf l) := by
  have : ∀ (l : List Cmd) (s : St), Tidy {} s → Tidy {} (l.foldl (Cmd.step conf) s) := by
    intro l
    induction l with
    | nil => intro s hs; exact hs
    | cons c l ih =>
      intro s hs
      have hf : Fresh s := hs.fresh ⟨fun e h => (List.not_mem_nil h).elim, fun e h => (List.not_mem_nil h).elim⟩
      refine ih _ (hs.trans ?_)
      cases c with
      | prog a => exact (tidy_run a s hf).1
      | enter p => exact (tidy_enterP p s hf).1
  exact this l {} (.refl _)

theorem handling_session (l : List Cmd) : (session conf l).handling = [] := (tidy_session l).handling

theorem marked_old (l : List Cmd) : ∀ e, e ∈ (session conf l).marked → e < (session conf l).next :=
  fun e he => ((tidy_session l).marked e he).elim (fun h => (List.not_mem_nil h).elim) id

/-! ### compatible portals: nothing is noticed -/

theorem Compatible.mono {ps qs : List PortalId} (h : Compatible conf qs) (hs : ∀ p ∈ ps, p ∈ qs) : Compatible conf ps :=
  ⟨fun p hp => h.1 p (hs p hp), fun p hp q hq => h.2 p (hs p hp) q (hs q hq)⟩

theorem persist_ok {s : St} (hs : Inv s) (hc : Compatible conf s.sys.stack) (e : Exc) :
    ∃ s', persist conf e s = (.ok (), s') ∧ s'.sys = s.sys ∧ s'.next = s.next ∧ s'.handling = s.handling := by
  unfold persist
  by_cases hm : e.id ∈ s.marked
  · exact ⟨s, by rw [if_pos hm], rfl, rfl, rfl⟩
  · rw [if_neg hm]
    simp only
    rw [entered_ok hc.1]
    simp only
    rw [putAll_ok s.sig _ _ (fun p _ h => absurd (hs.2 _ _ h) (Nat.lt_irrefl _)) (dirs_nodup.2 hc.2)]
    exact ⟨_, rfl, rfl, rfl, rfl⟩

theorem exitP_ok {s : St} (hs : Inv s) (hc : Compatible conf s.sys.stack) {p : PortalId} {sys' : Sys}
    (hx : Portal.exit p s.sys = .ok sys') :
    ∃ s', exitP conf p s = (.ok (), s') ∧ s'.sys = sys' ∧ s'.next = s.next := by
  have hlog : ∃ s', exceptionLogger conf s = (.ok (), s') ∧ s'.sys = s.sys ∧ s'.next = s.next := by
    unfold exceptionLogger
    cases s.handling with
    | nil => exact ⟨s, rfl, rfl, rfl⟩
    | cons e l => obtain ⟨s', h1, h2, h3, _⟩ := persist_ok hs hc e; exact ⟨s', h1, h2, h3⟩
  unfold exitP
  split
  · obtain ⟨s', h1, h2, h3⟩ := hlog
    refine ⟨{ s' with sys := sys' }, ?_, rfl, h3⟩
    unfold PyM.bind
    rw [h1]
    simp only
    unfold baseExit
    rw [h2, hx]
  · exact ⟨{ s with sys := sys' }, by unfold baseExit; rw [hx], rfl, rfl⟩

theorem enter_stack {p : PortalId} {sys sys' : Sys} (h : Portal.enter p sys = .ok sys') (q : PortalId) :
    q ∈ sys'.stack ↔ q = p ∨ q ∈ sys.stack := by
  unfold Portal.enter at h
  cases hst : sys.stack with
  | nil => rw [hst] at h; injection h with h; rw [← h]; simp
  | cons a st =>
    rw [hst] at h
    simp only at h
    by_cases ha : a = p
    · rw [if_neg (fun hn => hn ha)] at h
      cases hcs : sys.counters with
      | nil => rw [hcs] at h; cases h
      | cons c cs =>
        rw [hcs] at h; injection h with h; rw [← h]
        simp only [ha, List.mem_cons]
        constructor
        · exact fun h => .inr h
        · rintro (h | h)
          · exact .inl h
          · exact h
    · rw [if_pos ha] at h; injection h with h; rw [← h]; simp

/-- outcome, exception counter and portal context of a program with compatible portals -/
theorem run_plain : ∀ (a : Prog) (s : St), Inv s → Compatible conf (s.sys.stack ++ a.enters) →
    (a.run conf s).1 = (a.plain s.next).1 ∧ (a.run conf s).2.next = (a.plain s.next).2 ∧
    (a.run conf s).2.sys.stack = s.sys.stack ∧ (a.run conf s).2.sys.counters = s.sys.counters
  | .skip, s, _, _ => ⟨rfl, rfl, rfl, rfl⟩
  | .raise k, s, _, _ => ⟨rfl, rfl, rfl, rfl⟩
  | .logEvent, s, hs, hc => by
    show ((logEvent conf s).1 = _ ∧ (logEvent conf s).2.next = _ ∧ (logEvent conf s).2.sys.stack = _ ∧ (logEvent conf s).2.sys.counters = _)
    unfold logEvent
    simp only
    have hc : Compatible conf s.sys.stack := hc.mono fun p hp => by simp [hp]
    rw [entered_ok hc.1]
    simp only
    rw [putAll_ok s.sig _ _ (fun p _ h => absurd (hs.3 _ _ h) (Nat.lt_irrefl _)) (dirs_nodup.2 hc.2)]
    exact ⟨rfl, rfl, rfl, rfl⟩
  | .new p, s, _, _ => by
    refine ⟨rfl, rfl, ?_, ?_⟩
    · show (Portal.register s.sys p).stack = _
      unfold Portal.register; split <;> rfl
    · show (Portal.register s.sys p).counters = _
      unfold Portal.register; split <;> rfl
  | .seq a b, s, hs, hc => by
    obtain ⟨h1, h2, h3, h4⟩ := run_plain a s hs (hc.mono fun p hp => by
      simp only [List.mem_append] at hp ⊢; unfold Prog.enters; rw [List.mem_append]
      rcases hp with h | h
      · exact .inl h
      · exact .inr (.inl h))
    have hk := keeps_run (conf := conf) a s hs
    show (PyM.bind (a.run conf) (fun _ => b.run conf) s).1 = _ ∧ (PyM.bind (a.run conf) (fun _ => b.run conf) s).2.next = _ ∧
      (PyM.bind (a.run conf) (fun _ => b.run conf) s).2.sys.stack = _ ∧ (PyM.bind (a.run conf) (fun _ => b.run conf) s).2.sys.counters = _
    unfold PyM.bind Prog.plain
    cases hr : a.run conf s with
    | mk r s1 =>
      rw [hr] at h1 h2 h3 h4 hk
      cases hp : a.plain s.next with
      | mk r' n' =>
        rw [hp] at h1 h2
        simp only at h1 h2 h3 h4 hk
        subst h1 h2
        cases r with
        | error e => exact ⟨rfl, rfl, h3, h4⟩
        | ok u =>
          simp only
          obtain ⟨g1, g2, g3, g4⟩ := run_plain b s1 hk (hc.mono fun p hp => by
            rw [h3] at hp
            simp only [List.mem_append] at hp ⊢; unfold Prog.enters; rw [List.mem_append]
            rcases hp with h | h
            · exact .inl h
            · exact .inr (.inr h))
          exact ⟨g1, g2, g3.trans h3, g4.trans h4⟩
  | .tryExcept a b, s, hs, hc => by
    obtain ⟨h1, h2, h3, h4⟩ := run_plain a s hs (hc.mono fun p hp => by
      simp only [List.mem_append] at hp ⊢; unfold Prog.enters; rw [List.mem_append]
      rcases hp with h | h
      · exact .inl h
      · exact .inr (.inl h))
    have hk := keeps_run (conf := conf) a s hs
    show (PyM.tryExcept (a.run conf) (fun e => handlingE e (b.run conf)) s).1 = _ ∧ (PyM.tryExcept (a.run conf) (fun e => handlingE e (b.run conf)) s).2.next = _ ∧
      (PyM.tryExcept (a.run conf) (fun e => handlingE e (b.run conf)) s).2.sys.stack = _ ∧ (PyM.tryExcept (a.run conf) (fun e => handlingE e (b.run conf)) s).2.sys.counters = _
    unfold PyM.tryExcept Prog.plain
    cases hr : a.run conf s with
    | mk r s1 =>
      rw [hr] at h1 h2 h3 h4 hk
      cases hp : a.plain s.next with
      | mk r' n' =>
        rw [hp] at h1 h2
        simp only at h1 h2 h3 h4 hk
        subst h1 h2
        cases r with
        | ok u => exact ⟨rfl, rfl, h3, h4⟩
        | error e =>
          simp only
          obtain ⟨g1, g2, g3, g4⟩ := run_plain b { s1 with handling := e :: s1.handling } ⟨hk.1, hk.2, hk.3⟩ (hc.mono fun p hp => by
            simp only [h3] at hp
            simp only [List.mem_append] at hp ⊢; unfold Prog.enters; rw [List.mem_append]
            rcases hp with h | h
            · exact .inl h
            · exact .inr (.inr h))
          unfold handlingE
          cases hb : b.run conf { s1 with handling := e :: s1.handling } with
          | mk r2 s2 =>
            rw [hb] at g1 g2 g3 g4
            exact ⟨g1, g2, g3.trans h3, g4.trans h4⟩
  | .within p a, s, hs, hc => by
    obtain ⟨sys', he, h1, h2, h3⟩ := enterP_eq hs p
    have hs1 : Inv { s with sys := sys' } := ⟨h2, hs.2, hs.3⟩
    have hcomp : ∀ q ∈ sys'.stack ++ a.enters, q ∈ s.sys.stack ++ (Prog.within p a).enters := by
      intro q hq
      unfold Prog.enters
      simp only [List.mem_append, List.mem_cons] at hq ⊢
      rcases hq with h | h
      · rcases (enter_stack he q).1 h with h | h
        · exact .inr (.inl h)
        · exact .inl h
      · exact .inr (.inr h)
    obtain ⟨b1, b2, b3, b4⟩ := run_plain a { s with sys := sys' } hs1 (hc.mono hcomp)
    have hk := keeps_run (conf := conf) a _ hs1
    show (withP conf p (a.run conf) s).1 = (a.plain s.next).1 ∧ (withP conf p (a.run conf) s).2.next = (a.plain s.next).2 ∧
      (withP conf p (a.run conf) s).2.sys.stack = _ ∧ (withP conf p (a.run conf) s).2.sys.counters = _
    unfold withP
    rw [h1]
    simp only
    cases hb : a.run conf { s with sys := sys' } with
    | mk r s2 =>
      rw [hb] at b1 b2 b3 b4 hk
      simp only at b1 b2 b3 b4 hk
      have hx : Portal.exit p s2.sys = .ok { s.sys with all := s2.sys.all } := by
        have := World.exit_frame h3 s2.sys.all
        have he : s2.sys = { sys' with all := s2.sys.all } := by
          cases hh : s2.sys with
          | mk al st cs => rw [hh] at b3 b4; simp only at b3 b4; rw [b3, b4]
        rw [he]; exact this
      have hc2 : Compatible conf s2.sys.stack := hc.mono fun q hq => hcomp q (by rw [b3] at hq; simp [hq])
      cases r with
      | ok u =>
        obtain ⟨s3, g1, g2, g3⟩ := exitP_ok hk hc2 hx
        simp only
        rw [g1]
        exact ⟨b1, g3.trans b2, by rw [g2], by rw [g2]⟩
      | error e =>
        obtain ⟨s3, g1, g2, g3⟩ := exitP_ok (s := { s2 with handling := e :: s2.handling }) ⟨hk.1, hk.2, hk.3⟩ hc2 hx
        simp only
        unfold handlingE
        rw [g1]
        exact ⟨b1, g3.trans b2, by simp only [g2], by simp only [g2]⟩

end Pyth.Shared
