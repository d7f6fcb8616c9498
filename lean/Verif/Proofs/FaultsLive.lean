import Verif.Spec.FaultsLive
import Verif.Proofs.Faults
/-!
# A process for which everything works, among processes for which accesses fail (for C106)

`only i s` is the state `s` without the other processes.  Process `i` takes the same steps in it; the invariant for working storage
(`AllOk … True`) holds for `only i s`, the invariant for failing storage (`AllOk … False`) for `s`.
-/
namespace Pyth.Parts
open Pyth.Pure (Val FnId)

variable {U A P : Type} [DecidableEq P] [DecidableEq A] {h : Val U A → A}
  {code : FnId → List (String × Val U A) → Code U A P} {T : Prop} {knows : P → List P → Prop} {i : Nat}

/-- the state without the other processes -/
def only (i : Nat) (s : State U A P) : State U A P := { s with procs := Function.update (fun _ => {}) i (s.procs i) }

omit [DecidableEq P] [DecidableEq A] in
theorem only_procs (s : State U A P) : (only i s).procs i = s.procs i := by simp [only]

omit [DecidableEq P] [DecidableEq A] in
theorem only_upd (s : State U A P) (sh : Shared U A P) (x : Proc U A P) (vs rs : List (P × A)) :
    only i { s with sh := sh, procs := Function.update s.procs i x, vaddrs := vs, raddrs := rs } =
      { only i s with sh := sh, procs := Function.update (only i s).procs i x, vaddrs := vs, raddrs := rs } := by
  simp [only]

/-- process `i` can do the same with and without the others -/
theorem only_act {s t : State U A P} (x : Act h code T knows i s t) : Act h code T knows i (only i s) (only i t) := by
  have e := only_procs (i := i) s
  have u := only_upd (i := i) s
  cases x with
  | script c hm => exact (u _ _ _ _) ▸ .script c (e.trans hm)
  | found p os a hm hk hr => exact (u _ _ _ _) ▸ .found p os a (e.trans hm) hk hr
  | op c next p os hm hl => exact (u _ _ _ _) ▸ e ▸ .op c next p os (by rw [e]; exact hm) hl
  | done r c next st job hm => exact (u _ _ _ _) ▸ .done r c next st job (e.trans hm)
  | workDone r job hm => exact (u _ _ _ _) ▸ .workDone r job (e.trans hm)
  | put p a v k hm => exact (u _ _ _ _) ▸ e ▸ .put p a v k (by rw [e]; exact hm)
  | load p a k hm => exact (u _ _ _ _) ▸ e ▸ .load p a k (by rw [e]; exact hm)
  | result p a k hm => exact (u _ _ _ _) ▸ e ▸ .result p a k (by rw [e]; exact hm)
  | setResult p a r k hm => exact (u _ _ _ _) ▸ e ▸ .setResult p a r k (by rw [e]; exact hm)
  | request p a k hm => exact (u _ _ _ _) ▸ e ▸ .request p a k (by rw [e]; exact hm)
  | drop p a k hm => exact (u _ _ _ _) ▸ e ▸ .drop p a k (by rw [e]; exact hm)
  | wait p os a hm => exact (u _ _ _ _) ▸ e ▸ .wait p os a (by rw [e]; exact hm)
  | toss k b hm => exact (u _ _ _ _) ▸ e ▸ .toss k b (by rw [e]; exact hm)
  | body a f kw k hm => exact (u _ _ _ _) ▸ e ▸ .body a f kw k (by rw [e]; exact hm)
  | ret v k st job hm => exact (u _ _ _ _) ▸ .ret v k st job (e.trans hm)
  | raise k st job hm => exact (u _ _ _ _) ▸ .raise k st job (e.trans hm)

theorem can_act {s t : State U A P} (x : Act h code T knows i (only i s) t) : ∃ t', Act h code T knows i s t' := by
  have e := only_procs (i := i) s
  cases x with
  | script c hm => exact ⟨_, .script c (e ▸ hm)⟩
  | found p os a hm hk hr => exact ⟨_, .found p os a (e ▸ hm) hk hr⟩
  | op c next p os hm hl => exact ⟨_, .op c next p os (by rw [e] at hm; exact hm) hl⟩
  | done r c next st job hm => exact ⟨_, .done r c next st job (e ▸ hm)⟩
  | workDone r job hm => exact ⟨_, .workDone r job (e ▸ hm)⟩
  | put p a v k hm => exact ⟨_, .put p a v k (by rw [e] at hm; exact hm)⟩
  | load p a k hm => exact ⟨_, .load p a k (by rw [e] at hm; exact hm)⟩
  | result p a k hm => exact ⟨_, .result p a k (by rw [e] at hm; exact hm)⟩
  | setResult p a r k hm => exact ⟨_, .setResult p a r k (by rw [e] at hm; exact hm)⟩
  | request p a k hm => exact ⟨_, .request p a k (by rw [e] at hm; exact hm)⟩
  | drop p a k hm => exact ⟨_, .drop p a k (by rw [e] at hm; exact hm)⟩
  | wait p os a hm => exact ⟨_, .wait p os a (by rw [e] at hm; exact hm)⟩
  | toss k b hm => exact ⟨_, .toss k b (by rw [e] at hm; exact hm)⟩
  | body a f kw k hm => exact ⟨_, .body a f kw k (by rw [e] at hm; exact hm)⟩
  | ret v k st job hm => exact ⟨_, .ret v k st job (e ▸ hm)⟩
  | raise k st job hm => exact ⟨_, .raise k st job (e ▸ hm)⟩

theorem fstep_other {j : Nat} {s t : State U A P} (hj : j ≠ i) (x : FStep h code T knows j s t) : t.procs i = s.procs i := by
  have e : ∀ y, Function.update s.procs j y i = s.procs i := fun y => Function.update_of_ne (Ne.symm hj) _ _
  cases x with
  | step _ x => exact step_other hj x
  | fail | unread | retried => exact e _

theorem fstep_grow (inj : Function.Injective h) {j : Nat} {s t : State U A P} (o : AllOk h code T False s)
    (x : FStep h code T knows j s t) : Grow s t := by
  cases x with
  | step _ x => exact step_grow inj o x
  | fail | unread | retried => exact ⟨.refl _, fun _ x => x, fun _ x => x⟩

/-- the dictionaries are as without failures, if functions catch nothing; process `i`, too -/
theorem only_ok (un : ∀ f kw, Uncaught (code f kw)) {s : State U A P} (o : AllOk h code T False s)
    (x : ProcOk h code T True s.sh (s.procs i)) : AllOk h code T True (only i s) := by
  refine ⟨⟨o.inv.store, o.inv.requests, fun p a r hr => ?_⟩, o.vals, o.calls, fun j => ?_⟩
  · obtain ⟨h1, h2, h3⟩ := o.inv.results p a r hr
    exact ⟨h1, h2, h3.sure un⟩
  · by_cases e : j = i
    · subst e; simpa [only] using x
    · simp [only, e, ProcOk]

theorem ProcOk.of_only {s : State U A P} (o : AllOk h code T True (only i s)) : ProcOk h code T True s.sh (s.procs i) := by
  have := o.procs i
  rw [only_procs] at this
  exact this

theorem FOthers.spec (inj : Function.Injective h) {s t : State U A P} (o : AllOk h code T False s)
    (x : FOthers h code T knows i s t) : AllOk h code T False t ∧ Grow s t ∧ t.procs i = s.procs i := by
  induction x with
  | refl => exact ⟨o, .refl _, rfl⟩
  | step j hj x y ih =>
    obtain ⟨h1, h2, h3⟩ := ih
    exact ⟨fstep_ok inj h1 y, h2.trans (fstep_grow inj h1 y), (fstep_other hj y).trans h3⟩

omit [DecidableEq P] [DecidableEq A] in
theorem Grow.only [DecidableEq P] [DecidableEq A] {s t : State U A P} (g : Grow s t) : Grow (only i s) (only i t) :=
  ⟨g.le, g.vals, g.calls⟩

/-- a state that satisfies the invariant for failing storage -/
abbrev OkState (h : Val U A → A) (code : FnId → List (String × Val U A) → Code U A P) (T : Prop) : Type :=
  { s : State U A P // AllOk h code T False s }

theorem fwill_steppable (inj : Function.Injective h) (un : ∀ f kw, Uncaught (code f kw)) (kn : T → KnowsAll knows) :
    Steppable h code T knows i (fun s : OkState h code T => only i s.1)
      (fun W => ∃ G, W = fun s => FWill h code T knows i G s.1) := by
  rintro _ ⟨G, rfl⟩ s x o e busy can all
  have e0 : s.1.procs i = x := (only_procs s.1).symm.trans e
  refine .later s.1 (e0 ▸ busy) (fun s' hs' => ?_) fun s' t hs' ht => ?_
  · obtain ⟨h1, h2, h3⟩ := FOthers.spec inj s.2 hs'
    obtain ⟨t, ht⟩ := can (only i s') h2.only ((only_procs s').trans (h3.trans e0))
    exact can_act ht
  · obtain ⟨h1, h2, h3⟩ := FOthers.spec inj s.2 hs'
    have os : AllOk h code T True (only i s') := only_ok un h1 (h3 ▸ (ProcOk.of_only o).mono h2.le)
    have ha := only_act ht
    exact all (only i s') ⟨t, act_ok inj (fun y => y.elim) h1 ht⟩ os h2.only ((only_procs s').trans (h3.trans e0)) ha
      (act_ok inj (fun _ => kn) os ha) (h2.only.trans (step_grow inj os (.act _ ha)))

/-- code that does not wait for others comes to its end -/
theorem code_fwill (inj : Function.Injective h) (un : ∀ f kw, Uncaught (code f kw)) (kn : T → KnowsAll knows)
    (lawful : ∀ f kw, Lawful h code T knows [] [] (code f kw)) {c : Code U A P} (x : Halts h code False c) :
    ∀ {vs rs : List (P × A)}, Lawful h code T knows vs rs c →
    CodeGets h code T i (fun s : OkState h code T => only i s.1)
      (fun W => ∃ G, W = fun s => FWill h code T knows i G s.1) vs rs c := by
  induction x with
  | ret v => exact fun _ => codeGets_ret
  | raise => exact fun _ => codeGets_raise
  | op c next run may call well rest ih1 ih2 ih3 =>
    intro vs rs l
    cases l with
    | op _ _ _ _ legal hn =>
    exact codeGets_op inj kn (fwill_steppable inj un kn) (fun f kw hr => ih1 f kw hr (lawful f kw))
      (fun p os f kw e => (may _ _ _ e).elim) legal fun r hr => ih3 r hr (hn r hr)

/-- `FWill` in infinite executions -/
theorem FWill.alive {G : State U A P → Prop} {s : State U A P} (w : FWill h code T knows i G s) :
    ∀ {σ : Nat → State U A P} {who : Nat → Nat} {m : Nat} (n : Nat), (∀ n, FStep h code T knows (who n) (σ n) (σ (n + 1))) →
    AliveFrom h code T knows i σ who m → m ≤ n → (∀ l, m ≤ l → l < n → ¬ Resting ((σ l).procs i)) → σ n = s →
    ∃ k, n ≤ k ∧ G (σ k) := by
  induction w with
  | now s g => intro σ who m n st al hm busy e; exact ⟨n, Nat.le_refl n, e ▸ g⟩
  | later s busy can all ih =>
    intro σ who m n st al hm b e
    have bn : ∀ l, m ≤ l → l ≤ n → ¬ Resting ((σ l).procs i) := fun l h1 h2 => by
      rcases Nat.lt_or_ge l n with h3 | h3
      · exact b l h1 h3
      · obtain rfl : l = n := by omega
        rw [e]; exact busy
    obtain ⟨⟨n', hn', hw⟩, _⟩ := al n hm bn
    have key : ∀ k, n + k ≤ n' → (∀ j, n ≤ j → j < n + k → who j ≠ i) → FOthers h code T knows i s (σ (n + k)) := by
      intro k
      induction k with
      | zero => intro _ _; rw [Nat.add_zero, e]; exact .refl
      | succ k ihk =>
        intro hk hj
        exact .step (who (n + k)) (hj _ (Nat.le_add_right _ _) (by omega)) (ihk (by omega) fun j h1 h2 => hj j h1 (by omega))
          (st (n + k))
    have hex : ∃ k, n + k ≤ n' ∧ who (n + k) = i := ⟨n' - n, by omega, by rw [Nat.add_sub_cancel' hn']; exact hw⟩
    classical
    let k := Nat.find hex
    obtain ⟨h1, h2⟩ := Nat.find_spec hex
    have no : ∀ j, n ≤ j → j < n + k → who j ≠ i := fun j hj1 hj2 hj3 => by
      have := Nat.find_min hex (m := j - n) (by omega)
      exact this ⟨by omega, by rw [Nat.add_sub_cancel' hj1]; exact hj3⟩
    have same : ∀ {u}, FOthers h code T knows i s u → u.procs i = s.procs i := by
      intro u ho
      induction ho with
      | refl => rfl
      | step j hj x y ih' => exact (fstep_other hj y).trans ih'
    have bk : ∀ l, m ≤ l → l ≤ n + k → ¬ Resting ((σ l).procs i) := by
      intro l hl1 hl2
      rcases Nat.lt_or_ge l n with h3 | h3
      · exact b l hl1 h3
      · have := key (l - n) (by omega) fun j hj1 hj2 => no j hj1 (by omega)
        rw [Nat.add_sub_cancel' h3] at this
        rw [same this]; exact busy
    obtain ⟨k', h3, h4⟩ := ih _ _ (key k h1 no) ((al (n + k) (by omega) bk).2 h2) (n + k + 1) st al (by omega)
      (fun l hl1 hl2 => bk l hl1 (by omega)) rfl
    exact ⟨k', by omega, h4⟩

end Pyth.Parts
