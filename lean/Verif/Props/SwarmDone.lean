import Verif.Spec.SwarmDone
import Verif.Props.SwarmKeep
import Verif.Props.SwarmLive
/-!
# C93: what is swarmed gets done
-/
namespace Pyth.Parts
open Pyth.Pure (Val FnId sortKw)

variable {U A P : Type} [DecidableEq P] [DecidableEq A] {h : Val U A → A}
  {code : FnId → List (String × Val U A) → Code U A P} {travel : Prop} {knows : P → List P → Prop}
  {σ : Nat → State U A P} {who : Nat → Nat}

theorem calm_of {N : P → A → Prop} (nd : ∀ p a, N p a → NeverDropped σ who p a) (n : Nat) :
    (∀ p a next, N p a → ((σ n).procs (who n)).mode ≠ .code (.op (.dropAddr p a) next)) ∨
      σ (n + 1) = (σ n).setProc (who n) {} := by
  by_cases e : σ (n + 1) = (σ n).setProc (who n) {}
  · exact .inr e
  · exact .inl fun p a next hn hm => e (nd p a hn n next hm)

theorem Run.calm (R : Run h code travel knows σ who) {N : P → A → Prop} (nd : ∀ p a, N p a → NeverDropped σ who p a)
    (n : Nat) : CalmSteps h code travel knows N init (σ n) := by
  induction n with
  | zero => rw [R.start]; exact .refl _
  | succ n ih => exact .step (who n) ih (R.step n) (calm_of nd n)

theorem Run.reachable (R : Run h code travel knows σ who) (n : Nat) : Reachable h code travel knows (σ n) := by
  induction n with
  | zero => rw [R.start]; exact .refl _
  | succ n ih => exact .step (who n) ih (R.step n)

theorem Run.asked (R : Run h code travel knows σ who) {p : P} {a : A} (nd : NeverDropped σ who p a) {n m : Nat}
    (hn : n ≤ m) (ha : Asked (σ n).sh p a) : Asked (σ m).sh p a := by
  have key : ∀ k, Asked (σ (n + k)).sh p a := by
    intro k
    induction k with
    | zero => exact ha
    | succ k ih =>
      have c := R.calm (N := fun q b => q = p ∧ b = a) (fun q b e => by obtain ⟨rfl, rfl⟩ := e; exact nd) (n + k)
      exact (step_safe (c.safe init_safe).2 (R.step (n + k))
        (calm_of (N := fun q b => q = p ∧ b = a) (fun q b e => by obtain ⟨rfl, rfl⟩ := e; exact nd) _)).1.asked p a ⟨rfl, rfl⟩ ih
  obtain ⟨k, rfl⟩ := Nat.exists_eq_add_of_le hn
  exact key k

/-- once there is a result it stays, and it is the value of the call -/
theorem Run.result (inj : Function.Injective h) (kn : travel → KnowsAll knows)
    (R : Run h code travel knows σ who) {p : P} {f : FnId} {kw : List (String × Val U A)} {v : Val U A}
    (one : ∀ r, Outcome h code True (code f kw) r → r = .val v) {n m : Nat} (hn : n ≤ m)
    (hr : ((σ n).sh.results p (callOf h f kw)).isSome = true) :
    (σ m).sh.results p (callOf h f kw) = some (h v) := by
  have key : ∀ k, ((σ (n + k)).sh.results p (callOf h f kw)).isSome = true := by
    intro k
    induction k with
    | zero => exact hr
    | succ k ih => exact isSome_step (R.reachable _) (R.step _) p _ ih
  obtain ⟨k, rfl⟩ := Nat.exists_eq_add_of_le hn
  obtain ⟨r, hr⟩ := Option.isSome_iff_exists.1 (key k)
  rw [hr]
  have o := (R.reachable (n + k)).ok (strict := True) inj fun _ => kn
  obtain ⟨f', kw', w, e1, e2, e3⟩ := (o.inv.results p _ r hr).2.2
  obtain ⟨rfl, rfl⟩ := callOf_inj inj e1
  cases one _ e3
  rw [e2]

/-- as long as others take steps, the program of process `i` is the same; then `i` takes a step -/
theorem AliveFrom.next {i m : Nat} (al : AliveFrom h code travel knows i σ who m)
    (other : ∀ n, who n ≠ i → (σ (n + 1)).procs i = (σ n).procs i) {n : Nat} (hm : m ≤ n)
    (before : ∀ l, m ≤ l → l < n → ¬ Resting ((σ l).procs i)) (busy : ¬ Resting ((σ n).procs i)) :
    ∃ k, n ≤ k ∧ (∀ l, n ≤ l → l < k → who l ≠ i) ∧ (∀ l, n ≤ l → l ≤ k → (σ l).procs i = (σ n).procs i) ∧ who k = i ∧
      Act h code travel knows i (σ k) (σ (k + 1)) ∧ ∀ l, m ≤ l → l < k + 1 → ¬ Resting ((σ l).procs i) := by
  have upto : ∀ l, m ≤ l → l ≤ n → ¬ Resting ((σ l).procs i) := fun l h1 h2 => by
    rcases Nat.lt_or_ge l n with h3 | h3
    · exact before l h1 h3
    · obtain rfl : l = n := by omega
      exact busy
  obtain ⟨⟨n', hn', hw⟩, _⟩ := al n hm upto
  have hex : ∃ k, n ≤ k ∧ who k = i := ⟨n', hn', hw⟩
  classical
  obtain ⟨h1, h2⟩ := Nat.find_spec hex
  have no : ∀ l, n ≤ l → l < Nat.find hex → who l ≠ i := fun l hl1 hl2 hl3 => Nat.find_min hex hl2 ⟨hl1, hl3⟩
  have key : ∀ d, n + d ≤ Nat.find hex → (σ (n + d)).procs i = (σ n).procs i := by
    intro d
    induction d with
    | zero => intro _; rfl
    | succ d ih => exact fun hd => (other (n + d) (no _ (by omega) (by omega))).trans (ih (by omega))
  have same : ∀ l, n ≤ l → l ≤ Nat.find hex → (σ l).procs i = (σ n).procs i := fun l hl1 hl2 => by
    obtain ⟨d, rfl⟩ := Nat.exists_eq_add_of_le hl1
    exact key d hl2
  have all : ∀ l, m ≤ l → l < Nat.find hex + 1 → ¬ Resting ((σ l).procs i) := fun l hl1 hl2 => by
    rcases Nat.lt_or_ge l n with h3 | h3
    · exact before l hl1 h3
    · rw [same l h3 (by omega)]; exact busy
  exact ⟨Nat.find hex, h1, no, same, h2, (al _ (by omega) fun l hl1 hl2 => all l hl1 (by omega)).2 h2, all⟩

/-- `Will` in infinite executions, for a process that is alive until it has nothing to do -/
theorem Will.aliveFrom {i : Nat} {G : State U A P → Prop} {s : State U A P} (w : Will h code travel knows i G s) :
    ∀ {m : Nat} (n : Nat), (∀ n, Step h code travel knows (who n) (σ n) (σ (n + 1))) →
    AliveFrom h code travel knows i σ who m → m ≤ n → (∀ l, m ≤ l → l < n → ¬ Resting ((σ l).procs i)) → σ n = s →
    ∃ k, n ≤ k ∧ G (σ k) := by
  induction w with
  | now s g => intro m n st al hm b e; exact ⟨n, Nat.le_refl n, e ▸ g⟩
  | later s busy can all ih =>
    intro m n st al hm b e
    obtain ⟨k, h1, no, _, _, ha, b'⟩ := al.next (fun n hn => step_other hn (st n)) hm b (e ▸ busy)
    have key : ∀ d, n + d ≤ k → Others h code travel knows i s (σ (n + d)) := by
      intro d
      induction d with
      | zero => intro _; rw [Nat.add_zero, e]; exact .refl
      | succ d ihd => exact fun hd => .step (who (n + d)) (no _ (by omega) (by omega)) (ihd (by omega)) (st (n + d))
    obtain ⟨d, rfl⟩ := Nat.exists_eq_add_of_le h1
    obtain ⟨k', h3, h4⟩ := ih _ _ (key d (Nat.le_refl _)) ha (n + d + 1) st al (by omega) b' rfl
    exact ⟨k', by omega, h4⟩

/-- a call that is asked for gets done -/
theorem Run.done (inj : Function.Injective h) (kn : travel → KnowsAll knows)
    (lawful : ∀ f kw, Lawful h code travel knows [] [] (code f kw)) (R : Run h code travel knows σ who) {p : P} {f : FnId} {kw : List (String × Val U A)}
    (nd : NeverDropped σ who p (callOf h f kw)) (sv : Served h code travel knows σ who p (callOf h f kw))
    (halts : Halts h code False (code f kw)) {v : Val U A} (one : ∀ r, Outcome h code True (code f kw) r → r = .val v)
    {n : Nat} (ha : Asked (σ n).sh p (callOf h f kw)) :
    ∃ m, n ≤ m ∧ ∀ k, m ≤ k → (σ k).sh.results p (callOf h f kw) = some (h v) := by
  by_cases e : ∃ m, n ≤ m ∧ ((σ m).sh.results p (callOf h f kw)).isSome = true
  · obtain ⟨m, h1, h2⟩ := e
    exact ⟨m, h1, fun k hk => R.result inj kn one hk h2⟩
  · have req : ∀ m, n ≤ m → (σ m).sh.requests p (callOf h f kw) = true := by
      intro m hm
      rcases R.asked nd hm ha with x | x
      · exact x
      · exact absurd ⟨m, hm, x⟩ e
    obtain ⟨m, i, os, h1, hk, hi, hs, al⟩ := sv n req
    obtain ⟨k, h2, _, h3⟩ := (C90_worker_finishes_partial inj kn lawful (R.reachable m) i hi p os hk f kw (req m h1)
      halts).aliveFrom (m + 1) R.step al (Nat.le_refl _) (fun l h1 h2 => absurd h1 (by omega)) hs
    have : (σ k).sh.results p (callOf h f kw) = some (h v) := by
      rcases h3 with ⟨w, h3, h4⟩ | h4
      · cases one _ h4
        exact h3
      · cases one _ h4
    exact absurd ⟨k, by omega, by rw [this]; rfl⟩ e

/-- **C93** End to end: a client calls `f.swarm(**kw)` with plain arguments and gets an address; afterwards it may die.
If evaluating the call comes to an end, without waiting for others, and can only give `v`, nobody calls `drop_execution_request()` for it, and a request that stays visible is
eventually found by some worker that is not killed while it works on it, then from some time on the result of the call
is stored in the portal of `f`, and it is `v` — whatever all processes do, and wherever others die. -/
theorem C93_swarmed_call_gets_done_partial (inj : Function.Injective h) (kn : travel → KnowsAll knows)
    (lawful : ∀ f kw, Lawful h code travel knows [] [] (code f kw)) (R : Run h code travel knows σ who) {n i : Nat} {p q : P} {os : List P}
    {f : FnId} {us : List (String × U)} {next : Reply U A P → Code U A P} {st : List (Frame U A P)} {job : Option A}
    {a : A} (hm : (σ n).procs i = ⟨.io (.done (.call q a)), .inCode (.swarm p os f (raws us)) next :: st, job⟩)
    (nd : NeverDropped σ who p a) (sv : Served h code travel knows σ who p a)
    (halts : Halts h code False (code f (vals us))) {v : Val U A}
    (one : ∀ r, Outcome h code True (code f (vals us)) r → r = .val v) :
    ∃ m, n ≤ m ∧ ∀ k, m ≤ k → (σ k).sh.results p a = some (h v) := by
  obtain ⟨rfl, h2, h3⟩ := C92_swarm_requests
    (R.calm (N := fun r b => r = p ∧ b = a) (fun r b e => by obtain ⟨rfl, rfl⟩ := e; exact nd) n) hm
  obtain rfl := h2 us rfl
  exact R.done inj kn lawful nd sv halts one (h3 ⟨rfl, rfl⟩)

/-- **C93** The same for every call of `f.swarm_list(kws)`: the `j`-th address gets the value of the `j`-th call. -/
theorem C93_swarm_list_gets_done_partial (inj : Function.Injective h) (kn : travel → KnowsAll knows)
    (lawful : ∀ f kw, Lawful h code travel knows [] [] (code f kw)) (R : Run h code travel knows σ who) {n i : Nat} {p q : P} {os : List P}
    {f : FnId} {uss : List (List (String × U))} {shuffle : List A → List A} {next : Reply U A P → Code U A P}
    {st : List (Frame U A P)} {job : Option A} {l : List A}
    (hm : (σ n).procs i = ⟨.io (.done (.calls q l)), .inCode (.swarmList p os f (uss.map raws) shuffle) next :: st, job⟩)
    (nd : ∀ a ∈ l, NeverDropped σ who p a) (sv : ∀ a ∈ l, Served h code travel knows σ who p a) :
    l.length = uss.length ∧ ∀ (j : Nat) us, uss[j]? = some us → ∃ a, l[j]? = some a ∧
      ∀ v, Halts h code False (code f (vals us)) → (∀ r, Outcome h code True (code f (vals us)) r → r = .val v) →
        ∃ m, n ≤ m ∧ ∀ k, m ≤ k → (σ k).sh.results p a = some (h v) := by
  obtain ⟨rfl, h2, h3⟩ := C92_swarm_list_requests
    (R.calm (N := fun r b => r = p ∧ b ∈ l) (fun r b e => by obtain ⟨rfl, hb⟩ := e; exact nd b hb) n) hm
  have e := h2 uss rfl
  refine ⟨by rw [e, List.length_map], fun j us hj => ⟨callOf h f (vals us), by rw [e]; simp [hj], fun v halts one => ?_⟩⟩
  have ha : callOf h f (vals us) ∈ l := by
    rw [e]; exact List.mem_map.2 ⟨us, List.mem_of_getElem? hj, rfl⟩
  exact R.done inj kn lawful (nd _ ha) (sv _ ha) halts one (h3 _ ha ⟨rfl, ha⟩)

/-- **C93** … and then, `addr.get()` with whatever timeout or without one, in whatever process that is not killed, returns `v`. -/
theorem C93_then_get_returns_partial (inj : Function.Injective h) (kn : travel → KnowsAll knows)
    (pure : OneValue h code) (R : Run h code travel knows σ who) {m k j : Nat} {p : P} {a : A}
    {v : Val U A} (hr : ∀ k, m ≤ k → (σ k).sh.results p a = some (h v)) (hk : m ≤ k)
    (al : AliveFrom h code travel knows j σ who k) (some : ∃ os, knows p os) {os : List P} {rounds : Option Nat}
    {next : Reply U A P → Code U A P} {st : List (Frame U A P)} {job : Option A}
    (hj : (σ k).procs j = ⟨.code (.op (.getResult p os a rounds) next), st, job⟩) (held : Held travel (σ k).raddrs p a) :
    ∃ k', k ≤ k' ∧ (σ k').procs j = ⟨.code (next (.got a v)), st, job⟩ :=
  (C90_get_returns_partial inj kn pure (R.reachable k) j p some os a rounds next st job hj held v
    (hr k hk)).aliveFrom k R.step al (Nat.le_refl _) (fun l h1 h2 => absurd h1 (by omega)) rfl

/-! ### examples -/

/-- an infinite execution without drops, from any state -/
structure From (h : Val U A → A) (code : FnId → List (String × Val U A) → Code U A P)
    (travel : Prop) (knows : P → List P → Prop) (N : P → A → Prop) (s : State U A P) (σ : Nat → State U A P)
    (who : Nat → Nat) : Prop where
  start : σ 0 = s
  step : ∀ n, Step h code travel knows (who n) (σ n) (σ (n + 1))
  calm : ∀ p a, N p a → NeverDropped σ who p a

/-- finitely many steps, put before an infinite execution -/
theorem From.before {N : P → A → Prop} {s t : State U A P} (x : CalmSteps h code travel knows N s t) :
    ∀ {σ : Nat → State U A P} {who : Nat → Nat}, From h code travel knows N t σ who →
    ∃ σ' who' n, From h code travel knows N s σ' who' ∧ (∀ k, σ' (n + k) = σ k) ∧ ∀ k, who' (n + k) = who k := by
  induction x with
  | refl => exact fun {σ who} F => ⟨σ, who, 0, F, fun k => by rw [Nat.zero_add], fun k => by rw [Nat.zero_add]⟩
  | @step t u i x y calm ih =>
    intro σ who F
    have F' : From h code travel knows N t (fun n => Nat.casesOn n t σ) (fun n => Nat.casesOn n i who) :=
      { start := rfl
        step := fun n => by
          cases n with
          | zero => rw [show (Nat.casesOn (0 + 1) t σ : State U A P) = σ 0 from rfl, F.start]; exact y
          | succ n => exact F.step n
        calm := fun p a hN n next hm => by
          cases n with
          | zero =>
            change σ 0 = t.setProc i {}
            rw [F.start]
            rcases calm with calm | calm
            · exact absurd hm (calm p a next hN)
            · exact calm
          | succ n => exact F.calm p a hN n next hm }
    obtain ⟨σ', who', n, h1, h2, h3⟩ := ih F'
    exact ⟨σ', who', n + 1, h1, fun k => by rw [Nat.add_assoc, Nat.add_comm 1 k]; exact h2 (k + 1),
      fun k => by rw [Nat.add_assoc, Nat.add_comm 1 k]; exact h3 (k + 1)⟩

/-- nothing happens any more -/
theorem From.rest {N : P → A → Prop} {s : State U A P} {i : Nat} (hi : s.procs i = {}) :
    From h code travel knows N s (fun _ => s) (fun _ => i) where
  start := rfl
  step := fun n => by
    have := Step.crash (h := h) (code := code) (travel := travel) (knows := knows) (i := i) (s := s)
    rwa [State.setProc, ← hi, Function.update_eq_self] at this
  calm := fun p a _ n next hm => by
    change (s.procs i).mode = _ at hm
    rw [hi] at hm; cases hm

namespace Ex
open Pure.Ex (T addrOf addrOf_inj)

/-- from the answer of `swarm` on: the client gets it and dies, a worker finds the request and serves it -/
theorem k2_calm : CalmSteps addrOf fns1 True one every k1 k2 := by
  refine ticks_calm 3 (ticks_calm 5 (ticks_calm 17 (.step 1 (.step 0 (ticks_calm 2 (.refl _)) .crash (.inr rfl))
    (.act _ (.found () [] a0 rfl rfl ?_)) (.inl fun _ _ _ _ e => (nomatch e)))))
  exact w1_requested

/-- how operation `swarm` of the client ends -/
theorem k1_told : ∃ next, k1.procs 0 =
    ⟨.io (.done (.call () a0)), [.inCode (.swarm () [] 0 (raws [("x", 7)])) next], none⟩ := ⟨_, rfl⟩

theorem k2_dropped : k2.sh.requests () a0 = false := by decide +kernel

theorem fns1_outcome : Outcome addrOf fns1 True (fns1 0 (vals [("x", 7)])) (.val (.user 5)) := .ret _

theorem fns1_det (f : FnId) (kw : List (String × Val Nat T)) : CallsOnly (fns1 f kw) := .ret _

/-- there is an execution that meets all premises of `C93_swarmed_call_gets_done_partial` -/
example : ∃ (σ : Nat → State Nat T Unit) (who : Nat → Nat) (n : Nat) (next : Reply Nat T Unit → Code Nat T Unit),
    Run addrOf fns1 True one σ who ∧
    (σ n).procs 0 = ⟨.io (.done (.call () a0)), [.inCode (.swarm () [] 0 (raws [("x", 7)])) next], none⟩ ∧
    NeverDropped σ who () a0 ∧ Served addrOf fns1 True one σ who () a0 ∧
    ∃ m, n ≤ m ∧ ∀ k, m ≤ k → (σ k).sh.results () a0 = some (addrOf (.user 5)) := by
  obtain ⟨σ1, who1, n1, F1, e1, _⟩ := From.before k2_calm (From.rest (i := 9) rfl)
  obtain ⟨σ, who, n, F, e, _⟩ := From.before k1_calm F1
  obtain ⟨next, hnext⟩ := k1_told
  have R : Run addrOf fns1 True one σ who := ⟨F.start, F.step⟩
  have hm : (σ n).procs 0 = ⟨.io (.done (.call () a0)), [.inCode (.swarm () [] 0 (raws [("x", 7)])) next], none⟩ := by
    rw [show σ n = k1 from (e 0).trans F1.start]; exact hnext
  have sv : Served addrOf fns1 True one σ who () a0 := by
    intro k hk
    have := hk (n + (n1 + k)) (by omega)
    rw [e, e1] at this
    rw [k2_dropped] at this
    cases this
  have nd := F.calm () a0 trivial
  exact ⟨σ, who, n, next, R, hm, nd, sv, C93_swarmed_call_gets_done_partial addrOf_inj
    (fun _ p _ _ q => .inl (Subsingleton.elim q p)) (C90_calling_functions_end addrOf_inj fns1_det ⟨(), [], rfl⟩).1 R hm nd sv
    ((C90_calling_functions_end (travel := True) (knows := one) addrOf_inj fns1_det ⟨(), [], rfl⟩).2 _ _ _ fns1_outcome).1
    ((C90_calling_functions_end (travel := True) (knows := one) addrOf_inj fns1_det ⟨(), [], rfl⟩).2 _ _ _ fns1_outcome).2⟩

end Ex
end Pyth.Parts
