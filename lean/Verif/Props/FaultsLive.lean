import Verif.Proofs.FaultsLive
import Verif.Props.Faults
import Verif.Props.SwarmDone
/-!
# C106: failures of others do not disturb a process whose storage works
-/
namespace Pyth.Parts
open Pyth.Pure (Val FnId sortKw)

variable {U A P : Type} [DecidableEq P] [DecidableEq A] {h : Val U A → A}
  {code : FnId → List (String × Val U A) → Code U A P} {travel : Prop} {knows : P → List P → Prop}
  {σ : Nat → State U A P} {who : Nat → Nat} {i : Nat}

theorem only_idle (un : ∀ f kw, Uncaught (code f kw)) {s : State U A P} (o : AllOk h code travel False s) (hi : s.procs i = {}) :
    AllOk h code travel True (only i s) := only_ok un o (by rw [hi]; trivial)

theorem GoodFor.ok (inj : Function.Injective h) (un : ∀ f kw, Uncaught (code f kw)) (kn : travel → KnowsAll knows)
    {s t : State U A P} (x : GoodFor h code travel knows i s t) (o : AllOk h code travel False s)
    (oi : AllOk h code travel True (only i s)) : AllOk h code travel False t ∧ AllOk h code travel True (only i t) := by
  induction x with
  | refl => exact ⟨o, oi⟩
  | own x y ih =>
    cases y with
    | act _ y => exact ⟨act_ok inj (fun z => z.elim) ih.1 y, act_ok inj (fun _ => kn) ih.2 (only_act y)⟩
    | crash =>
      have := step_ok (knows := knows) inj (fun z => z.elim) ih.1 (.crash (i := i))
      exact ⟨this, only_idle un this (by simp [State.setProc])⟩
  | other j hj x y ih =>
    have o' := fstep_ok inj ih.1 y
    exact ⟨o', only_ok un o' (fstep_other hj y ▸ (ProcOk.of_only ih.2).mono (fstep_grow inj ih.1 y).le)⟩

/-- **C106** Take any process, when it is started, after any history of failures and deaths.  As long as its own accesses succeed, no
operation of it finds anything missing, whatever fails for other processes, before and at the same time, and wherever they die. -/
theorem C106_nothing_missing_partial (inj : Function.Injective h) (un : ∀ f kw, Uncaught (code f kw))
    (kn : travel → KnowsAll knows) {s t : State U A P} (hs : FReachable h code travel knows s) (hi : s.procs i = {})
    (hst : GoodFor h code travel knows i s t) : (t.procs i).mode ≠ .io (.done .missing) := by
  intro e
  have o := hst.ok inj un kn (hs.ok inj) (only_idle un (hs.ok inj) hi)
  obtain ⟨Q, _, h2⟩ := o.2.io i (by rw [only_procs]; exact e)
  exact ReplyOk.found h2 trivial rfl

/-- **C106** A worker that picks up a visible request, and whose own accesses succeed from then on, gets it done after finitely many own
steps, whatever the others do and whatever fails for them: the result of the call is stored in the portal of the request and is
a value to which the call evaluates, or the evaluation can raise. -/
theorem C106_worker_finishes_partial (inj : Function.Injective h) (un : ∀ f kw, Uncaught (code f kw))
    (kn : travel → KnowsAll knows) (lawful : ∀ f kw, Lawful h code travel knows [] [] (code f kw)) {s : State U A P}
    (hs : FReachable h code travel knows s) (hi : s.procs i = {}) (p : P) (os : List P) (hk : knows p os) (f : FnId)
    (kw : List (String × Val U A)) (hr : s.sh.requests p (callOf h f kw) = true) (halts : Halts h code False (code f kw)) :
    FWill h code travel knows i (fun u => (∃ r', u.procs i = ⟨.io (.done r'), [], some (callOf h f kw)⟩) ∧
        ((∃ v, u.sh.results p (callOf h f kw) = some (h v) ∧ Outcome h code True (code f kw) (.val v)) ∨
          Outcome h code True (code f kw) .raised))
      (s.setProc i ⟨.io (work h p os (callOf h f kw)), [], some (callOf h f kw)⟩) := by
  have o := hs.ok inj
  have a : Act h code travel knows i s (s.setProc i ⟨.io (work h p os (callOf h f kw)), [], some (callOf h f kw)⟩) :=
    .found p os _ hi hk hr
  have ot := act_ok inj (fun _ => kn) (only_idle un o hi) (only_act a)
  exact work_gets (n := (⟨_, act_ok inj (fun z => z.elim) o a⟩ : OkState h code travel)) inj (fwill_steppable inj un kn)
    (fun z => kn z p os hk) (code_fwill inj un kn lawful halts (lawful f kw)) ⟨_, rfl⟩ ot ((only_procs _).trans (Function.update_self ..))
    (o.inv.requests p _ hr) fun m r om gm em hm => .now m.1 ⟨⟨r, by rw [← only_procs m.1]; exact em⟩, hm⟩

/-- **C106** Every operation other than `addr.get()` without a timeout returns after finitely many own steps of its process, if its
accesses have succeeded since the process was started, and go on succeeding — whatever the others do, and whatever fails for
them — with an answer that the evaluation of the operation can give, provided evaluating the calls it may run comes to an end. -/
theorem C106_operation_returns_partial (inj : Function.Injective h) (un : ∀ f kw, Uncaught (code f kw))
    (kn : travel → KnowsAll knows) (lawful : ∀ f kw, Lawful h code travel knows [] [] (code f kw)) {s₀ s : State U A P}
    (hs : FReachable h code travel knows s₀) (h0 : s₀.procs i = {}) (hst : GoodFor h code travel knows i s₀ s)
    (c : Cmd U A P) (next : Reply U A P → Code U A P) (st : List (Frame U A P)) (job : Option A)
    (hi : s.procs i = ⟨.code (.op c next), st, job⟩) (legal : ∃ p os, Legal travel knows s.vaddrs s.raddrs (c.at p os))
    (timed : ∀ p os a, c ≠ .getResult p os a none) (halts : ∀ f kw, Runs h c f kw → Halts h code False (code f kw)) :
    FWill h code travel knows i (fun t => ∃ r, Answer h code True c r ∧ t.procs i = ⟨.code (next r), st, job⟩) s := by
  obtain ⟨o, oi⟩ := hst.ok inj un kn (hs.ok inj) (only_idle un (hs.ok inj) h0)
  exact op_gets (n := (⟨s, o⟩ : OkState h code travel)) inj kn (fwill_steppable inj un kn)
    (fun f kw hr => code_fwill inj un kn lawful (halts f kw hr) (lawful f kw))
    (fun p os f kw e => absurd e (timed p os _)) legal ⟨_, rfl⟩ oi ((only_procs s).trans hi)
    ⟨fun _ x => x, fun _ x => x⟩ fun m r _ _ _ em hr => .now m.1 ⟨r, hr, (only_procs m.1).symm.trans em⟩

/-- **C106** A whole program that does not wait for others, and the evaluation of which comes to an end, comes to its end after
finitely many own steps, if its accesses succeed, whatever the others do and whatever fails for them, with a possible outcome of the
evaluation. -/
theorem C106_program_ends_partial (inj : Function.Injective h) (un : ∀ f kw, Uncaught (code f kw))
    (kn : travel → KnowsAll knows) (lawful : ∀ f kw, Lawful h code travel knows [] [] (code f kw)) {s : State U A P}
    (hs : FReachable h code travel knows s) (hi : s.procs i = {}) (c : Code U A P) (lawful' : Lawful h code travel knows [] [] c)
    (halts : Halts h code False c) :
    FWill h code travel knows i (fun t => (∃ v, t.procs i = ⟨.code (.ret v), [], none⟩ ∧ Outcome h code True c (.val v)) ∨
      (t.procs i = ⟨.code .raise, [], none⟩ ∧ Outcome h code True c .raised)) (s.setProc i ⟨.code c, [], none⟩) := by
  have o := hs.ok inj
  have a : Act h code travel knows i s (s.setProc i ⟨.code c, [], none⟩) := .script c hi
  refine code_fwill inj un kn lawful halts lawful' _ ⟨_, rfl⟩
    (⟨_, act_ok inj (fun z => z.elim) o a⟩ : OkState h code travel) [] none
    (act_ok inj (fun _ => kn) (only_idle un o hi) (only_act a)) (by simp [only, State.setProc]) (Has.nil _)
    fun m r _ _ em hr => .now m.1 ?_
  rw [only_procs] at em
  rcases hr.bodyReply with ⟨v, rfl⟩ | rfl
  · exact .inl ⟨v, em, hr⟩
  · exact .inr ⟨em, hr⟩

/-! ### infinite executions -/

theorem FRun.calm (R : FRun h code travel knows σ who) {N : P → A → Prop} (nd : ∀ p a, N p a → NeverDropped σ who p a)
    (n : Nat) : FCalmSteps h code travel knows N init (σ n) := by
  induction n with
  | zero => rw [R.start]; exact .refl _
  | succ n ih => exact .step (who n) ih (R.step n) (calm_of nd n)

theorem FRun.reachable (R : FRun h code travel knows σ who) (n : Nat) : FReachable h code travel knows (σ n) := by
  induction n with
  | zero => rw [R.start]; exact .refl _
  | succ n ih => exact .step (who n) ih (R.step n)

theorem FRun.asked (R : FRun h code travel knows σ who) {p : P} {a : A} (nd : NeverDropped σ who p a) {n m : Nat}
    (hn : n ≤ m) (ha : Asked (σ n).sh p a) : Asked (σ m).sh p a := by
  have key : ∀ k, Asked (σ (n + k)).sh p a := by
    intro k
    induction k with
    | zero => exact ha
    | succ k ih =>
      have c := R.calm (N := fun q b => q = p ∧ b = a) (fun q b e => by obtain ⟨rfl, rfl⟩ := e; exact nd) (n + k)
      exact (fstep_safe (c.safe init_safe).2 (R.step (n + k))
        (calm_of (N := fun q b => q = p ∧ b = a) (fun q b e => by obtain ⟨rfl, rfl⟩ := e; exact nd) _)).1.asked p a ⟨rfl, rfl⟩ ih
  obtain ⟨k, rfl⟩ := Nat.exists_eq_add_of_le hn
  exact key k

/-- once there is a result it stays, and it is the value of the call -/
theorem FRun.result (inj : Function.Injective h) (un : ∀ f kw, Uncaught (code f kw)) (R : FRun h code travel knows σ who) {p : P}
    {f : FnId} {kw : List (String × Val U A)} {v : Val U A} (one : ∀ r, Outcome h code True (code f kw) r → r = .val v) {n m : Nat}
    (hn : n ≤ m) (hr : ((σ n).sh.results p (callOf h f kw)).isSome = true) :
    (σ m).sh.results p (callOf h f kw) = some (h v) := by
  have key : ∀ k, ((σ (n + k)).sh.results p (callOf h f kw)).isSome = true := by
    intro k
    induction k with
    | zero => exact hr
    | succ k ih => exact (fstep_le inj ((R.reachable _).ok inj) (R.step _)).results p _ ih
  obtain ⟨k, rfl⟩ := Nat.exists_eq_add_of_le hn
  obtain ⟨r, hr⟩ := Option.isSome_iff_exists.1 (key k)
  rw [hr]
  obtain ⟨f', kw', w, e1, e2, e3⟩ := (((R.reachable (n + k)).ok inj).inv.results p _ r hr).2.2.sure un
  obtain ⟨rfl, rfl⟩ := callOf_inj inj e1
  cases one _ e3
  rw [e2]

/-- a call that is asked for gets done -/
theorem FRun.done (inj : Function.Injective h) (un : ∀ f kw, Uncaught (code f kw)) (kn : travel → KnowsAll knows)
    (lawful : ∀ f kw, Lawful h code travel knows [] [] (code f kw)) (R : FRun h code travel knows σ who) {p : P} {f : FnId}
    {kw : List (String × Val U A)} (nd : NeverDropped σ who p (callOf h f kw))
    (sv : Served h code travel knows σ who p (callOf h f kw)) (halts : Halts h code False (code f kw)) {v : Val U A}
    (one : ∀ r, Outcome h code True (code f kw) r → r = .val v) {n : Nat} (ha : Asked (σ n).sh p (callOf h f kw)) :
    ∃ m, n ≤ m ∧ ∀ k, m ≤ k → (σ k).sh.results p (callOf h f kw) = some (h v) := by
  by_cases e : ∃ m, n ≤ m ∧ ((σ m).sh.results p (callOf h f kw)).isSome = true
  · obtain ⟨m, h1, h2⟩ := e
    exact ⟨m, h1, fun k hk => R.result inj un one hk h2⟩
  · have req : ∀ m, n ≤ m → (σ m).sh.requests p (callOf h f kw) = true := by
      intro m hm
      rcases R.asked nd hm ha with x | x
      · exact x
      · exact absurd ⟨m, hm, x⟩ e
    obtain ⟨m, i, os, h1, hk, hi, hs, al⟩ := sv n req
    obtain ⟨k, h2, _, h3⟩ := (C106_worker_finishes_partial inj un kn lawful (R.reachable m) hi p os hk f kw (req m h1)
      halts).alive (m + 1) R.step al (Nat.le_refl _) (fun l h1 h2 => absurd h1 (by omega)) hs
    have : (σ k).sh.results p (callOf h f kw) = some (h v) := by
      rcases h3 with ⟨w, h3, h4⟩ | h4
      · cases one _ h4
        exact h3
      · cases one _ h4
    exact absurd ⟨k, by omega, by rw [this]; rfl⟩ e

/-- **C106** End to end: `f.swarm(**kw)` with plain arguments returns an address; the client may die or fail afterwards.  Workers that
find the request may fail or die over it, any number of them; if some worker that finds it works through it without a failure,
then from some time on the result of the call is stored in the portal of `f`, and it is the value of the call — provided evaluating the call
comes to an end, without waiting for others, and can only give `v`, and nobody calls `drop_execution_request()` for it. -/
theorem C106_swarmed_call_gets_done_partial (inj : Function.Injective h) (un : ∀ f kw, Uncaught (code f kw))
    (kn : travel → KnowsAll knows) (lawful : ∀ f kw, Lawful h code travel knows [] [] (code f kw))
    (R : FRun h code travel knows σ who) {n i : Nat} {p q : P} {os : List P}
    {f : FnId} {us : List (String × U)} {next : Reply U A P → Code U A P} {st : List (Frame U A P)} {job : Option A}
    {a : A} (hm : (σ n).procs i = ⟨.io (.done (.call q a)), .inCode (.swarm p os f (raws us)) next :: st, job⟩)
    (nd : NeverDropped σ who p a) (sv : Served h code travel knows σ who p a)
    (halts : Halts h code False (code f (vals us))) {v : Val U A}
    (one : ∀ r, Outcome h code True (code f (vals us)) r → r = .val v) :
    ∃ m, n ≤ m ∧ ∀ k, m ≤ k → (σ k).sh.results p a = some (h v) := by
  obtain ⟨rfl, h2, h3⟩ := C105_swarm_requests
    (R.calm (N := fun r b => r = p ∧ b = a) (fun r b e => by obtain ⟨rfl, rfl⟩ := e; exact nd) n) hm
  obtain rfl := h2 us rfl
  exact R.done inj un kn lawful nd sv halts one (h3 ⟨rfl, rfl⟩)

/-! ### examples -/

/-- an infinite execution without drops, from any state -/
structure FFrom (h : Val U A → A) (code : FnId → List (String × Val U A) → Code U A P)
    (travel : Prop) (knows : P → List P → Prop) (N : P → A → Prop) (s : State U A P) (σ : Nat → State U A P)
    (who : Nat → Nat) : Prop where
  start : σ 0 = s
  step : ∀ n, FStep h code travel knows (who n) (σ n) (σ (n + 1))
  calm : ∀ p a, N p a → NeverDropped σ who p a

/-- finitely many steps, put before an infinite execution -/
theorem FFrom.before {N : P → A → Prop} {s t : State U A P} (x : FCalmSteps h code travel knows N s t) :
    ∀ {σ : Nat → State U A P} {who : Nat → Nat}, FFrom h code travel knows N t σ who →
    ∃ σ' who' n, FFrom h code travel knows N s σ' who' ∧ (∀ k, σ' (n + k) = σ k) ∧ ∀ k, who' (n + k) = who k := by
  induction x with
  | refl => exact fun {σ who} F => ⟨σ, who, 0, F, fun k => by rw [Nat.zero_add], fun k => by rw [Nat.zero_add]⟩
  | @step t u i x y calm ih =>
    intro σ who F
    have F' : FFrom h code travel knows N t (fun n => Nat.casesOn n t σ) (fun n => Nat.casesOn n i who) :=
      { start := rfl
        step := fun n => by
          cases n with
          | zero => rw [show (Nat.casesOn (0 + 1) t σ : State U A P) = σ 0 from rfl, F.start]; exact y
          | succ n => exact F.step n
        calm := fun p a hN n next hm => by
          cases n with
          | zero =>
            change σ 0 = t.setProc i {}
            rw [F.start]
            rcases calm with calm | calm
            · exact absurd hm (calm p a next hN)
            · exact calm
          | succ n => exact F.calm p a hN n next hm }
    obtain ⟨σ', who', n, h1, h2, h3⟩ := ih F'
    exact ⟨σ', who', n + 1, h1, fun k => by rw [Nat.add_assoc, Nat.add_comm 1 k]; exact h2 (k + 1),
      fun k => by rw [Nat.add_assoc, Nat.add_comm 1 k]; exact h3 (k + 1)⟩

theorem CalmSteps.faulty {N : P → A → Prop} {s t u : State U A P} (x : FCalmSteps h code travel knows N s t)
    (y : CalmSteps h code travel knows N t u) : FCalmSteps h code travel knows N s u := by
  induction y with
  | refl => exact x
  | step i _ z calm ih => exact .step i ih (.step _ z) calm

namespace Ex
open Pure.Ex (T addrOf addrOf_inj)

/-- the client dies after its request; worker 2 finds it, an access fails, and it gives up -/
theorem w1_again : FCalmSteps addrOf fns1 True one every k1 w1 := by
  have c0 : CalmSteps addrOf fns1 True one every k1 w1 := .step 0 (ticks_calm 2 (.refl _)) .crash (.inr rfl)
  have c1 : FCalmSteps addrOf fns1 True one every k1 (w1.setProc 2 ⟨.io (work addrOf () [] a0), [], some a0⟩) :=
    .step 2 (CalmSteps.faulty (.refl _) c0) (.step _ (.act _ (.found () [] a0 rfl rfl w1_requested)))
      (.inl fun _ _ _ _ e => (nomatch e))
  have c2 : FCalmSteps addrOf fns1 True one every k1 (w1.setProc 2 ⟨.io (.done .missing), [], some a0⟩) := by
    have := FCalmSteps.step 2 c1 (.fail (work addrOf () [] a0) (by simp [State.setProc]))
      (.inl fun _ _ _ _ e => by simp [State.setProc] at e)
    simpa [State.setProc, State.goto] using this
  have c3 := FCalmSteps.step 2 c2 (.step _ .crash) (.inr rfl)
  have e : (w1.setProc 2 ⟨.io (.done .missing), [], some a0⟩).setProc 2 {} = w1 := by
    simp only [State.setProc, Function.update_idem]
    have : w1.procs 2 = {} := rfl
    rw [← this, Function.update_eq_self]
  rwa [e] at c3

theorem w1_served : CalmSteps addrOf fns1 True one every w1 k2 :=
  ticks_calm 3 (ticks_calm 5 (ticks_calm 17 (.step 1 (.refl _)
    (.act _ (.found () [] a0 rfl rfl w1_requested)) (.inl fun _ _ _ _ e => (nomatch e)))))

theorem fns1_uncaught (f : FnId) (kw : List (String × Val Nat T)) : Uncaught (fns1 f kw) := .ret _

/-- there is an execution with a failing worker that meets all premises of `C106_swarmed_call_gets_done_partial` -/
example : ∃ (σ : Nat → State Nat T Unit) (who : Nat → Nat) (n : Nat) (next : Reply Nat T Unit → Code Nat T Unit),
    FRun addrOf fns1 True one σ who ∧
    (σ n).procs 0 = ⟨.io (.done (.call () a0)), [.inCode (.swarm () [] 0 (raws [("x", 7)])) next], none⟩ ∧
    NeverDropped σ who () a0 ∧ Served addrOf fns1 True one σ who () a0 ∧
    ∃ m, n ≤ m ∧ ∀ k, m ≤ k → (σ k).sh.results () a0 = some (addrOf (.user 5)) := by
  have F0 : FFrom addrOf fns1 True one every k2 (fun _ => k2) (fun _ => 9) :=
    have R := From.rest (h := addrOf) (code := fns1) (travel := True) (knows := one) (N := every) (s := k2) (i := 9) rfl
    ⟨R.start, fun n => .step _ (R.step n), R.calm⟩
  obtain ⟨σ1, who1, n1, F1, e1, _⟩ := FFrom.before (CalmSteps.faulty w1_again w1_served) F0
  obtain ⟨σ, who, n, F, e, _⟩ := FFrom.before (CalmSteps.faulty (.refl _) k1_calm) F1
  obtain ⟨next, hnext⟩ := k1_told
  have R : FRun addrOf fns1 True one σ who := ⟨F.start, F.step⟩
  have hm : (σ n).procs 0 = ⟨.io (.done (.call () a0)), [.inCode (.swarm () [] 0 (raws [("x", 7)])) next], none⟩ := by
    rw [show σ n = k1 from (e 0).trans F1.start]; exact hnext
  have sv : Served addrOf fns1 True one σ who () a0 := by
    intro k hk
    have := hk (n + (n1 + k)) (by omega)
    rw [e, e1] at this
    rw [k2_dropped] at this
    cases this
  have nd := F.calm () a0 trivial
  exact ⟨σ, who, n, next, R, hm, nd, sv, C106_swarmed_call_gets_done_partial addrOf_inj fns1_uncaught
    (fun _ p _ _ q => .inl (Subsingleton.elim q p)) (C90_calling_functions_end addrOf_inj fns1_det ⟨(), [], rfl⟩).1 R hm nd sv
    ((C90_calling_functions_end (travel := True) (knows := one) addrOf_inj fns1_det ⟨(), [], rfl⟩).2 _ _ _ fns1_outcome).1
    ((C90_calling_functions_end (travel := True) (knows := one) addrOf_inj fns1_det ⟨(), [], rfl⟩).2 _ _ _ fns1_outcome).2⟩

/-- the client of `flt2` right after the failure, before it ends -/
def flt3 : State Nat T Bool := flt1.goto 0 (.io (.done .missing))

theorem flt3_reach : FReachable addrOf fns2 False any flt3 := by
  obtain ⟨y, hy⟩ := inIo_iff (x := flt1.procs 0) (by decide +kernel)
  exact .step 0 (Steps.faulty flt1_reach) (.fail y hy)

theorem flt3_five : flt3.procs 5 = {} := by
  have e := flt2_idle 5
  simp only [flt2, State.setProc] at e
  rw [Function.update_of_ne (by decide)] at e
  exact e

/-- worker 5 serves the request of a call that has just failed in another process; the premises of the other theorems are met by
the same state -/
example : flt3.sh.requests true a1 = true ∧ flt3.sh.results true a1 = none ∧
    FWill addrOf fns2 False any 5 (fun t => (∃ r', t.procs 5 = ⟨.io (.done r'), [], some a1⟩) ∧
        ((∃ v, t.sh.results true a1 = some (addrOf v) ∧ Outcome addrOf fns2 True (fns2 1 []) (.val v)) ∨
          Outcome addrOf fns2 True (fns2 1 []) .raised))
      (flt3.setProc 5 ⟨.io (work addrOf true [] a1), [], some a1⟩) := by
  have hr : flt3.sh.requests true (callOf addrOf 1 []) = true := by decide +kernel
  refine ⟨hr, by decide +kernel, ?_⟩
  exact C106_worker_finishes_partial addrOf_inj fns2_uncaught (fun x => x.elim) fns2_lawful flt3_reach flt3_five true [] trivial 1 []
    hr fns2_halts

end Ex
end Pyth.Parts
