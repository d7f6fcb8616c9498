import Verif.Proofs.SwarmJoin
/-!
# C97: calls that start other calls elsewhere and wait for their results get done, if workers are left for those
-/
namespace Pyth.Parts
open Pyth.Pure (Val FnId sortKw)

variable {U A P : Type} [DecidableEq P] [DecidableEq A] {h : Val U A → A}
  {code : FnId → List (String × Val U A) → Code U A P} {travel : Prop} {knows : P → List P → Prop}
  {σ : Nat → State U A P} {who : Nat → Nat}

/-- **C97** End to end, for functions that may start other calls elsewhere and wait for them: a client calls
`f.swarm(**kw)` with plain arguments and gets an address; afterwards it may die.  If evaluating the call comes to an end and
can only give `v`, and for this call and for every call that somebody waits for in `addr.get()`: nobody calls
`drop_execution_request()` for it, and a request that stays visible is eventually found by some worker that is not killed
while it works on it — then from some time on the result of the call is stored in the portal of `f`, and it is `v`. -/
theorem C97_joined_call_gets_done_partial (inj : Function.Injective h) (kn : travel → KnowsAll knows)
    (lawful : ∀ f kw, Lawful h code travel knows [] [] (code f kw)) (R : Run h code travel knows σ who)
    (fair : ∀ p a, Awaited σ p a → NeverDropped σ who p a ∧ Served h code travel knows σ who p a) {n i : Nat} {p q : P}
    {os : List P} {f : FnId} {us : List (String × U)} {next : Reply U A P → Code U A P} {st : List (Frame U A P)}
    {job : Option A} {a : A}
    (hm : (σ n).procs i = ⟨.io (.done (.call q a)), .inCode (.swarm p os f (raws us)) next :: st, job⟩)
    (nd : NeverDropped σ who p a) (sv : Served h code travel knows σ who p a)
    (halts : Halts h code True (code f (vals us))) {v : Val U A}
    (one : ∀ r, Outcome h code True (code f (vals us)) r → r = .val v) :
    ∃ m, n ≤ m ∧ ∀ k, m ≤ k → (σ k).sh.results p a = some (h v) := by
  obtain ⟨rfl, h2, h3⟩ := C92_swarm_requests
    (R.calm (N := fun r b => r = p ∧ b = a) (fun r b e => by obtain ⟨rfl, rfl⟩ := e; exact nd) n) hm
  obtain rfl := h2 us rfl
  exact (R.course inj kn).done inj kn lawful fair nd sv halts one (h3 ⟨rfl, rfl⟩)

/-- **C97** Under the same conditions, a program that starts calls elsewhere and waits for their results comes to its end, if
its process is not killed and goes on, with a possible outcome of evaluating it. -/
theorem C97_joining_program_ends_partial (inj : Function.Injective h) (kn : travel → KnowsAll knows)
    (lawful : ∀ f kw, Lawful h code travel knows [] [] (code f kw)) (R : Run h code travel knows σ who)
    (fair : ∀ p a, Awaited σ p a → NeverDropped σ who p a ∧ Served h code travel knows σ who p a) {k i : Nat}
    (al : AliveFrom h code travel knows i σ who k) {c : Code U A P}
    (hi : (σ k).procs i = ⟨.code c, [], none⟩) (lawful' : Lawful h code travel knows [] [] c) (halts : Halts h code True c) :
    ∃ m, k ≤ m ∧ ((∃ v, (σ m).procs i = ⟨.code (.ret v), [], none⟩ ∧ Outcome h code True c (.val v)) ∨
      ((σ m).procs i = ⟨.code .raise, [], none⟩ ∧ Outcome h code True c .raised)) :=
  (R.course inj kn).ends inj kn lawful fair al ((R.reachable k).ok (strict := True) inj fun _ => kn) hi lawful' halts

/-- **C97** `addr.get()` without a timeout, anywhere in a program and for whatever call the evaluation of which comes to an
end and cannot raise, returns after finitely many steps a value to which the call evaluates — even if nobody has requested
the call before — under the same conditions; only if the call evaluates to two different values, a consistency check may fail. -/
theorem C97_get_returns_partial (inj : Function.Injective h) (kn : travel → KnowsAll knows)
    (lawful : ∀ f kw, Lawful h code travel knows [] [] (code f kw)) (R : Run h code travel knows σ who)
    (fair : ∀ p a, Awaited σ p a → NeverDropped σ who p a ∧ Served h code travel knows σ who p a) {k i : Nat}
    (al : AliveFrom h code travel knows i σ who k) {p : P} (some : ∃ os, knows p os) {os : List P}
    {f : FnId} {kw : List (String × Val U A)} {next : Reply U A P → Code U A P} {st : List (Frame U A P)} {job : Option A}
    (hi : (σ k).procs i = ⟨.code (.op (.getResult p os (callOf h f kw) none) next), st, job⟩)
    (held : Held travel (σ k).raddrs p (callOf h f kw)) (halts : Halts h code True (code f kw))
    (well : ¬ Outcome h code True (code f kw) .raised) :
    ∃ m, k ≤ m ∧ ((∃ v, (σ m).procs i = ⟨.code (next (.got (callOf h f kw) v)), st, job⟩ ∧
      Outcome h code True (code f kw) (.val v)) ∨ ((σ m).procs i = ⟨.code (next .clash), st, job⟩ ∧
      ∃ v w, v ≠ w ∧ Outcome h code True (code f kw) (.val v) ∧ Outcome h code True (code f kw) (.val w))) :=
  (R.course inj kn).get inj kn lawful fair al ((R.reachable k).ok (strict := True) inj fun _ => kn) some hi held halts well

/-- **C97** The premises about evaluation hold for functions the code of which does not depend on what others do — it may
swarm and wait, but must not ask whether something is ready, nor use timeouts — as soon as evaluating the call gives a value. -/
theorem C97_steady_functions_end (inj : Function.Injective h) (det : ∀ f kw, Steady False (code f kw))
    {f : FnId} {kw : List (String × Val U A)} {v : Val U A} (ho : Outcome h code True (code f kw) (.val v)) :
    Halts h code True (code f kw) ∧ ∀ r, Outcome h code True (code f kw) r → r = .val v :=
  ⟨steady_halts inj det ho (det f kw), fun r hr => outcome_unique inj det ho (det f kw) r hr⟩

/-! ### however many workers there are, all of them may wait -/

/-- follow a program inside an operation for `n` accesses, while there are no results and the stores hold at least `orc` -/
def drive (orc : P → A → Option (Val U A)) : Nat → Io U A P → Option (Io U A P)
  | 0, x => some x
  | n + 1, .put _ _ _ k => drive orc n k
  | n + 1, .load p a k => match orc p a with
    | some v => drive orc n (k (some v))
    | none => none
  | n + 1, .result _ _ k => drive orc n (k none)
  | n + 1, .request _ _ k => drive orc n k
  | _ + 1, _ => none

/-- no results, and the stores hold at least `orc` -/
structure Blank (h : Val U A → A) (code : FnId → List (String × Val U A) → Code U A P) (travel : Prop)
    (knows : P → List P → Prop) (orc : P → A → Option (Val U A)) (s : State U A P) : Prop where
  calm : CalmSteps h code travel knows (fun _ _ => True) init s
  store : ∀ p a v, orc p a = some v → s.sh.store p a = some v
  results : ∀ p a, s.sh.results p a = none

theorem CalmSteps.steps {N : P → A → Prop} {s t : State U A P} (x : CalmSteps h code travel knows N s t) :
    Steps h code travel knows s t := by
  induction x with
  | refl => exact .refl _
  | step i x y _ ih => exact .step i ih y

theorem Blank.reach {orc : P → A → Option (Val U A)} {s : State U A P} (b : Blank h code travel knows orc s) :
    Reachable h code travel knows s := b.calm.steps

/-- nothing happened to the others, and no request was dropped -/
structure Apart (i : Nat) (s t : State U A P) : Prop where
  procs : ∀ j, j ≠ i → t.procs j = s.procs j
  requests : ∀ p a, s.sh.requests p a = true → t.sh.requests p a = true

omit [DecidableEq P] [DecidableEq A] in
theorem Apart.trans {i : Nat} {s t u : State U A P} (x : Apart i s t) (y : Apart i t u) : Apart i s u :=
  ⟨fun j hj => (y.procs j hj).trans (x.procs j hj), fun p a hr => y.requests p a (x.requests p a hr)⟩

theorem setRequest_requests {s : Shared U A P} {p : P} {a : A} {q : P} {b : A} (x : s.requests q b = true) :
    (s.setRequest p a true).requests q b = true := by
  unfold Shared.setRequest
  by_cases e : q = p
  · subst e
    by_cases e' : b = a
    · subst e'; simp
    · simpa [e'] using x
  · simpa [e] using x

theorem blank_step (inj : Function.Injective h) (kn : travel → KnowsAll knows) {orc : P → A → Option (Val U A)} {i : Nat}
    {s t : State U A P} (b : Blank h code travel knows orc s) (x : Act h code travel knows i s t)
    (hc : ∀ p a next, (s.procs i).mode ≠ .code (.op (.dropAddr p a) next))
    (hr : t.sh.results = s.sh.results) : Blank h code travel knows orc t :=
  ⟨.step i b.calm (.act _ x) (.inl fun p a next _ => hc p a next), fun p a v e => (step_le inj (b.reach.ok (strict := True) inj fun _ => kn) (.act _ x)).store p a v (b.store p a v e),
    fun p a => by rw [hr]; exact b.results p a⟩

theorem drive_blank (inj : Function.Injective h) (kn : travel → KnowsAll knows) {orc : P → A → Option (Val U A)} {i : Nat}
    {st : List (Frame U A P)} {job : Option A} {y : Io U A P} (n : Nat) : ∀ {x : Io U A P} {s : State U A P},
    drive orc n x = some y → Blank h code travel knows orc s → s.procs i = ⟨.io x, st, job⟩ →
    ∃ t, Blank h code travel knows orc t ∧ Apart i s t ∧ t.procs i = ⟨.io y, st, job⟩ ∧ s.raddrs = t.raddrs := by
  induction n with
  | zero =>
    intro x s hd b e
    cases hd
    exact ⟨s, b, ⟨fun _ _ => rfl, fun _ _ x => x⟩, e, rfl⟩
  | succ n ih =>
    intro x s hd b e
    have hm : (s.procs i).mode = .io x := by rw [e]
    have fin : ∀ {t : State U A P} {x' : Io U A P}, Act h code travel knows i s t → t.sh.results = s.sh.results →
        t.procs = Function.update s.procs i ⟨.io x', st, job⟩ → (∀ p a, s.sh.requests p a = true → t.sh.requests p a = true) →
        t.raddrs = s.raddrs → drive orc n x' = some y →
        ∃ t, Blank h code travel knows orc t ∧ Apart i s t ∧ t.procs i = ⟨.io y, st, job⟩ ∧ s.raddrs = t.raddrs := by
      intro t x' ht hr hp hq ha hd
      obtain ⟨u, h1, h2, h3, h4⟩ := ih hd (blank_step inj kn b ht (fun _ _ _ x => by rw [hm] at x; cases x) hr) (by rw [hp]; simp)
      exact ⟨u, h1, Apart.trans ⟨fun j hj => by rw [hp]; simp [hj], hq⟩ h2, h3, ha.symm.trans h4⟩
    cases x with
    | done r => cases hd
    | setResult p a r k => cases hd
    | drop p a k => cases hd
    | body a f kw k => cases hd
    | wait p os a => cases hd
    | toss k => cases hd
    | put p a v k => exact fin (.put p a v k hm) rfl (by simp [State.next, e]) (fun _ _ x => x) rfl hd
    | request p a k => exact fin (.request p a k hm) rfl (by simp [State.next, e]) (fun _ _ x => setRequest_requests x) rfl hd
    | result p a k =>
      refine fin (.result p a k hm) rfl (by simp only [State.goto, e]; rw [b.results]) (fun _ _ x => x) rfl hd
    | load p a k =>
      simp only [drive] at hd
      cases ho : orc p a with
      | none => rw [ho] at hd; cases hd
      | some v =>
        rw [ho] at hd
        exact fin (.load p a k hm) rfl (by simp only [State.goto, e]; rw [b.store p a v ho]) (fun _ _ x => x) rfl hd

theorem ticks_other {i j : Nat} (n : Nat) (e : j ≠ i) : ∀ s : State U A P, (ticks h code i n s).procs j = s.procs j := by
  induction n with
  | zero => exact fun s => rfl
  | succ n ih =>
    intro s
    refine (ih _).trans ?_
    unfold tick
    split <;> simp [State.setProc, State.next, State.goto, Function.update_of_ne e]

/-- the request that the next step of a process writes or removes -/
def touches : Proc U A P → Option (P × A)
  | ⟨.io (.request p a _), _, _⟩ => some (p, a)
  | ⟨.io (.drop p a _), _, _⟩ => some (p, a)
  | _ => none

/-- the requests that the next steps of process `i` write or remove -/
def touched (h : Val U A → A) (code : FnId → List (String × Val U A) → Code U A P) (i : Nat) : Nat → State U A P → List (Option (P × A))
  | 0, _ => []
  | n + 1, s => touches (s.procs i) :: touched h code i n (tick h code i s)

theorem tick_requests {i : Nat} {s : State U A P} {p : P} {a : A} (x : touches (s.procs i) ≠ some (p, a)) :
    (tick h code i s).sh.requests p a = s.sh.requests p a := by
  unfold tick
  split
  · rfl
  · rfl
  · rfl
  · rfl
  · rfl
  · rename_i e; rw [e] at x; exact setRequest_other (fun z => x (by rw [z.1, z.2]; rfl))
  · rename_i e; rw [e] at x; exact setRequest_other (fun z => x (by rw [z.1, z.2]; rfl))
  · rfl
  · rfl
  · rfl
  · rfl
  · rfl

theorem ticks_requests {i : Nat} {p : P} {a : A} (n : Nat) : ∀ {s : State U A P}, some (p, a) ∉ touched h code i n s →
    (ticks h code i n s).sh.requests p a = s.sh.requests p a := by
  induction n with
  | zero => exact fun _ => rfl
  | succ n ih =>
    intro s x
    simp only [touched, List.mem_cons, not_or] at x
    exact (ih x.2).trans (tick_requests (Ne.symm x.1))

namespace Ex
open Pure.Ex (T addrOf addrOf_inj)

/-- a client swarms the call of function 1 of `fns4` in portal `true` -/
def g1 : State Nat T Bool := ticks addrOf fns4 2 5 (call addrOf 2 (.swarm true [] 1 (raws [])) init)

/-- … and dies -/
def g2 : State Nat T Bool := g1.setProc 2 {}

theorem g1_calm : CalmSteps addrOf fns4 False any (fun _ _ => True) init g1 :=
  ticks_calm 5 (call_calm (c := .swarm true [] 1 (raws [])) (.refl _) rfl ⟨trivial, argsKnown_raws []⟩ fun _ _ _ e => (nomatch e))

theorem g2_calm : CalmSteps addrOf fns4 False any (fun _ _ => True) init g2 := .step 2 g1_calm .crash (.inr rfl)

theorem g2_requested : g2.sh.requests true a1 = true := by decide +kernel

def isBody : Option (Io Nat T Bool) → Bool
  | some (.body a f [] _) => a = a1 && f = 1
  | _ => false

def isCall : Option (Io Nat T Bool) → Bool
  | some (.done (.call true a)) => a = a0
  | _ => false

def isWait : Option (Io Nat T Bool) → Bool
  | some (.wait true [] a) => a = a0
  | _ => false

/-- what a worker does with the request, first the part until the code of function 1 is started -/
theorem drive1 : ∃ k, drive g2.sh.store 15 (work addrOf true [] a1) = some (.body a1 1 [] k) := by
  have e : isBody (drive g2.sh.store 15 (work addrOf true [] a1)) = true := by decide +kernel
  generalize drive g2.sh.store 15 (work addrOf true [] a1) = x at e
  unfold isBody at e
  split at e
  · simp at e
    obtain ⟨rfl, rfl⟩ := e
    exact ⟨_, rfl⟩
  · cases e

theorem drive2 : drive g2.sh.store 6 (prog addrOf (.swarm true [] 0 (raws [("x", 7)]))) = some (.done (.call true a0)) := by
  have e : isCall (drive g2.sh.store 6 (prog addrOf (.swarm true [] 0 (raws [("x", 7)])))) = true := by decide +kernel
  generalize drive g2.sh.store 6 (prog addrOf (.swarm true [] 0 (raws [("x", 7)]))) = x at e
  unfold isCall at e
  split at e
  · simp at e; subst e; rfl
  · cases e

theorem drive3 : drive g2.sh.store 3 (prog addrOf (.getResult true [] a0 none)) = some (.wait true [] a0) := by
  have e : isWait (drive g2.sh.store 3 (prog addrOf (.getResult true [] a0 none))) = true := by decide +kernel
  generalize drive g2.sh.store 3 (prog addrOf (.getResult true [] a0 none)) = x at e
  unfold isWait at e
  split at e
  · simp at e; subst e; rfl
  · cases e

/-- process `i` has come from `s` to a state in which it does `x` -/
structure Came (i : Nat) (s : State Nat T Bool) (x : Proc Nat T Bool) (t : State Nat T Bool) : Prop where
  blank : Blank addrOf fns4 False any g2.sh.store t
  apart : Apart i s t
  proc : t.procs i = x

theorem Came.act {i : Nat} {s t u : State Nat T Bool} {x x' : Proc Nat T Bool} (c : Came i s x t)
    (y : Act addrOf fns4 False any i t u) (hc : ∀ p a next, x.mode ≠ .code (.op (.dropAddr p a) next)) (h1 : u.sh = t.sh) (h2 : u.procs = Function.update t.procs i x') : Came i s x' u :=
  ⟨blank_step addrOf_inj (fun z => z.elim) c.blank y (by rw [c.proc]; exact hc) (by rw [h1]),
    c.apart.trans ⟨fun j hj => by rw [h2]; simp [hj], fun p a hr => by rw [h1]; exact hr⟩, by rw [h2]; simp⟩

theorem Came.drive {i : Nat} {s t : State Nat T Bool} {x y : Io Nat T Bool} {st : List (Frame Nat T Bool)} {job : Option T}
    (c : Came i s ⟨.io x, st, job⟩ t) (n : Nat) (hd : drive g2.sh.store n x = some y) : ∃ u, Came i s ⟨.io y, st, job⟩ u := by
  obtain ⟨u, h1, h2, h3, _⟩ := drive_blank addrOf_inj (fun z => z.elim) n hd c.blank c.proc
  exact ⟨u, h1, c.apart.trans h2, h3⟩

/-- a worker takes the request of the client, asks for the call of function 0, and waits for it -/
theorem waits {s : State Nat T Bool} (b : Blank addrOf fns4 False any g2.sh.store s)
    (hr : s.sh.requests true a1 = true) (i : Nat) (hi : s.procs i = {}) :
    ∃ t st, Came i s ⟨.io (.wait true [] a0), st, some a1⟩ t := by
  obtain ⟨k, hk⟩ := drive1
  have c0 : Came i s {} s := ⟨b, ⟨fun _ _ => rfl, fun _ _ x => x⟩, hi⟩
  obtain ⟨t2, c2⟩ := (c0.act (.found true [] a1 hi trivial hr) (fun _ _ _ e => (nomatch e)) rfl rfl).drive 15 hk
  have c3 := c2.act (x' := ⟨.code (fns4 1 []), [.inOp k], some a1⟩) (.body a1 1 [] k (by rw [c2.proc])) (fun _ _ _ e => (nomatch e)) rfl
    (by rw [c2.proc]; rfl)
  generalize t2.setProc i ⟨.code (fns4 1 []), .inOp k :: (t2.procs i).stack, (t2.procs i).job⟩ = t3 at c3
  have c4 := c3.act (x' := ⟨.io (prog addrOf (.swarm true [] 0 (raws [("x", 7)]))),
      [.inCode (.swarm true [] 0 (raws [("x", 7)])) awaitIt, .inOp k], some a1⟩)
    (.op (.swarm true [] 0 (raws [("x", 7)])) awaitIt true [] (by rw [c3.proc]; rfl) ⟨trivial, argsKnown_raws _⟩) (fun _ _ _ e => (nomatch e)) rfl
    (by rw [c3.proc]; rfl)
  obtain ⟨t5, c5⟩ := c4.drive 6 drive2
  have c6 := c5.act (.done _ _ _ _ _ c5.proc) (fun _ _ _ e => (nomatch e)) rfl rfl
  have c7 := c6.act (x' := ⟨.io (prog addrOf (.getResult true [] a0 none)),
      [.inCode (.getResult true [] a0 none) plusOne, .inOp k], some a1⟩)
    (.op (.getResult true [] a0 none) plusOne true [] (by rw [c6.proc]; rfl) ⟨trivial, .inl (by simp [Reply.raddrs])⟩)
    (fun _ _ _ e => (nomatch e)) rfl
    (by rw [c6.proc]; rfl)
  obtain ⟨t8, c8⟩ := c7.drive 3 drive3
  exact ⟨t8, _, c8⟩

/-- process `i` works on the call of function 1, waiting for the call of function 0 -/
def Waiting (x : Proc Nat T Bool) : Prop :=
  x.job = some a1 ∧ (x.mode = .io (.wait true [] a0) ∨ x.mode = .io (round addrOf true [] a0 (.wait true [] a0)))

theorem all_wait (n : Nat) : ∃ s : State Nat T Bool, Blank addrOf fns4 False any g2.sh.store s ∧ s.sh.requests true a1 = true ∧
    (∀ i, i < n → (s.procs i).job = some a1 ∧ (s.procs i).mode = .io (.wait true [] a0)) ∧ ∀ i, n ≤ i → s.procs i = {} := by
  induction n with
  | zero =>
    refine ⟨g2, ⟨g2_calm, fun _ _ _ x => x, fun p a => rfl⟩, g2_requested, fun i hi => absurd hi (Nat.not_lt_zero i), fun i _ => ?_⟩
    by_cases e : i = 2
    · subst e; rfl
    · simp only [g2, g1, State.setProc, Function.update_of_ne e]
      rw [ticks_other _ e]
      simp [call, State.setProc, Function.update_of_ne e, init]
  | succ n ih =>
    obtain ⟨s, b, hr, h1, h2⟩ := ih
    obtain ⟨t, st, c⟩ := waits b hr n (h2 n (Nat.le_refl n))
    refine ⟨t, c.blank, c.apart.requests _ _ hr, fun i hi => ?_, fun i hi => ?_⟩
    · by_cases e : i = n
      · subst e; rw [c.proc]; exact ⟨rfl, rfl⟩
      · rw [c.apart.procs i e]; exact h1 i (by omega)
    · rw [c.apart.procs i (by omega)]; exact h2 i (by omega)

theorem fns4_outcome : Outcome addrOf fns4 True (fns4 1 []) (.val (.user 6)) := by
  refine .other (.swarm true [] 0 (raws [("x", 7)])) awaitIt (.call true a0) _ ⟨vals [("x", 7)], gets_raws _, rfl⟩ ?_
  exact .call _ _ 0 [("x", .user 7)] (.user 5) _ rfl (.ret _) (.ret _)

/-- what waiting processes do while there is no result -/
theorem waiting_act {s t : State Nat T Bool} {i : Nat} (w : Waiting (s.procs i)) (hn : s.sh.results true a0 = none)
    (x : Act addrOf fns4 False any i s t) : t.sh = s.sh ∧ (∀ j, j ≠ i → t.procs j = s.procs j) ∧ Waiting (t.procs i) := by
  cases e : s.procs i with
  | mk m st job =>
  rw [e] at w
  obtain ⟨rfl, w⟩ := w
  rcases w with w | w
  · cases w
    obtain ⟨_, z⟩ := act_io e rfl x
    rw [z]
    exact ⟨rfl, fun j hj => by simp [ioNext, State.goto, hj], by simp [ioNext, State.goto, e, Waiting]⟩
  · cases w
    obtain ⟨_, z⟩ := act_io e rfl x
    rw [z]
    refine ⟨rfl, fun j hj => ?_, ?_⟩
    · simp only [round, ready, ioNext, State.goto]
      simp [hj]
    · simp only [round, ready, ioNext, State.goto, hn]
      simp [e, Waiting, readyOthers]

/-! an execution in which the call gets done -/

/-- a worker takes the request, starts function 1 and asks for the call of function 0 -/
def g3 : State Nat T Bool := ticks addrOf fns4 0 16 (g2.setProc 0 ⟨.io (work addrOf true [] a1), [], some a1⟩)
def g4 : State Nat T Bool := ticks addrOf fns4 0 7 (perform 0 true [] g3)

/-- it waits for the result -/
def g5 : State Nat T Bool := ticks addrOf fns4 0 10 (perform 0 true [] g4)

/-- another worker serves the second request -/
def g6 : State Nat T Bool := ticks addrOf fns4 1 40 (g5.setProc 1 ⟨.io (work addrOf true [] a0), [], some a0⟩)

/-- the first one goes on -/
def g7 : State Nat T Bool := ticks addrOf fns4 0 30 g6

theorem perform_calm {fs : FnId → List (String × Val Nat T) → Code Nat T Bool} {travel : Prop} {N : Bool → T → Prop} {i : Nat} {p : Bool}
    {os : List Bool} {s t : State Nat T Bool} (x : CalmSteps addrOf fs travel any N s t)
    (hl : ∀ c, nextOp (t.procs i) = some c → Legal travel any t.vaddrs t.raddrs (c.at p os) ∧ ∀ p a, c ≠ .dropAddr p a) :
    CalmSteps addrOf fs travel any N s (perform i p os t) := by
  unfold perform
  cases e : t.procs i with
  | mk m st job =>
  cases m with
  | idle => exact x
  | io y => exact x
  | code c =>
    cases c with
    | ret v => exact x
    | raise => exact x
    | op c n =>
      have hc := hl c (by rw [e]; rfl)
      have := Act.op (h := addrOf) (code := fs) (travel := travel) (knows := any) (i := i) (s := t) c n p os
        (by rw [e]) hc.1
      rw [e] at this
      refine .step i x (.act _ this) (.inl fun p a next _ e' => ?_)
      rw [e] at e'
      injection e' with e'
      injection e' with e' _
      exact hc.2 p a e'

theorem g3_calm : CalmSteps addrOf fns4 False any (fun _ _ => True) g1 g3 :=
  ticks_calm 16 (.step 0 (.step 2 (.refl _) .crash (.inr rfl)) (.act _ (.found true [] a1 rfl trivial g2_requested))
    (.inl fun _ _ _ _ e => (nomatch e)))

theorem g3_next : nextOp (g3.procs 0) = some (.swarm true [] 0 (raws [("x", 7)])) := rfl

theorem g4_calm : CalmSteps addrOf fns4 False any (fun _ _ => True) g1 g4 := by
  refine ticks_calm 7 (perform_calm g3_calm fun c hc => ?_)
  rw [g3_next] at hc
  cases hc
  exact ⟨⟨trivial, argsKnown_raws _⟩, nofun⟩

theorem g4_next : nextOp (g4.procs 0) = some (.getResult true [] a0 none) := rfl

theorem g4_knows : (true, a0) ∈ g4.raddrs := by decide +kernel

theorem g5_calm : CalmSteps addrOf fns4 False any (fun _ _ => True) g1 g5 := by
  refine ticks_calm 10 (perform_calm g4_calm fun c hc => ?_)
  rw [g4_next] at hc
  cases hc
  exact ⟨⟨trivial, .inl g4_knows⟩, nofun⟩

theorem g5_requested : g5.sh.requests true a0 = true := by decide +kernel

theorem g7_calm : CalmSteps addrOf fns4 False any (fun _ _ => True) g1 g7 :=
  ticks_calm 30 (ticks_calm 40 (.step 1 g5_calm (.act _ (.found true [] a0 rfl trivial g5_requested))
    (.inl fun _ _ _ _ e => (nomatch e))))

example : g6.sh.results true a0 = some (addrOf (.user 5)) ∧ g6.sh.results true a1 = none ∧
    g7.sh.results true a1 = some (addrOf (.user 6)) := ⟨by decide +kernel, by decide +kernel, by decide +kernel⟩

/-- all requests in this execution are these two -/
def ours : Option (Bool × T) → Bool := fun x => x = none || x = some (true, a0) || x = some (true, a1)

theorem not_ours {l : List (Option (Bool × T))} {p : Bool} {a : T} (e : l.all ours = true) (h0 : (p, a) ≠ (true, a0))
    (h1 : (p, a) ≠ (true, a1)) : some (p, a) ∉ l := by
  intro hx
  have := List.all_eq_true.1 e _ hx
  simp only [ours, Bool.or_eq_true, decide_eq_true_eq] at this
  rcases this with (h2 | h2) | h2
  · cases h2
  · injection h2 with h2; exact h0 h2
  · injection h2 with h2; exact h1 h2

theorem perform_requests {i : Nat} {p : Bool} {os : List Bool} {s : State Nat T Bool} : (perform i p os s).sh = s.sh := by
  unfold perform
  split <;> rfl

theorem g7_q0 : g7.sh.requests true a0 = false := by decide +kernel
theorem g7_q1 : g7.sh.requests true a1 = false := by decide +kernel
theorem t7 : (touched addrOf fns4 0 30 g6).all ours = true := by decide +kernel
theorem t6 : (touched addrOf fns4 1 40 (g5.setProc 1 ⟨.io (work addrOf true [] a0), [], some a0⟩)).all ours = true := by decide +kernel
theorem t5 : (touched addrOf fns4 0 10 (perform 0 true [] g4)).all ours = true := by decide +kernel
theorem t4 : (touched addrOf fns4 0 7 (perform 0 true [] g3)).all ours = true := by decide +kernel
theorem t3 : (touched addrOf fns4 0 16 (g2.setProc 0 ⟨.io (work addrOf true [] a1), [], some a1⟩)).all ours = true := by decide +kernel
theorem t1 : (touched addrOf fns4 2 5 (call addrOf 2 (.swarm true [] 1 (raws [])) init)).all ours = true := by decide +kernel

theorem setProc_sh {s : State Nat T Bool} {i : Nat} {x : Proc Nat T Bool} : (s.setProc i x).sh = s.sh := rfl

theorem init_requests {p : Bool} {a : T} : (call addrOf 2 (.swarm true [] 1 (raws [])) init).sh.requests p a = false := rfl

/-- in the end there are no requests left -/
theorem g7_quiet (p : Bool) (a : T) : g7.sh.requests p a = false := by
  by_cases h0 : (p, a) = (true, a0)
  · have h2 := (Prod.mk.injEq _ _ _ _ ▸ h0 : p = true ∧ a = a0)
    rw [h2.1, h2.2]; exact g7_q0
  by_cases h1 : (p, a) = (true, a1)
  · have h2 := (Prod.mk.injEq _ _ _ _ ▸ h1 : p = true ∧ a = a1)
    rw [h2.1, h2.2]; exact g7_q1
  have e7 : g7.sh.requests p a = g6.sh.requests p a := by
    unfold g7; exact ticks_requests 30 (not_ours t7 h0 h1)
  have e6 : g6.sh.requests p a = g5.sh.requests p a := by
    unfold g6; rw [ticks_requests 40 (not_ours t6 h0 h1), setProc_sh]
  have e5 : g5.sh.requests p a = g4.sh.requests p a := by
    unfold g5; rw [ticks_requests 10 (not_ours t5 h0 h1), perform_requests]
  have e4 : g4.sh.requests p a = g3.sh.requests p a := by
    unfold g4; rw [ticks_requests 7 (not_ours t4 h0 h1), perform_requests]
  have e3 : g3.sh.requests p a = g1.sh.requests p a := by
    unfold g3; rw [ticks_requests 16 (not_ours t3 h0 h1), setProc_sh]; unfold g2; rw [setProc_sh]
  have e1 : g1.sh.requests p a = false := by
    unfold g1; rw [ticks_requests 5 (not_ours t1 h0 h1)]; exact init_requests
  rw [e7, e6, e5, e4, e3, e1]

theorem g1_none : g1.sh.results true a1 = none := by decide +kernel

theorem fns4_lawful (f : FnId) (kw : List (String × Val Nat T)) : Lawful addrOf fns4 False any [] [] (fns4 f kw) := by
  unfold fns4
  split
  · refine .op _ _ _ _ ⟨true, [], trivial, argsKnown_raws _⟩ fun r hr => ?_
    cases hr with
    | call f vs v e x => exact e.elim
    | raised f vs e x => exact e.elim
    | other _ e =>
      cases r <;> first | exact e.elim | skip
      refine .op _ _ _ _ ⟨true, [], trivial, .inl (.head _)⟩ fun r _ => ?_
      unfold plusOne
      split
      · exact .ret _ _ _
      · exact .raise _ _
    | missing hs => exact absurd trivial hs
    | clash f vs v w e x x' ne => exact .raise _ _
  · exact .ret _ _ _

theorem perform_other {i j : Nat} {p : Bool} {os : List Bool} {s : State Nat T Bool} (e : j ≠ i) :
    (perform i p os s).procs j = s.procs j := by
  unfold perform
  split <;> simp [State.setProc, Function.update_of_ne e]

theorem setProc_other {i j : Nat} {s : State Nat T Bool} {x : Proc Nat T Bool} (e : j ≠ i) : (s.setProc i x).procs j = s.procs j := by
  simp [State.setProc, Function.update_of_ne e]

theorem init_idle : (call addrOf 2 (.swarm true [] 1 (raws [])) (init : State Nat T Bool)).procs 9 = {} := rfl

theorem g7_idle : g7.procs 9 = {} := by
  unfold g7; rw [ticks_other _ (by decide)]
  unfold g6; rw [ticks_other _ (by decide), setProc_other (by decide)]
  unfold g5; rw [ticks_other _ (by decide), perform_other (by decide)]
  unfold g4; rw [ticks_other _ (by decide), perform_other (by decide)]
  unfold g3; rw [ticks_other _ (by decide), setProc_other (by decide)]
  unfold g2; rw [setProc_other (by decide)]
  unfold g1; rw [ticks_other _ (by decide)]
  exact init_idle

/-- how operation `swarm` of the client ends -/
theorem g1_told : ∃ next, g1.procs 2 =
    ⟨.io (.done (.call true a1)), [.inCode (.swarm true [] 1 (raws [])) next], none⟩ := ⟨_, rfl⟩

/-- there is an execution that meets all premises of `C97_joined_call_gets_done_partial` -/
example : ∃ (σ : Nat → State Nat T Bool) (who : Nat → Nat) (n : Nat) (next : Reply Nat T Bool → Code Nat T Bool),
    Run addrOf fns4 False any σ who ∧
    (σ n).procs 2 = ⟨.io (.done (.call true a1)), [.inCode (.swarm true [] 1 (raws [])) next], none⟩ ∧
    (∀ p a, NeverDropped σ who p a ∧ Served addrOf fns4 False any σ who p a) ∧ (σ n).sh.results true a1 = none ∧
    ∃ m, n ≤ m ∧ ∀ k, m ≤ k → (σ k).sh.results true a1 = some (addrOf (.user 6)) := by
  obtain ⟨σ1, who1, n1, F1, e1, _⟩ := From.before g7_calm (From.rest (i := 9) g7_idle)
  obtain ⟨σ, who, n, F, e, _⟩ := From.before g1_calm F1
  obtain ⟨next, hnext⟩ := g1_told
  have R : Run addrOf fns4 False any σ who := ⟨F.start, F.step⟩
  have en : σ n = g1 := (e 0).trans F1.start
  have hm : (σ n).procs 2 = ⟨.io (.done (.call true a1)), [.inCode (.swarm true [] 1 (raws [])) next], none⟩ := by
    rw [en]; exact hnext
  have fair : ∀ p a, NeverDropped σ who p a ∧ Served addrOf fns4 False any σ who p a := by
    refine fun p a => ⟨F.calm p a trivial, fun k hk => ?_⟩
    have := hk (n + (n1 + k)) (by omega)
    rw [e, e1] at this
    rw [g7_quiet] at this
    cases this
  have ends := C97_steady_functions_end addrOf_inj fns4_steady fns4_outcome
  exact ⟨σ, who, n, next, R, hm, fair, by rw [en]; exact g1_none, C97_joined_call_gets_done_partial addrOf_inj (fun z => z.elim)
    fns4_lawful R (fun p a _ => fair p a) hm (fair true a1).1 (fair true a1).2 ends.1 ends.2⟩

end Ex

/-- **C97** (counterexample) The workers for the other calls are needed, and there is no number of workers that suffices:
for every number `n` of workers there is a state of an application with `n` processes, all of which work on a
call that evaluates to 6, wait for another call that evaluates to 5, and do nothing else: whatever they do, in whatever order,
none of the calls ever gets a result, and the request stays visible. -/
theorem C97_all_workers_wait_counterexample (n : Nat) :
    ∃ s : State Nat Pure.Ex.T Bool, Reachable Pure.Ex.addrOf Ex.fns4 False Ex.any s ∧
      (∀ i, n ≤ i → s.procs i = {}) ∧
      Outcome Pure.Ex.addrOf Ex.fns4 True (Ex.fns4 1 []) (.val (.user 6)) ∧
      Outcome Pure.Ex.addrOf Ex.fns4 True (Ex.fns4 0 [("x", .user 7)]) (.val (.user 5)) ∧
      ∀ t, Among Pure.Ex.addrOf Ex.fns4 False Ex.any (· < n) s t →
        (∀ i, i < n → (t.procs i).job = some (callOf Pure.Ex.addrOf 1 []) ∧ ¬ Resting (t.procs i)) ∧
        t.sh.results true (callOf Pure.Ex.addrOf 1 []) = none ∧
        t.sh.results true (callOf Pure.Ex.addrOf 0 [("x", .user 7)]) = none ∧
        t.sh.requests true (callOf Pure.Ex.addrOf 1 []) = true ∧
        (0 < n → t.sh.requests true (callOf Pure.Ex.addrOf 0 [("x", .user 7)]) = true) := by
  obtain ⟨s, b, hr, h1, h2⟩ := Ex.all_wait n
  refine ⟨s, b.reach, h2, Ex.fns4_outcome, .ret _, fun t ht => ?_⟩
  have key : t.sh = s.sh ∧ ∀ i, i < n → Ex.Waiting (t.procs i) := by
    induction ht with
    | refl => exact ⟨rfl, fun i hi => ⟨(h1 i hi).1, .inl (h1 i hi).2⟩⟩
    | step i hi x y ih =>
      obtain ⟨k1, k2⟩ := ih
      obtain ⟨k3, k4, k5⟩ := Ex.waiting_act (k2 i hi) (by rw [k1]; exact b.results _ _) y
      refine ⟨k3.trans k1, fun j hj => ?_⟩
      by_cases e : j = i
      · subst e; exact k5
      · rw [k4 j e]; exact k2 j hj
  obtain ⟨k1, k2⟩ := key
  rw [k1]
  refine ⟨fun i hi => ⟨(k2 i hi).1, ?_⟩, b.results _ _, b.results _ _, hr, fun hn => ?_⟩
  · rintro (hx | ⟨⟨v, hx⟩ | hx, _⟩) <;> rcases (k2 i hi).2 with hy | hy <;> rw [hx] at hy <;> cases hy
  · rcases C92_awaited_is_requested b.calm (h1 0 hn).2 trivial with hy | hy
    · exact hy
    · rw [b.results] at hy; cases hy

end Pyth.Parts
