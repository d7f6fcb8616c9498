import Verif.Proofs.Faults
import Verif.Props.SwarmLive
import Verif.Props.SwarmKeep
/-!
# C105: storage that fails at any access does no lasting harm
-/
namespace Pyth.Parts
open Pyth.Pure (Val FnId sortKw)

variable {U A P : Type} [DecidableEq P] [DecidableEq A] {h : Val U A → A}
  {code : FnId → List (String × Val U A) → Code U A P} {travel : Prop} {knows : P → List P → Prop} {N : P → A → Prop}

/-- **C105** Whatever accesses to the portals fail, in whatever processes, however often, and wherever processes die: everything
that a visible request or result needs is stored — in the same portal if address objects stay with their portals, else each part
in some portal. -/
theorem C105_complete (inj : Function.Injective h) {s : State U A P}
    (hs : FReachable h code travel knows s) (p : P) (a : A)
    (ha : s.sh.requests p a = true ∨ (s.sh.results p a).isSome = true) :
    Complete h travel s.sh p a ∧ (¬ travel → CompleteIn h s.sh p a) := by
  have o := hs.ok inj
  have hc : Complete h travel s.sh p a := by
    rcases ha with ha | ha
    · exact o.inv.requests p a ha
    · obtain ⟨r, hr⟩ := Option.isSome_iff_exists.1 ha
      exact (o.inv.results p a r hr).1
  refine ⟨hc, fun nt => ?_⟩
  have key : ∀ b, Avail travel s.sh p b → ∃ v, s.sh.store p b = some v ∧ b = h v := by
    intro b hb
    obtain ⟨v, hv⟩ := Option.isSome_iff_exists.1 (hb.elim id fun x => absurd x.1 nt)
    exact ⟨v, hv, o.inv.store p b v hv⟩
  obtain ⟨f, l, e, so, h1, h2, h3, h4⟩ := hc
  obtain ⟨v1, hv1, e1⟩ := key _ h1
  obtain ⟨v2, hv2, e2⟩ := key _ h2
  obtain ⟨v3, hv3, e3⟩ := key _ h3
  refine ⟨f, l, e, so, ?_, ?_, ?_, fun x hx => key _ (h4 x hx)⟩
  · rw [hv1]; exact congrArg some (inj ((e1.symm.trans e)))
  · rw [hv2]; exact congrArg some (inj e2.symm)
  · rw [hv3]; exact congrArg some (inj e3.symm)

/-- **C105** The value of a stored result is stored too, and is one that evaluating the call can give if any operation inside
it may fail; if functions do not catch exceptions, it is one that evaluating the call gives when nothing fails: a failure never
leaves a wrong result. -/
theorem C105_results_correct (inj : Function.Injective h) {s : State U A P} (hs : FReachable h code travel knows s)
    (p : P) (a r : A) (hr : s.sh.results p a = some r) :
    ∃ f kw v, a = callOf h f kw ∧ s.sh.store p r = some v ∧ Outcome h code False (code f kw) (.val v) ∧
      ((∀ f kw, Uncaught (code f kw)) → Outcome h code True (code f kw) (.val v)) := by
  have o := hs.ok inj
  obtain ⟨_, h2, f, kw, v, e1, e2, e3⟩ := o.inv.results p a r hr
  obtain ⟨w, hw⟩ := Option.isSome_iff_exists.1 h2
  have e := o.inv.store p r w hw
  rw [e2] at e
  exact ⟨f, kw, v, e1, inj e ▸ hw, e3, fun un => e3.sure un v rfl (un f kw)⟩

/-- **C105** The same for every value that an operation returns as the result of a call. -/
theorem C105_returned_correct (inj : Function.Injective h) {s : State U A P} (hs : FReachable h code travel knows s) (i : Nat)
    (a : A) (v : Val U A) (hm : (s.procs i).mode = .io (.done (.got a v))) :
    ∃ f kw, a = callOf h f kw ∧ Outcome h code False (code f kw) (.val v) ∧
      ((∀ f kw, Uncaught (code f kw)) → Outcome h code True (code f kw) (.val v)) := by
  obtain ⟨Q, _, h2⟩ := (hs.ok inj).io i hm
  obtain ⟨f, kw, w, e1, e2, e3⟩ := ReplyOk.got h2 a v rfl
  obtain rfl := inj e2
  exact ⟨f, kw, e1, e3, fun un => e3.sure un _ rfl (un f kw)⟩

/-- **C105** Stored values and results stay: no failure loses or damages them. -/
theorem C105_stored_stays (inj : Function.Injective h) {s t : State U A P} (hs : FReachable h code travel knows s)
    (hst : FSteps h code travel knows s t) :
    (∀ p a v, s.sh.store p a = some v → t.sh.store p a = some v) ∧
    (∀ p a, (s.sh.results p a).isSome = true → (t.sh.results p a).isSome = true) := by
  suffices AllOk h code travel False t ∧ Le s.sh t.sh from ⟨this.2.store, this.2.results⟩
  induction hst with
  | refl => exact ⟨hs.ok inj, .refl _⟩
  | step i x y ih => exact ⟨fstep_ok inj ih.1 y, ih.2.trans (fstep_le inj ih.1 y)⟩

theorem FSteps.trans {s t u : State U A P} (x : FSteps h code travel knows s t) (y : FSteps h code travel knows t u) :
    FSteps h code travel knows s u := by
  induction y with
  | refl => exact x
  | step i _ z ih => exact .step i ih z

/-- **C105** If functions are pure and do not catch exceptions, the results of a call are the same in all portals, at all times and
in all executions, whether or not accesses fail. -/
theorem C105_portals_agree (inj : Function.Injective h) (pure : OneValue h code) (un : ∀ f kw, Uncaught (code f kw))
    {s t : State U A P} (hs : FReachable h code travel knows s) (ht : FReachable h code travel knows t) (p q : P) (a r r' : A)
    (hr : s.sh.results p a = some r) (hr' : t.sh.results q a = some r') : r = r' :=
  correct_unique inj pure (((hs.ok inj).inv.results p a r hr).2.2.sure un) (((ht.ok inj).inv.results q a r' hr').2.2.sure un)

/-- **C105** … in particular a stored result never changes. -/
theorem C105_results_never_change (inj : Function.Injective h) (pure : OneValue h code) (un : ∀ f kw, Uncaught (code f kw))
    {s t : State U A P} (hs : FReachable h code travel knows s) (hst : FSteps h code travel knows s t) (p : P) (a r : A)
    (hr : s.sh.results p a = some r) : t.sh.results p a = some r := by
  obtain ⟨r', hr'⟩ := Option.isSome_iff_exists.1 ((C105_stored_stays inj hs hst).2 p a (by rw [hr]; rfl))
  rw [hr', C105_portals_agree inj pure un hs (FSteps.trans hs hst) p p a r r' hr hr']

/-- **C105** No false alarms: if functions are pure and do not catch exceptions, no consistency check ever fails, in no process, whatever
accesses fail. -/
theorem C105_no_false_alarms (inj : Function.Injective h) (pure : OneValue h code) (un : ∀ f kw, Uncaught (code f kw))
    {s : State U A P} (hs : FReachable h code travel knows s) (i : Nat) : (s.procs i).mode ≠ .io (.done .clash) := by
  intro e
  have same : ∀ f kw v w, Outcome h code False (code f kw) (.val v) → Outcome h code False (code f kw) (.val w) → v = w :=
    fun f kw v w x y => pure f kw v w (x.sure un v rfl (un f kw)) (y.sure un w rfl (un f kw))
  obtain ⟨Q, h1, h2⟩ := (hs.ok inj).io i e
  have ask : Q .clash := ReplyOk.ask h2 _ (.refl _)
  generalize (s.procs i).stack = st, (s.procs i).job = job at h1
  generalize eb : true = b at h1
  cases h1 with
  | script => cases eb
  | inOp => cases eb
  | worker =>
    obtain ⟨a, e1, f, kw, v, w, e2, e3, e4, e5⟩ := ask rfl
    exact e5 (same f kw v w e3 e4)
  | inCode c next st G Q x ha hn hm =>
    have := ha _ ask
    generalize er : (Reply.clash : Reply U A P) = r at this
    cases this with
    | call f vs v e x => cases er
    | raised f vs e x => cases er
    | missing => cases er
    | clash f vs v w e x x' ne => exact ne (same f vs v w x x')
    | other _ e => subst er; cases c <;> exact e.elim

/-- **C105** A request only disappears when the same portal has the result, or by `addr.drop_execution_request()`. -/
theorem C105_dropped_only_with_result {s t : State U A P} (hs : FReachable h code travel knows s) {i : Nat}
    (x : FStep h code travel knows i s t) (p : P) (a : A) (h1 : s.sh.requests p a = true)
    (h2 : t.sh.requests p a = false) :
    (s.sh.results p a).isSome = true ∨ ∃ next st, (s.procs i).stack = .inCode (.dropAddr p a) next :: st := by
  have same : t.sh.requests = s.sh.requests → False := fun e => by rw [e, h1] at h2; cases h2
  cases x with
  | fail | unread | retried => exact (same rfl).elim
  | step _ x =>
    cases x with
    | crash => exact (same rfl).elim
    | act _ x =>
      cases x with
      | drop q b k hm =>
        have e : p = q ∧ a = b := by
          by_cases e : p = q ∧ a = b
          · exact e
          · have : (s.sh.setRequest q b false).requests p a = s.sh.requests p a := setRequest_other e
            rw [State.next] at h2
            rw [h2, h1] at this
            cases this
        obtain ⟨rfl, rfl⟩ := e
        rcases (hs.safe i).1 _ hm with y | ⟨q, b, next, st, e, e', _⟩
        · exact .inl (y _ (.refl _)).1
        · injection e with e1 e2
          subst e1 e2
          exact .inr ⟨next, st, e'⟩
      | request q b k hm =>
        by_cases e : p = q ∧ a = b
        · obtain ⟨rfl, rfl⟩ := e
          have : (s.sh.setRequest p a true).requests p a = true := setRequest_self ..
          rw [State.next] at h2
          rw [h2] at this
          cases this
        · have : (s.sh.setRequest q b true).requests p a = s.sh.requests p a := setRequest_other e
          rw [State.next] at h2
          rw [h2, h1] at this
          cases this
      | _ => exact (same rfl).elim

theorem FCalmSteps.safe {s t : State U A P} (x : FCalmSteps h code travel knows N s t)
    (o : ∀ j, ProcSafe h N s.sh (s.procs j)) : LeN N s.sh t.sh ∧ ∀ j, ProcSafe h N t.sh (t.procs j) := by
  induction x with
  | refl => exact ⟨.refl _, o⟩
  | step i x y calm ih =>
    obtain ⟨h1, h2⟩ := fstep_safe ih.2 y calm
    exact ⟨ih.1.trans h1, h2⟩

/-- **C105** A call that is requested or has a result stays so, whatever fails, as long as nobody drops the request. -/
theorem C105_request_stays {s t : State U A P} (x : FCalmSteps h code travel knows N init s)
    (y : FCalmSteps h code travel knows N s t) (p : P) (a : A) (hn : N p a) (ha : Asked s.sh p a) : Asked t.sh p a :=
  (y.safe (x.safe init_safe).2).1.asked p a hn ha

/-- **C105** When `f.swarm(**kw)` returns an address — instead of raising —, the call is requested or has a result, whatever
failed before, in this process or others. -/
theorem C105_swarm_requests {s : State U A P} (x : FCalmSteps h code travel knows N init s) {i : Nat} {p q : P}
    {os : List P} {f : FnId} {kw : List (String × Arg U A P)} {next : Reply U A P → Code U A P}
    {st : List (Frame U A P)} {job : Option A} {a : A}
    (hm : s.procs i = ⟨.io (.done (.call q a)), .inCode (.swarm p os f kw) next :: st, job⟩) :
    q = p ∧ (∀ us, kw = raws us → a = callOf h f (vals us)) ∧ (N p a → Asked s.sh p a) := by
  have := (x.safe init_safe).2 i
  rw [hm] at this
  rcases this.1 _ rfl with y | ⟨_, _, _, _, e, _⟩
  · exact y _ (.refl _) q a rfl
  · cases e

/-- **C105** The same for all addresses that `f.swarm_list(kws)` returns. -/
theorem C105_swarm_list_requests {s : State U A P} (x : FCalmSteps h code travel knows N init s) {i : Nat} {p q : P}
    {os : List P} {f : FnId} {kws : List (List (String × Arg U A P))} {shuffle : List A → List A}
    {next : Reply U A P → Code U A P} {st : List (Frame U A P)} {job : Option A} {l : List A}
    (hm : s.procs i = ⟨.io (.done (.calls q l)), .inCode (.swarmList p os f kws shuffle) next :: st, job⟩) :
    q = p ∧ (∀ uss : List (List (String × U)), kws = uss.map raws → l = uss.map fun us => callOf h f (vals us)) ∧
    ∀ a ∈ l, N p a → Asked s.sh p a := by
  have := (x.safe init_safe).2 i
  rw [hm] at this
  rcases this.1 _ rfl with y | ⟨_, _, _, _, e, _⟩
  · exact y _ (.refl _) q l rfl
  · cases e

/-- **C105** When `addr.request_execution()` returns without an exception, the call is requested or has a result. -/
theorem C105_request_execution_requests {s : State U A P} (x : FCalmSteps h code travel knows N init s) {i : Nat} {p : P}
    {os : List P} {a : A} {next : Reply U A P → Code U A P} {st : List (Frame U A P)} {job : Option A}
    (hm : s.procs i = ⟨.io (.done .unit), .inCode (.requestAddr p os a) next :: st, job⟩) (hn : N p a) :
    Asked s.sh p a := by
  have := (x.safe init_safe).2 i
  rw [hm] at this
  rcases this.1 _ rfl with y | ⟨_, _, _, _, e, _⟩
  · exact y _ (.refl _) rfl hn
  · cases e

/-- **C105** When the call `f(**kw)` returns a value, its result is stored in the portal of `f`. -/
theorem C105_returned_call_is_stored {s : State U A P} (hs : FReachable h code travel knows s) {i : Nat} {p : P}
    {os : List P} {f : FnId} {kw : List (String × Arg U A P)} {next : Reply U A P → Code U A P}
    {st : List (Frame U A P)} {job : Option A} {a : A} {v : Val U A}
    (hm : s.procs i = ⟨.io (.done (.got a v)), .inCode (.execute p os f kw) next :: st, job⟩) :
    (∀ us, kw = raws us → a = callOf h f (vals us)) ∧ (s.sh.results p a).isSome = true := by
  have := hs.safe i
  rw [hm] at this
  rcases this.1 _ rfl with y | ⟨_, _, _, _, e, _⟩
  · exact y _ (.refl _) a v rfl
  · cases e

/-- once storage works again and the processes have been restarted, everything is as it should be -/
theorem recovered_ok (inj : Function.Injective h) (un : ∀ f kw, Uncaught (code f kw)) {s : State U A P}
    (hs : FReachable h code travel knows s) (idle : ∀ i, s.procs i = {}) : AllOk h code travel True s := by
  have o := hs.ok inj
  refine ⟨⟨o.inv.store, o.inv.requests, fun p a r hr => ?_⟩, o.vals, o.calls, fun i => by rw [idle i]; trivial⟩
  obtain ⟨h1, h2, h3⟩ := o.inv.results p a r hr
  exact ⟨h1, h2, h3.sure un⟩

/-- **C105** Nothing stays broken: if, after any history of failures, the processes are restarted and storage works from now on,
no operation ever finds something missing … -/
theorem C105_nothing_missing_afterwards (inj : Function.Injective h) (un : ∀ f kw, Uncaught (code f kw))
    (kn : travel → KnowsAll knows) {s t : State U A P} (hs : FReachable h code travel knows s) (idle : ∀ i, s.procs i = {})
    (hst : Steps h code travel knows s t) (i : Nat) : (t.procs i).mode ≠ .io (.done .missing) := by
  intro e
  obtain ⟨Q, _, h2⟩ := (steps_ok inj (fun _ => kn) (recovered_ok inj un hs idle) hst).io i e
  exact ReplyOk.found h2 trivial rfl

/-- **C105** … and a worker that picks up a visible request — also one made, or worked on, while storage failed — gets it done
after finitely many own steps, whatever the others do in between. -/
theorem C105_requests_are_served_afterwards (inj : Function.Injective h) (un : ∀ f kw, Uncaught (code f kw))
    (kn : travel → KnowsAll knows) (lawful : ∀ f kw, Lawful h code travel knows [] [] (code f kw)) {s t : State U A P}
    (hs : FReachable h code travel knows s) (idle : ∀ i, s.procs i = {}) (hst : Steps h code travel knows s t)
    (i : Nat) (hi : t.procs i = {}) (p : P) (os : List P) (hk : knows p os) (f : FnId) (kw : List (String × Val U A))
    (hr : t.sh.requests p (callOf h f kw) = true) (halts : Halts h code False (code f kw)) :
    Will h code travel knows i (fun u => (∃ r', u.procs i = ⟨.io (.done r'), [], some (callOf h f kw)⟩) ∧
        ((∃ v, u.sh.results p (callOf h f kw) = some (h v) ∧ Outcome h code True (code f kw) (.val v)) ∨
          Outcome h code True (code f kw) .raised))
      (t.setProc i ⟨.io (work h p os (callOf h f kw)), [], some (callOf h f kw)⟩) := by
  have o := steps_ok inj (fun _ => kn) (recovered_ok inj un hs idle) hst
  have ot := act_ok inj (fun _ => kn) o (.found p os _ hi hk hr)
  exact work_gets inj (will_steppable inj kn) (fun z => kn z p os hk) (code_will inj kn lawful halts (lawful f kw)) ⟨_, rfl⟩
    ot (by simp [State.setProc]) (o.inv.requests p _ hr) fun m r om gm em hm => .now m ⟨⟨r, em⟩, hm⟩

/-! ### examples and the counterexample -/

theorem Steps.faulty {s t : State U A P} (x : Steps h code travel knows s t) : FSteps h code travel knows s t := by
  induction x with
  | refl => exact .refl _
  | step i _ y ih => exact .step i ih (.step _ y)

theorem FSteps.then {s t u : State U A P} (x : FSteps h code travel knows s t) (y : Steps h code travel knows t u) :
    FSteps h code travel knows s u := x.trans y.faulty

namespace Ex
open Pure.Ex (T addrOf addrOf_inj)

theorem fns2_uncaught (f : FnId) (kw : List (String × Val Nat T)) : Uncaught (fns2 f kw) := by
  unfold fns2
  split
  · refine .op _ _ rfl rfl fun r => ?_
    unfold plusOne
    split
    · exact .ret _
    · exact .raise
  · exact .ret _

/-- a client makes the call of function 1 and is inside the nested call of function 0 -/
def flt1 : State Nat T Bool := ticks addrOf fns2 0 8 (perform 0 true [] (enterF fns2 0 true init))

theorem flt1_reach : Reachable addrOf fns2 False any flt1 := by
  refine ticks_steps 8 (perform_steps (enterF_steps (.refl _) rfl) ?_)
  exact nextOp_raw (us := [("x", 7)]) (p' := true) (os' := []) (f := 0) rfl

/-- is a process inside an operation? -/
def inIo : Proc Nat T Bool → Bool
  | ⟨.io _, _, _⟩ => true
  | _ => false

/-- there an access fails, so that the nested call raises, the outer one too, and the client ends -/
def flt2 : State Nat T Bool := (flt1.goto 0 (.io (.done .missing))).setProc 0 {}

theorem inIo_iff {x : Proc Nat T Bool} (e : inIo x = true) : ∃ y, x.mode = .io y := by
  obtain ⟨m, st, job⟩ := x
  cases m with
  | io y => exact ⟨y, rfl⟩
  | idle => cases e
  | code c => cases e

theorem flt2_reach : FReachable addrOf fns2 False any flt2 := by
  obtain ⟨y, hy⟩ := inIo_iff (x := flt1.procs 0) (by decide +kernel)
  exact .step 0 (.step 0 (Steps.faulty flt1_reach) (.fail y hy)) (.step _ .crash)

theorem flt2_idle (i : Nat) : flt2.procs i = {} := by
  by_cases e : i = 0
  · subst e; simp [flt2, State.setProc]
  · simp only [flt2, State.setProc, State.goto, Function.update_of_ne e]
    have : ∀ n, ∀ s : State Nat T Bool, (ticks addrOf fns2 0 n s).procs i = s.procs i := by
      intro n
      induction n with
      | zero => exact fun _ => rfl
      | succ n ih =>
        intro s
        rw [ticks, ih]
        unfold tick
        split <;> simp [State.setProc, State.goto, State.next, Function.update_of_ne e]
    have hp : ∀ s : State Nat T Bool, (perform 0 true [] s).procs i = s.procs i := by
      intro s
      unfold perform
      split <;> simp [State.setProc, Function.update_of_ne e]
    rw [flt1, this, hp, enterF, this]
    simp [call, State.setProc, Function.update_of_ne e, init]

/-- the premises are met: after the failure, the request of the outer call is still there and has no result, and worker 5 will
serve it -/
example : flt2.sh.requests true a1 = true ∧ flt2.sh.results true a1 = none ∧
    Will addrOf fns2 False any 5 (fun t => (∃ r', t.procs 5 = ⟨.io (.done r'), [], some a1⟩) ∧
        ((∃ v, t.sh.results true a1 = some (addrOf v) ∧ Outcome addrOf fns2 True (fns2 1 []) (.val v)) ∨
          Outcome addrOf fns2 True (fns2 1 []) .raised))
      (flt2.setProc 5 ⟨.io (work addrOf true [] a1), [], some a1⟩) := by
  have hr : flt2.sh.requests true (callOf addrOf 1 []) = true := by decide +kernel
  refine ⟨hr, by decide +kernel, ?_⟩
  exact C105_requests_are_served_afterwards addrOf_inj fns2_uncaught (fun x => x.elim) fns2_lawful flt2_reach flt2_idle (.refl _)
    5 (flt2_idle 5) true [] trivial 1 [] hr fns2_halts

/-- what a function does that catches all exceptions of the call of function 0 -/
def plusOneOr : Reply Nat T Bool → Code Nat T Bool
  | .got _ (.user n) => .ret (.user (n + 1))
  | _ => .ret (.user 0)

/-- function 1: `try: return f0(x=7) + 1`, `except: return 0`; function 0 returns 5 -/
def fns6 : FnId → List (String × Val Nat T) → Code Nat T Bool
  | 1, _ => .op (.execute true [] 0 (raws [("x", 7)])) plusOneOr
  | _, _ => .ret (.user 5)

theorem fns6_det (f : FnId) (kw : List (String × Val Nat T)) : CallsOnly (fns6 f kw) := by
  unfold fns6
  split
  · refine .call _ _ _ _ _ fun r => ?_
    unfold plusOneOr
    split <;> exact .ret _
  · exact .ret _

theorem fns6_outcome : Outcome addrOf fns6 True (fns6 1 []) (.val (.user 6)) := by
  refine .call _ _ 0 [("x", .user 7)] (.user 5) _ ⟨rfl, ?_⟩ (.ret _) (.ret _)
  exact gets_raws [("x", 7)]

/-- the client is inside the nested call -/
def spo1 : State Nat T Bool := ticks addrOf fns6 0 8 (perform 0 true [] (enterF fns6 0 true init))

theorem spo1_reach : Reachable addrOf fns6 False any spo1 := by
  refine ticks_steps 8 (perform_steps (enterF_steps (.refl _) rfl) ?_)
  exact nextOp_raw (us := [("x", 7)]) (p' := true) (os' := []) (f := 0) rfl

/-- one access fails; the client goes on -/
def spo2 : State Nat T Bool := ticks addrOf fns6 0 6 (spo1.goto 0 (.io (.done .missing)))

theorem spo2_reach : FReachable addrOf fns6 False any spo2 := by
  obtain ⟨y, hy⟩ := inIo_iff (x := spo1.procs 0) (by decide +kernel)
  exact FSteps.then (.step 0 (Steps.faulty spo1_reach) (.fail y hy)) (ticks_steps 6 (.refl _))

theorem spo2_result : spo2.sh.results true a1 = some (addrOf (.user 0)) := by decide +kernel

end Ex

/-- **C105** The condition about exceptions is needed: a function that only computes and calls functions — so that evaluating a call
gives exactly one value — but catches all exceptions of a nested call may, because of one failing access, get a wrong result; it
stays, in all later states. -/
theorem C105_caught_exceptions_counterexample :
    OneValue Pure.Ex.addrOf Ex.fns6 ∧ Outcome Pure.Ex.addrOf Ex.fns6 True (Ex.fns6 1 []) (.val (.user 6)) ∧
    ∃ s : State Nat Pure.Ex.T Bool, FReachable Pure.Ex.addrOf Ex.fns6 False Ex.any s ∧
      ∃ r, s.sh.results true (callOf Pure.Ex.addrOf 1 []) = some r ∧ r ≠ Pure.Ex.addrOf (.user 6) :=
  ⟨C89_calling_functions_are_pure Pure.Ex.addrOf_inj Ex.fns6_det, Ex.fns6_outcome, Ex.spo2, Ex.spo2_reach, _, Ex.spo2_result,
    fun e => by have := Pure.Ex.addrOf_inj e; cases this⟩

end Pyth.Parts
