import Verif.Proofs.SwarmLive
import Verif.Props.SwarmValues
/-!
# C90: a worker or caller that is not killed gets its call done, whatever the others do
-/
namespace Pyth.Parts
open Pyth.Pure (Val FnId)

variable {U A P : Type} [DecidableEq P] [DecidableEq A] {h : Val U A → A}
  {code : FnId → List (String × Val U A) → Code U A P} {travel : Prop} {knows : P → List P → Prop}

/-- **C90** A worker that has picked up a visible request — whoever made it, and wherever processes have died before —
comes to the end of its work after finitely many of its own steps, whatever other processes do in between (dying
included), provided evaluating the call comes to an end and does not wait for others; it is never stuck.  Then the result
of the call is stored in the portal of the request and is a value to which the call evaluates, or the evaluation can raise. -/
theorem C90_worker_finishes_partial (inj : Function.Injective h) (kn : travel → KnowsAll knows)
    (lawful : ∀ f kw, Lawful h code travel knows [] [] (code f kw)) {s : State U A P} (hs : Reachable h code travel knows s)
    (i : Nat) (hi : s.procs i = {}) (p : P) (os : List P) (hk : knows p os) (f : FnId) (kw : List (String × Val U A))
    (hr : s.sh.requests p (callOf h f kw) = true) (halts : Halts h code False (code f kw)) :
    Will h code travel knows i (fun t => (∃ r', t.procs i = ⟨.io (.done r'), [], some (callOf h f kw)⟩) ∧
        ((∃ v, t.sh.results p (callOf h f kw) = some (h v) ∧ Outcome h code True (code f kw) (.val v)) ∨
          Outcome h code True (code f kw) .raised))
      (s.setProc i ⟨.io (work h p os (callOf h f kw)), [], some (callOf h f kw)⟩) := by
  have o := hs.ok (strict := True) inj fun _ => kn
  have ot := act_ok inj (fun _ => kn) o (.found p os _ hi hk hr)
  exact work_gets inj (will_steppable inj kn) (fun z => kn z p os hk) (code_will inj kn lawful halts (lawful f kw)) ⟨_, rfl⟩
    ot (by simp [State.setProc]) (o.inv.requests p _ hr) fun m r om gm em hm => .now m ⟨⟨r, em⟩, hm⟩

/-- **C90** The same in terms of infinite executions: if a worker picks up a visible request at time `n`, and is not killed
and does not stop while it has something to do, and the call can only evaluate to `v`, then at some later time the result
`v` is stored in the portal of the request. -/
theorem C90_request_is_served_partial (inj : Function.Injective h) (kn : travel → KnowsAll knows)
    (lawful : ∀ f kw, Lawful h code travel knows [] [] (code f kw)) {σ : Nat → State U A P} {who : Nat → Nat} {i : Nat}
    (al : Alive h code travel knows i σ who) (h0 : Reachable h code travel knows (σ 0)) (n : Nat)
    (hi : (σ n).procs i = {}) (p : P) (os : List P) (hk : knows p os) (f : FnId) (kw : List (String × Val U A))
    (hr : (σ n).sh.requests p (callOf h f kw) = true)
    (hn : σ (n + 1) = (σ n).setProc i ⟨.io (work h p os (callOf h f kw)), [], some (callOf h f kw)⟩)
    (halts : Halts h code False (code f kw)) (v : Val U A) (one : ∀ r, Outcome h code True (code f kw) r → r = .val v) :
    ∃ m, n < m ∧ (σ m).sh.results p (callOf h f kw) = some (h v) := by
  have hs : Reachable h code travel knows (σ n) := by
    clear hn hi hr
    induction n with
    | zero => exact h0
    | succ n ih => exact .step (who n) ih (al.step n)
  obtain ⟨m, h1, _, h2⟩ := (C90_worker_finishes_partial inj kn lawful hs i hi p os hk f kw hr halts).alive (n + 1) al hn
  rcases h2 with ⟨w, h2, h3⟩ | h2
  · cases one _ h3
    exact ⟨m, h1, h2⟩
  · cases one _ h2

/-- **C90** No crash leaves a request that cannot be served: from every reachable state, a worker can bring every visible
request, the call of which can only evaluate to `v`, to its result. -/
theorem C90_no_dead_requests_partial (inj : Function.Injective h) (kn : travel → KnowsAll knows)
    (lawful : ∀ f kw, Lawful h code travel knows [] [] (code f kw)) {s : State U A P} (hs : Reachable h code travel knows s)
    (i : Nat) (p : P) (os : List P) (hk : knows p os) (f : FnId) (kw : List (String × Val U A))
    (hr : s.sh.requests p (callOf h f kw) = true) (halts : Halts h code False (code f kw))
    (v : Val U A) (one : ∀ r, Outcome h code True (code f kw) r → r = .val v) :
    ∃ t, Steps h code travel knows s t ∧ t.sh.results p (callOf h f kw) = some (h v) := by
  have hs1 : Reachable h code travel knows (s.setProc i {}) := .step i hs .crash
  have hi1 : (s.setProc i {}).procs i = {} := by simp [State.setProc]
  obtain ⟨t, ht, hd, hv⟩ := (C90_worker_finishes_partial inj kn lawful hs1 i hi1 p os hk f kw hr halts).possible
  replace hv : t.sh.results p (callOf h f kw) = some (h v) := by
    rcases hv with ⟨w, h2, h3⟩ | h2
    · cases one _ h3
      exact h2
    · cases one _ h2
  refine ⟨t, ?_, hv⟩
  clear hv hd
  induction ht with
  | refl => exact .step i (.step i (.refl _) .crash) (.act _ (.found p os _ hi1 hk hr))
  | step j x y ih => exact .step j ih y

/-- **C90** Every operation other than `addr.get()` without a timeout, used anywhere in a program with address objects that
were obtained before, returns after finitely many own steps of its process — whatever the others do in between —
with an answer that the evaluation of the operation can give, provided evaluating the calls it may run comes to an end. -/
theorem C90_operation_returns_partial (inj : Function.Injective h) (kn : travel → KnowsAll knows)
    (lawful : ∀ f kw, Lawful h code travel knows [] [] (code f kw)) {s : State U A P} (hs : Reachable h code travel knows s)
    (i : Nat) (c : Cmd U A P) (next : Reply U A P → Code U A P) (st : List (Frame U A P)) (job : Option A)
    (hi : s.procs i = ⟨.code (.op c next), st, job⟩) (legal : ∃ p os, Legal travel knows s.vaddrs s.raddrs (c.at p os))
    (timed : ∀ p os a, c ≠ .getResult p os a none) (halts : ∀ f kw, Runs h c f kw → Halts h code False (code f kw)) :
    Will h code travel knows i (fun t => ∃ r, Answer h code True c r ∧ t.procs i = ⟨.code (next r), st, job⟩) s :=
  op_gets inj kn (will_steppable inj kn) (fun f kw hr => code_will inj kn lawful (halts f kw hr) (lawful f kw))
    (fun p os f kw e => absurd e (timed p os _)) legal ⟨_, rfl⟩ (hs.ok (strict := True) inj fun _ => kn) hi
    ⟨fun _ x => x, fun _ x => x⟩ fun m r _ _ _ em hr => .now m ⟨r, hr, em⟩

/-- **C90** A call `f(**kw)` with plain arguments, made anywhere in a program, returns after finitely many own steps of its
process — whatever the others do in between — a value to which the call evaluates, or raises and the evaluation
can raise, or fails a consistency check and the call evaluates to two different values. -/
theorem C90_call_returns_partial (inj : Function.Injective h) (kn : travel → KnowsAll knows)
    (lawful : ∀ f kw, Lawful h code travel knows [] [] (code f kw)) (some : ∃ p os, knows p os) {s : State U A P}
    (hs : Reachable h code travel knows s) (i : Nat) (p : P) (os : List P) (f : FnId) (us : List (String × U))
    (next : Reply U A P → Code U A P) (st : List (Frame U A P)) (job : Option A)
    (hi : s.procs i = ⟨.code (.op (.execute p os f (raws us)) next), st, job⟩)
    (halts : Halts h code False (code f (vals us))) :
    Will h code travel knows i (fun t =>
      (∃ v, t.procs i = ⟨.code (next (.got (callOf h f (vals us)) v)), st, job⟩ ∧ Outcome h code True (code f (vals us)) (.val v)) ∨
      (t.procs i = ⟨.code (next .raised), st, job⟩ ∧ Outcome h code True (code f (vals us)) .raised) ∨
      (t.procs i = ⟨.code (next .clash), st, job⟩ ∧ ∃ v w, v ≠ w ∧ Outcome h code True (code f (vals us)) (.val v) ∧
        Outcome h code True (code f (vals us)) (.val w))) s := by
  obtain ⟨p', os', hp⟩ := some
  refine op_gets inj kn (will_steppable inj kn) (c := .execute p os f (raws us)) (fun f' kw hr => ?_)
    (fun _ _ _ _ e => (nomatch e)) ⟨p', os', hp, argsKnown_raws us⟩ ⟨_, rfl⟩ (hs.ok (strict := True) inj fun _ => kn) hi
    ⟨fun _ x => x, fun _ x => x⟩ fun m r _ _ _ em hr => .now m ?_
  · obtain ⟨rfl, hr⟩ := hr
    rw [gets_raws_iff inj hr]
    exact code_will inj kn lawful halts (lawful _ _)
  · cases hr with
    | call f' vs v e x =>
      obtain ⟨rfl, e⟩ := e
      rw [gets_raws_iff inj e] at x em
      exact .inl ⟨v, em, x⟩
    | raised f' vs e x =>
      obtain ⟨rfl, e⟩ := e
      rw [gets_raws_iff inj e] at x
      exact .inr (.inl ⟨em, x⟩)
    | other _ e => cases r <;> exact e.elim
    | missing e => exact absurd trivial e
    | clash f' vs v w e x x' ne =>
      obtain ⟨vs', e, ec⟩ := e
      obtain ⟨rfl, rfl⟩ := callOf_inj inj ec
      rw [gets_raws_iff inj e] at x x'
      exact .inr (.inr ⟨em, v, w, ne, x, x'⟩)

/-- **C90** A whole program that does not wait for others, and the evaluation of which comes to an end, comes to its end
after finitely many own steps of its process, whatever the others do in between, with a possible outcome of the evaluation. -/
theorem C90_program_ends_partial (inj : Function.Injective h) (kn : travel → KnowsAll knows)
    (lawful : ∀ f kw, Lawful h code travel knows [] [] (code f kw)) {s : State U A P} (hs : Reachable h code travel knows s)
    (i : Nat) (c : Code U A P) (hi : s.procs i = ⟨.code c, [], none⟩) (lawful' : Lawful h code travel knows [] [] c)
    (halts : Halts h code False c) :
    Will h code travel knows i (fun t => (∃ v, t.procs i = ⟨.code (.ret v), [], none⟩ ∧ Outcome h code True c (.val v)) ∨
      (t.procs i = ⟨.code .raise, [], none⟩ ∧ Outcome h code True c .raised)) s := by
  refine code_will inj kn lawful halts lawful' _ ⟨_, rfl⟩ s [] none (hs.ok (strict := True) inj fun _ => kn) hi (Has.nil s)
    fun m r _ _ em hr => .now m ?_
  rcases hr.bodyReply with ⟨v, rfl⟩ | rfl
  · exact .inl ⟨v, em, hr⟩
  · exact .inr ⟨em, hr⟩

/-- **C90** Once the result of a call is stored in the portal of an address object, `addr.get()` — however short the
timeout, or without one — returns it after finitely many own steps, whatever the others do in between. -/
theorem C90_get_returns_partial (inj : Function.Injective h) (kn : travel → KnowsAll knows)
    (pure : OneValue h code) {s : State U A P} (hs : Reachable h code travel knows s) (i : Nat) (p : P)
    (some : ∃ os, knows p os) (os : List P) (a : A) (n : Option Nat) (next : Reply U A P → Code U A P) (st : List (Frame U A P))
    (job : Option A) (hi : s.procs i = ⟨.code (.op (.getResult p os a n) next), st, job⟩)
    (ha : Held travel s.raddrs p a) (v : Val U A) (hv : s.sh.results p a = Option.some (h v)) :
    Will h code travel knows i (fun t => t.procs i = ⟨.code (next (.got a v)), st, job⟩) s := by
  have o := hs.ok (strict := True) inj fun _ => kn
  have correct := (o.inv.results p a _ hv).2.2
  have sp := will_steppable (h := h) (code := code) (T := travel) (knows := knows) (i := i) inj kn
  refine sp _ ⟨_, rfl⟩ s _ o hi busy_op (fun s' g e' => ?_) fun s' m o' g e' y om gm => ?_
  · obtain ⟨os', ho⟩ := some
    exact ⟨_, .op (.getResult p os a n) next p os' (by rw [e']) ⟨ho, Held.mono g.calls ha⟩⟩
  · obtain ⟨p', os', hl, em⟩ := act_op e' y
    refine io_gets (J := fun _ => False) (Q := fun r _ => r = .got a v) (st := .inCode (.getResult p os' a n) next :: st) (job := job)
      sp (fun f' kw' ea => ea.elim) ⟨_, rfl⟩ (prog h (.getResult p os' a n)) om (by simp only [em]; simp [State.setProc, Cmd.at]) ?_
      (fun u r' ou lu eu hr => ?_) fun u q os2 b ou gu eu hx => hx.1.elim
    · refine getResult_ok (gm.le.results p a (by rw [hv]; rfl)) fun w hw _ => ?_
      rw [inj (correct_unique inj pure hw correct)]
    · have : r' = .got a v := hr.ask _ (.refl _)
      subst this
      refine sp _ ⟨_, rfl⟩ u _ ou eu busy_io (fun s' _ e' => ⟨_, .done _ _ next st job e'⟩) fun s2 t2 o2 l2 e2 y2 ot2 lt2 => ?_
      exact by have e3 := act_done e2 y2; simp only at e3; exact .now t2 (by rw [e3]; simp [State.setProc])

/-- **C90** The premises hold for functions the code of which only calls functions with plain arguments, as soon as
evaluating the call gives something. -/
theorem C90_calling_functions_end (inj : Function.Injective h) (det : ∀ f kw, CallsOnly (code f kw))
    (some : ∃ p os, knows p os) : (∀ f kw, Lawful h code travel knows [] [] (code f kw)) ∧
    ∀ f kw r, Outcome h code True (code f kw) r →
      Halts h code False (code f kw) ∧ ∀ r', Outcome h code True (code f kw) r' → r' = r :=
  ⟨fun f kw => callsOnly_lawful some (det f kw), fun f kw r ho => ⟨callsOnly_halts inj det ho (det f kw), fun r' ho' =>
    (outcome_unique inj (fun f kw => (det f kw).steady) ho ((det f kw).steady) r' ho')⟩⟩

/-! ### examples -/

/-- such executions exist: one starting with any own step … -/
theorem Alive.cons {i : Nat} {s : State U A P} {σ : Nat → State U A P} {who : Nat → Nat}
    (al : Alive h code travel knows i σ who) (x : Act h code travel knows i s (σ 0)) :
    Alive h code travel knows i (fun n => Nat.casesOn n s σ) (fun n => Nat.casesOn n i who) where
  step n := by
    cases n with
    | zero => exact .act _ x
    | succ n => exact al.step n
  own n hn hr := by
    cases n with
    | zero => exact x
    | succ n => exact al.own n hn hr
  again n hr := by
    cases n with
    | zero => exact ⟨0, Nat.le_refl 0, rfl⟩
    | succ n =>
      obtain ⟨m, h1, h2⟩ := al.again n hr
      exact ⟨m + 1, Nat.succ_le_succ h1, h2⟩

/-- … and one in which a worker, alone, finishes and then rests -/
theorem Alive.exists {i : Nat} {job : Option A} {s : State U A P} {G : State U A P → Prop}
    (w : Will h code travel knows i (fun t => (∃ r, t.procs i = ⟨.io (.done r), [], job⟩) ∧ G t) s) :
    ∃ σ who, Alive h code travel knows i σ who ∧ σ 0 = s := by
  induction w with
  | now s g =>
    obtain ⟨⟨r, hr⟩, _⟩ := g
    have e : (s.setProc i {}).setProc i {} = s.setProc i {} := by simp [State.setProc]
    have al : Alive h code travel knows i (fun _ => s.setProc i {}) (fun _ => i) :=
      { step := fun n => by have := Step.crash (h := h) (code := code) (travel := travel) (knows := knows) (i := i) (s := s.setProc i {}); rwa [e] at this
        own := fun n _ hr => absurd (.inl (by simp [State.setProc])) hr
        again := fun n _ => ⟨n, Nat.le_refl n, rfl⟩ }
    exact ⟨_, _, al.cons (.workDone r job hr), rfl⟩
  | later s busy can all ih =>
    obtain ⟨t, ht⟩ := can s .refl
    obtain ⟨σ, who, al, e⟩ := ih s t .refl ht
    subst e
    exact ⟨_, _, al.cons ht, rfl⟩

namespace Ex
open Pure.Ex (T addrOf addrOf_inj)

/-- a client makes the call of function 1 in portal `true` and dies while the code of function 1 runs -/
def z1 : State Nat T Bool := (enterF fns2 0 true init).setProc 0 {}

theorem z1_reach : Reachable addrOf fns2 False any z1 := .step 0 (enterF_steps (.refl _) rfl) .crash

theorem z1_requested : z1.sh.requests true (callOf addrOf 1 []) = true := by decide +kernel

theorem fns2_lawful (f : FnId) (kw : List (String × Val Nat T)) : Lawful addrOf fns2 False any [] [] (fns2 f kw) :=
  (C90_calling_functions_end addrOf_inj fns2_det ⟨true, [], trivial⟩).1 f kw

theorem fns2_halts : Halts addrOf fns2 False (fns2 1 []) :=
  ((C90_calling_functions_end (travel := False) (knows := any) addrOf_inj fns2_det ⟨true, [], trivial⟩).2 _ _ _ fns2_outcome).1

theorem fns2_one (r : Reply Nat T Bool) (x : Outcome addrOf fns2 True (fns2 1 []) r) : r = .val (.user 6) :=
  ((C90_calling_functions_end (travel := False) (knows := any) addrOf_inj fns2_det ⟨true, [], trivial⟩).2 _ _ _ fns2_outcome).2 r x

/-- the client left a request and no result; whatever others do, worker 5 will serve it -/
example : z1.sh.results true a1 = none ∧ z1.sh.requests true a1 = true ∧ z1.procs 0 = {} ∧ z1.procs 5 = {} ∧
    Will addrOf fns2 False any 5 (fun t => (∃ r', t.procs 5 = ⟨.io (.done r'), [], some a1⟩) ∧
        ((∃ v, t.sh.results true a1 = some (addrOf v) ∧ Outcome addrOf fns2 True (fns2 1 []) (.val v)) ∨
          Outcome addrOf fns2 True (fns2 1 []) .raised))
      (z1.setProc 5 ⟨.io (work addrOf true [] a1), [], some a1⟩) := by
  refine ⟨by decide +kernel, by decide +kernel, rfl, rfl, ?_⟩
  · exact C90_worker_finishes_partial addrOf_inj (fun x => x.elim) fns2_lawful z1_reach 5 rfl true [] trivial 1 []
      z1_requested fns2_halts

example : ∃ t, Steps addrOf fns2 False any z1 t ∧ t.sh.results true a1 = some (addrOf (.user 6)) :=
  C90_no_dead_requests_partial addrOf_inj (fun x => x.elim) fns2_lawful z1_reach 5 true [] trivial 1 []
      z1_requested fns2_halts _ fns2_one

/-- there is an execution as in `C90_request_is_served_partial` -/
example : ∃ (σ : Nat → State Nat T Bool) (who : Nat → Nat), Alive addrOf fns2 False any 5 σ who ∧ σ 0 = z1 ∧
    σ 1 = z1.setProc 5 ⟨.io (work addrOf true [] a1), [], some a1⟩ ∧
    ∃ m, 0 < m ∧ (σ m).sh.results true a1 = some (addrOf (.user 6)) := by
  obtain ⟨σ, who, al, e⟩ := Alive.exists (C90_worker_finishes_partial addrOf_inj (fun x => x.elim) fns2_lawful z1_reach 5 rfl
    true [] trivial 1 [] z1_requested fns2_halts)
  have al2 := al.cons (s := z1) (by rw [e]; exact .found true [] a1 rfl trivial z1_requested)
  exact ⟨_, _, al2, rfl, e, C90_request_is_served_partial addrOf_inj (fun x => x.elim) fns2_lawful al2 z1_reach 0 rfl true []
    trivial 1 [] z1_requested e fns2_halts _ fns2_one⟩

/-- a process that is about to call function 1 -/
def z2 : State Nat T Bool := z1.setProc 3 ⟨.code (.op (.execute true [] 1 (raws [])) plusOne), [], none⟩

theorem z2_reach : Reachable addrOf fns2 False any z2 := .step 3 z1_reach (.act _ (.script _ rfl))

/-- the call returns 6, so the process goes on to return 7 -/
example : Will addrOf fns2 False any 3 (fun t => (∃ v, t.procs 3 = ⟨.code (plusOne (.got (callOf addrOf 1 []) v)), [], none⟩ ∧
      Outcome addrOf fns2 True (fns2 1 []) (.val v)) ∨
    (t.procs 3 = ⟨.code .raise, [], none⟩ ∧ Outcome addrOf fns2 True (fns2 1 []) .raised) ∨
    (t.procs 3 = ⟨.code .raise, [], none⟩ ∧ ∃ v w, v ≠ w ∧ Outcome addrOf fns2 True (fns2 1 []) (.val v) ∧
      Outcome addrOf fns2 True (fns2 1 []) (.val w))) z2 :=
  C90_call_returns_partial addrOf_inj (fun x => x.elim) fns2_lawful ⟨true, [], trivial⟩ z2_reach 3 true [] 1 [] plusOne [] none
    rfl fns2_halts

/-- function 1 swarms function 0 and forgets about it; function 0 returns 5.  This code does not only call functions, but it
does not wait either -/
def fns5 : FnId → List (String × Val Nat T) → Code Nat T Bool
  | 1, _ => .op (.swarm true [] 0 (raws [("x", 7)])) fun _ => .ret (.user 3)
  | _, _ => .ret (.user 5)

theorem fns5_lawful (f : FnId) (kw : List (String × Val Nat T)) : Lawful addrOf fns5 False any [] [] (fns5 f kw) := by
  unfold fns5
  split
  · exact .op _ _ _ _ ⟨true, [], trivial, argsKnown_raws _⟩ fun _ _ => .ret _ _ _
  · exact .ret _ _ _

theorem fns5_halts : Halts addrOf fns5 False (fns5 1 []) :=
  .op _ _ (fun _ _ e => e.elim) (fun _ _ _ e => (nomatch e)) (fun _ _ _ _ e => (nomatch e)) (fun _ _ _ _ e => (nomatch e))
    fun _ _ => .ret _

/-- what the script does with the address -/
def tryIt : Reply Nat T Bool → Code Nat T Bool
  | .call p a => .op (.getResult p [] a (some 3)) fun _ => .ret (.user 1)
  | _ => .raise

/-- a script that asks for the address of the call of function 1, waits for a while for its result, and returns -/
def script1 : Code Nat T Bool := .op (.getAddress true [] 1 (raws [])) tryIt

def z4 : State Nat T Bool := init.setProc 2 ⟨.code script1, [], none⟩

theorem script1_lawful : Lawful addrOf fns5 False any [] [] script1 := by
  refine .op _ _ _ _ ⟨true, [], trivial, argsKnown_raws _⟩ fun r hr => ?_
  cases hr with
  | call f vs v e x => exact e.elim
  | raised f vs e x => exact e.elim
  | other _ e =>
    cases r <;> first | exact e.elim | skip
    exact .op _ _ _ _ ⟨true, [], trivial, .inl (.head _)⟩ fun _ _ => .ret _ _ _
  | missing hs => exact absurd trivial hs
  | clash f vs v w e x x' ne => exact e.elim

theorem script1_halts : Halts addrOf fns5 False script1 := by
  refine .op _ _ (fun _ _ e => e.elim) (fun _ _ _ e => (nomatch e)) (fun _ _ _ _ e => (nomatch e)) (fun _ _ _ _ e => (nomatch e))
    fun r hr => ?_
  cases r <;> first | exact .raise | skip
  exact .op _ _ (fun _ _ e => e.elim) (fun _ _ _ e => (nomatch e)) (fun _ _ _ _ e => (nomatch e))
    (fun _ _ _ _ e => (nomatch e)) fun _ _ => .ret _

example : Will addrOf fns5 False any 2 (fun t => (∃ v, t.procs 2 = ⟨.code (.ret v), [], none⟩ ∧ Outcome addrOf fns5 True script1 (.val v)) ∨
      (t.procs 2 = ⟨.code .raise, [], none⟩ ∧ Outcome addrOf fns5 True script1 .raised)) z4 :=
  C90_program_ends_partial addrOf_inj (fun x => x.elim) fns5_lawful (.step 2 (.refl _) (.act _ (.script _ rfl))) 2 script1 rfl
    script1_lawful script1_halts

example : Will addrOf fns5 False any 2 (fun t => ∃ r, Answer addrOf fns5 True (.getAddress true [] 1 (raws [])) r ∧
      t.procs 2 = ⟨.code (tryIt r), [], none⟩) z4 :=
  C90_operation_returns_partial addrOf_inj (fun x => x.elim) fns5_lawful
    (.step 2 (.refl _) (.act _ (.script _ rfl))) 2 (.getAddress true [] 1 (raws [])) tryIt [] none rfl
    ⟨true, [], trivial, argsKnown_raws _⟩ (fun _ _ _ e => (nomatch e)) fun _ _ e => e.elim

/-- process 0 makes the call to its end, then asks for its address; then it is about to `get` the result -/
def z3 : State Nat T Bool := s2.setProc 0 ⟨.code (.op (.getResult true [] a0 (some 0)) plusOne), [], none⟩

theorem z3_reach : Reachable addrOf fns False any z3 := by
  refine .step 0 (.step 0 (ticks_steps 40 (call_steps (c := .getAddress true [] 0 [("x", .raw 7)]) ?_ rfl
    ⟨trivial, legal_raw⟩)) .crash) (.act _ (.script _ rfl))
  exact .step 0 (ticks_steps 40 (call_steps (c := .execute true [] 0 [("x", .raw 7)]) (.refl _) rfl
    ⟨trivial, legal_raw⟩)) .crash

theorem fns_det (f : FnId) (kw : List (String × Val Nat T)) : CallsOnly (fns f kw) := .ret _

theorem z3_held : (true, a0) ∈ z3.raddrs := by decide +kernel

theorem z3_ready : z3.sh.results true a0 = some (addrOf (.user 5)) := by decide +kernel

example : Will addrOf fns False any 0 (fun t => t.procs 0 = ⟨.code (.ret (.user 6)), [], none⟩) z3 :=
  C90_get_returns_partial addrOf_inj (fun x => x.elim) (C89_calling_functions_are_pure addrOf_inj fns_det) z3_reach 0 true
    ⟨[], trivial⟩ [] a0 (some 0) plusOne [] none rfl (.inl z3_held) (.user 5) z3_ready

end Ex

end Pyth.Parts
