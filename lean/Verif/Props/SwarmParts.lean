import Verif.Proofs.SwarmParts
import Verif.Examples.Pure
/-!
# C88: whoever finds a request or a result can rebuild the call, wherever processes crashed
-/
namespace Pyth.Parts
open Pyth.Pure (Val FnId sortKw)

variable {U A P : Type} [DecidableEq P] [DecidableEq A] {h : Val U A → A}
  {code : FnId → List (String × Val U A) → Code U A P} {travel : Prop} {knows : P → List P → Prop}

/-- **C88** (across portals) In every execution of any number of processes, interleaved arbitrarily and crashing
anywhere: a visible request is complete — its signature, its function, its packed arguments and all argument
values have been stored before.  They are in the same portal if address objects do not travel between portals,
otherwise each is in some portal. -/
theorem C88_requests_complete_partial (inj : Function.Injective h) {s : State U A P}
    (hs : Reachable h code travel knows s) (p : P) (a : A) (ha : s.sh.requests p a = true) :
    Complete h travel s.sh p a :=
  (hs.ok (strict := False) inj fun x => x.elim).inv.requests p a ha

/-- **C88** (across portals) The same holds for a visible result, and the value it points to is stored in the same
portal. -/
theorem C88_results_complete_partial (inj : Function.Injective h) {s : State U A P}
    (hs : Reachable h code travel knows s) (p : P) (a r : A) (ha : s.sh.results p a = some r) :
    Complete h travel s.sh p a ∧ ∃ v, s.sh.store p r = some v ∧ r = h v := by
  have o := hs.ok (strict := False) inj fun x => x.elim
  obtain ⟨h1, h2, _⟩ := o.inv.results p a r ha
  obtain ⟨v, hv⟩ := Option.isSome_iff_exists.1 h2
  exact ⟨h1, v, hv, o.inv.store p r v hv⟩

theorem completeIn_of (inj : Function.Injective h) {s : State U A P} (hs : Reachable h code travel knows s) (p : P)
    (a : A) (ha : s.sh.requests p a = true ∨ (s.sh.results p a).isSome = true)
    (hp : ∀ b, Avail travel s.sh p b → (s.sh.store p b).isSome = true) : CompleteIn h s.sh p a := by
  have o := hs.ok (strict := False) inj fun x => x.elim
  have hc : Complete h travel s.sh p a := by
    rcases ha with ha | ha
    · exact o.inv.requests p a ha
    · obtain ⟨r, hr⟩ := Option.isSome_iff_exists.1 ha
      exact (o.inv.results p a r hr).1
  have key : ∀ b, Avail travel s.sh p b → ∃ v, s.sh.store p b = some v ∧ b = h v := by
    intro b hb
    obtain ⟨v, hv⟩ := Option.isSome_iff_exists.1 (hp b hb)
    exact ⟨v, hv, o.inv.store p b v hv⟩
  obtain ⟨f, l, e, so, h1, h2, h3, h4⟩ := hc
  obtain ⟨v1, hv1, e1⟩ := key _ h1
  obtain ⟨v2, hv2, e2⟩ := key _ h2
  obtain ⟨v3, hv3, e3⟩ := key _ h3
  refine ⟨f, l, e, so, ?_, ?_, ?_, fun x hx => key _ (h4 x hx)⟩
  · rw [hv1]; exact congrArg some (inj ((e1.symm.trans e)))
  · rw [hv2]; exact congrArg some (inj e2.symm)
  · rw [hv3]; exact congrArg some (inj e3.symm)

/-- **C88** (address objects stay with their portals) If no address object is passed from one portal to another, every
visible request and result of a portal has everything it needs in that portal: also when processes use several
portals, copy values and results between them, and crash anywhere. -/
theorem C88_own_portal_partial (inj : Function.Injective h) {s : State U A P}
    (hs : Reachable h code False knows s) (p : P) (a : A)
    (ha : s.sh.requests p a = true ∨ (s.sh.results p a).isSome = true) : CompleteIn h s.sh p a :=
  completeIn_of inj hs p a ha fun _ hb => hb.elim id fun x => x.1.elim

/-- **C88** (one portal) If all processes share a single portal, everything a request or a result needs is in that
portal. -/
theorem C88_one_portal_partial [Subsingleton P] (inj : Function.Injective h) {s : State U A P}
    (hs : Reachable h code travel knows s) (p : P) (a : A)
    (ha : s.sh.requests p a = true ∨ (s.sh.results p a).isSome = true) : CompleteIn h s.sh p a := by
  refine completeIn_of inj hs p a ha fun b hb => ?_
  rcases hb with hb | ⟨_, q, hb⟩
  · exact hb
  · obtain rfl := Subsingleton.elim q p
    exact hb

/-- **C88** If address objects stay with their portals, or every process knows all portals (in particular if there is
only one), no operation of any process, and no worker, ever finds something missing: every signature, function,
argument and result it looks up is there, whatever the others do meanwhile and wherever processes died. -/
theorem C88_nothing_missing_partial (inj : Function.Injective h) (kn : travel → KnowsAll knows) {s : State U A P}
    (hs : Reachable h code travel knows s) (i : Nat) : (s.procs i).mode ≠ .io (.done .missing) := by
  intro e
  obtain ⟨Q, _, h2⟩ := (hs.ok (strict := True) inj fun _ => kn).io i e
  exact ReplyOk.found h2 trivial rfl

/-- **C88** Whenever code is started as the execution of address `a`, it is the code of the function, on the values of
the arguments, that `a` stands for. -/
theorem C88_runs_the_addressed_call_partial (inj : Function.Injective h) {s : State U A P}
    (hs : Reachable h code travel knows s) (i : Nat) (a : A) (f : FnId) (kw : List (String × Val U A))
    (k : Reply U A P → Io U A P) (hm : (s.procs i).mode = .io (.body a f kw k)) :
    a = callAddr h f (kw.map fun x => (x.1, h x.2)) ∧
    ∀ j f' kw' k', (s.procs j).mode = .io (.body a f' kw' k') → f' = f ∧ kw' = kw := by
  have o := hs.ok (strict := False) inj fun x => x.elim
  have key : ∀ j f kw k, (s.procs j).mode = .io (.body a f kw k) →
      a = callAddr h f (kw.map fun x => (x.1, h x.2)) := fun j f kw k hj =>
    let ⟨_, _, h2⟩ := o.io j hj
    h2.2.1
  refine ⟨key i f kw k hm, fun j f' kw' k' hj => ?_⟩
  exact callOf_inj inj ((key j f' kw' k' hj).symm.trans (key i f kw k hm))

/-- **C88** A worker that found request `a` starts, on behalf of the request, only the code of `a`. -/
theorem C88_worker_runs_its_request_partial (inj : Function.Injective h) {s : State U A P}
    (hs : Reachable h code travel knows s) (i : Nat) (a b : A) (f : FnId) (kw : List (String × Val U A))
    (k : Reply U A P → Io U A P) (hm : s.procs i = ⟨.io (.body b f kw k), [], some a⟩) : b = a := by
  have o := hs.ok (strict := False) inj fun x => x.elim
  obtain ⟨Q, _, h2⟩ := o.io i (x := .body b f kw k) (by rw [hm])
  rw [hm] at h2
  exact h2.1 rfl a rfl

/-- **C88** Stored values stay and never change, results stay. -/
theorem C88_stored_stays_partial (inj : Function.Injective h) {s t : State U A P} (hs : Reachable h code travel knows s)
    (hst : Steps h code travel knows s t) :
    (∀ p a v, s.sh.store p a = some v → t.sh.store p a = some v) ∧
    (∀ p a, (s.sh.results p a).isSome = true → (t.sh.results p a).isSome = true) := by
  have o := hs.ok (strict := False) inj fun x => x.elim
  suffices AllOk h code travel False t ∧ Le s.sh t.sh from ⟨this.2.store, this.2.results⟩
  induction hst with
  | refl => exact ⟨o, .refl _⟩
  | step i x y ih =>
    have := ih
    exact ⟨step_ok inj (fun x => x.elim) this.1 y, this.2.trans (step_le inj this.1 y)⟩

/-! ### examples and counterexamples -/

/-- the next step of process `i`, if it is inside an operation or at the end of code; there are no consistency checks -/
def tick (h : Val U A → A) (code : FnId → List (String × Val U A) → Code U A P) (i : Nat) (s : State U A P) :
    State U A P :=
  match s.procs i with
  | ⟨.io (.done r), .inCode _ next :: st, job⟩ =>
    { s.setProc i ⟨.code (next r), st, job⟩ with
      vaddrs := r.vaddrs ++ s.vaddrs, raddrs := r.raddrs ++ s.raddrs }
  | ⟨.io (.put p a v k), _, _⟩ => s.next (s.sh.put p a v) i (.io k)
  | ⟨.io (.load p a k), _, _⟩ => s.goto i (.io (k (s.sh.store p a)))
  | ⟨.io (.result p a k), _, _⟩ => s.goto i (.io (k (s.sh.results p a)))
  | ⟨.io (.setResult p a r k), _, _⟩ => s.next (s.sh.setResult p a r) i (.io k)
  | ⟨.io (.request p a k), _, _⟩ => s.next (s.sh.setRequest p a true) i (.io k)
  | ⟨.io (.drop p a k), _, _⟩ => s.next (s.sh.setRequest p a false) i (.io k)
  | ⟨.io (.body _ f kw k), st, job⟩ => s.setProc i ⟨.code (code f kw), .inOp k :: st, job⟩
  | ⟨.io (.wait p os a), _, _⟩ => s.goto i (.io (round h p os a (.wait p os a)))
  | ⟨.io (.toss k), _, _⟩ => s.goto i (.io (k false))
  | ⟨.code (.ret v), .inOp k :: st, job⟩ => s.setProc i ⟨.io (k (.val v)), st, job⟩
  | _ => s

theorem tick_steps {i : Nat} {s t : State U A P} (x : Steps h code travel knows s t) :
    Steps h code travel knows s (tick h code i t) := by
  unfold tick
  cases e : t.procs i with
  | mk m st job =>
  cases m with
  | idle => exact x
  | code c =>
    cases c with
    | ret v =>
      cases st with
      | nil => exact x
      | cons f st =>
        cases f with
        | inOp k => exact .step i x (.act _ <| .ret v k st job e)
        | inCode c n => exact x
    | raise => exact x
    | op c n => exact x
  | io y =>
    have hm : ∀ {z}, y = z → (t.procs i).mode = .io z := fun hz => by rw [e, hz]
    cases y with
    | done r =>
      cases st with
      | nil => exact x
      | cons f st =>
        cases f with
        | inOp k => exact x
        | inCode c n => exact .step i x (.act _ <| .done r c n st job e)
    | put p a v k => exact .step i x (.act _ <| .put p a v k (hm rfl))
    | load p a k => exact .step i x (.act _ <| .load p a k (hm rfl))
    | result p a k => exact .step i x (.act _ <| .result p a k (hm rfl))
    | setResult p a r k => exact .step i x (.act _ <| .setResult p a r k (hm rfl))
    | request p a k => exact .step i x (.act _ <| .request p a k (hm rfl))
    | drop p a k => exact .step i x (.act _ <| .drop p a k (hm rfl))
    | wait p os a => exact .step i x (.act _ <| .wait p os a (hm rfl))
    | toss k => exact .step i x (.act _ <| .toss k false (hm rfl))
    | body a f kw k =>
      have := Act.body (h := h) (code := code) (travel := travel) (knows := knows) a f kw k (hm rfl)
      rw [e] at this
      exact .step i x (.act _ this)

/-- `n` steps of process `i` -/
def ticks (h : Val U A → A) (code : FnId → List (String × Val U A) → Code U A P) (i : Nat) : Nat → State U A P → State U A P
  | 0, s => s
  | n + 1, s => ticks h code i n (tick h code i s)

theorem ticks_steps {i : Nat} (n : Nat) : ∀ {s t : State U A P}, Steps h code travel knows s t →
    Steps h code travel knows s (ticks h code i n t) := by
  induction n with
  | zero => exact fun x => x
  | succ n ih => exact fun x => ih (tick_steps x)

/-- process `i`, idle, starts a script that performs operation `c` -/
def call (h : Val U A → A) (i : Nat) (c : Cmd U A P) (s : State U A P) : State U A P :=
  let s := s.setProc i ⟨.code (.op c fun _ => .raise), [], none⟩
  s.setProc i ⟨.io (prog h c), [.inCode c fun _ => .raise], none⟩

omit [DecidableEq P] [DecidableEq A] in
theorem exists_at (c : Cmd U A P) : ∃ p os, c.at p os = c := by
  cases c with
  | store p v => exact ⟨p, [], rfl⟩
  | fetch p os a => exact ⟨p, os, rfl⟩
  | getAddress p os f kw => exact ⟨p, os, rfl⟩
  | swarm p os f kw => exact ⟨p, os, rfl⟩
  | swarmList p os f kws sh => exact ⟨p, os, rfl⟩
  | execute p os f kw => exact ⟨p, os, rfl⟩
  | executeAddr p os a => exact ⟨p, os, rfl⟩
  | requestAddr p os a => exact ⟨p, os, rfl⟩
  | dropAddr p a => exact ⟨p, [], rfl⟩
  | isReady p os a => exact ⟨p, os, rfl⟩
  | getResult p os a n => exact ⟨p, os, rfl⟩
  | lookAt p os a => exact ⟨p, os, rfl⟩

theorem call_steps {i : Nat} {c : Cmd U A P} {s t : State U A P} (x : Steps h code travel knows s t) (hi : t.procs i = {})
    (hl : Legal travel knows t.vaddrs t.raddrs c) : Steps h code travel knows s (call h i c t) := by
  refine .step i (.step i x (.act _ (.script (.op c fun _ => .raise) hi))) ?_
  obtain ⟨p, os, hc⟩ := exists_at c
  have := Act.op (h := h) (code := code) (travel := travel) (knows := knows) (i := i)
    (s := t.setProc i ⟨.code (.op c fun _ => .raise), [], none⟩) c (fun _ => .raise) p os (by simp [State.setProc]) (by rw [hc]; exact hl)
  rw [hc] at this
  refine .act _ ?_
  simpa [call, State.setProc] using this

namespace Ex
open Pure.Ex (T addrOf addrOf_inj)

/-- functions: 0 returns 5 -/
def fns : FnId → List (String × Val Nat T) → Code Nat T Bool := fun _ _ => .ret (.user 5)

/-- a process may know any portals -/
def any : Bool → List Bool → Prop := fun _ _ => True

def a0 : T := callAddr addrOf 0 [("x", addrOf (.user 7))]

/-- process 0 calls function 0 with `x=7` in portal `true`, and dies -/
def s1 : State Nat T Bool :=
  (ticks addrOf fns 0 40 (call addrOf 0 (.execute true [] 0 [("x", .raw 7)]) init)).setProc 0 {}

/-- process 0 asks for the address of that call, and ends -/
def s2 : State Nat T Bool :=
  (ticks addrOf fns 0 40 (call addrOf 0 (.getAddress true [] 0 [("x", .raw 7)]) s1)).setProc 0 {}

/-- process 1, in portal `false`, asks whether the result is ready, and dies after 6 steps -/
def s3 : State Nat T Bool :=
  (ticks addrOf fns 1 6 (call addrOf 1 (.isReady false [true] a0) s2)).setProc 1 {}

/-- process 2, which knows only portal `false`, looks at the call -/
def s4 : State Nat T Bool := ticks addrOf fns 2 1 (call addrOf 2 (.lookAt false [] a0) s3)

theorem legal_raw {travel : Prop} {vs rs : List (Bool × T)} :
    ArgsKnown (U := Nat) (P := Bool) travel vs rs [("x", .raw 7)] := by
  intro n home a hx
  rcases List.mem_singleton.1 hx with hx
  cases hx

theorem s1_reach : Reachable addrOf fns True any s1 :=
  .step 0 (ticks_steps 40 (call_steps (c := .execute true [] 0 [("x", .raw 7)]) (.refl _) rfl
    ⟨trivial, legal_raw⟩)) .crash

theorem s2_reach : Reachable addrOf fns True any s2 :=
  .step 0 (ticks_steps 40 (call_steps (c := .getAddress true [] 0 [("x", .raw 7)]) s1_reach rfl
    ⟨trivial, legal_raw⟩)) .crash

theorem s2_knows : (true, a0) ∈ s2.raddrs := by decide +kernel

theorem s3_reach : Reachable addrOf fns True any s3 :=
  .step 1 (ticks_steps 6 (call_steps (c := .isReady false [true] a0) s2_reach rfl ⟨trivial, .inr ⟨trivial, true, s2_knows⟩⟩)) .crash

theorem s3_knows : (true, a0) ∈ s3.raddrs := by decide +kernel

theorem s4_reach : Reachable addrOf fns True any s4 :=
  ticks_steps 1 (call_steps (c := .lookAt false [] a0) s3_reach rfl ⟨trivial, .inr ⟨trivial, true, s3_knows⟩⟩)

/-- process 0 stores 7 in portal `true` -/
def u1 : State Nat T Bool := (ticks addrOf fns 0 3 (call addrOf 0 (.store true (.user 7)) init)).setProc 0 {}

/-- process 1, to which the address was sent and which unpickled it in portal `false`, passes it to `swarm` there -/
def u2 : State Nat T Bool :=
  (ticks addrOf fns 1 40 (call addrOf 1 (.swarm false [true] 0 [("x", .addr false (addrOf (.user 7)))]) u1)).setProc 1 {}

/-- a worker of portal `false` finds the request -/
def u3 : State Nat T Bool := ticks addrOf fns 2 6 (u2.setProc 2 ⟨.io (work addrOf false [] a0), [], some a0⟩)

theorem u1_reach : Reachable addrOf fns True any u1 :=
  .step 0 (ticks_steps 3 (call_steps (c := .store true (.user 7)) (.refl _) rfl trivial)) .crash

theorem u1_knows : (true, addrOf (.user 7)) ∈ u1.vaddrs := by decide +kernel

theorem u2_reach : Reachable addrOf fns True any u2 := by
  refine .step 1 (ticks_steps 40 (call_steps
    (c := .swarm false [true] 0 [("x", .addr false (addrOf (.user 7)))]) u1_reach rfl ⟨trivial, ?_⟩)) .crash
  intro n home a hx
  have := List.mem_singleton.1 hx
  injection this with h1 h2
  injection h2 with h2 h3
  exact .inl (.inr ⟨trivial, true, h3 ▸ u1_knows⟩)

theorem u3_reach : Reachable addrOf fns True any u3 :=
  ticks_steps 6 (.step 2 u2_reach (.act _ (.found false [] a0 rfl trivial (by decide +kernel))))

/-- is the process at the end of an operation that found something missing? -/
def isMissing : Proc Nat T Bool → Bool
  | ⟨.io (.done .missing), _, _⟩ => true
  | _ => false

theorem isMissing_iff (x : Proc Nat T Bool) (hx : isMissing x = true) : x.mode = .io (.done .missing) := by
  unfold isMissing at hx
  split at hx
  · rfl
  · cases hx

/-- process 1 makes the same call in portal `false`: the result is found in portal `true` and copied -/
def v2 : State Nat T Bool := ticks addrOf fns 1 20 (call addrOf 1 (.execute false [true] 0 [("x", .raw 7)]) s1)

theorem v1_reach : Reachable addrOf fns False any s1 :=
  .step 0 (ticks_steps 40 (call_steps (c := .execute true [] 0 [("x", .raw 7)]) (.refl _) rfl
    ⟨trivial, legal_raw⟩)) .crash

theorem v2_reach : Reachable addrOf fns False any v2 :=
  ticks_steps 20 (call_steps (c := .execute false [true] 0 [("x", .raw 7)]) v1_reach rfl ⟨trivial, legal_raw⟩)

/-- two portals, a copied result, no address object moved: everything is in the portal of the copy -/
example : CompleteIn addrOf v2.sh false a0 :=
  C88_own_portal_partial addrOf_inj v2_reach false a0 (.inr (by decide +kernel))

/-! one portal -/

def fns1 : FnId → List (String × Val Nat T) → Code Nat T Unit := fun _ _ => .ret (.user 5)

/-- the only portal -/
def one : Unit → List Unit → Prop := fun _ os => os = []

/-- a client requests a call and dies -/
def w1 : State Nat T Unit :=
  (ticks addrOf fns1 0 8 (call addrOf 0 (.swarm () [] 0 [("x", .raw 7)]) init)).setProc 0 {}

/-- a worker finds it and works on it -/
def w2 : State Nat T Unit := ticks addrOf fns1 1 17 (w1.setProc 1 ⟨.io (work addrOf () [] a0), [], some a0⟩)

/-- … until it has stored the result -/
def w3 : State Nat T Unit := ticks addrOf fns1 1 5 w2

theorem w1_reach : Reachable addrOf fns1 True one w1 := by
  refine .step 0 (ticks_steps 8 (call_steps (c := .swarm () [] 0 [("x", .raw 7)]) (.refl _) rfl ⟨rfl, ?_⟩)) .crash
  intro n home a hx
  cases List.mem_singleton.1 hx

theorem w1_requested : w1.sh.requests () a0 = true := by decide +kernel

theorem w2_reach : Reachable addrOf fns1 True one w2 :=
  ticks_steps 17 (.step 1 w1_reach (.act _ (.found () [] a0 rfl rfl w1_requested)))

theorem w3_reach : Reachable addrOf fns1 True one w3 := ticks_steps 5 w2_reach

/-- the address, function and arguments of the code that is about to be started -/
def starting {P : Type} : Proc Nat T P → Option ((T × Nat × Nat × Option T) × List (String × Val Nat T))
  | ⟨.io (.body a f kw _), st, job⟩ => some ((a, f, st.length, job), kw)
  | _ => none

/-- the premises of the theorems are met: a client died right after its request, nothing is lost, and a worker comes
to start exactly the requested code, on behalf of the request -/
example : w1.sh.requests () a0 = true ∧ starting (w2.procs 1) = some ((a0, 0, 0, some a0), [("x", .user 7)]) ∧
    w3.sh.results () a0 = some (addrOf (.user 5)) :=
  ⟨by decide +kernel, by decide +kernel, by decide +kernel⟩

/-- … so the theorems apply -/
example : CompleteIn addrOf w1.sh () a0 := C88_one_portal_partial addrOf_inj w1_reach () a0 (.inl w1_requested)

example : KnowsAll one := fun p _ _ q => .inl (Subsingleton.elim q p)

end Ex

/-- **C88** (counterexample) An address object that was pickled and unpickled in another portal is taken to be of that
portal, and its value is not copied when it is passed as an argument: the request is visible in a portal that lacks
the argument, and a worker that knows only this portal fails on it, although nobody crashed. -/
theorem C88_moved_argument_counterexample :
    ∃ s t : State Nat Pure.Ex.T Bool, Reachable Pure.Ex.addrOf Ex.fns True Ex.any s ∧ Reachable Pure.Ex.addrOf Ex.fns True Ex.any t ∧
      s.sh.requests false Ex.a0 = true ∧ s.sh.store false (Pure.Ex.addrOf (.user 7)) = none ∧
      (t.procs 2).job = some Ex.a0 ∧ (t.procs 2).mode = .io (.done .missing) :=
  ⟨Ex.u2, Ex.u3, Ex.u2_reach, Ex.u3_reach, by decide +kernel, by decide +kernel, by decide +kernel,
    Ex.isMissing_iff _ (by decide +kernel)⟩

/-- **C88** (counterexample) A result that is copied from another portal is written before the call it belongs to: if the
process dies in between, the portal holds a result whose signature it does not have, and a process that knows only
this portal cannot look up the function and the arguments of the result. -/
theorem C88_copied_result_counterexample :
    ∃ s t : State Nat Pure.Ex.T Bool, Reachable Pure.Ex.addrOf Ex.fns True Ex.any s ∧ Reachable Pure.Ex.addrOf Ex.fns True Ex.any t ∧
      (s.sh.results false Ex.a0).isSome = true ∧ s.sh.store false Ex.a0 = none ∧
      (t.procs 2).mode = .io (.done .missing) :=
  ⟨Ex.s3, Ex.s4, Ex.s3_reach, Ex.s4_reach, by decide +kernel, by decide +kernel,
    Ex.isMissing_iff _ (by decide +kernel)⟩

end Pyth.Parts
