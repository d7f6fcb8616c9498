import Verif.Proofs.SwarmRerun
import Verif.Props.SwarmValues
/-!
# C99: consistency checks when processes work concurrently
-/
namespace Pyth.Parts
open Pyth.Pure (Val FnId sortKw)

variable {U A P : Type} [DecidableEq P] [DecidableEq A] {h : Val U A → A}
  {code : FnId → List (String × Val U A) → Code U A P} {travel : Prop} {knows : P → List P → Prop} {on : Nat → Prop}

/-- **C99** Whatever other processes do, and however often consistency checks take place: every reply that an operation
gives to the code that called it is one that simply evaluating the operation can give. -/
theorem C99_replies_as_evaluated_partial (inj : Function.Injective h) (kn : travel → KnowsAll knows) {s : State U A P}
    (hs : Reachable h code travel knows s) {i : Nat} {r : Reply U A P} {c : Cmd U A P}
    {next : Reply U A P → Code U A P} {st : List (Frame U A P)} {job : Option A}
    (hi : s.procs i = ⟨.io (.done r), .inCode c next :: st, job⟩) : Answer h code True c r := by
  have o := hs.ok (strict := True) inj fun _ => kn
  obtain ⟨Q, h1, h2⟩ := o.io i (x := .done r) (by rw [hi])
  rw [hi] at h1
  cases h1 with
  | inCode _ _ _ _ _ _ ha _ => exact ha r (ReplyOk.ask h2 _ (.refl _))

/-- **C99** No false alarms: if an operation ends because a consistency check failed, then a call that the operation deals
with has two different values. -/
theorem C99_alarm_is_true_partial (inj : Function.Injective h) (kn : travel → KnowsAll knows) {s : State U A P}
    (hs : Reachable h code travel knows s) {i : Nat} {c : Cmd U A P} {next : Reply U A P → Code U A P}
    {st : List (Frame U A P)} {job : Option A} (hi : s.procs i = ⟨.io (.done .clash), .inCode c next :: st, job⟩) :
    ∃ f kw v w, Concerns h c (callOf h f kw) ∧ Outcome h code True (code f kw) (.val v) ∧
      Outcome h code True (code f kw) (.val w) ∧ v ≠ w := by
  have := C99_replies_as_evaluated_partial inj kn hs hi
  generalize er : (Reply.clash : Reply U A P) = r at this
  cases this with
  | call f vs v e x => cases er
  | raised f vs e x => cases er
  | missing => cases er
  | clash f vs v w e x x' ne => exact ⟨f, vs, v, w, e, x, x', ne⟩
  | other _ e => subst er; cases c <;> exact e.elim

/-- **C99** … and the same holds for a worker and the request it works on. -/
theorem C99_worker_alarm_is_true_partial (inj : Function.Injective h) (kn : travel → KnowsAll knows) {s : State U A P}
    (hs : Reachable h code travel knows s) {i : Nat} {job : Option A} (hi : s.procs i = ⟨.io (.done .clash), [], job⟩) :
    ∃ f kw v w, job = some (callOf h f kw) ∧ Outcome h code True (code f kw) (.val v) ∧
      Outcome h code True (code f kw) (.val w) ∧ v ≠ w := by
  have o := hs.ok (strict := True) inj fun _ => kn
  obtain ⟨Q, h1, h2⟩ := o.io i (x := .done .clash) (by rw [hi])
  rw [hi] at h1
  have ask : Q .clash := ReplyOk.ask h2 _ (.refl _)
  cases h1 with
  | worker =>
    obtain ⟨a, e1, f, kw, v, w, e2, e3, e4, e5⟩ := ask rfl
    exact ⟨f, kw, v, w, e2 ▸ e1, e3, e4, e5⟩

/-- **C99** If functions are pure (`OneValue`), no consistency check ever fails, in no process, whatever
`p_consistency_checks` is, wherever processes race or die. -/
theorem C99_pure_functions_pass_partial (inj : Function.Injective h) (pure : OneValue h code) (kn : travel → KnowsAll knows)
    {s : State U A P} (hs : Reachable h code travel knows s) (i : Nat) : (s.procs i).mode ≠ .io (.done .clash) := by
  intro e
  have o := hs.ok (strict := True) inj fun _ => kn
  obtain ⟨Q, h1, -⟩ := o.io i e
  cases ei : s.procs i with
  | mk m st job =>
  rw [ei] at h1 e
  cases e
  generalize eb : true = b at h1
  cases h1 with
  | script => cases eb
  | inOp => cases eb
  | worker =>
    obtain ⟨f, kw, v, w, _, h1, h2, ne⟩ := C99_worker_alarm_is_true_partial inj kn hs ei
    exact ne (pure f kw v w h1 h2)
  | inCode c next st G Q x ha hn hm =>
    obtain ⟨f, kw, v, w, _, h1, h2, ne⟩ := C99_alarm_is_true_partial inj kn hs ei
    exact ne (pure f kw v w h1 h2)

/-- **C99** If checks always take place in a process (`p_consistency_checks = 1`), then, whether or not functions are pure
and whatever the other processes do: a value it gets as the result of a call is the result that is stored for the call in the
portal of the operation, or was stored there at some earlier time of the execution. -/
theorem C99_checked_value_was_stored (inj : Function.Injective h) {s : State U A P} {l : List (State U A P)}
    (hs : Exec h code travel knows on (s :: l)) {i : Nat} (hon : on i) {a : A} {v : Val U A} {c : Cmd U A P}
    {next : Reply U A P → Code U A P} {st : List (Frame U A P)} {job : Option A}
    (hi : s.procs i = ⟨.io (.done (.got a v)), .inCode c next :: st, job⟩) :
    ∃ t ∈ s :: l, t.sh.results c.portal a = some (h v) := by
  have o := (hs.procRec inj s l rfl i hon).2 (.done (.got a v)) (by rw [hi])
  rw [hi] at o
  exact o c next st rfl a v rfl

theorem exec_calls {c : Cmd U A P} (hc : (∃ p os f kw, c = .execute p os f kw) ∨ ∃ p os a, c = .executeAddr p os a)
    (B : A → Prop) : Reruns (prog h c) B := by
  rcases hc with ⟨p, os, f, kw, rfl⟩ | ⟨p, os, a, rfl⟩
  · exact execute_reruns
  · exact executeAddr_reruns

/-- **C99** If checks always take place in a process, then it does run the code of a call whenever it executes it (`f(**kw)`,
`addr.execute()`), even if the result is known: if in state `u` of the execution the operation `c` begins, and in state `s`
it returns a value as the result of the call with address `a`, then in between code was started for `a`, by the same
process on behalf of the same operation. -/
theorem C99_checked_call_runs {c : Cmd U A P} (hc : (∃ p os f kw, c = .execute p os f kw) ∨ ∃ p os a, c = .executeAddr p os a)
    {s u : State U A P} {m l : List (State U A P)} (hs : Exec h code travel knows on (s :: m ++ u :: l)) {i : Nat} (hon : on i)
    {next : Reply U A P → Code U A P} {st : List (Frame U A P)} {job : Option A}
    (hu : u.procs i = ⟨.io (prog h c), .inCode c next :: st, job⟩) {a : A} {v : Val U A}
    (hi : s.procs i = ⟨.io (.done (.got a v)), .inCode c next :: st, job⟩) :
    ∃ t ∈ m ++ [u], ∃ f kw k, t.procs i = ⟨.io (.body a f kw k), .inCode c next :: st, (t.procs i).job⟩ := by
  have o := (Exec.runs (exec_calls hc) hon (by rw [hu]) (by rw [hu]) (s :: m) s (m ++ [u]) rfl hs).2 (.done (.got a v)) (by rw [hi])
    (by rw [hi])
  obtain ⟨t, ht, f, kw, k, e1, e2⟩ := o a v rfl
  refine ⟨t, ht, f, kw, k, ?_⟩
  cases e : t.procs i with
  | mk mo stk j =>
  rw [e] at e1 e2
  cases e1; cases e2
  rfl

/-! ### examples and counterexamples -/

/-- like `tick`; consistency checks take place if `b` -/
def tickB (h : Val U A → A) (code : FnId → List (String × Val U A) → Code U A P) (b : Bool) (i : Nat) (s : State U A P) :
    State U A P :=
  match (s.procs i).mode with
  | .io (.toss k) => s.goto i (.io (k b))
  | _ => tick h code i s

theorem tick_step (i : Nat) (s : State U A P) : tick h code i s = s ∨ Step h code travel knows i s (tick h code i s) := by
  unfold tick
  cases e : s.procs i with
  | mk m st job =>
  cases m with
  | idle => exact .inl rfl
  | code c =>
    cases c with
    | ret v =>
      cases st with
      | nil => exact .inl rfl
      | cons f st =>
        cases f with
        | inOp k => exact .inr (.act _ <| .ret v k st job e)
        | inCode c n => exact .inl rfl
    | raise => exact .inl rfl
    | op c n => exact .inl rfl
  | io y =>
    have hm : ∀ {z}, y = z → (s.procs i).mode = .io z := fun hz => by rw [e, hz]
    cases y with
    | done r =>
      cases st with
      | nil => exact .inl rfl
      | cons f st =>
        cases f with
        | inOp k => exact .inl rfl
        | inCode c n => exact .inr (.act _ <| .done r c n st job e)
    | put p a v k => exact .inr (.act _ <| .put p a v k (hm rfl))
    | load p a k => exact .inr (.act _ <| .load p a k (hm rfl))
    | result p a k => exact .inr (.act _ <| .result p a k (hm rfl))
    | setResult p a r k => exact .inr (.act _ <| .setResult p a r k (hm rfl))
    | request p a k => exact .inr (.act _ <| .request p a k (hm rfl))
    | drop p a k => exact .inr (.act _ <| .drop p a k (hm rfl))
    | wait p os a => exact .inr (.act _ <| .wait p os a (hm rfl))
    | toss k => exact .inr (.act _ <| .toss k false (hm rfl))
    | body a f kw k =>
      have := Act.body (h := h) (code := code) (travel := travel) (knows := knows) a f kw k (hm rfl)
      rw [e] at this
      exact .inr (.act _ this)

/-- an execution that leads to `s`, with `φ` all the time -/
def Trail (h : Val U A → A) (code : FnId → List (String × Val U A) → Code U A P)
    (travel : Prop) (knows : P → List P → Prop) (on : Nat → Prop) (φ : State U A P → Bool) (s : State U A P) : Prop :=
  ∃ l, Exec h code travel knows on (s :: l) ∧ ∀ t ∈ s :: l, φ t = true

variable {φ : State U A P → Bool}

theorem Trail.next {s u : State U A P} (x : Trail h code travel knows on φ s) {i : Nat} (y : Step h code travel knows i s u)
    (checked : on i → ∀ k, (s.procs i).mode = .io (.toss k) → u = s.goto i (.io (k true)) ∨ u = s.setProc i {}) (hu : φ u = true) :
    Trail h code travel knows on φ u := by
  obtain ⟨l, h1, h2⟩ := x
  refine ⟨s :: l, .step i u h1 y checked, fun t ht => ?_⟩
  rcases List.mem_cons.1 ht with rfl | ht
  · exact hu
  · exact h2 t ht

theorem Trail.tickB {s : State U A P} (x : Trail h code travel knows on φ s) (b : Bool) {i : Nat} (hb : on i → b = true)
    (hu : φ (tickB h code b i s) = true) : Trail h code travel knows on φ (tickB h code b i s) := by
  cases e : (s.procs i).mode with
  | idle =>
    have e1 : Parts.tickB h code b i s = tick h code i s := by unfold Parts.tickB; rw [e]
    rw [e1] at hu ⊢
    rcases tick_step (h := h) (code := code) (travel := travel) (knows := knows) i s with e' | y
    · rw [e']; exact x
    · exact x.next y (fun _ k hk => by rw [e] at hk; cases hk) hu
  | code c =>
    have e1 : Parts.tickB h code b i s = tick h code i s := by unfold Parts.tickB; rw [e]
    rw [e1] at hu ⊢
    rcases tick_step (h := h) (code := code) (travel := travel) (knows := knows) i s with e' | y
    · rw [e']; exact x
    · exact x.next y (fun _ k hk => by rw [e] at hk; cases hk) hu
  | io y =>
    by_cases ht : ∃ k, y = .toss k
    · obtain ⟨k, rfl⟩ := ht
      have e1 : Parts.tickB h code b i s = s.goto i (.io (k b)) := by unfold Parts.tickB; rw [e]
      rw [e1] at hu ⊢
      refine x.next (.act _ (.toss k b e)) (fun ho k' hk => .inl ?_) hu
      rw [e] at hk; cases hk
      rw [hb ho]
    · have e1 : Parts.tickB h code b i s = tick h code i s := by
        unfold Parts.tickB; rw [e]
        cases y <;> first | rfl | exact absurd ⟨_, rfl⟩ ht
      rw [e1] at hu ⊢
      rcases tick_step (h := h) (code := code) (travel := travel) (knows := knows) i s with e' | z
      · rw [e']; exact x
      · exact x.next z (fun _ k hk => absurd ⟨k, by rw [e] at hk; injection hk⟩ ht) hu

/-- `n` steps of process `i` -/
def ticksB (h : Val U A → A) (code : FnId → List (String × Val U A) → Code U A P) (b : Bool) (i : Nat) : Nat → State U A P → State U A P
  | 0, s => s
  | n + 1, s => ticksB h code b i n (tickB h code b i s)

/-- `φ` holds in `n` steps of process `i` -/
def always (h : Val U A → A) (code : FnId → List (String × Val U A) → Code U A P) (φ : State U A P → Bool) (b : Bool) (i : Nat) :
    Nat → State U A P → Bool
  | 0, _ => true
  | n + 1, s => φ (tickB h code b i s) && always h code φ b i n (tickB h code b i s)

theorem Trail.ticksB (b : Bool) {i : Nat} (hb : on i → b = true) (n : Nat) : ∀ {s : State U A P},
    Trail h code travel knows on φ s → always h code φ b i n s = true → Trail h code travel knows on φ (ticksB h code b i n s) := by
  induction n with
  | zero => exact fun x _ => x
  | succ n ih =>
    intro s x ha
    simp only [always, Bool.and_eq_true] at ha
    exact ih (x.tickB b hb ha.1) ha.2

theorem Trail.call {s : State U A P} (x : Trail h code travel knows on φ s) {i : Nat} {c : Cmd U A P} (hi : s.procs i = {})
    (hl : Legal travel knows s.vaddrs s.raddrs c) (h1 : φ (s.setProc i ⟨.code (.op c fun _ => .raise), [], none⟩) = true)
    (h2 : φ (call h i c s) = true) : Trail h code travel knows on φ (call h i c s) := by
  have y := x.next (.act _ (.script (.op c fun _ => .raise) hi)) (fun _ k hk => by rw [hi] at hk; cases hk) h1
  obtain ⟨p, os, hc⟩ := exists_at c
  have := Act.op (h := h) (code := code) (travel := travel) (knows := knows) (i := i)
    (s := s.setProc i ⟨.code (.op c fun _ => .raise), [], none⟩) c (fun _ => .raise) p os (by simp [State.setProc]) (by rw [hc]; exact hl)
  rw [hc] at this
  have e : Parts.call h i c s = (s.setProc i ⟨.code (.op c fun _ => .raise), [], none⟩).setProc i
      ⟨.io (prog h c), [.inCode c fun _ => .raise], none⟩ := rfl
  rw [e] at h2 ⊢
  have e2 : (s.setProc i ⟨.code (.op c fun _ => .raise), [], none⟩).procs i = ⟨.code (.op c fun _ => .raise), [], none⟩ := by
    simp [State.setProc]
  rw [e2] at this
  exact y.next (.act _ this) (fun _ k hk => by rw [e2] at hk; cases hk) h2

namespace Ex
open Pure.Ex (T addrOf addrOf_inj)

theorem Trail.perform {fs : FnId → List (String × Val Nat T) → Code Nat T Bool} {φ : State Nat T Bool → Bool} {i : Nat} {p : Bool}
    {os : List Bool} {t : State Nat T Bool} (x : Trail addrOf fs travel any on φ t)
    (hl : ∀ c, nextOp (t.procs i) = some c → Legal travel any t.vaddrs t.raddrs (c.at p os)) (hu : φ (perform i p os t) = true) :
    Trail addrOf fs travel any on φ (perform i p os t) := by
  unfold Ex.perform at hu ⊢
  cases e : t.procs i with
  | mk m st job =>
  rw [e] at hu
  cases m with
  | idle => exact x
  | io y => exact x
  | code c =>
    cases c with
    | ret v => exact x
    | raise => exact x
    | op c n =>
      have := Act.op (h := addrOf) (code := fs) (travel := travel) (knows := any) (i := i) (s := t) c n p os
        (by rw [e]) (hl c (by rw [e]; rfl))
      rw [e] at this
      exact x.next (.act _ this) (fun _ k hk => by rw [e] at hk; cases hk) hu

/-- the stored result of the call of function 1 is not 1 -/
def notOne (s : State Nat T Bool) : Bool := s.sh.results true a1 ≠ some (addrOf (.user 1))

/-- processes 0 and 1 call function 1 in portal `true` -/
def c1 (b : Bool) : State Nat T Bool := ticksB addrOf fns3 b 1 7 (call addrOf 1 (.execute true [] 1 []) (ticksB addrOf fns3 b 0 7 (call addrOf 0 (.execute true [] 1 []) init)))

/-- process 0 asks for the address of the call of function 0 -/
def c2 (b : Bool) : State Nat T Bool := ticksB addrOf fns3 b 0 5 (perform 0 true [] (c1 b))

/-- process 0 learns that function 0 was not called, and returns 0 -/
def c3 (b : Bool) : State Nat T Bool := ticksB addrOf fns3 b 0 7 (perform 0 true [] (c2 b))

/-- process 2 calls function 0 -/
def c4 (b : Bool) : State Nat T Bool := ticksB addrOf fns3 b 2 20 (call addrOf 2 (.execute true [] 0 [("x", .raw 7)]) (c3 b))

/-- process 1 asks for the address of that call -/
def c5 (b : Bool) : State Nat T Bool := ticksB addrOf fns3 b 1 5 (perform 1 true [] (c4 b))

/-- process 1 learns that function 0 was called, and is about to return 1 -/
def c6 (b : Bool) : State Nat T Bool := ticksB addrOf fns3 b 1 7 (perform 1 true [] (c5 b))

/-- does an operation end with a failed check? -/
def isClash : Proc Nat T Bool → Bool
  | ⟨.io (.done .clash), _, _⟩ => true
  | _ => false

/-- checks in all processes, or in none -/
abbrev Tr (b : Bool) (s : State Nat T Bool) : Prop := Trail addrOf fns3 False any (fun _ => b = true) notOne s

theorem call1_legal {vs rs : List (Bool × T)} : Legal (U := Nat) False any vs rs (.execute true [] 1 []) :=
  ⟨trivial, fun _ _ _ hx => (nomatch hx)⟩

theorem c1_trail (b : Bool) : Tr b (c1 b) := by
  have t0 : Tr b init := ⟨[], .start, fun t ht => by cases List.mem_singleton.1 ht; decide +kernel⟩
  refine Trail.ticksB b (fun x => x) 7 (Trail.call (Trail.ticksB b (fun x => x) 7 (Trail.call t0 rfl call1_legal ?_ ?_) ?_) ?_ call1_legal ?_ ?_) ?_
  · decide +kernel
  · decide +kernel
  · cases b <;> decide +kernel
  · cases b <;> rfl
  · cases b <;> decide +kernel
  · cases b <;> decide +kernel
  · cases b <;> decide +kernel

theorem c2_trail (b : Bool) : Tr b (c2 b) := by
  refine Trail.ticksB b (fun x => x) 5 (Trail.perform (c1_trail b)
    (nextOp_addr (us := [("x", 7)]) (p' := true) (os' := []) (f := 0) ?_) ?_) ?_
  · cases b <;> rfl
  · cases b <;> decide +kernel
  · cases b <;> decide +kernel

theorem c2_knows (b : Bool) : (true, a0) ∈ (c2 b).raddrs := by cases b <;> decide +kernel

theorem c3_trail (b : Bool) : Tr b (c3 b) := by
  refine Trail.ticksB b (fun x => x) 7 (Trail.perform (c2_trail b)
    (nextOp_ready (p' := true) (os' := []) (a := a0) ?_ (c2_knows b)) ?_) ?_
  · cases b <;> rfl
  · cases b <;> decide +kernel
  · cases b <;> decide +kernel

theorem c4_trail (b : Bool) : Tr b (c4 b) := by
  refine Trail.ticksB b (fun x => x) 20 (Trail.call (c3_trail b) ?_ ⟨trivial, legal_raw⟩ ?_ ?_) ?_
  · cases b <;> rfl
  · cases b <;> decide +kernel
  · cases b <;> decide +kernel
  · cases b <;> decide +kernel

theorem c5_trail (b : Bool) : Tr b (c5 b) := by
  refine Trail.ticksB b (fun x => x) 5 (Trail.perform (c4_trail b)
    (nextOp_addr (us := [("x", 7)]) (p' := true) (os' := []) (f := 0) ?_) ?_) ?_
  · cases b <;> rfl
  · cases b <;> decide +kernel
  · cases b <;> decide +kernel

theorem c5_knows (b : Bool) : (true, a0) ∈ (c5 b).raddrs := by cases b <;> decide +kernel

theorem c6_trail (b : Bool) : Tr b (c6 b) := by
  refine Trail.ticksB b (fun x => x) 7 (Trail.perform (c5_trail b)
    (nextOp_ready (p' := true) (os' := []) (a := a0) ?_ (c5_knows b)) ?_) ?_
  · cases b <;> rfl
  · cases b <;> decide +kernel
  · cases b <;> decide +kernel

/-- what a process got from an operation in which portal -/
def gotIn : Proc Nat T Bool → Option (Bool × T × Val Nat T)
  | ⟨.io (.done (.got a v)), .inCode c _ :: _, _⟩ => some (c.portal, a, v)
  | _ => none

theorem gotIn_iff {x : Proc Nat T Bool} {p : Bool} {a : T} {v : Val Nat T} (e : gotIn x = some (p, a, v)) :
    ∃ c next st job, x = ⟨.io (.done (.got a v)), .inCode c next :: st, job⟩ ∧ c.portal = p := by
  unfold gotIn at e
  split at e
  · cases e; exact ⟨_, _, _, _, rfl, rfl⟩
  · cases e

theorem isClash_iff {x : Proc Nat T Bool} (e : isClash x = true) : x.mode = .io (.done .clash) := by
  unfold isClash at e
  split at e
  · rfl
  · cases e

/-- with checks, process 0 gets the result it stores, and process 1 is told that the results differ -/
example : gotIn ((c3 true).procs 0) = some (true, a1, .user 0) ∧ isClash ((c6 true).procs 1) = true ∧
    (c6 true).sh.results true a1 = some (addrOf (.user 0)) :=
  ⟨by decide +kernel, by decide +kernel, by decide +kernel⟩

/-- … so the theorems apply -/
example : ∃ l, ∃ t ∈ c3 true :: l, t.sh.results true a1 = some (addrOf (.user 0)) := by
  obtain ⟨l, x, _⟩ := c3_trail true
  obtain ⟨c, next, st, job, e, ep⟩ := gotIn_iff (x := (c3 true).procs 0) (p := true) (a := a1) (v := .user 0) (by decide +kernel)
  obtain ⟨t, ht, h2⟩ := C99_checked_value_was_stored addrOf_inj x rfl e
  exact ⟨l, t, ht, ep ▸ h2⟩

/-- `n` steps of process `i`, after some execution -/
theorem exec_ticksB {fs : FnId → List (String × Val Nat T) → Code Nat T Bool} (b : Bool) {i : Nat} (hb : on i → b = true)
    {u : State Nat T Bool} {l : List (State Nat T Bool)} (n : Nat) : ∀ {s : State Nat T Bool} {m : List (State Nat T Bool)},
    Exec addrOf fs travel any on (m ++ u :: l) → (m ++ u :: l).head? = some s →
    ∃ m', Exec addrOf fs travel any on (m' ++ u :: l) ∧ (m' ++ u :: l).head? = some (ticksB addrOf fs b i n s) := by
  induction n with
  | zero => exact fun x e => ⟨_, x, e⟩
  | succ n ih =>
    intro s m x e
    obtain ⟨l2, el⟩ : ∃ l2, m ++ u :: l = s :: l2 := by
      cases h0 : m ++ u :: l with
      | nil => simp at h0
      | cons y l2 => rw [h0] at e; cases e; exact ⟨l2, rfl⟩
    rw [el] at x
    by_cases e2 : Parts.tickB addrOf fs b i s = s
    · have := ih (s := s) (m := m) (by rw [el]; exact x) e
      simpa only [Parts.ticksB, e2] using this
    · refine ih (m := Parts.tickB addrOf fs b i s :: m) ?_ rfl
      rw [List.cons_append, el]
      have tr : ∀ y, tick addrOf fs i s = y → Parts.tickB addrOf fs b i s = y → (∀ k, (s.procs i).mode ≠ .io (.toss k)) →
          Exec addrOf fs travel any on (Parts.tickB addrOf fs b i s :: s :: l2) := by
        intro y e3 e4 no
        rcases tick_step (h := addrOf) (code := fs) (travel := travel) (knows := any) i s with e' | z
        · exact absurd (e4.trans (e3.symm.trans e')) e2
        · rw [e4, ← e3]
          exact .step i _ x z fun _ k hk => absurd hk (no k)
      cases em : (s.procs i).mode with
      | idle => exact tr _ rfl (by unfold Parts.tickB; rw [em]) (fun k => by rw [em]; exact nofun)
      | code c => exact tr _ rfl (by unfold Parts.tickB; rw [em]) (fun k => by rw [em]; exact nofun)
      | io y =>
        by_cases ht : ∃ k, y = .toss k
        · obtain ⟨k, rfl⟩ := ht
          have e1 : Parts.tickB addrOf fs b i s = s.goto i (.io (k b)) := by unfold Parts.tickB; rw [em]
          rw [e1]
          refine .step i _ x (.act _ (.toss k b em)) fun ho k' hk => .inl ?_
          rw [em] at hk; cases hk
          rw [hb ho]
        · refine tr _ rfl ?_ (fun k hk => ht ⟨k, by rw [em] at hk; injection hk⟩)
          unfold Parts.tickB; rw [em]
          cases y <;> first | rfl | exact absurd ⟨_, rfl⟩ ht

/-- process 3 calls function 0 again -/
def d1 : State Nat T Bool := call addrOf 3 (.execute true [] 0 [("x", .raw 7)]) (c4 true)

theorem d1_trail : Tr true d1 :=
  Trail.call (c4_trail true) rfl ⟨trivial, legal_raw⟩ (by decide +kernel) (by decide +kernel)

/-- … and gets its result -/
@[reducible] def d2 : State Nat T Bool := ticksB addrOf fns3 true 3 15 d1

theorem d1_proc : d1.procs 3 = ⟨.io (prog addrOf (.execute true [] 0 [("x", .raw 7)])), [.inCode (.execute true [] 0 [("x", .raw 7)]) fun _ => .raise], none⟩ := rfl

set_option maxRecDepth 20000 in
theorem d2_proc : d2.procs 3 = ⟨.io (.done (.got a0 (.user 5))), [.inCode (.execute true [] 0 [("x", .raw 7)]) fun _ => .raise], none⟩ := rfl

theorem d1_not : gotIn (d1.procs 3) = none := by decide +kernel

theorem d2_got : gotIn (d2.procs 3) = some (true, a0, .user 5) := by decide +kernel

theorem d1_runs : ∃ t : State Nat T Bool, Reachable addrOf fns3 False any t ∧ ∃ f kw k, (t.procs 3).mode = .io (.body a0 f kw k) := by
  obtain ⟨l, x, _⟩ := d1_trail
  obtain ⟨m, y, e⟩ := exec_ticksB (u := d1) (l := l) (on := fun _ => true = true) (i := 3) true (fun _ => rfl) 15 (m := []) x rfl
  have ed : ticksB addrOf fns3 true 3 15 d1 = d2 := by with_reducible rfl
  rw [ed] at e
  have e0 := d1_proc
  have e1 := d2_proc
  have n0 := d1_not
  have n1 := d2_got
  generalize d2 = s2 at e e1 n1
  cases m with
  | nil =>
    have : d1 = s2 := Option.some.inj e
    rw [this, n1] at n0
    cases n0
  | cons s m =>
    have : s = s2 := Option.some.inj e
    subst this
    obtain ⟨t, ht, f, kw, k, et⟩ := C99_checked_call_runs (.inl ⟨true, [], 0, [("x", .raw 7)], rfl⟩) y rfl e0 e1
    refine ⟨t, y.reachable t ?_, f, kw, k, by rw [et]⟩
    rcases List.mem_append.1 ht with ht | ht
    · exact List.mem_append_left _ (.tail _ ht)
    · rw [List.mem_singleton.1 ht]; exact List.mem_append_right _ (.head _)

/-- a call whose result is stored already is run again -/
example : (c4 true).sh.results true a0 = some (addrOf (.user 5)) ∧ ∃ t : State Nat T Bool, Reachable addrOf fns3 False any t ∧
    ∃ f kw k, (t.procs 3).mode = .io (.body a0 f kw k) := ⟨by decide +kernel, d1_runs⟩

theorem c6_reach : Reachable addrOf fns3 False any (c6 true) := by
  obtain ⟨l, x, _⟩ := c6_trail true
  exact x.reachable _ (.head _)

/-- functions that look at the state do have two values -/
example : ∃ f kw v w, Outcome addrOf fns3 True (fns3 f kw) (.val v) ∧ Outcome addrOf fns3 True (fns3 f kw) (.val w) ∧ v ≠ w := by
  have e := isClash_iff (x := (c6 true).procs 1) (by decide +kernel)
  by_contra no
  refine C99_pure_functions_pass_partial addrOf_inj (fun f kw v w h1 h2 => ?_) (fun x => x.elim) c6_reach 1 e
  by_contra ne
  exact no ⟨f, kw, v, w, h1, h2, ne⟩

/-- pure functions pass -/
example (i : Nat) : (x5.procs i).mode ≠ .io (.done .clash) :=
  C99_pure_functions_pass_partial addrOf_inj (C89_calling_functions_are_pure addrOf_inj fns2_det) (fun x => x.elim) x5_reach i

end Ex

/-- **C99** (counterexample) Without checks, a process may get a value as the result of a call that is never stored as
the result of that call, in no state of the execution. -/
theorem C99_unchecked_value_counterexample :
    ∃ (s : State Nat Pure.Ex.T Bool) (l : List (State Nat Pure.Ex.T Bool)) (c : Cmd Nat Pure.Ex.T Bool)
      (next : Reply Nat Pure.Ex.T Bool → Code Nat Pure.Ex.T Bool) (st : List (Frame Nat Pure.Ex.T Bool)) (job : Option Pure.Ex.T)
      (v : Val Nat Pure.Ex.T),
      Exec Pure.Ex.addrOf Ex.fns3 False Ex.any (fun _ => False) (s :: l) ∧
      s.procs 1 = ⟨.io (.done (.got Ex.a1 v)), .inCode c next :: st, job⟩ ∧
      ∀ t ∈ s :: l, t.sh.results c.portal Ex.a1 ≠ some (Pure.Ex.addrOf v) := by
  obtain ⟨l, x, hl⟩ := Ex.c6_trail false
  obtain ⟨c, next, st, job, e, ep⟩ := Ex.gotIn_iff (x := (Ex.c6 false).procs 1) (p := true) (a := Ex.a1) (v := .user 1) (by decide +kernel)
  refine ⟨_, l, c, next, st, job, .user 1, ?_, e, fun t ht => ?_⟩
  · have : (fun _ : Nat => False) = fun _ => false = true := by funext; simp
    rw [this]; exact x
  · have := hl t ht
    rw [ep]
    simpa [Ex.notOne] using this

end Pyth.Parts
