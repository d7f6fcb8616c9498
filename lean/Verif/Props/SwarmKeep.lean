import Verif.Proofs.SwarmKeep
import Verif.Props.SwarmValues
/-!
# C92: requests are not lost, and an answered call has its result stored
-/
namespace Pyth.Parts
open Pyth.Pure (Val FnId sortKw)

variable {U A P : Type} [DecidableEq P] [DecidableEq A] {h : Val U A → A}
  {code : FnId → List (String × Val U A) → Code U A P} {travel : Prop} {knows : P → List P → Prop} {N : P → A → Prop}

theorem Steps.calm {s t : State U A P} (x : Steps h code travel knows s t) :
    CalmSteps h code travel knows (fun _ _ => False) s t := by
  induction x with
  | refl => exact .refl _
  | step i x y ih => exact .step i ih y (.inl fun _ _ _ n => n.elim)

theorem Reachable.safe {s : State U A P} (hs : Reachable h code travel knows s) (j : Nat) :
    ProcSafe h (fun _ _ => False) s.sh (s.procs j) :=
  ((Steps.calm hs).safe init_safe).2 j

/-- **C92** In every execution of any number of processes, interleaved arbitrarily and crashing anywhere: at the moment
when a request disappears, the same portal has the result of the call, unless the process that removes it is executing
`addr.drop_execution_request()` for this address. -/
theorem C92_dropped_only_with_result {s t : State U A P} (hs : Reachable h code travel knows s) {i : Nat}
    (x : Step h code travel knows i s t) (p : P) (a : A) (h1 : s.sh.requests p a = true)
    (h2 : t.sh.requests p a = false) :
    (s.sh.results p a).isSome = true ∨ ∃ next st, (s.procs i).stack = .inCode (.dropAddr p a) next :: st := by
  have same : t.sh.requests = s.sh.requests → False := fun e => by rw [e, h1] at h2; cases h2
  cases x with
  | crash => exact (same rfl).elim
  | act _ x =>
    cases x with
    | drop q b k hm =>
      have e : p = q ∧ a = b := by
        by_cases e : p = q ∧ a = b
        · exact e
        · have : (s.sh.setRequest q b false).requests p a = s.sh.requests p a := setRequest_other e
          rw [State.next] at h2
          rw [h2, h1] at this
          cases this
      obtain ⟨rfl, rfl⟩ := e
      rcases (hs.safe i).1 _ hm with y | ⟨q, b, next, st, e, e', _⟩
      · exact .inl (y _ (.refl _)).1
      · injection e with e1 e2
        subst e1 e2
        exact .inr ⟨next, st, e'⟩
    | request q b k hm =>
      by_cases e : p = q ∧ a = b
      · obtain ⟨rfl, rfl⟩ := e
        have : (s.sh.setRequest p a true).requests p a = true := setRequest_self ..
        rw [State.next] at h2
        rw [h2] at this
        cases this
      · have : (s.sh.setRequest q b true).requests p a = s.sh.requests p a := setRequest_other e
        rw [State.next] at h2
        rw [h2, h1] at this
        cases this
    | _ => exact (same rfl).elim

/-- nobody is inside `addr.drop_execution_request()` for `p`, `a` -/
def NoDrop (s : State U A P) (p : P) (a : A) : Prop :=
  ∀ i next, Frame.inCode (.dropAddr p a) next ∉ (s.procs i).stack

theorem noDrop_step {s t : State U A P} {i : Nat} {p : P} {a : A} (hd : NoDrop s p a)
    (x : Step h code travel knows i s t)
    (calm : (∀ next, (s.procs i).mode ≠ .code (.op (.dropAddr p a) next)) ∨ t = s.setProc i {}) : NoDrop t p a := by
  have upd : ∀ y : Proc U A P, (∀ next, Frame.inCode (.dropAddr p a) next ∉ y.stack) →
      ∀ j next, Frame.inCode (.dropAddr p a) next ∉ (Function.update s.procs i y j).stack := by
    intro y hy j
    by_cases e : j = i
    · subst e; rw [Function.update_self]; exact hy
    · rw [Function.update_of_ne e]; exact hd j
  cases x with
  | crash => exact upd _ fun _ hx => (nomatch hx)
  | act _ x =>
    cases x with
    | script c hm => exact upd _ fun _ hx => (nomatch hx)
    | found p os a hm hk hr => exact upd _ fun _ hx => (nomatch hx)
    | op c next q os hm hl =>
      refine upd _ fun n hx => ?_
      rcases List.mem_cons.1 hx with hx | hx
      · rcases calm with calm | calm
        · cases c <;> simp [Cmd.at] at hx
          obtain ⟨⟨rfl, rfl⟩, _⟩ := hx
          exact calm _ hm
        · have := congrArg (fun u : State U A P => (u.procs i).mode) calm
          simp [State.setProc] at this
      · exact hd i n hx
    | done r c next st job hm =>
      refine upd _ fun n hx => hd i n ?_
      rw [hm]; exact List.mem_cons_of_mem _ hx
    | workDone r job hm => exact upd _ fun _ hx => (nomatch hx)
    | body a f kw k hm =>
      refine upd _ fun n hx => ?_
      rcases List.mem_cons.1 hx with hx | hx
      · cases hx
      · exact hd i n hx
    | ret v k st job hm =>
      refine upd _ fun n hx => hd i n ?_
      rw [hm]; exact List.mem_cons_of_mem _ hx
    | raise k st job hm =>
      refine upd _ fun n hx => hd i n ?_
      rw [hm]; exact List.mem_cons_of_mem _ hx
    | put | load | result | setResult | request | drop | wait | toss => exact upd _ (hd i)

/-- no result ever disappears -/
theorem isSome_step {s t : State U A P} (hs : Reachable h code travel knows s) {i : Nat}
    (x : Step h code travel knows i s t) (p : P) (a : A) (hr : (s.sh.results p a).isSome = true) :
    (t.sh.results p a).isSome = true :=
  (step_safe (N := fun _ _ => False) hs.safe x (.inl fun _ _ _ n => n.elim)).1.results p a hr

/-- **C92** A call that is requested, or has a result, in a portal stays so, whatever any number of processes do and
wherever they crash, as long as nobody calls `addr.drop_execution_request()` for it. -/
theorem C92_request_stays {s t : State U A P} (hs : Reachable h code travel knows s) (p : P) (a : A)
    (hd : NoDrop s p a) (x : CalmSteps h code travel knows (fun q b => q = p ∧ b = a) s t) (ha : Asked s.sh p a) :
    Asked t.sh p a := by
  suffices Asked t.sh p a ∧ NoDrop t p a ∧ Reachable h code travel knows t from this.1
  induction x with
  | refl => exact ⟨ha, hd, hs⟩
  | step i x y calm ih =>
    obtain ⟨h1, h2, h3⟩ := ih
    refine ⟨?_, noDrop_step h2 y (calm.imp (fun z n => z p a n ⟨rfl, rfl⟩) id), .step i h3 y⟩
    rcases h1 with h1 | h1
    · cases e : State.sh _ |>.requests p a with
      | true => exact .inl e
      | false =>
        rcases C92_dropped_only_with_result h3 y p a h1 e with h | ⟨n, st, h⟩
        · exact .inr (isSome_step h3 y p a h)
        · exact absurd (h ▸ List.mem_cons_self) (h2 i n)
    · exact .inr (isSome_step h3 y p a h1)

/-- **C92** When `f.swarm(**kw)` returns an address, it belongs to the portal of `f`, it is the address of this call,
and the call is requested in this portal or has a result there — whatever other processes did meanwhile, unless
somebody called `addr.drop_execution_request()` for it. -/
theorem C92_swarm_requests {s : State U A P} (x : CalmSteps h code travel knows N init s) {i : Nat} {p q : P}
    {os : List P} {f : FnId} {kw : List (String × Arg U A P)} {next : Reply U A P → Code U A P}
    {st : List (Frame U A P)} {job : Option A} {a : A}
    (hm : s.procs i = ⟨.io (.done (.call q a)), .inCode (.swarm p os f kw) next :: st, job⟩) :
    q = p ∧ (∀ us, kw = raws us → a = callOf h f (vals us)) ∧ (N p a → Asked s.sh p a) := by
  have := (x.safe init_safe).2 i
  rw [hm] at this
  rcases this.1 _ rfl with y | ⟨_, _, _, _, e, _⟩
  · exact y _ (.refl _) q a rfl
  · cases e

/-- **C92** The same for all addresses that `f.swarm_list(kws)` returns: they are the addresses of the calls, in the
given order, whatever the order in which the requests were made. -/
theorem C92_swarm_list_requests {s : State U A P} (x : CalmSteps h code travel knows N init s) {i : Nat} {p q : P}
    {os : List P} {f : FnId} {kws : List (List (String × Arg U A P))} {shuffle : List A → List A}
    {next : Reply U A P → Code U A P} {st : List (Frame U A P)} {job : Option A} {l : List A}
    (hm : s.procs i = ⟨.io (.done (.calls q l)), .inCode (.swarmList p os f kws shuffle) next :: st, job⟩) :
    q = p ∧ (∀ uss : List (List (String × U)), kws = uss.map raws → l = uss.map fun us => callOf h f (vals us)) ∧
    ∀ a ∈ l, N p a → Asked s.sh p a := by
  have := (x.safe init_safe).2 i
  rw [hm] at this
  rcases this.1 _ rfl with y | ⟨_, _, _, _, e, _⟩
  · exact y _ (.refl _) q l rfl
  · cases e

/-- **C92** When `addr.request_execution()` returns, the call is requested or has a result, unless somebody called
`addr.drop_execution_request()` for it. -/
theorem C92_request_execution_requests {s : State U A P} (x : CalmSteps h code travel knows N init s) {i : Nat} {p : P}
    {os : List P} {a : A} {next : Reply U A P → Code U A P} {st : List (Frame U A P)} {job : Option A}
    (hm : s.procs i = ⟨.io (.done .unit), .inCode (.requestAddr p os a) next :: st, job⟩) (hn : N p a) :
    Asked s.sh p a := by
  have := (x.safe init_safe).2 i
  rw [hm] at this
  rcases this.1 _ rfl with y | ⟨_, _, _, _, e, _⟩
  · exact y _ (.refl _) rfl hn
  · cases e

/-- **C92** Whoever waits in `addr.get()` without a timeout waits for a call that is requested or has a result, unless
somebody called `addr.drop_execution_request()` for it. -/
theorem C92_awaited_is_requested {s : State U A P} (x : CalmSteps h code travel knows N init s) {i : Nat} {p : P}
    {os : List P} {a : A} (hm : (s.procs i).mode = .io (.wait p os a)) (hn : N p a) : Asked s.sh p a := by
  rcases ((x.safe init_safe).2 i).1 _ hm with y | ⟨_, _, _, _, e, _⟩
  · exact y.1 hn
  · cases e

/-- **C92** When the call `f(**kw)` returns a value, the portal of `f` has a result of this call. -/
theorem C92_returned_call_is_stored {s : State U A P} (hs : Reachable h code travel knows s) {i : Nat} {p : P}
    {os : List P} {f : FnId} {kw : List (String × Arg U A P)} {next : Reply U A P → Code U A P}
    {st : List (Frame U A P)} {job : Option A} {a : A} {v : Val U A}
    (hm : s.procs i = ⟨.io (.done (.got a v)), .inCode (.execute p os f kw) next :: st, job⟩) :
    (∀ us, kw = raws us → a = callOf h f (vals us)) ∧ (s.sh.results p a).isSome = true := by
  have := hs.safe i
  rw [hm] at this
  rcases this.1 _ rfl with y | ⟨_, _, _, _, e, _⟩
  · exact y _ (.refl _) a v rfl
  · cases e

/-- **C92** When `addr.get()` returns a value, the portal of `addr` has a result of this call. -/
theorem C92_got_is_stored {s : State U A P} (hs : Reachable h code travel knows s) {i : Nat} {p : P}
    {os : List P} {a b : A} {rounds : Option Nat} {next : Reply U A P → Code U A P}
    {st : List (Frame U A P)} {job : Option A} {v : Val U A}
    (hm : s.procs i = ⟨.io (.done (.got b v)), .inCode (.getResult p os a rounds) next :: st, job⟩) :
    b = a ∧ (s.sh.results p a).isSome = true := by
  have := hs.safe i
  rw [hm] at this
  rcases this.1 _ rfl with y | ⟨_, _, _, _, e, _⟩
  · exact y _ (.refl _) b v rfl
  · cases e

/-- **C92** When `addr.ready` is true, the portal of `addr` has a result of this call — also if the result was found in
another portal. -/
theorem C92_ready_is_stored {s : State U A P} (hs : Reachable h code travel knows s) {i : Nat} {p : P}
    {os : List P} {a : A} {next : Reply U A P → Code U A P} {st : List (Frame U A P)} {job : Option A}
    (hm : s.procs i = ⟨.io (.done (.flag true)), .inCode (.isReady p os a) next :: st, job⟩) :
    (s.sh.results p a).isSome = true := by
  have := hs.safe i
  rw [hm] at this
  rcases this.1 _ rfl with y | ⟨_, _, _, _, e, _⟩
  · exact y _ (.refl _) rfl
  · cases e

/-! ### examples -/

theorem tick_calm {i : Nat} {s t : State U A P} (x : CalmSteps h code travel knows N s t) :
    CalmSteps h code travel knows N s (tick h code i t) := by
  unfold tick
  cases e : t.procs i with
  | mk m st job =>
  cases m with
  | idle => exact x
  | code c =>
    cases c with
    | ret v =>
      cases st with
      | nil => exact x
      | cons f st =>
        cases f with
        | inOp k => exact .step i x (.act _ <| .ret v k st job e) (.inl fun _ _ _ _ e' => by rw [e] at e'; cases e')
        | inCode c n => exact x
    | raise => exact x
    | op c n => exact x
  | io y =>
    have hm : ∀ {z}, y = z → (t.procs i).mode = .io z := fun hz => by rw [e, hz]
    have calm : ∀ {u : State U A P}, (∀ p a next, N p a → (t.procs i).mode ≠ .code (.op (.dropAddr p a) next)) ∨
        u = t.setProc i {} := .inl fun _ _ _ _ e' => by rw [e] at e'; cases e'
    cases y with
    | done r =>
      cases st with
      | nil => exact x
      | cons f st =>
        cases f with
        | inOp k => exact x
        | inCode c n => exact .step i x (.act _ <| .done r c n st job e) calm
    | put p a v k => exact .step i x (.act _ <| .put p a v k (hm rfl)) calm
    | load p a k => exact .step i x (.act _ <| .load p a k (hm rfl)) calm
    | result p a k => exact .step i x (.act _ <| .result p a k (hm rfl)) calm
    | setResult p a r k => exact .step i x (.act _ <| .setResult p a r k (hm rfl)) calm
    | request p a k => exact .step i x (.act _ <| .request p a k (hm rfl)) calm
    | drop p a k => exact .step i x (.act _ <| .drop p a k (hm rfl)) calm
    | wait p os a => exact .step i x (.act _ <| .wait p os a (hm rfl)) calm
    | toss k => exact .step i x (.act _ <| .toss k false (hm rfl)) calm
    | body a f kw k =>
      have := Act.body (h := h) (code := code) (travel := travel) (knows := knows) a f kw k (hm rfl)
      rw [e] at this
      exact .step i x (.act _ this) calm

theorem ticks_calm {i : Nat} (n : Nat) : ∀ {s t : State U A P}, CalmSteps h code travel knows N s t →
    CalmSteps h code travel knows N s (ticks h code i n t) := by
  induction n with
  | zero => exact fun x => x
  | succ n ih => exact fun x => ih (tick_calm x)

theorem call_calm {i : Nat} {c : Cmd U A P} {s t : State U A P} (x : CalmSteps h code travel knows N s t)
    (hi : t.procs i = {}) (hl : Legal travel knows t.vaddrs t.raddrs c) (hc : ∀ p a, N p a → c ≠ .dropAddr p a) :
    CalmSteps h code travel knows N s (call h i c t) := by
  refine .step i (.step i x (.act _ (.script (.op c fun _ => .raise) hi)) (.inl ?_)) ?_ (.inl ?_)
  · intro _ _ _ _ e'; rw [hi] at e'; cases e'
  · obtain ⟨p, os, hc⟩ := exists_at c
    have := Act.op (h := h) (code := code) (travel := travel) (knows := knows) (i := i)
      (s := t.setProc i ⟨.code (.op c fun _ => .raise), [], none⟩) c (fun _ => .raise) p os (by simp [State.setProc]) (by rw [hc]; exact hl)
    rw [hc] at this
    refine .act _ ?_
    simpa [call, State.setProc] using this
  · intro p a _ n e'
    simp [State.setProc] at e'
    exact hc p a n e'.1

namespace Ex
open Pure.Ex (T addrOf addrOf_inj)

/-- everything -/
def every : Unit → T → Prop := fun _ _ => True

/-- a client has requested a call, and is about to be told so -/
def k1 : State Nat T Unit := ticks addrOf fns1 0 6 (call addrOf 0 (.swarm () [] 0 [("x", .raw 7)]) init)

theorem k1_calm : CalmSteps addrOf fns1 True one every init k1 := by
  refine ticks_calm 6 (call_calm (c := .swarm () [] 0 [("x", .raw 7)]) (.refl _) rfl ⟨rfl, ?_⟩ fun _ _ _ e => (nomatch e))
  intro n home a hx
  cases List.mem_singleton.1 hx

/-- the answer a process is about to get, and for which operation -/
def told {P : Type} : Proc Nat T P → Option (Nat × T)
  | ⟨.io (.done (.call _ a)), .inCode (.swarm _ _ _ _) _ :: _, _⟩ => some (0, a)
  | ⟨.io (.done (.got a _)), .inCode (.execute _ _ _ _) _ :: _, _⟩ => some (1, a)
  | ⟨.io (.done (.got a _)), .inCode (.getResult _ _ _ _) _ :: _, _⟩ => some (2, a)
  | ⟨.io (.done (.flag true)), .inCode (.isReady _ _ a) _ :: _, _⟩ => some (3, a)
  | ⟨.io (.done .unit), .inCode (.requestAddr _ _ a) _ :: _, _⟩ => some (4, a)
  | ⟨.io (.done (.calls _ (a :: _))), .inCode (.swarmList _ _ _ _ _) _ :: _, _⟩ => some (5, a)
  | _ => none

/-- the premise of `C92_swarm_requests` is met -/
example : told (k1.procs 0) = some (0, a0) ∧ k1.sh.requests () a0 = true := ⟨by decide +kernel, by decide +kernel⟩

/-- `w1`: the client died after its request; a worker then executes it: the request disappears when there is a result -/
example : Asked w3.sh () a0 :=
  C92_request_stays w1_reach () a0
    (fun i next hx => by
      by_cases e : i = 0
      · subst e; cases hx
      · have : (w1.procs i).stack = [] := by
          simp only [w1, State.setProc, Function.update_of_ne e]
          have other : ∀ n (s : State Nat T Unit), (ticks addrOf fns1 0 n s).procs i = s.procs i := by
            intro n
            induction n with
            | zero => exact fun s => rfl
            | succ n ih =>
              intro s
              refine (ih _).trans ?_
              unfold tick
              split <;> simp [State.setProc, State.next, State.goto, Function.update_of_ne e]
          rw [other]
          simp [call, State.setProc, Function.update_of_ne e, init]
        rw [this] at hx; cases hx)
    (ticks_calm 5 (ticks_calm 17 (.step 1 (.refl _) (.act _ (.found () [] a0 rfl rfl w1_requested))
      (.inl fun _ _ _ _ e => (nomatch e))))) (.inl w1_requested)

/-- … and it did disappear -/
def k2 : State Nat T Unit := ticks addrOf fns1 1 3 w3

example : k2.sh.requests () a0 = false ∧ (k2.sh.results () a0).isSome = true := ⟨by decide +kernel, by decide +kernel⟩

/-- a call, waiting for a result, asking whether it is there, and asking for it: `f(x=7)`, `addr.get()`, `addr.ready`,
`addr.request_execution()`, in another portal -/
def k3 : State Nat T Bool := ticks addrOf fns 1 3 (call addrOf 1 (.getResult true [] a0 (some 5)) s2)
def k4 : State Nat T Bool := ticks addrOf fns 1 19 (call addrOf 1 (.isReady false [true] a0) s2)
def k5 : State Nat T Bool := ticks addrOf fns 0 14 (call addrOf 0 (.execute true [] 0 [("x", .raw 7)]) init)
def k6 : State Nat T Bool := ticks addrOf fns 1 20 (call addrOf 1 (.requestAddr false [true] a0) s2)
def k7 : State Nat T Bool :=
  ticks addrOf fns 0 12 (call addrOf 0 (.swarmList true [] 0 [[("x", .raw 7)], [("x", .raw 8)]] List.reverse) init)

theorem k3_reach : Reachable addrOf fns True any k3 :=
  ticks_steps 3 (call_steps (c := .getResult true [] a0 (some 5)) s2_reach rfl ⟨trivial, .inl s2_knows⟩)
theorem k4_reach : Reachable addrOf fns True any k4 :=
  ticks_steps 19 (call_steps (c := .isReady false [true] a0) s2_reach rfl ⟨trivial, .inr ⟨trivial, true, s2_knows⟩⟩)
theorem k5_reach : Reachable addrOf fns True any k5 :=
  ticks_steps 14 (call_steps (c := .execute true [] 0 [("x", .raw 7)]) (.refl _) rfl ⟨trivial, legal_raw⟩)
theorem k6_reach : Reachable addrOf fns True any k6 :=
  ticks_steps 20 (call_steps (c := .requestAddr false [true] a0) s2_reach rfl ⟨trivial, .inr ⟨trivial, true, s2_knows⟩⟩)
theorem k7_reach : Reachable addrOf fns True any k7 := by
  refine ticks_steps 12 (call_steps (c := .swarmList true [] 0 [[("x", .raw 7)], [("x", .raw 8)]] List.reverse)
    (.refl _) rfl ⟨trivial, fun kw hk n home a hx => ?_, List.reverse_perm⟩)
  rcases List.mem_cons.1 hk with rfl | hk
  · cases List.mem_singleton.1 hx
  · obtain rfl := List.mem_singleton.1 hk
    cases List.mem_singleton.1 hx

/-- the premises of the theorems about answers are met -/
example : told (k3.procs 1) = some (2, a0) ∧ told (k4.procs 1) = some (3, a0) ∧ told (k5.procs 0) = some (1, a0) ∧
    told (k6.procs 1) = some (4, a0) ∧ told (k7.procs 0) = some (5, a0) :=
  ⟨by decide +kernel, by decide +kernel, by decide +kernel, by decide +kernel, by decide +kernel⟩

/-- … and the results are where the theorems say -/
example : (k3.sh.results true a0).isSome = true ∧ (k4.sh.results false a0).isSome = true ∧
    (k5.sh.results true a0).isSome = true ∧ (k6.sh.results false a0).isSome = true ∧ k7.sh.requests true a0 = true :=
  ⟨by decide +kernel, by decide +kernel, by decide +kernel, by decide +kernel, by decide +kernel⟩

/-- somebody drops the request of the client -/
def k8 : State Nat T Unit := ticks addrOf fns1 1 1 (call addrOf 1 (.dropAddr () a0) (ticks addrOf fns1 0 1 k1))

theorem k8_reach : Reachable addrOf fns1 True one k8 := by
  refine ticks_steps 1 (call_steps (c := .dropAddr () a0) (ticks_steps 1 (ticks_steps 6
    (call_steps (c := .swarm () [] 0 [("x", .raw 7)]) (.refl _) rfl ⟨rfl, ?_⟩))) rfl ?_)
  · intro n home a hx
    cases List.mem_singleton.1 hx
  · exact .inl (show ((), a0) ∈ (ticks addrOf fns1 0 1 k1).raddrs by decide +kernel)

/-- the exception is needed: `drop_execution_request` removes a request that has no result -/
example : k8.sh.requests () a0 = false ∧ k8.sh.results () a0 = none := ⟨by decide +kernel, by decide +kernel⟩

end Ex
end Pyth.Parts
