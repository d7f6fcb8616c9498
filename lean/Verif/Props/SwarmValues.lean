import Verif.Props.SwarmParts
import Verif.Proofs.SwarmValues
/-!
# C89: a stored or returned result is what evaluating the call gives, in every portal
-/
namespace Pyth.Parts
open Pyth.Pure (Val FnId sortKw)

variable {U A P : Type} [DecidableEq P] [DecidableEq A] {h : Val U A → A}
  {code : FnId → List (String × Val U A) → Code U A P} {travel : Prop} {knows : P → List P → Prop}

/-- **C89** In every execution of any number of processes, interleaved arbitrarily and crashing anywhere: the result
stored for a call, in whatever portal, is a value that simply evaluating the call — without portals, processes and
memory of earlier calls — can give. -/
theorem C89_results_correct_partial (inj : Function.Injective h) (kn : travel → KnowsAll knows) {s : State U A P}
    (hs : Reachable h code travel knows s) (p : P) (a r : A) (hr : s.sh.results p a = some r) :
    ∃ f kw v, a = callOf h f kw ∧ s.sh.store p r = some v ∧ Outcome h code True (code f kw) (.val v) := by
  have o := hs.ok (strict := True) inj fun _ => kn
  obtain ⟨_, h2, f, kw, v, e1, e2, e3⟩ := o.inv.results p a r hr
  obtain ⟨w, hw⟩ := Option.isSome_iff_exists.1 h2
  have e := o.inv.store p r w hw
  rw [e2] at e
  exact ⟨f, kw, v, e1, inj e ▸ hw, e3⟩

/-- **C89** A value that any operation returns as the result of a call (`f(**kw)`, `addr.execute()`, `addr.get()`) is
such a value too: whether it was computed here, or read from some portal after another process had computed it. -/
theorem C89_returned_correct_partial (inj : Function.Injective h) (kn : travel → KnowsAll knows) {s : State U A P}
    (hs : Reachable h code travel knows s) (i : Nat) (a : A) (v : Val U A)
    (hm : (s.procs i).mode = .io (.done (.got a v))) :
    ∃ f kw, a = callOf h f kw ∧ Outcome h code True (code f kw) (.val v) := by
  have o := hs.ok (strict := True) inj fun _ => kn
  obtain ⟨Q, _, h2⟩ := o.io i hm
  obtain ⟨f, kw, w, e1, e2, e3⟩ := ReplyOk.got h2 a v rfl
  exact ⟨f, kw, e1, inj e2 ▸ e3⟩

/-- **C89** If evaluating a call gives at most one value (`OneValue`; theorems below give sufficient conditions), the results
stored for a call are the same in all portals, at all times and in all executions. -/
theorem C89_portals_agree_partial (inj : Function.Injective h) (pure : OneValue h code)
    (kn : travel → KnowsAll knows) {s t : State U A P}
    (hs : Reachable h code travel knows s) (ht : Reachable h code travel knows t) (p q : P) (a r r' : A)
    (hr : s.sh.results p a = some r) (hr' : t.sh.results q a = some r') : r = r' :=
  correct_unique inj pure ((hs.ok (strict := True) inj fun _ => kn).inv.results p a r hr).2.2
    ((ht.ok (strict := True) inj fun _ => kn).inv.results q a r' hr').2.2

/-- **C89** … in particular a result that is stored once never changes, although several processes may have computed it
at the same time and all write it. -/
theorem C89_results_never_change_partial (inj : Function.Injective h) (pure : OneValue h code)
    (kn : travel → KnowsAll knows) {s t : State U A P}
    (hs : Reachable h code travel knows s) (hst : Steps h code travel knows s t) (p : P) (a r : A)
    (hr : s.sh.results p a = some r) : t.sh.results p a = some r := by
  have ht : Reachable h code travel knows t := by
    unfold Reachable at hs ⊢
    induction hst with
    | refl => exact hs
    | step i x y ih => exact .step i ih y
  obtain ⟨r', hr'⟩ := Option.isSome_iff_exists.1 ((C88_stored_stays_partial inj hs hst).2 p a (by rw [hr]; rfl))
  rw [hr', C89_portals_agree_partial inj pure kn hs ht p p a r r' hr hr']

/-- **C89** … and everybody who is given a result of the call, in whatever portal, process and execution, is given the
same value. -/
theorem C89_same_answer_partial (inj : Function.Injective h) (pure : OneValue h code)
    (kn : travel → KnowsAll knows) {s t : State U A P}
    (hs : Reachable h code travel knows s) (ht : Reachable h code travel knows t) (i j : Nat) (a : A) (v w : Val U A)
    (hm : (s.procs i).mode = .io (.done (.got a v))) (hm' : (t.procs j).mode = .io (.done (.got a w))) : v = w := by
  obtain ⟨f, kw, e1, e2⟩ := C89_returned_correct_partial inj kn hs i a v hm
  obtain ⟨f', kw', e1', e2'⟩ := C89_returned_correct_partial inj kn ht j a w hm'
  exact inj (correct_unique inj pure ⟨f, kw, v, e1, rfl, e2⟩ ⟨f', kw', w, e1', rfl, e2'⟩)

/-- **C89** A sufficient condition for this: the code of all functions does the same in whatever portals it works and whatever others
do.  It may compute, make addresses, store and fetch values, call functions, start calls elsewhere (`f.swarm(…)`, also in
batches) and wait for their results with `addr.get()` — but what it does next may not depend on whether a
result was ready.  With timeouts it must not catch `TimeoutError`, nor exceptions of the calls it runs (`uncaught`). -/
theorem C89_steady_functions_are_pure (inj : Function.Injective h) (uncaught : Prop)
    (det : ∀ f kw, Steady uncaught (code f kw)) : OneValue h code := steady_oneValue inj det

/-- **C89** In particular this covers functions that only compute and call functions with plain arguments. -/
theorem C89_calling_functions_are_pure (inj : Function.Injective h) (det : ∀ f kw, CallsOnly (code f kw)) :
    OneValue h code := steady_oneValue inj fun f kw => (det f kw).steady

/-! ### examples -/

namespace Ex
open Pure.Ex (T addrOf addrOf_inj)

/-- what function 1 does with the result of function 0 -/
def plusOne : Reply Nat T Bool → Code Nat T Bool
  | .got _ (.user n) => .ret (.user (n + 1))
  | _ => .raise

/-- function 1 calls function 0 with `x=7` and adds one; function 0 returns 5 -/
def fns2 : FnId → List (String × Val Nat T) → Code Nat T Bool
  | 1, _ => .op (.execute true [] 0 (raws [("x", 7)])) plusOne
  | _, _ => .ret (.user 5)

theorem fns2_det (f : FnId) (kw : List (String × Val Nat T)) : CallsOnly (fns2 f kw) := by
  unfold fns2
  split
  · refine .call _ _ _ _ _ fun r => ?_
    unfold plusOne
    split
    · exact .ret _
    · exact .raise
  · exact .ret _

/-- the call of function 1 with no arguments -/
def a1 : T := callAddr addrOf 1 []

/-- process `i` performs, in portals `p`, `os`, the operation at which its code stands -/
def perform (i : Nat) (p : Bool) (os : List Bool) (s : State Nat T Bool) : State Nat T Bool :=
  match s.procs i with
  | ⟨.code (.op c next), st, job⟩ => s.setProc i ⟨.io (prog addrOf (c.at p os)), .inCode (c.at p os) next :: st, job⟩
  | _ => s

/-- the operation at which a process stands -/
def nextOp : Proc Nat T Bool → Option (Cmd Nat T Bool)
  | ⟨.code (.op c _), _, _⟩ => some c
  | _ => none

theorem perform_steps {fs : FnId → List (String × Val Nat T) → Code Nat T Bool} {travel : Prop} {i : Nat} {p : Bool}
    {os : List Bool} {s t : State Nat T Bool} (x : Steps addrOf fs travel any s t)
    (hl : ∀ c, nextOp (t.procs i) = some c → Legal travel any t.vaddrs t.raddrs (c.at p os)) :
    Steps addrOf fs travel any s (perform i p os t) := by
  unfold perform
  cases e : t.procs i with
  | mk m st job =>
  cases m with
  | idle => exact x
  | io y => exact x
  | code c =>
    cases c with
    | ret v => exact x
    | raise => exact x
    | op c n =>
      have := Act.op (h := addrOf) (code := fs) (travel := travel) (knows := any) (i := i) (s := t) c n p os
        (by rw [e]) (hl c (by rw [e]; rfl))
      rw [e] at this
      exact .step i x (.act _ this)

/-- process `i` makes the call of function 1 in portal `p`, until the code of function 1 is started -/
def enterF (fs : FnId → List (String × Val Nat T) → Code Nat T Bool) (i : Nat) (p : Bool) (s : State Nat T Bool) :
    State Nat T Bool := ticks addrOf fs i 7 (call addrOf i (.execute p [] 1 []) s)

theorem enterF_steps {fs : FnId → List (String × Val Nat T) → Code Nat T Bool} {travel : Prop} {i : Nat} {p : Bool}
    {s t : State Nat T Bool} (x : Steps addrOf fs travel any s t) (hi : t.procs i = {}) :
    Steps addrOf fs travel any s (enterF fs i p t) :=
  ticks_steps 7 (call_steps x hi ⟨trivial, fun _ _ _ hx => (nomatch hx)⟩)

/-- processes 0 and 1 make the call in portal `true`, process 2 makes it in portal `false`: all start the code -/
def x1 : State Nat T Bool := enterF fns2 2 false (enterF fns2 1 true (enterF fns2 0 true init))

theorem x1_reach : Reachable addrOf fns2 False any x1 :=
  enterF_steps (enterF_steps (enterF_steps (.refl _) rfl) rfl) rfl

/-- all call function 0 -/
def x2 : State Nat T Bool := perform 2 false [] (perform 1 true [] (perform 0 true [] x1))

/-- processes 0 and 1 have found that there is no result of function 1 yet -/
def x3 : State Nat T Bool := ticks addrOf fns2 1 12 (ticks addrOf fns2 0 18 x2)

/-- process 0 returns -/
def x4 : State Nat T Bool := ticks addrOf fns2 0 2 x3

/-- process 1, which also writes its result, and process 2 return -/
def x5 : State Nat T Bool := ticks addrOf fns2 2 20 (ticks addrOf fns2 1 2 x4)

theorem nextOp_raw {t : State Nat T Bool} {i : Nat} {p : Bool} {os : List Bool} {travel : Prop} {us : List (String × Nat)}
    {p' : Bool} {os' : List Bool} {f : FnId} (e : nextOp (t.procs i) = some (.execute p' os' f (raws us))) :
    ∀ c, nextOp (t.procs i) = some c → Legal travel any t.vaddrs t.raddrs (c.at p os) := by
  intro c hc
  rw [e] at hc
  cases hc
  refine ⟨trivial, fun n home a hx => ?_⟩
  obtain ⟨x, _, hx⟩ := List.mem_map.1 hx
  injection hx with _ hx
  cases hx

theorem x2_reach : Reachable addrOf fns2 False any x2 := by
  refine perform_steps (perform_steps (perform_steps x1_reach ?_) ?_) ?_
  · exact nextOp_raw (us := [("x", 7)]) (p' := true) (os' := []) (f := 0) rfl
  · exact nextOp_raw (us := [("x", 7)]) (p' := true) (os' := []) (f := 0) rfl
  · exact nextOp_raw (us := [("x", 7)]) (p' := true) (os' := []) (f := 0) rfl

theorem x4_reach : Reachable addrOf fns2 False any x4 := ticks_steps 2 (ticks_steps 12 (ticks_steps 18 x2_reach))

theorem x5_reach : Reachable addrOf fns2 False any x5 := ticks_steps 20 (ticks_steps 2 x4_reach)

/-- evaluation of the call -/
theorem fns2_outcome : Outcome addrOf fns2 True (fns2 1 []) (.val (.user 6)) := by
  refine .call _ _ 0 [("x", .user 7)] (.user 5) _ ⟨rfl, ?_⟩ (.ret _) (.ret _)
  exact gets_raws [("x", 7)]

/-- is a process about to write a result? -/
def writes : Proc Nat T Bool → Option (T × T)
  | ⟨.io (.setResult _ a r _), _, _⟩ => some (a, r)
  | _ => none

/-- the value returned as result of a call -/
def answer : Proc Nat T Bool → Option (T × Val Nat T)
  | ⟨.io (.done (.got a v)), _, _⟩ => some (a, v)
  | _ => none

/-- the premises of the theorems are met: two processes race to write the result of a nested call, a third computes it
in another portal that nobody copies from; the results are those of evaluating the call -/
example : writes (x3.procs 0) = some (a1, addrOf (.user 6)) ∧ writes (x3.procs 1) = some (a1, addrOf (.user 6)) ∧
    x4.sh.results true a1 = some (addrOf (.user 6)) ∧ x4.sh.results false a1 = none ∧
    writes (x4.procs 1) = some (a1, addrOf (.user 6)) ∧
    x5.sh.results true a1 = some (addrOf (.user 6)) ∧ x5.sh.results false a1 = some (addrOf (.user 6)) ∧
    answer (x5.procs 1) = some (a1, .user 6) ∧ answer (x5.procs 2) = some (a1, .user 6) :=
  ⟨by decide +kernel, by decide +kernel, by decide +kernel, by decide +kernel, by decide +kernel, by decide +kernel,
    by decide +kernel, by decide +kernel, by decide +kernel⟩

example (r : T) (hr : x5.sh.results false a1 = some r) : r = addrOf (.user 6) :=
  C89_portals_agree_partial addrOf_inj (C89_calling_functions_are_pure addrOf_inj fns2_det) (fun x => x.elim) x5_reach x4_reach false true a1 r _ hr
    (by decide +kernel)

/-! functions that start a call elsewhere and wait for its result -/

/-- what function 1 does with the address of the call of function 0 -/
def awaitIt : Reply Nat T Bool → Code Nat T Bool
  | .call p a => .op (.getResult p [] a none) plusOne
  | _ => .raise

/-- function 1 swarms function 0 with `x=7`, waits for the result and adds one; function 0 returns 5 -/
def fns4 : FnId → List (String × Val Nat T) → Code Nat T Bool
  | 1, _ => .op (.swarm true [] 0 (raws [("x", 7)])) awaitIt
  | _, _ => .ret (.user 5)

theorem plusOne_steady {r r' : Reply Nat T Bool} (l : r.Like r') : Alike False (plusOne r) (plusOne r') := by
  cases r <;> cases r' <;> first | exact l.elim | exact .raise | skip
  obtain ⟨rfl, rfl⟩ := l
  unfold plusOne
  split
  · exact .ret _
  · exact .raise

theorem fns4_steady (f : FnId) (kw : List (String × Val Nat T)) : Steady False (fns4 f kw) := by
  unfold fns4 Steady
  split
  · refine .op _ _ _ _ ⟨rfl, rfl⟩ (fun _ _ _ _ _ => nofun) (fun u => u.elim) fun r r' h1 h2 l => ?_
    cases r <;> first | exact h1.elim | skip
    cases r' <;> first | exact h2.elim | skip
    refine .op _ _ _ _ ⟨l, Iff.rfl⟩ (fun _ _ _ _ _ => nofun) (fun u => u.elim) fun r r' _ _ l => plusOne_steady l
  · exact .ret _

/-- process 0 makes the call of function 1 in portal `true`, and asks for the call of function 0 -/
def f1 : State Nat T Bool := ticks addrOf fns4 0 10 (perform 0 true [] (enterF fns4 0 true init))

/-- process 0 waits for the result, in vain -/
def f2 : State Nat T Bool := ticks addrOf fns4 0 20 (perform 0 true [] f1)

/-- a worker in portal `true` finds the request, and serves it -/
def f3 : State Nat T Bool := ticks addrOf fns4 1 60 (f2.setProc 1 ⟨.io (work addrOf true [] a0), [], some a0⟩)

/-- process 0 goes on -/
def f4 : State Nat T Bool := ticks addrOf fns4 0 20 f3

theorem nextOp_swarm {t : State Nat T Bool} {i : Nat} {p : Bool} {os : List Bool} {travel : Prop} {us : List (String × Nat)}
    {p' : Bool} {os' : List Bool} {f : FnId} (e : nextOp (t.procs i) = some (.swarm p' os' f (raws us))) :
    ∀ c, nextOp (t.procs i) = some c → Legal travel any t.vaddrs t.raddrs (c.at p os) := by
  intro c hc
  rw [e] at hc
  cases hc
  refine ⟨trivial, fun n home a hx => ?_⟩
  obtain ⟨x, _, hx⟩ := List.mem_map.1 hx
  injection hx with _ hx
  cases hx

theorem nextOp_get {t : State Nat T Bool} {i : Nat} {p : Bool} {os : List Bool} {travel : Prop}
    {p' : Bool} {os' : List Bool} {a : T} {n : Option Nat} (e : nextOp (t.procs i) = some (.getResult p' os' a n))
    (ha : (p', a) ∈ t.raddrs) :
    ∀ c, nextOp (t.procs i) = some c → Legal travel any t.vaddrs t.raddrs (c.at p os) := by
  intro c hc
  rw [e] at hc
  cases hc
  exact ⟨trivial, .inl ha⟩

theorem f1_reach : Reachable addrOf fns4 False any f1 :=
  ticks_steps 10 (perform_steps (enterF_steps (.refl _) rfl)
    (nextOp_swarm (us := [("x", 7)]) (p' := true) (os' := []) (f := 0) rfl))

theorem f1_knows : (true, a0) ∈ f1.raddrs := by decide +kernel

theorem f2_reach : Reachable addrOf fns4 False any f2 :=
  ticks_steps 20 (perform_steps f1_reach (nextOp_get (p' := true) (os' := []) (a := a0) (n := none) rfl f1_knows))

theorem f2_request : f2.sh.requests true a0 = true := by decide +kernel

theorem f4_reach : Reachable addrOf fns4 False any f4 :=
  ticks_steps 20 (ticks_steps 60 (.step 1 f2_reach (.act _ (.found true [] a0 rfl trivial f2_request))))

/-- the result of the call that swarms another one is that of evaluating it, in this and every other execution -/
example : f2.sh.results true a0 = none ∧ f3.sh.results true a0 = some (addrOf (.user 5)) ∧
    f3.sh.results true a1 = none ∧ f4.sh.results true a1 = some (addrOf (.user 6)) :=
  ⟨by decide +kernel, by decide +kernel, by decide +kernel, by decide +kernel⟩

example (s : State Nat T Bool) (hs : Reachable addrOf fns4 False any s) (p : Bool) (r : T)
    (hr : s.sh.results p a1 = some r) : r = addrOf (.user 6) :=
  C89_portals_agree_partial addrOf_inj (C89_steady_functions_are_pure addrOf_inj False fns4_steady) (fun x => x.elim)
    hs f4_reach p true a1 r _ hr (by decide +kernel)

/-! code that looks at the state -/

/-- what function 1 does with the answer whether function 0 is ready -/
def asNumber : Reply Nat T Bool → Code Nat T Bool
  | .flag b => .ret (.user (if b then 1 else 0))
  | _ => .raise

/-- what function 1 does with the address of the call of function 0 -/
def askReady : Reply Nat T Bool → Code Nat T Bool
  | .call p a => .op (.isReady p [] a) asNumber
  | _ => .raise

/-- function 1 reports whether function 0 was called already with `x=7`; function 0 returns 5 -/
def fns3 : FnId → List (String × Val Nat T) → Code Nat T Bool
  | 1, _ => .op (.getAddress true [] 0 (raws [("x", 7)])) askReady
  | _, _ => .ret (.user 5)

/-- processes 0 and 1 call function 1 in portal `true`; process 0 asks for the address of the call of function 0 -/
def y1 : State Nat T Bool := ticks addrOf fns3 0 5 (perform 0 true [] (enterF fns3 1 true (enterF fns3 0 true init)))

/-- process 0 learns that function 0 was not called, and is about to write its result -/
def y2 : State Nat T Bool := ticks addrOf fns3 0 5 (perform 0 true [] y1)

/-- process 2 calls function 0; then process 1 asks for the address of that call -/
def y3 : State Nat T Bool := ticks addrOf fns3 1 5 (perform 1 true []
  (ticks addrOf fns3 2 40 (call addrOf 2 (.execute true [] 0 [("x", .raw 7)]) y2)))

/-- process 1 learns that function 0 was called, and is about to write its result; process 0 writes its result -/
def y4 : State Nat T Bool := ticks addrOf fns3 0 1 (ticks addrOf fns3 1 5 (perform 1 true [] y3))

/-- process 1 writes its result -/
def y5 : State Nat T Bool := ticks addrOf fns3 1 1 y4

theorem nextOp_addr {t : State Nat T Bool} {i : Nat} {p : Bool} {os : List Bool} {travel : Prop} {us : List (String × Nat)}
    {p' : Bool} {os' : List Bool} {f : FnId} (e : nextOp (t.procs i) = some (.getAddress p' os' f (raws us))) :
    ∀ c, nextOp (t.procs i) = some c → Legal travel any t.vaddrs t.raddrs (c.at p os) := by
  intro c hc
  rw [e] at hc
  cases hc
  refine ⟨trivial, fun n home a hx => ?_⟩
  obtain ⟨x, _, hx⟩ := List.mem_map.1 hx
  injection hx with _ hx
  cases hx

theorem nextOp_ready {t : State Nat T Bool} {i : Nat} {p : Bool} {os : List Bool} {travel : Prop}
    {p' : Bool} {os' : List Bool} {a : T} (e : nextOp (t.procs i) = some (.isReady p' os' a)) (ha : (p', a) ∈ t.raddrs) :
    ∀ c, nextOp (t.procs i) = some c → Legal travel any t.vaddrs t.raddrs (c.at p os) := by
  intro c hc
  rw [e] at hc
  cases hc
  exact ⟨trivial, .inl ha⟩

theorem y1_reach : Reachable addrOf fns3 False any y1 :=
  ticks_steps 5 (perform_steps (enterF_steps (enterF_steps (.refl _) rfl) rfl)
    (nextOp_addr (us := [("x", 7)]) (p' := true) (os' := []) (f := 0) rfl))

theorem y1_knows : (true, a0) ∈ y1.raddrs := by decide +kernel

theorem y2_reach : Reachable addrOf fns3 False any y2 :=
  ticks_steps 5 (perform_steps y1_reach (nextOp_ready (p' := true) (os' := []) (a := a0) rfl y1_knows))

theorem y3_reach : Reachable addrOf fns3 False any y3 :=
  ticks_steps 5 (perform_steps (ticks_steps 40 (call_steps (c := .execute true [] 0 [("x", .raw 7)]) y2_reach rfl
    ⟨trivial, legal_raw⟩)) (nextOp_addr (us := [("x", 7)]) (p' := true) (os' := []) (f := 0) rfl))

theorem y3_knows : (true, a0) ∈ y3.raddrs := by decide +kernel

theorem y4_reach : Reachable addrOf fns3 False any y4 :=
  ticks_steps 1 (ticks_steps 5 (perform_steps y3_reach (nextOp_ready (p' := true) (os' := []) (a := a0) rfl y3_knows)))

end Ex

/-- **C89** (counterexample) It is necessary that functions only compute: if the code of a function looks at the state of
the portal, two processes may compute different results, both write them, and the stored result changes. -/
theorem C89_state_dependent_counterexample :
    ∃ s t : State Nat Pure.Ex.T Bool, Reachable Pure.Ex.addrOf Ex.fns3 False Ex.any s ∧
      Steps Pure.Ex.addrOf Ex.fns3 False Ex.any s t ∧
      s.sh.results true Ex.a1 = some (Pure.Ex.addrOf (.user 0)) ∧
      t.sh.results true Ex.a1 = some (Pure.Ex.addrOf (.user 1)) :=
  ⟨Ex.y4, Ex.y5, Ex.y4_reach, ticks_steps 1 (.refl _), by decide +kernel, by decide +kernel⟩

end Pyth.Parts
