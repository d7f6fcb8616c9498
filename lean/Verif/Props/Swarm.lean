import Verif.Model.Swarm
/-!
# C36–C38: requests and results in a swarm
-/
namespace Pyth.Swarm

variable {K V : Type} [DecidableEq K] [DecidableEq V]

/-! ### specification -/

/-- running the code directly, with all nested calls evaluated directly, ends with the outcome -/
inductive Eval (prog : K → Code K V) : Code K V → Option V → Prop
  | ret (v) : Eval prog (.ret v) (some v)
  | raise : Eval prog .raise none
  | call {k next r r'} (h : Eval prog (prog k) r) (h' : Eval prog (next r) r') : Eval prog (.call k next) r'

/-- `v` is the correct result of the call `k` -/
def Correct (prog : K → Code K V) (k : K) (v : V) : Prop := Eval prog (prog k) (some v)

/-- No process is running; stored results are correct and their values are in the store.  Requests and attempts are
arbitrary. -/
structure Init (prog : K → Code K V) (s : State K V) : Prop where
  idle : ∀ p, s.procs p = {}
  results : ∀ k v, s.results k = some v → Correct prog k v ∧ s.values v = true
  log : s.log = []

/-- a state of some execution of the swarm -/
def Reachable (prog : K → Code K V) (checks : Bool) (s : State K V) : Prop :=
  ∃ s0, Init prog s0 ∧ Steps prog checks s0 s

/-! ### proof support -/

theorem Eval.unique {prog : K → Code K V} {c : Code K V} {r r' : Option V} (h : Eval prog c r) (h' : Eval prog c r') : r = r' := by
  induction h generalizing r' with
  | ret v => cases h'; rfl
  | raise => cases h'; rfl
  | call _ _ ih1 ih2 =>
    cases h' with
    | call h1 h2 =>
      cases ih1 h1
      exact ih2 h2

/-- code `c` is what is left of call `k` -/
def Rest (prog : K → Code K V) (k : K) (c : Code K V) : Prop := ∀ r, Eval prog c r → Eval prog (prog k) r

/-- the waiting calls: each waits for the call above it -/
def Chain (prog : K → Code K V) : K → List (Frame K V) → Prop
  | _, [] => True
  | k, f :: st => (∀ r, Eval prog (prog k) r → Rest prog f.key (f.next r)) ∧ Chain prog f.key st

/-- what is known about a process in mode `m` -/
def ModeOK (prog : K → Code K V) (s : State K V) (st : List (Frame K V)) : Mode K V → Prop
  | .idle => st = []
  | .pick _ => st = []
  | .start k => Chain prog k st
  | .attempt k => Chain prog k st
  | .reqCheck k .body => Chain prog k st
  | .reqCheck _ _ => st = []
  | .reqDrop k .body => Chain prog k st ∧ (s.results k).isSome
  | .reqDrop k _ => st = [] ∧ (s.results k).isSome
  | .reqSet k .body => Chain prog k st
  | .reqSet _ _ => st = []
  | .run k c => Chain prog k st ∧ Rest prog k c
  | .storeVal k v => Chain prog k st ∧ Correct prog k v
  | .checkRes k v => Chain prog k st ∧ Correct prog k v ∧ s.values v = true
  | .writeRes k v => Chain prog k st ∧ Correct prog k v ∧ s.values v = true
  | .dropReq k v => Chain prog k st ∧ Correct prog k v ∧ (s.results k).isSome
  | .read k => Chain prog k st ∧ (s.results k).isSome
  | .ret k r => Chain prog k st ∧ Eval prog (prog k) r
  | .getCheck _ => st = []
  | .poll _ => st = []
  | .pollRead k => st = [] ∧ (s.results k).isSome
  | .getDrop k v => st = [] ∧ Correct prog k v ∧ (s.results k).isSome

structure Inv (prog : K → Code K V) (s : State K V) : Prop where
  results : ∀ k v, s.results k = some v → Correct prog k v ∧ s.values v = true
  procs : ∀ p, ModeOK prog s (s.procs p).stack (s.procs p).mode
  log : ∀ x ∈ s.log, Correct prog x.2.1 x.2.2

/-- results and values stay -/
structure Grows (s s' : State K V) : Prop where
  results : ∀ k v, s.results k = some v → s'.results k = some v
  values : ∀ v, s.values v = true → s'.values v = true

theorem Grows.some {s s' : State K V} (h : Grows s s') {k : K} (hk : (s.results k).isSome) : (s'.results k).isSome := by
  obtain ⟨v, hv⟩ := Option.isSome_iff_exists.1 hk
  rw [h.results k v hv]; rfl

theorem ModeOK.grows {prog : K → Code K V} {s s' : State K V} (h : Grows s s') {st : List (Frame K V)} {m : Mode K V}
    (hm : ModeOK prog s st m) : ModeOK prog s' st m := by
  cases m with
  | reqDrop k a => cases a <;> exact ⟨hm.1, h.some hm.2⟩
  | checkRes k v => exact ⟨hm.1, hm.2.1, h.values _ hm.2.2⟩
  | writeRes k v => exact ⟨hm.1, hm.2.1, h.values _ hm.2.2⟩
  | dropReq k v => exact ⟨hm.1, hm.2.1, h.some hm.2.2⟩
  | read k => exact ⟨hm.1, h.some hm.2⟩
  | pollRead k => exact ⟨hm.1, h.some hm.2⟩
  | getDrop k v => exact ⟨hm.1, hm.2.1, h.some hm.2.2⟩
  | reqCheck k a => cases a <;> exact hm
  | reqSet k a => cases a <;> exact hm
  | _ => exact hm

theorem inv_set {prog : K → Code K V} {s : State K V} (h : Inv prog s) (s' : State K V) (p : Nat) (pr : Proc K V)
    (hg : Grows s s') (hp : s'.procs = Function.update s.procs p pr) (hm : ModeOK prog s' pr.stack pr.mode)
    (hr : ∀ k v, s'.results k = some v → Correct prog k v ∧ s'.values v = true)
    (hl : ∀ x ∈ s'.log, Correct prog x.2.1 x.2.2) : Inv prog s' where
  results := hr
  log := hl
  procs q := by
    rw [hp]
    by_cases e : q = p
    · subst e; rw [Function.update_self]; exact hm
    · rw [Function.update_of_ne e]; exact (h.procs q).grows hg

theorem grows_same {s s' : State K V} (h : s'.results = s.results) (h' : s'.values = s.values) : Grows s s' :=
  ⟨fun _ _ x => by rw [h]; exact x, fun _ x => by rw [h']; exact x⟩

/-- a step that only moves the process and changes requests or attempts -/
theorem inv_goto {prog : K → Code K V} {s : State K V} (h : Inv prog s) (s' : State K V) (p : Nat) (pr : Proc K V)
    (h1 : s'.results = s.results) (h2 : s'.values = s.values) (h3 : s'.log = s.log)
    (hp : s'.procs = Function.update s.procs p pr) (hm : ModeOK prog s pr.stack pr.mode) : Inv prog s' :=
  inv_set h s' p pr (grows_same h1 h2) hp (hm.grows (grows_same h1 h2)) (by rw [h1, h2]; exact h.results) (by rw [h3]; exact h.log)

theorem step_inv {prog : K → Code K V} {checks : Bool} {p : Nat} {s s' : State K V} (h : Inv prog s)
    (hs : Step prog checks p s s') : Inv prog s' ∧ Grows s s' := by
  have hp := h.procs p
  have sm : ∀ s' : State K V, s'.results = s.results → s'.values = s.values → Grows s s' := fun _ => grows_same
  cases hs with
  | beginExec k e => rw [e] at hp; exact ⟨inv_goto h _ p _ rfl rfl rfl rfl (by simp only [ModeOK] at hp; rw [hp]; trivial), sm _ rfl rfl⟩
  | beginRequest k e => rw [e] at hp; exact ⟨inv_goto h _ p _ rfl rfl rfl rfl hp, sm _ rfl rfl⟩
  | beginGet k e => rw [e] at hp; exact ⟨inv_goto h _ p _ rfl rfl rfl rfl hp, sm _ rfl rfl⟩
  | beginWork k e _ => rw [e] at hp; exact ⟨inv_goto h _ p _ rfl rfl rfl rfl hp, sm _ rfl rfl⟩
  | pickSkip k e => rw [e] at hp; exact ⟨inv_goto h _ p _ rfl rfl rfl rfl hp, sm _ rfl rfl⟩
  | pickGo k e _ => rw [e] at hp; exact ⟨inv_goto h _ p _ rfl rfl rfl rfl (by simp only [ModeOK] at hp; rw [hp]; trivial), sm _ rfl rfl⟩
  | startReady k v e hv => rw [e] at hp; exact ⟨inv_goto h _ p _ rfl rfl rfl rfl ⟨hp, by rw [hv]; rfl⟩, sm _ rfl rfl⟩
  | startGo k e _ => rw [e] at hp; exact ⟨inv_goto h _ p _ rfl rfl rfl rfl hp, sm _ rfl rfl⟩
  | attempt k e => rw [e] at hp; exact ⟨inv_goto h _ p _ rfl rfl rfl rfl hp, sm _ rfl rfl⟩
  | reqYes k a v e hv =>
    rw [e] at hp
    refine ⟨inv_goto h _ p _ rfl rfl rfl rfl ?_, sm _ rfl rfl⟩
    cases a <;> exact ⟨hp, by rw [hv]; rfl⟩
  | reqNo k a e _ =>
    rw [e] at hp
    refine ⟨inv_goto h _ p _ rfl rfl rfl rfl ?_, sm _ rfl rfl⟩
    cases a <;> exact hp
  | reqDrop k a e =>
    rw [e] at hp
    refine ⟨inv_goto h _ p _ rfl rfl rfl rfl ?_, sm _ rfl rfl⟩
    cases a
    · exact hp.1
    · exact ⟨hp.1, fun r hr => hr⟩
    · exact hp.1
  | reqSet k a e =>
    rw [e] at hp
    refine ⟨inv_goto h _ p _ rfl rfl rfl rfl ?_, sm _ rfl rfl⟩
    cases a
    · exact hp
    · exact ⟨hp, fun r hr => hr⟩
    · exact hp
  | runRet k v e => rw [e] at hp; exact ⟨inv_goto h _ p _ rfl rfl rfl rfl ⟨hp.1, hp.2 _ (.ret v)⟩, sm _ rfl rfl⟩
  | runRaise k e => rw [e] at hp; exact ⟨inv_goto h _ p _ rfl rfl rfl rfl ⟨hp.1, hp.2 _ .raise⟩, sm _ rfl rfl⟩
  | runCall k k' next e =>
    rw [e] at hp
    exact ⟨inv_goto h _ p _ rfl rfl rfl rfl ⟨fun r hr r' hr' => hp.2 r' (.call hr hr'), hp.1⟩, sm _ rfl rfl⟩
  | storeVal k v e =>
    rw [e] at hp
    have hg : Grows s ({ s with values := Function.update s.values v true }.goto p (.checkRes k v)) :=
      ⟨fun _ _ x => x, fun w hw => by
        show Function.update s.values v true w = true
        by_cases e : w = v
        · subst e; rw [Function.update_self]
        · rw [Function.update_of_ne e]; exact hw⟩
    exact ⟨inv_set h _ p _ hg rfl ⟨hp.1, hp.2, Function.update_self ..⟩
      (fun k' w hw => ⟨(h.results k' w hw).1, hg.values _ (h.results k' w hw).2⟩) h.log, hg⟩
  | resNew k v e hn => rw [e] at hp; exact ⟨inv_goto h _ p _ rfl rfl rfl rfl hp, sm _ rfl rfl⟩
  | resOld k v w e hw => rw [e] at hp; exact ⟨inv_goto h _ p _ rfl rfl rfl rfl ⟨hp.1, hp.2.1, by rw [hw]; rfl⟩, sm _ rfl rfl⟩
  | resBad k v w e hw hne =>
    rw [e] at hp
    have := (h.results k w hw).1.unique hp.2.1
    injection this with this
    exact absurd this hne
  | writeRes k v e =>
    rw [e] at hp
    have hg : Grows s ({ s with results := Function.update s.results k (some v) }.goto p (.dropReq k v)) :=
      ⟨fun k' w hw => by
        show Function.update s.results k (some v) k' = some w
        by_cases e : k' = k
        · subst e; rw [Function.update_self]; exact ((h.results k' w hw).1.unique hp.2.1).symm
        · rw [Function.update_of_ne e]; exact hw, fun _ x => x⟩
    refine ⟨inv_set h _ p _ hg rfl ⟨hp.1, hp.2.1, ?_⟩ (fun k' w hw => ?_) h.log, hg⟩
    · show (Function.update s.results k (some v) k).isSome
      rw [Function.update_self]; rfl
    · have hw : Function.update s.results k (some v) k' = some w := hw
      by_cases e : k' = k
      · subst e
        rw [Function.update_self] at hw
        cases hw
        exact hp.2
      · rw [Function.update_of_ne e] at hw
        exact h.results k' w hw
  | writeFail k v e => rw [e] at hp; exact ⟨inv_goto h _ p _ rfl rfl rfl rfl hp, sm _ rfl rfl⟩
  | dropReq k v e => rw [e] at hp; exact ⟨inv_goto h _ p _ rfl rfl rfl rfl ⟨hp.1, hp.2.1⟩, sm _ rfl rfl⟩
  | read k v e hv _ => rw [e] at hp; exact ⟨inv_goto h _ p _ rfl rfl rfl rfl ⟨hp.1, (h.results k v hv).1⟩, sm _ rfl rfl⟩
  | readFail k v e hv hs =>
    have := (h.results k v hv).2
    rw [hs] at this; cases this
  | retNested k r f st e =>
    rw [e] at hp
    exact ⟨inv_goto h _ p _ rfl rfl rfl rfl ⟨hp.1.2, hp.1.1 r hp.2⟩, sm _ rfl rfl⟩
  | retValue k v e =>
    rw [e] at hp
    refine ⟨inv_set h _ p _ (sm _ rfl rfl) rfl (by show (s.procs p).stack = []; rw [e]) h.results (fun x hx => ?_), sm _ rfl rfl⟩
    rcases List.mem_append.1 hx with hx | hx
    · exact h.log x hx
    · simp at hx; subst hx; exact hp.2
  | retRaise k e => exact ⟨inv_goto h _ p _ rfl rfl rfl rfl (by show (s.procs p).stack = []; rw [e]), sm _ rfl rfl⟩
  | getReady k v e hv => rw [e] at hp; exact ⟨inv_goto h _ p _ rfl rfl rfl rfl ⟨by simp only [ModeOK] at hp; rw [hp]; trivial, by rw [hv]; rfl⟩, sm _ rfl rfl⟩
  | getWait k e _ => rw [e] at hp; exact ⟨inv_goto h _ p _ rfl rfl rfl rfl hp, sm _ rfl rfl⟩
  | pollReady k v e hv => rw [e] at hp; exact ⟨inv_goto h _ p _ rfl rfl rfl rfl ⟨hp, by rw [hv]; rfl⟩, sm _ rfl rfl⟩
  | pollTimeout k e => rw [e] at hp; exact ⟨inv_goto h _ p _ rfl rfl rfl rfl hp, sm _ rfl rfl⟩
  | pollRead k v e hv _ => rw [e] at hp; exact ⟨inv_goto h _ p _ rfl rfl rfl rfl ⟨hp.1, (h.results k v hv).1, hp.2⟩, sm _ rfl rfl⟩
  | pollFail k v e hv hs =>
    have := (h.results k v hv).2
    rw [hs] at this; cases this
  | getDrop k v e => rw [e] at hp; exact ⟨inv_goto h _ p _ rfl rfl rfl rfl ⟨by rw [hp.1]; trivial, hp.2.1⟩, sm _ rfl rfl⟩
  | crash => exact ⟨inv_goto h _ p _ rfl rfl rfl rfl rfl, sm _ rfl rfl⟩

theorem init_inv {prog : K → Code K V} {s : State K V} (h : Init prog s) : Inv prog s where
  results := h.results
  procs p := by rw [h.idle p]; rfl
  log := by rw [h.log]; simp

theorem steps_inv {prog : K → Code K V} {checks : Bool} {s s' : State K V} (h : Inv prog s)
    (hs : Steps prog checks s s') : Inv prog s' ∧ Grows s s' := by
  induction hs with
  | refl => exact ⟨h, grows_same rfl rfl⟩
  | step p _ h' ih =>
    have := step_inv ih.1 h'
    exact ⟨this.1, fun k v hv => this.2.results k v (ih.2.results k v hv), fun v hv => this.2.values v (ih.2.values v hv)⟩

theorem Reachable.inv {prog : K → Code K V} {checks : Bool} {s : State K V} (h : Reachable prog checks s) : Inv prog s := by
  obtain ⟨s0, h0, hs⟩ := h
  exact (steps_inv (init_inv h0) hs).1

/-! ### C36 -/

/-- **C36** No request is lost: in every execution of a swarm, a call that is requested at some moment is, at every
later moment, still requested or has a stored result, however the steps of the processes are interleaved
and wherever processes crash. -/
theorem C36_no_lost_requests {prog : K → Code K V} {checks : Bool} {s s' : State K V} (hs : Reachable prog checks s)
    (h : Steps prog checks s s') (k : K) (hk : s.requests k = true) : s'.requests k = true ∨ (s'.results k).isSome := by
  have hi := hs.inv
  induction h with
  | refl => exact .inl hk
  | @step t u p h h' ih =>
    have ht := (steps_inv hi h).1
    have hg := (step_inv ht h').2
    cases ih with
    | inr ih => exact .inr (hg.some ih)
    | inl ih =>
    have hp := ht.procs p
    have upd : ∀ (k' : K) (b : Bool), (b = false → (t.results k').isSome) →
        Function.update t.requests k' b k = true ∨ (t.results k).isSome := by
      intro k' b hb
      by_cases e : k = k'
      · subst e
        rw [Function.update_self]
        cases b with
        | true => exact .inl rfl
        | false => exact .inr (hb rfl)
      · rw [Function.update_of_ne e]; exact .inl ih
    cases h' with
    | reqDrop k' a e =>
      rw [e] at hp
      exact upd k' false fun _ => by cases a <;> exact hp.2
    | reqSet k' a e => exact upd k' true fun h => by cases h
    | dropReq k' v e => rw [e] at hp; exact upd k' false fun _ => hp.2.2
    | getDrop k' v e => rw [e] at hp; exact upd k' false fun _ => hp.2.2
    | _ => exact .inl ih

/-- the call is requested, or has a result -/
def Asked (s : State K V) (k : K) : Prop := s.requests k = true ∨ (s.results k).isSome

/-- the process in this mode executes the call, or waits for it in `get` -/
def Mode.Awaits (k : K) : Mode K V → Prop
  | .run k' _ => k' = k
  | .storeVal k' _ => k' = k
  | .checkRes k' _ => k' = k
  | .writeRes k' _ => k' = k
  | .poll k' => k' = k
  | .pollRead k' => k' = k
  | _ => False

/-- the process executes the call, or waits for it in `get`, or one of its calls waiting for a nested call is this one -/
def Proc.Awaits (pr : Proc K V) (k : K) : Prop := pr.mode.Awaits k ∨ ∃ f ∈ pr.stack, f.key = k

/-- **C36** Whatever is being executed or waited for is requested: in every execution of a swarm, whenever a process runs
the code of a call (itself, or below nested calls) or polls for its result in `get`, the call is requested or has a
stored result — so if that process dies, other processes still see the request. -/
theorem C36_awaited_is_requested {prog : K → Code K V} {checks : Bool} {s : State K V} (hs : Reachable prog checks s)
    (p : Nat) (k : K) (h : (s.procs p).Awaits k) : s.requests k = true ∨ (s.results k).isSome := by
  obtain ⟨s0, h0, hs⟩ := hs
  suffices ∀ p k, (s.procs p).Awaits k → Asked s k from this p k h
  clear h
  induction hs with
  | refl =>
    intro p k h
    rw [h0.idle p] at h
    rcases h with h | ⟨f, h, _⟩ <;> cases h
  | @step t u q h h' ih =>
    have hrt : Reachable prog checks t := ⟨s0, h0, h⟩
    have keep : ∀ k, Asked t k → Asked u k := fun k hk => by
      cases hk with
      | inl hk => exact C36_no_lost_requests hrt (.step q (.refl t) h') k hk
      | inr hk => exact .inr ((step_inv hrt.inv h').2.some hk)
    have move : ∀ (pr : Proc K V), u.procs = Function.update t.procs q pr → (∀ k, pr.Awaits k → Asked u k) →
        ∀ p k, (u.procs p).Awaits k → Asked u k := by
      intro pr he hk p k hp
      rw [he] at hp
      by_cases e : p = q
      · subst e; rw [Function.update_self] at hp; exact hk k hp
      · rw [Function.update_of_ne e] at hp; exact keep k (ih p k hp)
    have old : ∀ k, (t.procs q).mode.Awaits k → Asked u k := fun k hk => keep k (ih q k (.inl hk))
    have stk : ∀ k, (∃ f ∈ (t.procs q).stack, f.key = k) → Asked u k := fun k hk => keep k (ih q k (.inr hk))
    have stay : ∀ (m : Mode K V), (∀ k, m.Awaits k → Asked u k) →
        ∀ k, Proc.Awaits { t.procs q with mode := m } k → Asked u k := fun m hm k hk => hk.elim (hm k) (stk k)
    have ask1 : ∀ k', Asked u k' → ∀ a k, (after prog k' a).Awaits k → Asked u k := by
      intro k' hk' a k hk
      cases a with
      | done => cases hk
      | body => cases hk; exact hk'
      | poll => cases hk; exact hk'
    have hpi := (hrt.inv.procs q)
    cases h' with
    | reqDrop k' a e =>
      rw [e] at hpi
      exact move _ rfl (stay _ (ask1 k' (.inr (by cases a <;> exact hpi.2)) a))
    | reqSet k' a e => exact move _ rfl (stay _ (ask1 k' (.inl (Function.update_self ..)) a))
    | runRet k' v e => exact move _ rfl (stay _ fun k hk => old k (by rw [e]; exact hk))
    | runCall k' k'' next e =>
      refine move _ rfl fun k hk => ?_
      rcases hk with hk | ⟨f, hf, hk⟩
      · cases hk
      · rcases List.mem_cons.1 hf with rfl | hf
        · exact old k (by rw [e]; exact hk)
        · exact stk k ⟨f, hf, hk⟩
    | storeVal k' v e => exact move _ rfl (stay _ fun k hk => old k (by rw [e]; exact hk))
    | resNew k' v e hn => exact move _ rfl (stay _ fun k hk => old k (by rw [e]; exact hk))
    | writeFail k' v e => exact move _ rfl (stay _ fun k hk => old k (by rw [e]; exact hk))
    | pollReady k' v e hv => exact move _ rfl (stay _ fun k hk => old k (by rw [e]; exact hk))
    | retNested k' r f st e =>
      refine move _ rfl fun k hk => ?_
      rw [e] at stk
      rcases hk with hk | ⟨f', hf, hk⟩
      · exact stk k ⟨f, List.mem_cons_self .., hk⟩
      · exact stk k ⟨f', List.mem_cons_of_mem _ hf, hk⟩
    | crash =>
      refine move _ rfl fun k hk => ?_
      rcases hk with hk | ⟨f, hf, _⟩
      · cases hk
      · cases hf
    | _ => exact move _ rfl (stay _ fun k hk => by cases hk)

/-! ### C36: a requested call can be completed by any one process -/

/-- steps of process `p` only -/
inductive Alone (prog : K → Code K V) (checks : Bool) (p : Nat) : State K V → State K V → Prop
  | refl (s) : Alone prog checks p s s
  | step {s t u} (h : Step prog checks p s t) (h' : Alone prog checks p t u) : Alone prog checks p s u

theorem Alone.trans {prog : K → Code K V} {checks : Bool} {p : Nat} {s t u : State K V}
    (h : Alone prog checks p s t) (h' : Alone prog checks p t u) : Alone prog checks p s u := by
  induction h with
  | refl => exact h'
  | step a _ ih => exact .step a (ih h')

theorem Alone.steps' {prog : K → Code K V} {checks : Bool} {p : Nat} {s t : State K V}
    (h : Alone prog checks p s t) {r : State K V} (hr : Steps prog checks r s) : Steps prog checks r t := by
  induction h with
  | refl => exact hr
  | step a _ ih => exact ih (.step p hr a)

theorem Alone.inv {prog : K → Code K V} {checks : Bool} {p : Nat} {s t : State K V}
    (h : Alone prog checks p s t) (hi : Inv prog s) : Inv prog t :=
  (steps_inv hi (h.steps' (.refl s))).1

theorem goto_procs (s : State K V) (p : Nat) (m : Mode K V) {m' : Mode K V} {st : List (Frame K V)} (h : s.procs p = ⟨m', st⟩) :
    (s.goto p m).procs p = ⟨m, st⟩ := by
  show Function.update s.procs p ⟨m, (s.procs p).stack⟩ p = _
  rw [Function.update_self, h]

/-- the rest of an execution, after the code returned -/
theorem alone_store {prog : K → Code K V} {checks : Bool} {p : Nat} {s : State K V} {k : K} {v : V} {st : List (Frame K V)}
    (h : s.procs p = ⟨.storeVal k v, st⟩) :
    ∃ s', Alone prog checks p s s' ∧ s'.procs p = ⟨.ret k (some v), st⟩ ∧ (s'.results k).isSome := by
  let s1 := { s with values := Function.update s.values v true }.goto p (.checkRes k v)
  have e1 : Step prog checks p s s1 := .storeVal k v (by rw [h])
  have h1 : s1.procs p = ⟨.checkRes k v, st⟩ := goto_procs _ p _ h
  cases hr : s.results k with
  | none =>
    let s2 := s1.goto p (.writeRes k v)
    have e2 : Step prog checks p s1 s2 := .resNew k v (by rw [h1]) hr
    have h2 : s2.procs p = ⟨.writeRes k v, st⟩ := goto_procs _ p _ h1
    let s3 := { s2 with results := Function.update s2.results k (some v) }.goto p (.dropReq k v)
    have e3 : Step prog checks p s2 s3 := .writeRes k v (by rw [h2])
    have h3 : s3.procs p = ⟨.dropReq k v, st⟩ := goto_procs _ p _ h2
    refine ⟨_, .step e1 (.step e2 (.step e3 (.step (.dropReq k v (by rw [h3])) (.refl _)))), goto_procs _ p _ h3, ?_⟩
    show (Function.update s2.results k (some v) k).isSome
    rw [Function.update_self]; rfl
  | some w =>
    let s2 := s1.goto p (.dropReq k v)
    have e2 : Step prog checks p s1 s2 := .resOld k v w (by rw [h1]) hr
    have h2 : s2.procs p = ⟨.dropReq k v, st⟩ := goto_procs _ p _ h1
    refine ⟨_, .step e1 (.step e2 (.step (.dropReq k v (by rw [h2])) (.refl _))), goto_procs _ p _ h2, ?_⟩
    show (s.results k).isSome
    rw [hr]; rfl

/-- an execution, given that its code can be run -/
theorem alone_start {prog : K → Code K V} {checks : Bool} {p : Nat} {k : K} {r : Option V} (he : Eval prog (prog k) r)
    (ih : ∀ (s : State K V) (st : List (Frame K V)), Inv prog s → s.procs p = ⟨.run k (prog k), st⟩ →
      ∃ s', Alone prog checks p s s' ∧ s'.procs p = ⟨.ret k r, st⟩ ∧ (r.isSome → (s'.results k).isSome))
    (s : State K V) (st : List (Frame K V)) (hi : Inv prog s) (h : s.procs p = ⟨.start k, st⟩) :
    ∃ s', Alone prog checks p s s' ∧ s'.procs p = ⟨.ret k r, st⟩ ∧ (r.isSome → (s'.results k).isSome) := by
  cases hr : s.results k with
  | some v =>
    have hc := hi.results k v hr
    have : r = some v := he.unique hc.1
    subst this
    let s1 := s.goto p (.read k)
    have e1 : Step prog checks p s s1 := .startReady k v (by rw [h]) hr
    have h1 : s1.procs p = ⟨.read k, st⟩ := goto_procs _ p _ h
    refine ⟨_, .step e1 (.step (.read k v (by rw [h1]) hr hc.2) (.refl _)), goto_procs _ p _ h1, fun _ => ?_⟩
    show (s.results k).isSome
    rw [hr]; rfl
  | none =>
    let s1 := s.goto p (.attempt k)
    have e1 : Step prog checks p s s1 := .startGo k (by rw [h]) (.inl hr)
    have h1 : s1.procs p = ⟨.attempt k, st⟩ := goto_procs _ p _ h
    let s2 := { s1 with attempts := Function.update s1.attempts k (s1.attempts k + 1) }.goto p (.reqCheck k .body)
    have e2 : Step prog checks p s1 s2 := .attempt k (by rw [h1])
    have h2 : s2.procs p = ⟨.reqCheck k .body, st⟩ := goto_procs _ p _ h1
    let s3 := s2.goto p (.reqSet k .body)
    have e3 : Step prog checks p s2 s3 := .reqNo k .body (by rw [h2]) hr
    have h3 : s3.procs p = ⟨.reqSet k .body, st⟩ := goto_procs _ p _ h2
    let s4 := { s3 with requests := Function.update s3.requests k true }.goto p (after prog k .body)
    have e4 : Step prog checks p s3 s4 := .reqSet k .body (by rw [h3])
    have h4 : s4.procs p = ⟨.run k (prog k), st⟩ := goto_procs _ p _ h3
    have pre : Alone prog checks p s s4 := .step e1 (.step e2 (.step e3 (.step e4 (.refl _))))
    obtain ⟨s', ha, hp, hs⟩ := ih s4 st (pre.inv hi) h4
    exact ⟨s', pre.trans ha, hp, hs⟩

theorem alone_run {prog : K → Code K V} {checks : Bool} {p : Nat} {c : Code K V} {r : Option V} (he : Eval prog c r) :
    ∀ (k : K) (s : State K V) (st : List (Frame K V)), Inv prog s → s.procs p = ⟨.run k c, st⟩ →
      ∃ s', Alone prog checks p s s' ∧ s'.procs p = ⟨.ret k r, st⟩ ∧ (r.isSome → (s'.results k).isSome) := by
  induction he with
  | ret v =>
    intro k s st _ h
    have e1 : Step prog checks p s (s.goto p (.storeVal k v)) := .runRet k v (by rw [h])
    obtain ⟨s', ha, hp, hs⟩ := alone_store (prog := prog) (checks := checks) (goto_procs s p (.storeVal k v) h)
    exact ⟨s', .step e1 ha, hp, fun _ => hs⟩
  | raise =>
    intro k s st _ h
    exact ⟨_, .step (.runRaise k (by rw [h])) (.refl _), goto_procs s p _ h, fun h => by cases h⟩
  | @call k' next r1 r' he1 he2 ih1 ih2 =>
    intro k s st hi h
    let s1 : State K V := { s with procs := Function.update s.procs p ⟨.start k', ⟨k, next⟩ :: (s.procs p).stack⟩ }
    have e1 : Step prog checks p s s1 := .runCall k k' next (by rw [h])
    have h1 : s1.procs p = ⟨.start k', ⟨k, next⟩ :: st⟩ := by
      show Function.update s.procs p _ p = _
      rw [Function.update_self, h]
    have a1 : Alone prog checks p s s1 := .step e1 (.refl _)
    obtain ⟨s2, a2, h2, _⟩ := alone_start he1 (ih1 k') s1 _ (a1.inv hi) h1
    let s3 : State K V := { s2 with procs := Function.update s2.procs p ⟨.run k (next r1), st⟩ }
    have e3 : Step prog checks p s2 s3 := .retNested k' r1 ⟨k, next⟩ st h2
    have a3 : Alone prog checks p s s3 := (a1.trans a2).trans (.step e3 (.refl _))
    obtain ⟨s4, a4, h4, h5⟩ := ih2 k s3 st (a3.inv hi) (Function.update_self ..)
    exact ⟨s4, a3.trans a4, h4, h5⟩

/-- **C36** A requested call can always still be completed: in every state of every execution of a swarm, whatever the other
processes did and wherever they died, one idle process that finds the request can, by its own steps alone, bring
the call to a stored result, provided that the code of the call returns a value when it is evaluated directly.  The
process is idle again afterwards and the value is among those obtained, unless the call had a result before. -/
theorem C36_completable {prog : K → Code K V} {checks : Bool} {s : State K V} (hs : Reachable prog checks s)
    (p : Nat) (hp : s.procs p = {}) (k : K) (hk : s.requests k = true) (v : V) (hv : Correct prog k v) :
    ∃ s', Alone prog checks p s s' ∧ s'.procs p = {} ∧ s'.results k = some v ∧
      (s.results k = none → (p, k, v) ∈ s'.log) := by
  have hi := hs.inv
  have conv : ∀ t : State K V, Inv prog t → (t.results k).isSome → t.results k = some v := by
    intro t ht h
    obtain ⟨w, hw⟩ := Option.isSome_iff_exists.1 h
    have := Eval.unique (ht.results k w hw).1 hv
    rw [hw, this]
  cases hr : s.results k with
  | some w =>
    refine ⟨s, .refl s, hp, conv s hi (by rw [hr]; rfl), fun h => by cases h⟩
  | none =>
    let s1 := s.goto p (.pick k)
    have e1 : Step prog checks p s s1 := .beginWork k (by rw [hp]) hk
    have h1 : s1.procs p = ⟨.pick k, []⟩ := goto_procs _ p _ hp
    let s2 := s1.goto p (.start k)
    have e2 : Step prog checks p s1 s2 := .pickGo k (by rw [h1]) hr
    have h2 : s2.procs p = ⟨.start k, []⟩ := goto_procs _ p _ h1
    have pre : Alone prog checks p s s2 := .step e1 (.step e2 (.refl _))
    obtain ⟨s3, a3, h3, h4⟩ := alone_start hv (alone_run hv k) s2 [] (pre.inv hi) h2
    have a3 := pre.trans a3
    refine ⟨_, a3.trans (.step (.retValue k v h3) (.refl _)), goto_procs _ p _ h3, ?_, fun _ => ?_⟩
    · exact conv s3 (a3.inv hi) (h4 rfl)
    · exact List.mem_append_right _ (List.mem_singleton.2 rfl)

/-! ### C37 -/

/-- **C37** In every execution of a swarm: stored results are correct, and their values can be read. -/
theorem C37_results_correct {prog : K → Code K V} {checks : Bool} {s : State K V} (hs : Reachable prog checks s) (k : K) (v : V)
    (h : s.results k = some v) : Correct prog k v ∧ s.values v = true := hs.inv.results k v h

/-- **C37** Stored results never change. -/
theorem C37_results_never_change {prog : K → Code K V} {checks : Bool} {s s' : State K V} (hs : Reachable prog checks s)
    (h : Steps prog checks s s') (k : K) (v : V) (hv : s.results k = some v) : s'.results k = some v :=
  (steps_inv hs.inv h).2.results k v hv

/-- **C37** Whatever value any process obtains for a call, by calling the function, executing the address or waiting
with `get`, is the correct one; hence all processes obtain the same value. -/
theorem C37_obtained_values_correct {prog : K → Code K V} {checks : Bool} {s : State K V} (hs : Reachable prog checks s)
    (p : Nat) (k : K) (v : V) (h : (p, k, v) ∈ s.log) : Correct prog k v ∧ ∀ q w, (q, k, w) ∈ s.log → w = v := by
  refine ⟨hs.inv.log _ h, fun q w hw => ?_⟩
  have := Eval.unique (hs.inv.log (q, k, w) hw) (hs.inv.log (p, k, v) h)
  injection this

/-- **C37** A call only raises if it also raises when evaluated directly; in particular no process ever fails a
consistency check or finds a result whose value is missing. -/
theorem C37_only_correct_exceptions {prog : K → Code K V} {checks : Bool} {s : State K V} (hs : Reachable prog checks s)
    (p : Nat) (k : K) (h : (s.procs p).mode = .ret k none) : Eval prog (prog k) none := by
  have := hs.inv.procs p
  rw [h] at this
  exact this.2

/-! ### C38 -/

/-- **C38** (part) Once a call has a result, is not requested, and no process is about to store a request of it, it is
never requested again. -/
theorem C38_settled_partial {prog : K → Code K V} {checks : Bool} {s s' : State K V} (hs : Reachable prog checks s)
    (h : Steps prog checks s s') (k : K) (hk : (s.results k).isSome) (hr : s.requests k = false)
    (hp : ∀ p a, (s.procs p).mode ≠ .reqSet k a) : s'.requests k = false := by
  have hi := hs.inv
  suffices s'.requests k = false ∧ ∀ p a, (s'.procs p).mode ≠ .reqSet k a from this.1
  induction h with
  | refl => exact ⟨hr, hp⟩
  | @step t u p h h' ih =>
    have hres := (steps_inv hi h).2.some hk
    have move : ∀ (m : Mode K V) (st : List (Frame K V)), (∀ a, m ≠ .reqSet k a) → ∀ q a,
        (Function.update t.procs p ⟨m, st⟩ q).mode ≠ .reqSet k a := by
      intro m st hm q a
      by_cases e : q = p
      · subst e; rw [Function.update_self]; exact hm a
      · rw [Function.update_of_ne e]; exact ih.2 q a
    have haft : ∀ k' a a', after prog k' a ≠ .reqSet k a' := fun k' a a' h => by cases a <;> cases h
    have drop : ∀ k', Function.update t.requests k' false k = false := by
      intro k'
      by_cases e : k = k'
      · subst e; rw [Function.update_self]
      · rw [Function.update_of_ne e]; exact ih.1
    cases h' with
    | reqNo k' a e hn =>
      refine ⟨ih.1, move _ _ fun a' h => ?_⟩
      cases h
      rw [hn] at hres; cases hres
    | reqSet k' a e =>
      have hne : k ≠ k' := fun h => ih.2 p a (by rw [e, h])
      refine ⟨?_, move _ _ (haft k' a)⟩
      show Function.update t.requests k' true k = false
      rw [Function.update_of_ne hne]; exact ih.1
    | reqDrop k' a e => exact ⟨drop k', move _ _ (haft k' a)⟩
    | dropReq k' v e => exact ⟨drop k', move _ _ fun a h => by cases h⟩
    | getDrop k' v e => exact ⟨drop k', move _ _ fun a h => by cases h⟩
    | _ => exact ⟨ih.1, move _ _ fun a h => by cases h⟩

/-- **C38** (part) A leftover request does no harm: if a call has a result, no process is about to start running it, and
consistency checks are off, it is never attempted again, requested or not. -/
theorem C38_not_executed_again_partial {prog : K → Code K V} {s s' : State K V} (hs : Reachable prog false s)
    (h : Steps prog false s s') (k : K) (hk : (s.results k).isSome)
    (hp : ∀ p, (s.procs p).mode ≠ .attempt k) : s'.attempts k = s.attempts k := by
  have hi := hs.inv
  suffices s'.attempts k = s.attempts k ∧ ∀ p, (s'.procs p).mode ≠ .attempt k from this.1
  induction h with
  | refl => exact ⟨rfl, hp⟩
  | @step t u p h h' ih =>
    have hres := (steps_inv hi h).2.some hk
    have move : ∀ (m : Mode K V) (st : List (Frame K V)), m ≠ .attempt k → ∀ q,
        (Function.update t.procs p ⟨m, st⟩ q).mode ≠ .attempt k := by
      intro m st hm q
      by_cases e : q = p
      · subst e; rw [Function.update_self]; exact hm
      · rw [Function.update_of_ne e]; exact ih.2 q
    have haft : ∀ k' a, after prog k' a ≠ .attempt k := fun k' a h => by cases a <;> cases h
    cases h' with
    | startGo k' e hn =>
      refine ⟨ih.1, move _ _ fun h => ?_⟩
      cases h
      rcases hn with hn | hn
      · rw [hn] at hres; cases hres
      · cases hn
    | attempt k' e =>
      have hne : k ≠ k' := fun h => ih.2 p (by rw [e, h])
      refine ⟨?_, move _ _ (by simp)⟩
      show Function.update t.attempts k' _ k = _
      rw [Function.update_of_ne hne]; exact ih.1
    | reqDrop k' a e => exact ⟨ih.1, move _ _ (haft k' a)⟩
    | reqSet k' a e => exact ⟨ih.1, move _ _ (haft k' a)⟩
    | _ => exact ⟨ih.1, move _ _ (by simp)⟩

end Pyth.Swarm

namespace Pyth.Swarm.Ex
open Function (update)

/-- a program: call 0 returns 5, call 1 returns the result of call 0 plus 1, and 9 if that raises; call 2 raises -/
def prog : Nat → Code Nat Nat
  | 0 => .ret 5
  | 1 => .call 0 fun r => match r with
    | some v => .ret (v + 1)
    | none => .ret 9
  | _ => .raise

/-- nothing stored, nothing requested -/
def empty : State Nat Nat := ⟨fun _ => none, fun _ => false, fun _ => false, fun _ => 0, fun _ => {}, []⟩

theorem empty_init : Init prog empty := ⟨fun _ => rfl, fun _ _ h => (by cases h), rfl⟩

/-- the correct result of call 1 is 6 -/
example : Correct prog 1 6 := .call (.ret 5) (.ret 6)

/-- a process about to store a request for call 0, as it saw no result yet -/
theorem late_client : Steps prog false empty ((empty.goto 0 (.reqCheck 0 .done)).goto 0 (.reqSet 0 .done)) :=
  .step 0 (.step 0 (.refl _) (.beginRequest 0 rfl)) (.reqNo 0 .done rfl rfl)

theorem upd_mode {s : State Nat Nat} {p : Nat} {m : Mode Nat Nat} : ((s.goto p m).procs p).mode = m := by
  unfold State.goto; simp

/-- **C38** Counterexample: process 0 wants call 0 to be executed, checks that there is no result and is about to store the
request.  Before it does, process 1 calls the function, stores the result and drops the request.  Then process 0 stores
its request: now no process is doing anything, the call has a result, and is requested. -/
theorem C38_counterexample : ∃ s : State Nat Nat, Reachable prog false s ∧ (∀ p, (s.procs p).mode = .idle) ∧
    s.results 0 = some 5 ∧ s.requests 0 = true := by
  have h := late_client
  have h := Steps.step 1 h (.beginExec 0 rfl)
  have h := Steps.step 1 h (.startGo 0 upd_mode (.inl rfl))
  have h := Steps.step 1 h (.attempt 0 upd_mode)
  have h := Steps.step 1 h (.reqNo 0 .body upd_mode rfl)
  have h := Steps.step 1 h (.reqSet 0 .body upd_mode)
  have h := Steps.step 1 h (.runRet 0 5 upd_mode)
  have h := Steps.step 1 h (.storeVal 0 5 upd_mode)
  have h := Steps.step 1 h (.resNew 0 5 upd_mode rfl)
  have h := Steps.step 1 h (.writeRes 0 5 upd_mode)
  have h := Steps.step 1 h (.dropReq 0 5 upd_mode)
  have h := Steps.step 1 h (.retValue 0 5 rfl)
  have h := Steps.step 0 h (.reqSet 0 .done rfl)
  refine ⟨_, ⟨_, empty_init, h⟩, fun p => ?_, rfl, rfl⟩
  by_cases h0 : p = 0
  · subst h0; rfl
  · by_cases h1 : p = 1
    · subst h1; rfl
    · simp only [State.goto, Function.update_of_ne h0, Function.update_of_ne h1]; rfl

/-- C36, C37: in the same execution, before process 0 stores its request, the value 5 was obtained -/
example : ∃ s : State Nat Nat, Reachable prog false s ∧ (1, 0, 5) ∈ s.log ∧ s.results 0 = some 5 := by
  have h := Steps.refl (prog := prog) (checks := false) empty
  have h := Steps.step 1 h (.beginExec 0 rfl)
  have h := Steps.step 1 h (.startGo 0 upd_mode (.inl rfl))
  have h := Steps.step 1 h (.attempt 0 upd_mode)
  have h := Steps.step 1 h (.reqNo 0 .body upd_mode rfl)
  have h := Steps.step 1 h (.reqSet 0 .body upd_mode)
  have h := Steps.step 1 h (.runRet 0 5 upd_mode)
  have h := Steps.step 1 h (.storeVal 0 5 upd_mode)
  have h := Steps.step 1 h (.resNew 0 5 upd_mode rfl)
  have h := Steps.step 1 h (.writeRes 0 5 upd_mode)
  have h := Steps.step 1 h (.dropReq 0 5 upd_mode)
  have h := Steps.step 1 h (.retValue 0 5 rfl)
  exact ⟨_, ⟨_, empty_init, h⟩, List.mem_append_right _ (List.mem_singleton.2 rfl), rfl⟩

/-- C36: requested by process 0, which dies; process 3 can complete it -/
example : ∃ s : State Nat Nat, Reachable prog false s ∧ s.procs 3 = {} ∧ s.requests 1 = true ∧ Correct prog 1 6 := by
  have h := Steps.refl (prog := prog) (checks := false) empty
  have h := Steps.step 0 h (.beginGet 1 rfl)
  have h := Steps.step 0 h (.getWait 1 upd_mode rfl)
  have h := Steps.step 0 h (.reqNo 1 .poll upd_mode rfl)
  have h := Steps.step 0 h (.reqSet 1 .poll upd_mode)
  have h := Steps.step 0 h .crash
  exact ⟨_, ⟨_, empty_init, h⟩, rfl, rfl, .call (.ret 5) (.ret 6)⟩

/-- C36: a process waits for call 1 in `get` -/
example : ∃ s : State Nat Nat, Reachable prog false s ∧ (s.procs 0).Awaits 1 ∧ s.results 1 = none := by
  have h := Steps.refl (prog := prog) (checks := false) empty
  have h := Steps.step 0 h (.beginGet 1 rfl)
  have h := Steps.step 0 h (.getWait 1 upd_mode rfl)
  have h := Steps.step 0 h (.reqNo 1 .poll upd_mode rfl)
  have h := Steps.step 0 h (.reqSet 1 .poll upd_mode)
  exact ⟨_, ⟨_, empty_init, h⟩, .inl rfl, rfl⟩

end Pyth.Swarm.Ex
