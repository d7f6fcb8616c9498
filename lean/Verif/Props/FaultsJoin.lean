import Verif.Proofs.SwarmJoin
import Verif.Props.SwarmJoin
import Verif.Props.FaultsLive
/-!
# C106, continued: programs that wait for others, while accesses of others fail
-/
namespace Pyth.Parts
open Pyth.Pure (Val FnId sortKw)

variable {U A P : Type} [DecidableEq P] [DecidableEq A] {h : Val U A → A}
  {code : FnId → List (String × Val U A) → Code U A P} {travel : Prop} {knows : P → List P → Prop}
  {σ : Nat → State U A P} {who : Nat → Nat}

/-- an execution with failing accesses -/
theorem FRun.course (inj : Function.Injective h) (un : ∀ f kw, Uncaught (code f kw)) (kn : travel → KnowsAll knows)
    (R : FRun h code travel knows σ who) : Course h code travel knows σ who only where
  sh := fun _ _ => rfl
  proc := fun _ s => only_procs s
  trail := fun i m al =>
    { next := fun n bn busy => by
        rw [only_procs] at busy
        obtain ⟨k, h1, _, h3, _, h5, h6⟩ := al.next (fun n hn => fstep_other hn (R.step n)) bn.1 bn.2 busy
        refine ⟨k, h1, ⟨Nat.le_trans bn.1 h1, fun l hl1 hl2 => h6 l hl1 (by omega)⟩, ⟨by have := bn.1; omega, h6⟩, ?_, only_act h5⟩
        rw [only_procs, only_procs]
        exact h3 k h1 (Nat.le_refl k)
      grow := fun n m' hn bn bm o => by
        obtain ⟨d, rfl⟩ := Nat.exists_eq_add_of_le hn
        clear hn
        induction d with
        | zero => exact ⟨o, .refl _⟩
        | succ d ih =>
          have b := bn.1
          obtain ⟨h1, h2⟩ := ih ⟨by omega, fun l hl1 hl2 => bm.2 l hl1 (by omega)⟩
          have of := (R.reachable (n + d)).ok inj
          by_cases e : who (n + d) = i
          · have a := (al (n + d) (by omega) fun l hl1 hl2 => bm.2 l hl1 (by omega)).2 e
            have a' := only_act a
            exact ⟨act_ok inj (fun _ => kn) h1 a', h2.trans (step_grow inj h1 (.act _ a'))⟩
          · have g := fstep_grow inj of (R.step (n + d))
            exact ⟨only_ok un ((R.reachable (n + d + 1)).ok inj) (fstep_other e (R.step (n + d)) ▸ (ProcOk.of_only h1).mono g.le),
              h2.trans g.only⟩ }
  found := fun n i x hi hx => act_ok inj (fun _ => kn) (only_idle un ((R.reachable n).ok inj) hi) (only_act hx)
  keep := fun n m p a hn hr => by
    obtain ⟨d, rfl⟩ := Nat.exists_eq_add_of_le hn
    clear hn
    induction d with
    | zero => exact hr
    | succ d ih => exact (fstep_le inj ((R.reachable _).ok inj) (R.step _)).results p _ ih
  asked := fun n m p a nd hn ha => R.asked nd hn ha
  awaited := fun n i p os a nd hm => by
    have c := R.calm (N := fun q b => q = p ∧ b = a) (fun q b e => by obtain ⟨rfl, rfl⟩ := e; exact nd) n
    rcases ((c.safe init_safe).2 i).1 _ hm with y | ⟨_, _, _, _, e, _⟩
    · exact y.1 ⟨rfl, rfl⟩
    · cases e
  value := fun n p f kw r hr => by
    obtain ⟨f', kw', w, e1, e2, e3⟩ := (((R.reachable n).ok inj).inv.results p _ r hr).2.2.sure un
    obtain ⟨rfl, rfl⟩ := callOf_inj inj e1
    exact ⟨w, e2, e3⟩

/-- **C106** End to end, for functions that may start other calls elsewhere and wait for them: `f.swarm(**kw)` with plain arguments
returns an address; the client may die or fail afterwards.  If evaluating the call comes to an end and can only give `v`, and for this
call and for every call that somebody waits for in `addr.get()`: nobody calls `drop_execution_request()` for it, and a request that
stays visible is eventually found by some worker that works through it without a failure of its own accesses — others may fail or
die over it, any number of them — then from some time on the result of the call is stored in the portal of `f`, and it is `v`. -/
theorem C106_joined_call_gets_done_partial (inj : Function.Injective h) (un : ∀ f kw, Uncaught (code f kw))
    (kn : travel → KnowsAll knows) (lawful : ∀ f kw, Lawful h code travel knows [] [] (code f kw))
    (R : FRun h code travel knows σ who)
    (fair : ∀ p a, Awaited σ p a → NeverDropped σ who p a ∧ Served h code travel knows σ who p a) {n i : Nat} {p q : P}
    {os : List P} {f : FnId} {us : List (String × U)} {next : Reply U A P → Code U A P} {st : List (Frame U A P)}
    {job : Option A} {a : A}
    (hm : (σ n).procs i = ⟨.io (.done (.call q a)), .inCode (.swarm p os f (raws us)) next :: st, job⟩)
    (nd : NeverDropped σ who p a) (sv : Served h code travel knows σ who p a)
    (halts : Halts h code True (code f (vals us))) {v : Val U A}
    (one : ∀ r, Outcome h code True (code f (vals us)) r → r = .val v) :
    ∃ m, n ≤ m ∧ ∀ k, m ≤ k → (σ k).sh.results p a = some (h v) := by
  obtain ⟨rfl, h2, h3⟩ := C105_swarm_requests
    (R.calm (N := fun r b => r = p ∧ b = a) (fun r b e => by obtain ⟨rfl, rfl⟩ := e; exact nd) n) hm
  obtain rfl := h2 us rfl
  exact (R.course inj un kn).done inj kn lawful fair nd sv halts one (h3 ⟨rfl, rfl⟩)

/-- **C106** The same for every call of `f.swarm_list(kws)`: the `j`-th address gets the value of the `j`-th call. -/
theorem C106_swarm_list_gets_done_partial (inj : Function.Injective h) (un : ∀ f kw, Uncaught (code f kw))
    (kn : travel → KnowsAll knows) (lawful : ∀ f kw, Lawful h code travel knows [] [] (code f kw))
    (R : FRun h code travel knows σ who)
    (fair : ∀ p a, Awaited σ p a → NeverDropped σ who p a ∧ Served h code travel knows σ who p a) {n i : Nat} {p q : P}
    {os : List P} {f : FnId} {uss : List (List (String × U))} {shuffle : List A → List A} {next : Reply U A P → Code U A P}
    {st : List (Frame U A P)} {job : Option A} {l : List A}
    (hm : (σ n).procs i = ⟨.io (.done (.calls q l)), .inCode (.swarmList p os f (uss.map raws) shuffle) next :: st, job⟩)
    (nd : ∀ a ∈ l, NeverDropped σ who p a) (sv : ∀ a ∈ l, Served h code travel knows σ who p a) :
    l.length = uss.length ∧ ∀ (j : Nat) us, uss[j]? = some us → ∃ a, l[j]? = some a ∧
      ∀ v, Halts h code True (code f (vals us)) → (∀ r, Outcome h code True (code f (vals us)) r → r = .val v) →
        ∃ m, n ≤ m ∧ ∀ k, m ≤ k → (σ k).sh.results p a = some (h v) := by
  obtain ⟨rfl, h2, h3⟩ := C105_swarm_list_requests
    (R.calm (N := fun r b => r = p ∧ b ∈ l) (fun r b e => by obtain ⟨rfl, hb⟩ := e; exact nd b hb) n) hm
  have e := h2 uss rfl
  refine ⟨by rw [e, List.length_map], fun j us hj => ⟨callOf h f (vals us), by rw [e]; simp [hj], fun v halts one => ?_⟩⟩
  have ha : callOf h f (vals us) ∈ l := by
    rw [e]; exact List.mem_map.2 ⟨us, List.mem_of_getElem? hj, rfl⟩
  exact (R.course inj un kn).done inj kn lawful fair (nd _ ha) (sv _ ha) halts one (h3 _ ha ⟨rfl, ha⟩)

/-- **C106** Under the same conditions, a program that starts calls elsewhere and waits for their results comes to its end, if its process
is not killed, goes on, and its own accesses succeed, with a possible outcome of evaluating it — whatever fails for others. -/
theorem C106_joining_program_ends_partial (inj : Function.Injective h) (un : ∀ f kw, Uncaught (code f kw))
    (kn : travel → KnowsAll knows) (lawful : ∀ f kw, Lawful h code travel knows [] [] (code f kw))
    (R : FRun h code travel knows σ who)
    (fair : ∀ p a, Awaited σ p a → NeverDropped σ who p a ∧ Served h code travel knows σ who p a) {k i : Nat} {c : Code U A P}
    (hi : (σ k).procs i = {}) (hc : σ (k + 1) = (σ k).setProc i ⟨.code c, [], none⟩)
    (al : AliveFrom h code travel knows i σ who (k + 1)) (lawful' : Lawful h code travel knows [] [] c)
    (halts : Halts h code True c) :
    ∃ m, k < m ∧ ((∃ v, (σ m).procs i = ⟨.code (.ret v), [], none⟩ ∧ Outcome h code True c (.val v)) ∨
      ((σ m).procs i = ⟨.code .raise, [], none⟩ ∧ Outcome h code True c .raised)) := by
  have C := R.course inj un kn
  have o := C.found k i _ hi (.script c hi)
  rw [← hc] at o
  exact C.ends inj kn lawful fair al o (by rw [hc]; simp [State.setProc]) lawful' halts

/-- **C106** Under the same conditions, `addr.get()` without a timeout, anywhere in a program the accesses of which have succeeded since
its process was started, and go on succeeding, returns after finitely many steps a value to which the call evaluates — for whatever call
the evaluation of which comes to an end and cannot raise, even if nobody has requested it before, and whatever fails for others;
only if the call evaluates to two different values, a consistency check may fail. -/
theorem C106_get_returns_partial (inj : Function.Injective h) (un : ∀ f kw, Uncaught (code f kw))
    (kn : travel → KnowsAll knows) (lawful : ∀ f kw, Lawful h code travel knows [] [] (code f kw))
    (R : FRun h code travel knows σ who)
    (fair : ∀ p a, Awaited σ p a → NeverDropped σ who p a ∧ Served h code travel knows σ who p a) {k₀ k i : Nat}
    (h0 : (σ k₀).procs i = {}) (good : GoodFor h code travel knows i (σ k₀) (σ k))
    (al : AliveFrom h code travel knows i σ who k) {p : P} (some : ∃ os, knows p os) {os : List P}
    {f : FnId} {kw : List (String × Val U A)} {next : Reply U A P → Code U A P} {st : List (Frame U A P)} {job : Option A}
    (hi : (σ k).procs i = ⟨.code (.op (.getResult p os (callOf h f kw) none) next), st, job⟩)
    (held : Held travel (σ k).raddrs p (callOf h f kw)) (halts : Halts h code True (code f kw))
    (well : ¬ Outcome h code True (code f kw) .raised) :
    ∃ m, k ≤ m ∧ ((∃ v, (σ m).procs i = ⟨.code (next (.got (callOf h f kw) v)), st, job⟩ ∧
      Outcome h code True (code f kw) (.val v)) ∨ ((σ m).procs i = ⟨.code (next .clash), st, job⟩ ∧
      ∃ v w, v ≠ w ∧ Outcome h code True (code f kw) (.val v) ∧ Outcome h code True (code f kw) (.val w))) :=
  (R.course inj un kn).get inj kn lawful fair al
    (good.ok inj un kn ((R.reachable k₀).ok inj) (only_idle un ((R.reachable k₀).ok inj) h0)).2 some hi held halts well

/-! ### an example -/

namespace Ex
open Pure.Ex (T addrOf addrOf_inj)

theorem plusOne_uncaught (r : Reply Nat T Bool) : Uncaught (plusOne r) := by
  unfold plusOne
  split
  · exact .ret _
  · exact .raise

theorem fns4_uncaught (f : FnId) (kw : List (String × Val Nat T)) : Uncaught (fns4 f kw) := by
  unfold fns4
  split
  · refine .op _ _ rfl rfl fun r => ?_
    unfold awaitIt
    split
    · exact .op _ _ rfl rfl plusOne_uncaught
    · exact .raise
  · exact .ret _

theorem g1_requested : g1.sh.requests true a1 = true := by decide +kernel

theorem g1_five : g1.procs 5 = {} := by
  unfold g1; rw [ticks_other _ (by decide)]
  rfl

/-- worker 5 finds the request, an access fails, and it gives up -/
theorem g1_again : FCalmSteps addrOf fns4 False any (fun _ _ => True) g1 g1 := by
  have c1 : FCalmSteps addrOf fns4 False any (fun _ _ => True) g1 (g1.setProc 5 ⟨.io (work addrOf true [] a1), [], some a1⟩) :=
    .step 5 (.refl _) (.step _ (.act _ (.found true [] a1 g1_five trivial g1_requested)))
      (.inl fun _ _ _ _ e => by rw [g1_five] at e; cases e)
  have c2 : FCalmSteps addrOf fns4 False any (fun _ _ => True) g1 (g1.setProc 5 ⟨.io (.done .missing), [], some a1⟩) := by
    have := FCalmSteps.step 5 c1 (.fail (work addrOf true [] a1) (by simp [State.setProc]))
      (.inl fun _ _ _ _ e => by simp [State.setProc] at e)
    simpa [State.setProc, State.goto] using this
  have c3 := FCalmSteps.step 5 c2 (.step _ .crash) (.inr rfl)
  have e : (g1.setProc 5 ⟨.io (.done .missing), [], some a1⟩).setProc 5 {} = g1 := by
    simp only [State.setProc, Function.update_idem]
    rw [← g1_five, Function.update_eq_self]
  rwa [e] at c3

/-- there is an execution with a failing worker that meets all premises of `C106_joined_call_gets_done_partial` -/
example : ∃ (σ : Nat → State Nat T Bool) (who : Nat → Nat) (n : Nat) (next : Reply Nat T Bool → Code Nat T Bool),
    FRun addrOf fns4 False any σ who ∧
    (σ n).procs 2 = ⟨.io (.done (.call true a1)), [.inCode (.swarm true [] 1 (raws [])) next], none⟩ ∧
    (∀ p a, NeverDropped σ who p a ∧ Served addrOf fns4 False any σ who p a) ∧ (σ n).sh.results true a1 = none ∧
    ∃ m, n ≤ m ∧ ∀ k, m ≤ k → (σ k).sh.results true a1 = some (addrOf (.user 6)) := by
  have F0 : FFrom addrOf fns4 False any (fun _ _ => True) g7 (fun _ => g7) (fun _ => 9) :=
    have R := From.rest (h := addrOf) (code := fns4) (travel := False) (knows := any) (N := fun _ _ => True) (s := g7) (i := 9) g7_idle
    ⟨R.start, fun n => .step _ (R.step n), R.calm⟩
  obtain ⟨σ1, who1, n1, F1, e1, _⟩ := FFrom.before (CalmSteps.faulty g1_again g7_calm) F0
  obtain ⟨σ, who, n, F, e, _⟩ := FFrom.before (CalmSteps.faulty (.refl _) g1_calm) F1
  obtain ⟨next, hnext⟩ := g1_told
  have R : FRun addrOf fns4 False any σ who := ⟨F.start, F.step⟩
  have en : σ n = g1 := (e 0).trans F1.start
  have hm : (σ n).procs 2 = ⟨.io (.done (.call true a1)), [.inCode (.swarm true [] 1 (raws [])) next], none⟩ := by
    rw [en]; exact hnext
  have fair : ∀ p a, NeverDropped σ who p a ∧ Served addrOf fns4 False any σ who p a := by
    refine fun p a => ⟨F.calm p a trivial, fun k hk => ?_⟩
    have := hk (n + (n1 + k)) (by omega)
    rw [e, e1] at this
    rw [g7_quiet] at this
    cases this
  have ends := C97_steady_functions_end addrOf_inj fns4_steady fns4_outcome
  exact ⟨σ, who, n, next, R, hm, fair, by rw [en]; exact g1_none, C106_joined_call_gets_done_partial addrOf_inj fns4_uncaught
    (fun z => z.elim) fns4_lawful R (fun p a _ => fair p a) hm (fair true a1).1 (fair true a1).2 ends.1 ends.2⟩

end Ex
end Pyth.Parts
