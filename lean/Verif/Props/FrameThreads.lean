import Verif.Proofs.FrameThreads
/-!
# C115: exceptions of a pure function that several threads execute

A function has one list of running executions for all threads.  The list never gets out of step in its length, and records
never overwrite each other; but an exception is filed under the execution that was begun last, which is the right one only if
the executions of the function are nested.
-/
namespace Pyth.FrameThreads

/-- **C115** (1). Whatever threads do with one function: `pop` never fails, the list is as long as the number of executions
that threads are in, so it is empty when all have ended; every failing execution is recorded under some
execution that was begun, and no two records get the same name. -/
theorem C115_always (sched : Sched) (hp : Possible nobody sched) :
    (run sched {}).popEmpty = false ∧
    (∀ n, Below n sched → (run sched {}).stack.length = total (insideAfter nobody sched) n) ∧
    ((∀ i, insideAfter nobody sched i = []) → (run sched {}).stack = []) ∧
    (names (run sched {}).filed).Nodup ∧
    (∀ r ∈ (run sched {}).filed, ∀ x, r.place = some x → x.1 ∈ begun sched) := by
  have h0 : ∀ n, total nobody n = 0 := by
    intro n
    induction n with
    | zero => rfl
    | succ n ih => rw [total_succ, ih]; rfl
  have hlen : ∀ n, Below n sched → (run sched {}).stack.length = total (insideAfter nobody sched) n ∧
      (run sched {}).popEmpty = false := fun n hb => length_run n sched {} nobody hb hp (by rw [h0]; rfl) rfl
  obtain ⟨n, hb⟩ := below_exists sched
  refine ⟨(hlen n hb).2, fun n hb => (hlen n hb).1, fun hz => ?_, (names_run sched {} (by simp [names]) (by simp [names])).1, ?_⟩
  · have h := (hlen n hb).1
    have : ∀ m, total (insideAfter nobody sched) m = 0 := by
      intro m
      induction m with
      | zero => rfl
      | succ m ih => rw [total_succ, ih, hz]; rfl
    rw [this] at h
    exact List.length_eq_zero_iff.1 h
  · intro r hr x hx
    have := filed_begun sched {} [] (by simp) (by simp [names]) x (List.mem_filterMap.2 ⟨r, hr, hx⟩)
    simpa using this

/-- every failure is recorded, in order, with the right thread and exception (wherever it is filed), and under some execution -/
theorem C115_recorded (sched : Sched) (hp : Possible nobody sched) :
    (run sched {}).filed.map (fun r => (r.thread, r.exc)) = (failures nobody sched).map (fun x => (x.1, x.2.1)) ∧
    ∀ r ∈ (run sched {}).filed, r.place ≠ none := by
  obtain ⟨n, hb⟩ := below_exists sched
  have h0 : ∀ n, total nobody n = 0 := by
    intro n
    induction n with
    | zero => rfl
    | succ n ih => rw [total_succ, ih]; rfl
  suffices h : ∀ (l : Sched) (s : St) (o : Inside), Below n l → Possible o l → s.stack.length = total o n →
      (∀ r ∈ s.filed, r.place ≠ none) →
      (run l s).filed.map (fun r => (r.thread, r.exc)) =
        s.filed.map (fun r => (r.thread, r.exc)) ++ (failures o l).map (fun x => (x.1, x.2.1)) ∧
      ∀ r ∈ (run l s).filed, r.place ≠ none by
    have := h sched {} nobody hb hp (by rw [h0]; rfl) (by simp)
    simpa using this
  intro l
  induction l with
  | nil => intro s o _ _ _ h; exact ⟨by simp [run, failures], h⟩
  | cons c l ih =>
    intro s o hb hp hl hf
    have hb' : Below n l := fun x hx => hb x (List.mem_cons_of_mem _ hx)
    have hi := hb c List.mem_cons_self
    rw [run_cons]
    obtain ⟨i, c⟩ := c
    obtain ⟨hp1, hp2⟩ := hp
    have hch := total_change o (o.after (i, c)) i n hi fun j hj => after_ne o (i, c) j hj
    cases c with
    | start f =>
      refine ih _ _ hb' hp2 ?_ hf
      rw [after_start] at hch
      rw [step_start]
      simp only [List.length_cons] at hch ⊢
      omega
    | fail e =>
      have hpos : 0 < (o i).length := List.length_pos_iff.2 hp1
      have := le_total o i n hi
      cases hs : s.stack with
      | nil => rw [hs] at hl; simp at hl; omega
      | cons f r =>
        rw [step_fail_cons hs]
        rw [after_fail] at hp2
        obtain ⟨k1, k2⟩ := ih { s with
            filed := s.filed ++ [⟨i, e, some (f, s.counter f)⟩]
            counter := fun g => if g = f then s.counter f + 1 else s.counter g } o hb' hp2 hl (by
          intro r hr
          rcases List.mem_append.1 hr with h | h
          · exact hf r h
          · rw [List.mem_singleton] at h; subst h; simp)
        refine ⟨?_, k2⟩
        rw [k1]
        simp [failures, after_fail]
    | finish =>
      have hpos : 0 < (o i).length := List.length_pos_iff.2 hp1
      have := le_total o i n hi
      cases hs : s.stack with
      | nil => rw [hs] at hl; simp at hl; omega
      | cons f r =>
        rw [step_finish_cons hs]
        refine ih _ _ hb' hp2 ?_ hf
        rw [after_finish, List.length_tail] at hch
        rw [hs, List.length_cons] at hl
        show r.length = _
        omega

/-- **C115** (2). If the executions of the function are nested, each exception is filed under the execution in which it
occurred. -/
theorem C115_nested (sched : Sched) (hn : Nested [] sched) :
    recorded (run sched {}).filed = failures nobody sched := by
  exact nested_recorded sched {} [] hn rfl

/-- C115: no lasting harm: when all executions have ended, whatever happened before, nested executions that follow
are recorded correctly. -/
theorem C115_afterwards (before sched : Sched) (hp : Possible nobody before)
    (he : ∀ i, insideAfter nobody before i = []) (hn : Nested [] sched) :
    recorded (run (before ++ sched) {}).filed = recorded (run before {}).filed ++ failures nobody sched := by
  rw [run_append]
  have h := nested_recorded sched (run before {}) [] hn (by
    rw [(C115_always before hp).2.2.1 he]; rfl)
  rw [h]
  congr 1

/-- one thread alone, or threads that take a lock for whole executions: the executions are nested -/
theorem C115_one_thread (sched : Sched) (i : Nat) (hi : ∀ c ∈ sched, c.1 = i) (hp : Possible nobody sched) : Nested [] sched := by
  suffices h : ∀ (l : Sched) (o : Inside) (st : List Frame), (∀ c ∈ l, c.1 = i) → Possible o l → o i = st →
      Nested (st.map fun f => (i, f)) l from h sched nobody [] hi hp rfl
  intro l
  induction l with
  | nil => intro o st _ _ _; trivial
  | cons c l ih =>
    intro o st hi hp ho
    have hi' : ∀ c ∈ l, c.1 = i := fun x hx => hi x (List.mem_cons_of_mem _ hx)
    have hc := hi c List.mem_cons_self
    obtain ⟨j, c⟩ := c
    simp only at hc
    subst hc
    obtain ⟨hp1, hp2⟩ := hp
    cases c with
    | start f => exact ih _ (f :: st) hi' hp2 (by rw [after_start, ho])
    | fail e =>
      rw [after_fail] at hp2
      cases st with
      | nil => exact absurd ho hp1
      | cons f r => exact ⟨⟨f, r.map fun f => (j, f), rfl⟩, ih _ (f :: r) hi' hp2 ho⟩
    | finish =>
      cases st with
      | nil => exact absurd ho hp1
      | cons f r => exact ⟨f, r.map fun f => (j, f), rfl, ih _ r hi' hp2 (by rw [after_finish, ho]; rfl)⟩

/-! ## Where it goes wrong -/

/-- two threads execute the function for two calls; the first one fails while the second one runs -/
def crossing : Sched := [(0, .start ⟨1, 10⟩), (1, .start ⟨2, 20⟩), (0, .fail 7), (0, .finish), (1, .fail 8), (1, .finish)]

/-- C115: without nesting the exception of one call is filed under the other one: the exception of call 1 under call 2, which
has not failed yet, and the one of call 2 under call 1, which has ended. -/
theorem C115_crossing_counterexample : Possible nobody crossing ∧
    failures nobody crossing = [(0, 7, some ⟨1, 10⟩), (1, 8, some ⟨2, 20⟩)] ∧
    recorded (run crossing {}).filed = [(0, 7, some ⟨2, 20⟩), (1, 8, some ⟨1, 10⟩)] := by
  refine ⟨?_, ?_, ?_⟩
  · simp [crossing, Possible, Inside.after, nobody]
  · simp [crossing, failures, Inside.after, nobody]
  · decide +kernel

/-! ## The hypotheses are met -/

/-- a recursive call that fails and is handled, and another thread's call afterwards -/
def nestedCalls : Sched :=
  [(0, .start ⟨1, 10⟩), (0, .start ⟨2, 20⟩), (0, .fail 5), (0, .finish), (0, .finish), (1, .start ⟨1, 30⟩), (1, .fail 6),
   (1, .finish)]

example : Nested [] nestedCalls ∧ Possible nobody nestedCalls ∧
    failures nobody nestedCalls = [(0, 5, some ⟨2, 20⟩), (1, 6, some ⟨1, 30⟩)] := by
  refine ⟨?_, ?_, ?_⟩
  · simp [nestedCalls, Nested]
  · simp [nestedCalls, Possible, Inside.after, nobody]
  · simp [nestedCalls, failures, Inside.after, nobody]

/-- everybody has left after the crossing executions -/
example : ∀ i, insideAfter nobody crossing i = [] := by
  intro i
  simp only [crossing, insideAfter, List.foldl_cons, List.foldl_nil, Inside.after, nobody]
  by_cases h0 : i = 0
  · subst h0; simp
  · by_cases h1 : i = 1
    · subst h1; simp
    · simp [h0, h1]

end Pyth.FrameThreads
