import Verif.Spec.FrameThreads
import Mathlib.Data.List.Nodup
/-! # Proofs for C115 -/
namespace Pyth.FrameThreads

theorem run_cons (c : Nat × Cmd) (l : Sched) (s : St) : run (c :: l) s = run l (step s c) := rfl

theorem run_append (a b : Sched) (s : St) : run (a ++ b) s = run b (run a s) := by simp [run, List.foldl_append]

theorem step_start (s : St) (i : Nat) (f : Frame) : step s (i, .start f) = { s with stack := f :: s.stack } := rfl

theorem step_finish_cons {s : St} {f : Frame} {r : List Frame} (h : s.stack = f :: r) (i : Nat) :
    step s (i, .finish) = { s with stack := r } := by
  simp only [step, St.pop, h]

theorem step_fail_cons {s : St} {f : Frame} {r : List Frame} (h : s.stack = f :: r) (i e : Nat) :
    step s (i, .fail e) = { s with
      filed := s.filed ++ [⟨i, e, some (f, s.counter f)⟩]
      counter := fun g => if g = f then s.counter f + 1 else s.counter g } := by
  simp only [step, St.file, h]

/-- how many executions the threads below `n` are in -/
def total (o : Inside) (n : Nat) : Nat := ((List.range n).map fun i => (o i).length).sum

theorem total_succ (o : Inside) (n : Nat) : total o (n + 1) = total o n + (o n).length := by
  simp [total, List.range_succ]

theorem total_other (o o' : Inside) (n : Nat) (h : ∀ j < n, o' j = o j) : total o' n = total o n := by
  induction n with
  | zero => rfl
  | succ n ih => rw [total_succ, total_succ, ih fun j hj => h j (Nat.lt_succ_of_lt hj), h n (Nat.lt_succ_self n)]

theorem total_change (o o' : Inside) (i n : Nat) (hi : i < n) (h : ∀ j, j ≠ i → o' j = o j) :
    total o' n + (o i).length = total o n + (o' i).length := by
  induction n with
  | zero => omega
  | succ n ih =>
    rw [total_succ, total_succ]
    by_cases hin : i = n
    · subst hin
      rw [total_other o o' i fun j hj => h j (by omega)]
      omega
    · have := ih (by omega)
      rw [h n (fun e => hin e.symm)]
      omega

theorem le_total (o : Inside) (i n : Nat) (hi : i < n) : (o i).length ≤ total o n := by
  induction n with
  | zero => omega
  | succ n ih =>
    rw [total_succ]
    by_cases hin : i = n
    · subst hin; omega
    · have := ih (by omega); omega

/-- all threads of a schedule are below `n` -/
def Below (n : Nat) (sched : Sched) : Prop := ∀ c ∈ sched, c.1 < n

theorem after_ne (o : Inside) (c : Nat × Cmd) (j : Nat) (h : j ≠ c.1) : o.after c j = o j := by simp [Inside.after, h]

theorem after_start (o : Inside) (i : Nat) (f : Frame) : o.after (i, .start f) i = f :: o i := by simp [Inside.after]

theorem after_finish (o : Inside) (i : Nat) : o.after (i, .finish) i = (o i).tail := by simp [Inside.after]

theorem after_fail (o : Inside) (i e : Nat) : o.after (i, .fail e) = o := by
  funext j
  simp only [Inside.after]
  split <;> rfl

/-- the executions after a schedule -/
def insideAfter (o : Inside) (sched : Sched) : Inside := sched.foldl Inside.after o

theorem insideAfter_cons (o : Inside) (c : Nat × Cmd) (l : Sched) : insideAfter o (c :: l) = insideAfter (o.after c) l := rfl

/-- the length of the list is the number of executions -/
theorem length_run (n : Nat) (sched : Sched) : ∀ (s : St) (o : Inside), Below n sched → Possible o sched →
    s.stack.length = total o n → s.popEmpty = false →
    (run sched s).stack.length = total (insideAfter o sched) n ∧ (run sched s).popEmpty = false := by
  induction sched with
  | nil => intro s o _ _ h1 h2; exact ⟨h1, h2⟩
  | cons c l ih =>
    intro s o hb hp h1 h2
    have hb' : Below n l := fun x hx => hb x (List.mem_cons_of_mem _ hx)
    have hi := hb c List.mem_cons_self
    rw [run_cons, insideAfter_cons]
    obtain ⟨i, c⟩ := c
    obtain ⟨hp1, hp2⟩ := hp
    have hch := total_change o (o.after (i, c)) i n hi fun j hj => after_ne o (i, c) j hj
    cases c with
    | start f =>
      refine ih _ _ hb' hp2 ?_ h2
      rw [after_start] at hch
      rw [step_start]
      simp only [List.length_cons] at hch ⊢
      omega
    | fail e =>
      rw [after_fail] at hp2 ⊢
      have hpos : 0 < (o i).length := List.length_pos_iff.2 hp1
      have := le_total o i n hi
      cases hs : s.stack with
      | nil => rw [hs] at h1; simp at h1; omega
      | cons f r =>
        rw [step_fail_cons hs]
        exact ih _ _ hb' hp2 h1 h2
    | finish =>
      have hpos : 0 < (o i).length := List.length_pos_iff.2 hp1
      have := le_total o i n hi
      cases hs : s.stack with
      | nil => rw [hs] at h1; simp at h1; omega
      | cons f r =>
        rw [step_finish_cons hs]
        refine ih _ _ hb' hp2 ?_ h2
        rw [after_finish, List.length_tail] at hch
        rw [hs, List.length_cons] at h1
        show r.length = _
        omega

theorem below_exists (sched : Sched) : ∃ n, Below n sched := by
  induction sched with
  | nil => exact ⟨0, fun _ h => nomatch h⟩
  | cons c l ih =>
    obtain ⟨n, h⟩ := ih
    refine ⟨max n (c.1 + 1), fun x hx => ?_⟩
    rcases List.mem_cons.1 hx with rfl | hx
    · omega
    · have := h x hx; omega

/-! ## Nested executions -/

/-- the executions of a thread -/
def framesOf (st : List (Nat × Frame)) : Inside := fun i => (st.filter fun x => x.1 == i).map (·.2)

theorem framesOf_cons (st : List (Nat × Frame)) (i : Nat) (f : Frame) :
    framesOf ((i, f) :: st) = (framesOf st).after (i, .start f) := by
  funext j
  by_cases h : j = i
  · subst h; rw [after_start]; simp [framesOf]
  · rw [after_ne _ _ _ h]
    have : (i == j) = false := by simpa using fun e => h e.symm
    simp [framesOf, this]

theorem framesOf_tail (st : List (Nat × Frame)) (i : Nat) (f : Frame) :
    (framesOf ((i, f) :: st)).after (i, .finish) = framesOf st := by
  funext j
  by_cases h : j = i
  · subst h; rw [after_finish, framesOf_cons, after_start]; rfl
  · rw [after_ne _ _ _ h, framesOf_cons, after_ne _ _ _ h]

theorem nested_recorded (sched : Sched) : ∀ (s : St) (st : List (Nat × Frame)), Nested st sched → s.stack = st.map (·.2) →
    recorded (run sched s).filed = recorded s.filed ++ failures (framesOf st) sched := by
  induction sched with
  | nil => intro s st _ _; simp [run, failures]
  | cons c l ih =>
    intro s st hn hs
    rw [run_cons]
    obtain ⟨i, c⟩ := c
    cases c with
    | start f =>
      rw [ih _ ((i, f) :: st) hn (by rw [step_start, hs]; rfl), framesOf_cons]
      rfl
    | fail e =>
      obtain ⟨⟨f, r, rfl⟩, hn⟩ := hn
      have hs' : s.stack = f :: r.map (·.2) := hs
      rw [step_fail_cons hs', ih _ ((i, f) :: r) hn (by show s.stack = _; exact hs)]
      simp only [recorded, List.map_append, List.append_assoc, failures, after_fail]
      congr 1
      simp [framesOf]
    | finish =>
      obtain ⟨f, r, rfl, hn⟩ := hn
      have hs' : s.stack = f :: r.map (·.2) := hs
      rw [step_finish_cons hs', ih _ r hn rfl]
      simp only [failures, framesOf_tail, List.nil_append]

/-! ## Names of records -/

/-- the names of records: session and number -/
def names (l : List Filed) : List (Frame × Nat) := l.filterMap Filed.place

theorem names_run (sched : Sched) : ∀ s : St, (∀ x ∈ names s.filed, x.2 < s.counter x.1) → (names s.filed).Nodup →
    (names (run sched s).filed).Nodup ∧ ∀ x ∈ names (run sched s).filed, x.2 < (run sched s).counter x.1 := by
  induction sched with
  | nil => intro s h1 h2; exact ⟨h2, h1⟩
  | cons c l ih =>
    intro s h1 h2
    rw [run_cons]
    obtain ⟨i, c⟩ := c
    cases c with
    | start f => exact ih _ h1 h2
    | finish =>
      cases hs : s.stack with
      | nil => exact ih _ (by simpa only [step, St.pop, hs] using h1) (by simpa only [step, St.pop, hs] using h2)
      | cons f r => rw [step_finish_cons hs]; exact ih _ h1 h2
    | fail e =>
      cases hs : s.stack with
      | nil =>
        refine ih _ ?_ ?_
        · simpa [step, St.file, hs, names] using h1
        · simpa [step, St.file, hs, names] using h2
      | cons f r =>
        rw [step_fail_cons hs]
        have hn : names (s.filed ++ [⟨i, e, some (f, s.counter f)⟩]) = names s.filed ++ [(f, s.counter f)] := by
          simp [names]
        refine ih _ ?_ ?_
        · intro x hx
          rw [hn] at hx
          show x.2 < if x.1 = f then s.counter f + 1 else s.counter x.1
          rcases List.mem_append.1 hx with h | h
          · have := h1 x h
            split
            · rename_i he; rw [he] at this; omega
            · exact this
          · rw [List.mem_singleton] at h
            subst h
            simp
        · rw [hn]
          refine List.Nodup.append h2 (List.nodup_singleton _) ?_
          intro x hx hx'
          rw [List.mem_singleton] at hx'
          subst hx'
          exact absurd (h1 _ hx) (Nat.lt_irrefl _)

/-! ## Nothing is invented -/

theorem filed_begun (sched : Sched) : ∀ (s : St) (B : List Frame), (∀ f ∈ s.stack, f ∈ B) →
    (∀ x ∈ names s.filed, x.1 ∈ B) → ∀ x ∈ names (run sched s).filed, x.1 ∈ B ++ begun sched := by
  induction sched with
  | nil => intro s B h1 h2 x hx; simpa [begun] using h2 x hx
  | cons c l ih =>
    intro s B h1 h2
    rw [run_cons]
    obtain ⟨i, c⟩ := c
    cases c with
    | start f =>
      have := ih { s with stack := f :: s.stack } (B ++ [f]) (by
          intro g hg
          rcases List.mem_cons.1 hg with rfl | hg
          · simp
          · simp [h1 g hg]) (fun x hx => by simp [h2 x hx])
      intro x hx
      have := this x hx
      simpa [begun] using this
    | finish =>
      have hb : begun ((i, .finish) :: l) = begun l := rfl
      rw [hb]
      cases hs : s.stack with
      | nil => exact ih _ B (by simp [step, St.pop, hs]) (by simpa only [step, St.pop, hs] using h2)
      | cons f r =>
        rw [step_finish_cons hs]
        exact ih _ B (fun g hg => h1 g (by rw [hs]; exact List.mem_cons_of_mem _ hg)) h2
    | fail e =>
      have hb : begun ((i, .fail e) :: l) = begun l := rfl
      rw [hb]
      cases hs : s.stack with
      | nil => exact ih _ B (by simp [step, St.file, hs]) (by simpa [step, St.file, hs, names] using h2)
      | cons f r =>
        rw [step_fail_cons hs]
        refine ih _ B h1 ?_
        intro x hx
        have hn : names (s.filed ++ [⟨i, e, some (f, s.counter f)⟩]) = names s.filed ++ [(f, s.counter f)] := by
          simp [names]
        rw [hn] at hx
        rcases List.mem_append.1 hx with h | h
        · exact h2 x h
        · rw [List.mem_singleton] at h
          subst h
          exact h1 f (by rw [hs]; exact List.mem_cons_self)

end Pyth.FrameThreads
