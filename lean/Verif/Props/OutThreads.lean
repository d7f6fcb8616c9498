import Verif.Proofs.OutThreads
/-!
# C113: capturing output in several threads

Streams and log handlers belong to the process, not to a thread.  Whatever several threads do with capturers: nothing is
lost on the original streams, nothing is invented in a captured text.  If the blocks of all threads are nested, everything
is put back and every block captures what is said by anyone while it is open.  Blocks that overlap otherwise lose output
and leave the streams redirected for ever.
-/
set_option linter.unusedVariables false
namespace Pyth.Output

/-- **C113** (1). Whatever threads do with capturers, in any order: the original streams receive exactly what they would
have received without any capturing (log messages: if there is a root handler and none has a level of its own). -/
theorem C113_originals (fmt : Fmt) (s0 : Shared) (h0 : s0.caps = []) (sched : Sched) (hv : Valid 0 sched)
    (hu : (∃ ev ∈ saidBy sched, ev.isLog = true) → Unfiltered s0.out) (k : Nat) :
    (runSched fmt sched s0).out.bases k = (perform fmt (saidBy sched) s0.out).bases k := by
  rw [run_bases k sched (TInv.start s0 h0) (by rw [h0]; exact hv) hu, perform_eq]
  rw [(apply_spec _ s0.out).2.2.2.2.1 k]

/-- **C113** (2). Whatever threads do with capturers: a captured text consists of pieces that were said, each at most once,
in the order in which they were said. -/
theorem C113_only_what_was_said (fmt : Fmt) (s0 : Shared) (h0 : s0.caps = []) (hw : WF s0.out) (sched : Sched) (k : Nat)
    (t : String) (h : (runSched fmt sched s0).outputOf k = some t) :
    ∃ l : List String, l.Sublist ((saidBy sched).map Ev.text) ∧ t = String.join l := by
  unfold Shared.outputOf at h
  cases hk : (runSched fmt sched s0).caps[k]? with
  | none => rw [hk] at h; cases h
  | some c =>
    rw [hk] at h
    have h : c.getOutput (runSched fmt sched s0).out = t := by simpa using h
    have hi := (TInv.start s0 h0).run (fmt := fmt) sched
    obtain ⟨hb, hn, _⟩ := hi.caps c (List.mem_of_getElem? hk)
    exact ⟨_, (run_buf (fmt := fmt) hw.1 hw.2.1 hw.2.2 hn sched (TInv.start s0 h0)).2 hn hb, h.symm⟩

/-- **C113** (3). If the blocks of all threads are nested, then in the end stdout, stderr and the log handlers are the ones
of the beginning, whatever they were. -/
theorem C113_nested_restores (fmt : Fmt) (s : Shared) (sched : Sched) (m : Nat) (h : Nested s.caps.length sched m) :
    (runSched fmt sched s).out.out = s.out.out ∧ (runSched fmt sched s).out.err = s.out.err ∧
    (runSched fmt sched s).out.handlers = s.out.handlers := by
  obtain ⟨h1, h2, h3, _⟩ := nested_frame (fmt := fmt) h rfl
  exact ⟨h1, h2, h3⟩

/-- how many capturers are created -/
def createdIn (sched : Sched) : Nat := (sched.filter fun c => c.2 == .create).length

theorem caps_created (fmt : Fmt) (sched : Sched) : ∀ s : Shared,
    (runSched fmt sched s).caps.length = s.caps.length + createdIn sched := by
  induction sched with
  | nil => intro s; simp [runSched, createdIn]
  | cons c l ih =>
    intro s
    obtain ⟨i, c⟩ := c
    rw [runSched_cons, ih]
    cases c with
    | create => simp [Cmd.step, createdIn]; omega
    | enter k =>
      cases hk : s.caps[k]? with
      | none => rw [step_enter_none hk]; simp [createdIn]
      | some c => rw [step_enter hk]; simp [createdIn]
    | exit k tb =>
      cases hk : s.caps[k]? with
      | none => rw [step_exit_none hk]; simp [createdIn]
      | some c => rw [step_exit hk]; simp [createdIn]
    | say ev => simp [Cmd.step, createdIn]

/-- **C113** (4). After an arbitrary history: if the blocks that other threads begin while a block is open are also ended
while it is open (and those begun between the creation of the capturer and its entering are ended in between), then
the block's captured text is exactly what was said - by any thread - while it was open, with the traceback
if it failed; and afterwards the streams are the ones of the moment in which the capturer was created. -/
theorem C113_nested_captures (fmt : Fmt) (s0 : Shared) (h0 : s0.caps = []) (hw : WF s0.out) (pre btw mid : Sched)
    (i p q : Nat) (tb : Option String) (h1 : Nested (createdIn pre + 1) btw p) (h2 : Nested p mid q) :
    let sched := pre ++ (i, .create) :: (btw ++ (i, .enter (createdIn pre)) :: (mid ++ [(i, .exit (createdIn pre) tb)]))
    (runSched fmt sched s0).outputOf (createdIn pre) =
      some (String.join ((saidBy mid).map Ev.text ++ tb.toList)) ∧
    (runSched fmt sched s0).out.out = (runSched fmt pre s0).out.out ∧
    (runSched fmt sched s0).out.err = (runSched fmt pre s0).out.err ∧
    (runSched fmt sched s0).out.handlers = (runSched fmt pre s0).out.handlers := by
  intro sched
  have hsch : sched = pre ++ (i, .create) :: (btw ++ (i, .enter (createdIn pre)) :: (mid ++ [(i, .exit (createdIn pre) tb)])) := rfl
  have hn : (runSched fmt pre s0).caps.length = createdIn pre := by rw [caps_created, h0]; simp
  have hi := (TInv.start s0 h0).run (fmt := fmt) pre
  have hrun : runSched fmt sched s0 = runSched fmt
      ((i, .create) :: (btw ++ (i, .enter (createdIn pre)) :: (mid ++ (i, .exit (createdIn pre) tb) :: [])))
      (runSched fmt pre s0) := by rw [hsch, runSched_append]
  generalize hs : runSched fmt pre s0 = s at *
  generalize createdIn pre = n at *
  have hN : Nested n ((i, .create) :: (btw ++ (i, .enter n) :: (mid ++ (i, .exit n tb) :: []))) q :=
    .block i tb h1 h2 (.nil q)
  obtain ⟨r1, r2, r3, _⟩ := nested_frame (fmt := fmt) hN hn
  rw [← hrun] at r1 r2 r3
  refine ⟨?_, r1, r2, r3⟩
  rw [hrun]
  obtain ⟨⟨bs, hO, hbs⟩, hle, _⟩ := hi
  rw [runSched_cons, runSched_append, runSched_cons, runSched_append, runSched_cons]
  generalize hs1 : Cmd.step fmt s (i, Cmd.create).2 = s1
  have e1 : s1 = { out := (newCapturer s.out).2, caps := s.caps ++ [(newCapturer s.out).1] } := hs1.symm
  have l1 : s1.caps.length = n + 1 := by rw [e1]; simp [hn]
  have d1 : s1.out.next = s.out.next + 1 := by rw [e1]; rfl
  obtain ⟨a1, a2, a3, a4, a5, a6⟩ := nested_frame (fmt := fmt) h1 l1
  have w1 := nested_buf (fmt := fmt) hw.1 hw.2.1 hw.2.2 h1 (s := s1) (bs := bs) (b := s.out.next) l1 (by rw [e1]; exact hO)
    (fun b hb => by have := hbs b hb; omega) (by omega) hle (by omega)
  generalize hs2 : runSched fmt btw s1 = s2 at *
  have hg : s2.caps[n]? = some (newCapturer s.out).1 := by
    obtain ⟨t, ht⟩ := a6
    rw [← ht, e1, List.append_assoc, List.getElem?_append_right (by omega)]
    simp [hn]
  generalize hs3 : Cmd.step fmt s2 (i, Cmd.enter n).2 = s3
  have e3 : s3 = { s2 with out := (newCapturer s.out).1.enter s2.out } := by
    rw [← hs3]; exact step_enter hg
  have l3 : s3.caps.length = p := by rw [e3]; exact a4
  have d3 : s3.out.next = s2.out.next := by rw [e3]; rfl
  have hO3 : Over s0.out.next s0.out.out s0.out.err s0.out.handlers s3.out.out s3.out.err s3.out.handlers
      (s.out.next :: bs) := by
    rw [e3]; exact .tee _ hO hbs hle
  have hbs3 : ∀ b ∈ s.out.next :: bs, b < s3.out.next := by
    intro b hbb
    rcases List.mem_cons.1 hbb with rfl | hbb
    · omega
    · have := hbs b hbb; omega
  obtain ⟨b1, b2, b3, b4, b5, b6⟩ := nested_frame (fmt := fmt) h2 l3
  have w2 := nested_buf (fmt := fmt) hw.1 hw.2.1 hw.2.2 h2 (s := s3) (bs := s.out.next :: bs) (b := s.out.next) l3 hO3 hbs3
    (by omega) hle (by omega)
  generalize hs4 : runSched fmt mid s3 = s4 at *
  have hg4 : s4.caps[n]? = some (newCapturer s.out).1 := by
    obtain ⟨t, ht⟩ := b6
    rw [← ht, e3]
    have : n < s2.caps.length := by
      rcases Nat.lt_or_ge n s2.caps.length with h | h
      · exact h
      · rw [List.getElem?_eq_none h] at hg; cases hg
    rw [List.getElem?_append_left this]; exact hg
  have hO4 : Over s0.out.next s0.out.out s0.out.err s0.out.handlers s4.out.out s4.out.err s4.out.handlers
      (s.out.next :: bs) := by
    rw [b1, b2, b3]; exact hO3
  rw [show Cmd.step fmt s4 (i, Cmd.exit n tb).2 = { s4 with out := (newCapturer s.out).1.exit tb s4.out } from step_exit hg4]
  show (s4.caps[n]?).map _ = _
  rw [hg4]
  show some (String.join (((newCapturer s.out).1.exit tb s4.out).buffers s.out.next)) = _
  have hnot : s.out.next ∉ bs := fun h => Nat.lt_irrefl _ (hbs _ h)
  rw [if_neg hnot, List.append_nil] at w1
  rw [if_pos List.mem_cons_self] at w2
  have w3 : s3.out.buffers s.out.next = s2.out.buffers s.out.next := by rw [e3]; rfl
  have w0 : s1.out.buffers s.out.next = [] := by
    rw [e1]
    show (if s.out.next = s.out.next then [] else s.out.buffers s.out.next) = _
    rw [if_pos rfl]
  rw [w3, w1, w0, List.nil_append] at w2
  congr 2
  rw [exit_say fmt, ← w2]
  cases tb with
  | none => simp
  | some t =>
    have := say_buf (fmt := fmt) hO4 hw.1 hw.2.1 hw.2.2 hle (.err t)
    rw [if_pos List.mem_cons_self] at this
    exact this

/-! ## A thread alone -/

theorem Nested.append {n p q : Nat} {a b : Sched} (h1 : Nested n a p) (h2 : Nested p b q) : Nested n (a ++ b) q := by
  induction h1 with
  | nil n => exact h2
  | say i ev h ih => exact .say i ev (ih h2)
  | block i tb h1 h2' h3 _ _ ih3 =>
    rw [List.cons_append, List.append_assoc, List.cons_append, List.append_assoc, List.cons_append]
    exact .block i tb h1 h2' (ih3 h2)

/-- these commands, executed by thread `i` -/
def byThread (i : Nat) (l : List Cmd) : Sched := l.map fun c => (i, c)

theorem byThread_append (i : Nat) (a b : List Cmd) : byThread i (a ++ b) = byThread i a ++ byThread i b := by simp [byThread]

/-- **C113** (5). A program that runs in one thread alone, with any `with` blocks, exceptions and handlers in it, is such a
schedule: its blocks are nested, and executing the commands in turn does what the program does. So blocks cross only because of
other threads. -/
theorem C113_one_thread_is_nested (fmt : Fmt) (tb : Nat → String) (i : Nat) (p : Prog) (hp : OnlyBlocks p) :
    ∀ s : Shared,
      Nested s.caps.length (byThread i (commandsOf tb p s.caps.length).1) (commandsOf tb p s.caps.length).2.1 ∧
      run fmt tb p s.out = ((commandsOf tb p s.caps.length).2.2,
        (runSched fmt (byThread i (commandsOf tb p s.caps.length).1) s).out) := by
  induction p with
  | skip => exact fun s => ⟨.nil _, rfl⟩
  | raise n => exact fun s => ⟨.nil _, rfl⟩
  | print t => exact fun s => ⟨.say _ _ (.nil _), rfl⟩
  | eprint t => exact fun s => ⟨.say _ _ (.nil _), rfl⟩
  | log l m => exact fun s => ⟨.say _ _ (.nil _), rfl⟩
  | setOut k => exact hp.elim
  | setErr k => exact hp.elim
  | addHandler k l => exact hp.elim
  | suppress b ih => exact hp.elim
  | seq a b iha ihb =>
    intro s
    obtain ⟨n1, r1⟩ := iha hp.1 s
    simp only [commandsOf, run]
    generalize commandsOf tb a s.caps.length = ca at *
    obtain ⟨la, m, ra⟩ := ca
    have hl : (runSched fmt (byThread i la) s).caps.length = m := (nested_frame (fmt := fmt) n1 rfl).2.2.2.1
    obtain ⟨n2, r2⟩ := ihb hp.2 (runSched fmt (byThread i la) s)
    rw [hl] at n2 r2
    simp only at r1
    rw [r1]
    cases ra with
    | none =>
      simp only
      refine ⟨by rw [byThread_append]; exact n1.append n2, ?_⟩
      rw [r2, byThread_append, runSched_append]
    | some e => exact ⟨n1, rfl⟩
  | tryExcept a b iha ihb =>
    intro s
    obtain ⟨n1, r1⟩ := iha hp.1 s
    simp only [commandsOf, run]
    generalize commandsOf tb a s.caps.length = ca at *
    obtain ⟨la, m, ra⟩ := ca
    have hl : (runSched fmt (byThread i la) s).caps.length = m := (nested_frame (fmt := fmt) n1 rfl).2.2.2.1
    obtain ⟨n2, r2⟩ := ihb hp.2 (runSched fmt (byThread i la) s)
    rw [hl] at n2 r2
    simp only at r1
    rw [r1]
    cases ra with
    | some e =>
      simp only
      refine ⟨by rw [byThread_append]; exact n1.append n2, ?_⟩
      rw [r2, byThread_append, runSched_append]
    | none => exact ⟨n1, rfl⟩
  | capture b ih =>
    intro s
    let s1 : Shared := { out := (newCapturer s.out).2, caps := s.caps ++ [(newCapturer s.out).1] }
    let s2 : Shared := { s1 with out := (newCapturer s.out).1.enter s1.out }
    have l2 : s2.caps.length = s.caps.length + 1 := by simp [s2, s1]
    obtain ⟨n1, r1⟩ := ih hp s2
    rw [l2] at n1 r1
    simp only [commandsOf, run]
    generalize commandsOf tb b (s.caps.length + 1) = cb at *
    obtain ⟨lb, m, rb⟩ := cb
    simp only at n1 r1 ⊢
    have he : byThread i (Cmd.create :: .enter s.caps.length :: (lb ++ [.exit s.caps.length (rb.map tb)])) =
        (i, .create) :: ([] ++ (i, .enter s.caps.length) :: (byThread i lb ++ (i, .exit s.caps.length (rb.map tb)) :: [])) := by
      simp [byThread]
    refine ⟨by rw [he]; exact .block i _ (.nil _) n1 (.nil _), ?_⟩
    rw [he, runSched_cons, List.nil_append, runSched_cons, runSched_append, runSched_cons]
    have h1 : Cmd.step fmt s (i, Cmd.create).2 = s1 := rfl
    have hg : s1.caps[s.caps.length]? = some (newCapturer s.out).1 := by simp [s1]
    have h2 : Cmd.step fmt s1 (i, Cmd.enter s.caps.length).2 = s2 := step_enter hg
    rw [h1, h2]
    have hg2 : (runSched fmt (byThread i lb) s2).caps[s.caps.length]? = some (newCapturer s.out).1 := by
      obtain ⟨t, ht⟩ := (nested_frame (fmt := fmt) n1 l2).2.2.2.2.2
      rw [← ht, List.getElem?_append_left (by omega)]; exact hg
    rw [show Cmd.step fmt (runSched fmt (byThread i lb) s2) (i, Cmd.exit s.caps.length (rb.map tb)).2 =
      { runSched fmt (byThread i lb) s2 with out := (newCapturer s.out).1.exit (rb.map tb) (runSched fmt (byThread i lb) s2).out }
      from step_exit hg2]
    have hr : run fmt tb b ((newCapturer s.out).1.enter (newCapturer s.out).2) =
        (rb, (runSched fmt (byThread i lb) s2).out) := r1
    rw [hr]
    rfl

/-! ## Where it goes wrong -/

/-- two threads whose blocks overlap without being nested; the second thread prints while only its block is open -/
def crossing (t : String) : Sched :=
  [(0, .create), (0, .enter 0), (1, .create), (1, .enter 1), (0, .exit 0 none), (1, .say (.out t)), (1, .exit 1 none)]

/-- each thread for itself uses its capturer as a `with` block does -/
example : ofThread 0 (crossing "x") = [.create, .enter 0, .exit 0 none] ∧
    ofThread 1 (crossing "x") = [.create, .enter 1, .say (.out "x"), .exit 1 none] := by decide

theorem tee_ne (o : Stream) (b : Nat) : Stream.tee o b ≠ o := by
  intro h
  have := congrArg sizeOf h
  simp at this
  omega

/-- C113: without nesting, what the second thread prints inside of its block is missing in its captured text (while the
first thread's block has ended already), and after both blocks stdout is not the original one: it is redirected
to the buffer of the first block, for ever. Wherever this is started from. -/
theorem C113_crossing_counterexample (fmt : Fmt) (s0 : Shared) (h0 : s0.caps = []) (hw : WF s0.out) (t : String) :
    (runSched fmt (crossing t) s0).outputOf 1 = some "" ∧
    (runSched fmt (crossing t) s0).out.out ≠ s0.out.out ∧
    (runSched fmt (crossing t) s0).out.out = .tee s0.out.out s0.out.next := by
  obtain ⟨o, caps⟩ := s0
  subst h0
  have hrun : (runSched fmt (crossing t) ⟨o, []⟩).out.out = .tee o.out o.next := rfl
  refine ⟨?_, by rw [hrun]; exact tee_ne _ _, hrun⟩
  have hb : (runSched fmt (crossing t) ⟨o, []⟩).outputOf 1 = some (String.join
      ((write o.out t { (newCapturer (newCapturer o).2).2 with out := o.out, err := o.err, handlers := o.handlers }).buffers
        (o.next + 1))) := rfl
  rw [hb, write_eq, (apply_spec _ _).2.2.2.2.2]
  rw [onBuf_W t o.out (hw.1.mono (Nat.le_succ _))]
  simp [newCapturer]

/-- what one thread prints while only another thread's block is open -/
def bystander (t : String) : Sched := [(0, .create), (0, .enter 0), (1, .say (.out t)), (0, .exit 0 none)]

/-- C113: even when blocks are nested, a captured text is not the output of the thread that captures: it contains what
a thread that has nothing to do with the block prints meanwhile. -/
theorem C113_other_threads_counterexample (fmt : Fmt) (s0 : Shared) (h0 : s0.caps = []) (hw : WF s0.out) (t : String) :
    Cmd.say (.out t) ∉ ofThread 0 (bystander t) ∧
    (runSched fmt (bystander t) s0).outputOf 0 = some t := by
  refine ⟨by simp [ofThread, bystander], ?_⟩
  have h := (C113_nested_captures fmt s0 h0 hw [] [] [(1, .say (.out t))] 0 1 1 none (.nil 1)
    (.say 1 (.out t) (.nil 1))).1
  simpa [saidBy, Cmd.said, Ev.text, createdIn, bystander] using h

/-! ## The hypotheses are met -/

/-- a process in which a log handler exists -/
def process : Shared := { out := { out := .base 0, err := .base 1, handlers := [.base 2 0 (.base 1)] } }

example : process.caps = [] ∧ WF process.out ∧ Unfiltered process.out := by
  refine ⟨rfl, ⟨?_, ?_, ?_⟩, ?_, ?_⟩ <;>
    simp [process, Stream.Below, Handler.BelowL, Handler.Below, Handler.level]

/-- one thread's block inside of another one's, with an exception and a log message -/
def inside : Sched :=
  [(0, .create), (0, .enter 0), (0, .say (.out "a")), (1, .create), (1, .enter 1), (1, .say (.log 30 "b")),
   (0, .say (.err "c")), (1, .exit 1 (some "E")), (0, .say (.out "d")), (0, .exit 0 none)]

example : Nested 0 inside 2 ∧ Valid 0 inside := by
  refine ⟨?_, by simp [inside, Valid]⟩
  exact .block (btw := []) (mid := [(0, .say (.out "a")), (1, .create), (1, .enter 1), (1, .say (.log 30 "b")),
    (0, .say (.err "c")), (1, .exit 1 (some "E")), (0, .say (.out "d"))]) (rest := []) 0 none (.nil 1)
    (.say 0 _ (.block (btw := []) (mid := [(1, .say (.log 30 "b")), (0, .say (.err "c"))])
      (rest := [(0, .say (.out "d"))]) 1 (some "E") (.nil 2) (.say 1 _ (.say 0 _ (.nil 2))) (.say 0 _ (.nil 2)))) (.nil 2)

/-- a program with blocks inside of each other, an exception and its handler -/
example : OnlyBlocks (.capture (.seq (.print "a") (.tryExcept (.capture (.seq (.eprint "b") (.raise 7))) (.log 30 "c")))) ∧
    (commandsOf (fun _ => "E") (.capture (.seq (.print "a") (.tryExcept (.capture (.seq (.eprint "b") (.raise 7)))
      (.log 30 "c")))) 0).1 = [.create, .enter 0, .say (.out "a"), .create, .enter 1, .say (.err "b"), .exit 1 (some "E"),
      .say (.log 30 "c"), .exit 0 none] := ⟨by simp [OnlyBlocks], rfl⟩

/-- the texts of the two blocks, and what reached the original streams -/
example : (runSched (fun _ m => m) inside process).outputOf 0 = some "ab\ncEd" ∧
    (runSched (fun _ m => m) inside process).outputOf 1 = some "b\ncE" ∧
    (runSched (fun _ m => m) inside process).out.bases 0 = ["a", "d"] ∧
    (runSched (fun _ m => m) inside process).out.bases 1 = ["b", "c", "E"] := by decide +kernel

end Pyth.Output
