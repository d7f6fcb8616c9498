import Verif.Spec.OutThreads
import Verif.Proofs.Output
/-! # Proofs for C113 -/
set_option linter.unusedSectionVars false
set_option linter.unusedVariables false
namespace Pyth.Output

/-- streams and handlers that are put on top of the original ones; the buffers of the capturers, innermost first -/
inductive Over (n0 : Nat) (o0 e0 : Stream) (hs0 : List Handler) : Stream → Stream → List Handler → List Nat → Prop
  | base : Over n0 o0 e0 hs0 o0 e0 hs0 []
  | tee {o e hs bs} (n : Nat) (h : Over n0 o0 e0 hs0 o e hs bs) (hn : ∀ b ∈ bs, b < n) (h0 : n0 ≤ n) :
      Over n0 o0 e0 hs0 (.tee o n) (.tee e n) [.capture n hs] (n :: bs)

theorem BelowL_filter {n : Nat} (p : Handler → Bool) : ∀ {hs : List Handler}, Handler.BelowL n hs →
    Handler.BelowL n (hs.filter p)
  | [], h => h
  | x :: hs, h => by
    rw [Handler.BelowL] at h
    rw [List.filter_cons]
    split
    · rw [Handler.BelowL]; exact ⟨h.1, BelowL_filter p h.2⟩
    · exact BelowL_filter p h.2

variable {n0 : Nat} {o0 e0 : Stream} {hs0 : List Handler} {fmt : Fmt}

theorem Over.bases {o e hs bs} (h : Over n0 o0 e0 hs0 o e hs bs) (ev : Ev)
    (hu : ev.isLog = true → hs0 ≠ [] ∧ ∀ h ∈ hs0, h.level = 0) (k : Nat) :
    (ev.isLog = true → hs ≠ [] ∧ ∀ h ∈ hs, h.level = 0) ∧
    onBase k (atomsEv fmt o e hs ev) = onBase k (atomsEv fmt o0 e0 hs0 ev) := by
  induction h with
  | base => exact ⟨hu, rfl⟩
  | tee n h hn h0 ih =>
    refine ⟨fun _ => ⟨by simp, by simp [Handler.level]⟩, ?_⟩
    rw [capture_base fmt _ _ _ n ev ih.1 k]; exact ih.2

theorem Over.parts {o e hs bs} (h : Over n0 o0 e0 hs0 o e hs bs) (ho : o0.Below n0) (he : e0.Below n0)
    (hh : Handler.BelowL n0 hs0) {b : Nat} (hb : n0 ≤ b) (t : String) :
    onBuf b (atomsW o t) = (if b ∈ bs then [t] else []) ∧ onBuf b (atomsW e t) = (if b ∈ bs then [t] else []) ∧
    onBuf b (atomsL fmt hs t) = (if b ∈ bs then [t ++ "\n"] else []) := by
  induction h with
  | base =>
    exact ⟨onBuf_W t _ (ho.mono hb), onBuf_W t _ (he.mono hb), onBuf_L fmt t _ (hh.mono hb)⟩
  | @tee o e hs bs n h hn h0 ih =>
    obtain ⟨i1, i2, i3⟩ := ih
    by_cases hbn : b = n
    · subst hbn
      have hnot : b ∉ bs := fun h => Nat.lt_irrefl _ (hn b h)
      rw [if_neg hnot] at i1 i2 i3
      refine ⟨?_, ?_, ?_⟩
      · simp [atomsW, onBuf_append, i1, onBuf]
      · simp [atomsW, onBuf_append, i2, onBuf]
      · simp [atomsL, atomsE, onBuf, i3]
    · have hm : (b ∈ n :: bs) = (b ∈ bs) := by simp [hbn]
      refine ⟨?_, ?_, ?_⟩
      · simp [atomsW, onBuf_append, i1, onBuf, hbn]
      · simp [atomsW, onBuf_append, i2, onBuf, hbn]
      · simp [atomsL, atomsE, onBuf, i3, hbn]

theorem Over.buf {o e hs bs} (h : Over n0 o0 e0 hs0 o e hs bs) (ho : o0.Below n0) (he : e0.Below n0)
    (hh : Handler.BelowL n0 hs0) {b : Nat} (hb : n0 ≤ b) (ev : Ev) :
    onBuf b (atomsEv fmt o e hs ev) = (if b ∈ bs then [ev.text] else []) := by
  cases ev with
  | out t => exact (h.parts (fmt := fmt) ho he hh hb t).1
  | err t => exact (h.parts (fmt := fmt) ho he hh hb t).2.1
  | log l m =>
    cases h with
    | base =>
      rw [atomsEv, if_neg (by simp)]
      unfold atomsG
      split
      · split
        · exact onBuf_W _ _ (he.mono hb)
        · rfl
      · exact onBuf_L fmt m _ (BelowL_filter _ (hh.mono hb))
    | tee n h hn h0 =>
      have hp := ((Over.tee n h hn h0).parts (fmt := fmt) ho he hh hb m).2.2
      rw [atomsEv, atomsG_unfiltered fmt _ (by simp) (by simp [Handler.level])]
      exact hp

theorem sayEv_eq (fmt : Fmt) (ev : Ev) (s : Out) : sayEv fmt ev s = apply (atomsEv fmt s.out s.err s.handlers ev) s := by
  cases ev with
  | out t => exact write_eq _ _ _
  | err t => exact write_eq _ _ _
  | log l m => exact log_eq _ _ _ _

theorem exit_say (fmt : Fmt) (c : Capturer) (tb : Option String) (s : Out) :
    c.exit tb s = { (match tb with | some t => sayEv fmt (.err t) s | none => s) with
      out := c.originalOut, err := c.originalErr, handlers := c.originalHandlers } := by
  cases tb <;> rfl

theorem step_enter_none {fmt : Fmt} {s : Shared} {k : Nat} (h : s.caps[k]? = none) : Cmd.step fmt s (.enter k) = s := by
  simp only [Cmd.step, h]

theorem step_enter {fmt : Fmt} {s : Shared} {k : Nat} {c : Capturer} (h : s.caps[k]? = some c) :
    Cmd.step fmt s (.enter k) = { s with out := c.enter s.out } := by
  simp only [Cmd.step, h]

theorem step_exit_none {fmt : Fmt} {s : Shared} {k : Nat} {tb : Option String} (h : s.caps[k]? = none) :
    Cmd.step fmt s (.exit k tb) = s := by
  simp only [Cmd.step, h]

theorem step_exit {fmt : Fmt} {s : Shared} {k : Nat} {tb : Option String} {c : Capturer} (h : s.caps[k]? = some c) :
    Cmd.step fmt s (.exit k tb) = { s with out := c.exit tb s.out } := by
  simp only [Cmd.step, h]

theorem runSched_append (fmt : Fmt) (a b : Sched) (s : Shared) :
    runSched fmt (a ++ b) s = runSched fmt b (runSched fmt a s) := by simp [runSched, List.foldl_append]

theorem runSched_cons (fmt : Fmt) (c : Nat × Cmd) (l : Sched) (s : Shared) :
    runSched fmt (c :: l) s = runSched fmt l (c.2.step fmt s) := rfl

/-- the state is made of things on top of the original ones -/
structure TInv (n0 : Nat) (o0 e0 : Stream) (hs0 : List Handler) (s : Shared) : Prop where
  cur : ∃ bs, Over n0 o0 e0 hs0 s.out.out s.out.err s.out.handlers bs ∧ ∀ b ∈ bs, b < s.out.next
  le : n0 ≤ s.out.next
  caps : ∀ c ∈ s.caps, c.buffer < s.out.next ∧ n0 ≤ c.buffer ∧
    ∃ bs, Over n0 o0 e0 hs0 c.originalOut c.originalErr c.originalHandlers bs ∧ ∀ b ∈ bs, b < c.buffer

theorem sayEv_frame (fmt : Fmt) (ev : Ev) (s : Out) :
    (sayEv fmt ev s).out = s.out ∧ (sayEv fmt ev s).err = s.err ∧ (sayEv fmt ev s).handlers = s.handlers ∧
    (sayEv fmt ev s).next = s.next := by
  rw [sayEv_eq]
  obtain ⟨h1, h2, h3, h4, _⟩ := apply_spec (atomsEv fmt s.out s.err s.handlers ev) s
  exact ⟨h1, h2, h3, h4⟩

theorem exit_frame (fmt : Fmt) (c : Capturer) (tb : Option String) (s : Out) :
    (c.exit tb s).out = c.originalOut ∧ (c.exit tb s).err = c.originalErr ∧
    (c.exit tb s).handlers = c.originalHandlers ∧ (c.exit tb s).next = s.next := by
  rw [exit_say fmt]
  cases tb with
  | none => exact ⟨rfl, rfl, rfl, rfl⟩
  | some t => exact ⟨rfl, rfl, rfl, (sayEv_frame fmt (.err t) s).2.2.2⟩

theorem TInv.step {s : Shared} (h : TInv n0 o0 e0 hs0 s) (c : Cmd) : TInv n0 o0 e0 hs0 (c.step fmt s) := by
  obtain ⟨⟨bs, hO, hb⟩, hle, hc⟩ := h
  cases c with
  | create =>
    refine ⟨⟨bs, hO, fun b hbb => Nat.lt_succ_of_lt (hb b hbb)⟩, Nat.le_succ_of_le hle, ?_⟩
    intro c hcc
    rcases List.mem_append.1 hcc with h | h
    · obtain ⟨h1, h2⟩ := hc c h
      exact ⟨Nat.lt_succ_of_lt h1, h2⟩
    · rw [List.mem_singleton] at h
      subst h
      exact ⟨Nat.lt_succ_self _, hle, bs, hO, hb⟩
  | enter k =>
    cases hk : s.caps[k]? with
    | none => rw [step_enter_none hk]; exact ⟨⟨bs, hO, hb⟩, hle, hc⟩
    | some c =>
      rw [step_enter hk]
      obtain ⟨h1, h2, bs', h3, h4⟩ := hc c (List.mem_of_getElem? hk)
      refine ⟨⟨c.buffer :: bs', .tee _ h3 h4 h2, ?_⟩, hle, hc⟩
      intro b hbb
      rcases List.mem_cons.1 hbb with rfl | hbb
      · exact h1
      · exact Nat.lt_trans (h4 b hbb) h1
  | exit k tb =>
    cases hk : s.caps[k]? with
    | none => rw [step_exit_none hk]; exact ⟨⟨bs, hO, hb⟩, hle, hc⟩
    | some c =>
      rw [step_exit hk]
      obtain ⟨h1, h2, bs', h3, h4⟩ := hc c (List.mem_of_getElem? hk)
      obtain ⟨f1, f2, f3, f4⟩ := exit_frame fmt c tb s.out
      refine ⟨⟨bs', by rw [f1, f2, f3]; exact h3, fun b hbb => ?_⟩, by rw [f4]; exact hle, ?_⟩
      · rw [f4]; exact Nat.lt_trans (h4 b hbb) h1
      · intro c hcc; rw [f4]; exact hc c hcc
  | say ev =>
    obtain ⟨f1, f2, f3, f4⟩ := sayEv_frame fmt ev s.out
    refine ⟨⟨bs, ?_, ?_⟩, ?_, ?_⟩
    · show Over _ _ _ _ (sayEv fmt ev s.out).out (sayEv fmt ev s.out).err (sayEv fmt ev s.out).handlers bs
      rw [f1, f2, f3]; exact hO
    · show ∀ b ∈ bs, b < (sayEv fmt ev s.out).next
      rw [f4]; exact hb
    · show n0 ≤ (sayEv fmt ev s.out).next
      rw [f4]; exact hle
    · intro c hcc
      show c.buffer < (sayEv fmt ev s.out).next ∧ _
      rw [f4]; exact hc c hcc

theorem TInv.run {s : Shared} (h : TInv n0 o0 e0 hs0 s) (sched : Sched) : TInv n0 o0 e0 hs0 (runSched fmt sched s) := by
  induction sched generalizing s with
  | nil => exact h
  | cons c l ih => rw [runSched_cons]; exact ih (h.step c.2)

theorem TInv.start (s : Shared) (hc : s.caps = []) : TInv s.out.next s.out.out s.out.err s.out.handlers s :=
  ⟨⟨[], .base, by simp⟩, Nat.le_refl _, by simp [hc]⟩

/-! ## What reaches the original streams -/

theorem TInv.say_bases {s : Shared} (h : TInv n0 o0 e0 hs0 s) (ev : Ev)
    (hu : ev.isLog = true → hs0 ≠ [] ∧ ∀ h ∈ hs0, h.level = 0) (k : Nat) :
    (sayEv fmt ev s.out).bases k = s.out.bases k ++ onBase k (atomsEv fmt o0 e0 hs0 ev) := by
  obtain ⟨bs, hO, _⟩ := h.cur
  rw [sayEv_eq, (apply_spec _ s.out).2.2.2.2.1 k, (hO.bases ev hu k).2]

theorem run_bases (k : Nat) (sched : Sched) : ∀ {s : Shared}, TInv n0 o0 e0 hs0 s → Valid s.caps.length sched →
    ((∃ ev ∈ saidBy sched, ev.isLog = true) → hs0 ≠ [] ∧ ∀ h ∈ hs0, h.level = 0) →
    (runSched fmt sched s).out.bases k = s.out.bases k ++ onBase k (atomsOf fmt o0 e0 hs0 (saidBy sched)) := by
  induction sched with
  | nil => intro s _ _ _; simp [runSched, saidBy, atomsOf, onBase]
  | cons c l ih =>
    intro s h hv hu
    obtain ⟨i, c⟩ := c
    have hs : saidBy ((i, c) :: l) = c.said ++ saidBy l := by simp [saidBy]
    rw [runSched_cons, hs, atomsOf_append, onBase_append]
    rw [hs] at hu
    have hu' : (∃ ev ∈ saidBy l, ev.isLog = true) → hs0 ≠ [] ∧ ∀ h ∈ hs0, h.level = 0 := fun ⟨ev, h1, h2⟩ =>
      hu ⟨ev, by simp [h1], h2⟩
    have hi := h.step (fmt := fmt) c
    cases c with
    | create =>
      rw [ih hi (by simpa [Valid, Cmd.step] using hv) hu']
      simp [Cmd.said, Cmd.step, newCapturer, atomsOf, onBase]
    | enter k' =>
      obtain ⟨hk, hv⟩ := hv
      have hg : s.caps[k']? = some s.caps[k'] := List.getElem?_eq_getElem hk
      rw [step_enter hg] at hi ⊢
      rw [ih hi hv hu']
      simp [Cmd.said, Capturer.enter, atomsOf, onBase]
    | exit k' tb =>
      obtain ⟨hk, hv⟩ := hv
      have hg : s.caps[k']? = some s.caps[k'] := List.getElem?_eq_getElem hk
      rw [step_exit hg] at hi ⊢
      rw [ih hi hv hu', exit_say fmt]
      cases tb with
      | none => simp [Cmd.said, atomsOf, onBase]
      | some t =>
        show (sayEv fmt (.err t) s.out).bases k ++ _ = _
        rw [h.say_bases (.err t) (by simp [Ev.isLog]) k]
        simp [Cmd.said, atomsOf]
    | say ev =>
      simp only [Cmd.step] at hi ⊢
      rw [ih hi hv hu']
      show (sayEv fmt ev s.out).bases k ++ _ = _
      rw [h.say_bases ev (fun hl => hu ⟨ev, by simp [Cmd.said], hl⟩) k]
      simp [Cmd.said, atomsOf]

/-! ## What reaches a buffer -/

theorem say_buf {s : Out} {bs : List Nat} (hO : Over n0 o0 e0 hs0 s.out s.err s.handlers bs) (ho : o0.Below n0)
    (he : e0.Below n0) (hh : Handler.BelowL n0 hs0) {b : Nat} (hb : n0 ≤ b) (ev : Ev) :
    (sayEv fmt ev s).buffers b = s.buffers b ++ (if b ∈ bs then [ev.text] else []) := by
  rw [sayEv_eq, (apply_spec _ s).2.2.2.2.2 b, hO.buf ho he hh hb ev]

theorem say_buf_sub {s : Out} {bs : List Nat} (hO : Over n0 o0 e0 hs0 s.out s.err s.handlers bs) (ho : o0.Below n0)
    (he : e0.Below n0) (hh : Handler.BelowL n0 hs0) {b : Nat} (hb : n0 ≤ b) (ev : Ev) :
    ∃ l, (sayEv fmt ev s).buffers b = s.buffers b ++ l ∧ l.Sublist [ev.text] := by
  refine ⟨_, say_buf hO ho he hh hb ev, ?_⟩
  split
  · exact List.Sublist.refl _
  · exact List.nil_sublist _

theorem step_buf {s : Shared} (h : TInv n0 o0 e0 hs0 s) (ho : o0.Below n0) (he : e0.Below n0)
    (hh : Handler.BelowL n0 hs0) {b : Nat} (hb : n0 ≤ b) (c : Cmd) :
    s.out.next ≤ (c.step fmt s).out.next ∧
    (b < s.out.next → ∃ l, (c.step fmt s).out.buffers b = s.out.buffers b ++ l ∧ l.Sublist (c.said.map Ev.text)) ∧
    (s.out.next ≤ b → b < (c.step fmt s).out.next → (c.step fmt s).out.buffers b = []) := by
  obtain ⟨bs, hO, hbs⟩ := h.cur
  cases c with
  | create =>
    refine ⟨Nat.le_succ _, fun hlt => ⟨[], ?_, List.nil_sublist _⟩, fun h1 h2 => ?_⟩
    · show (if b = s.out.next then [] else s.out.buffers b) = _
      rw [if_neg (by omega)]; simp
    · show (if b = s.out.next then [] else s.out.buffers b) = _
      have : b < s.out.next + 1 := h2
      rw [if_pos (by omega)]
  | enter k =>
    cases hk : s.caps[k]? with
    | none => rw [step_enter_none hk]; exact ⟨Nat.le_refl _, fun _ => ⟨[], by simp, List.nil_sublist _⟩, fun h1 h2 => absurd h2 (by simpa using h1)⟩
    | some c => rw [step_enter hk]; exact ⟨Nat.le_refl _, fun _ => ⟨[], by simp [Capturer.enter], List.nil_sublist _⟩,
        fun h1 h2 => absurd h2 (by simpa [Capturer.enter] using h1)⟩
  | exit k tb =>
    cases hk : s.caps[k]? with
    | none => rw [step_exit_none hk]; exact ⟨Nat.le_refl _, fun _ => ⟨[], by simp, List.nil_sublist _⟩, fun h1 h2 => absurd h2 (by simpa using h1)⟩
    | some c =>
      rw [step_exit hk]
      have hn := (exit_frame fmt c tb s.out).2.2.2
      refine ⟨Nat.le_of_eq hn.symm, fun _ => ?_, fun h1 h2 => ?_⟩
      · show ∃ l, (c.exit tb s.out).buffers b = _ ∧ _
        rw [exit_say fmt]
        cases tb with
        | none => exact ⟨[], by simp, List.nil_sublist _⟩
        | some t => exact say_buf_sub hO ho he hh hb (.err t)
      · have h2' : b < (c.exit tb s.out).next := h2
        rw [hn] at h2'; omega
  | say ev =>
    have hn := (sayEv_frame fmt ev s.out).2.2.2
    refine ⟨Nat.le_of_eq hn.symm, fun _ => say_buf_sub hO ho he hh hb ev, fun h1 h2 => ?_⟩
    have h2' : b < (sayEv fmt ev s.out).next := h2
    rw [hn] at h2'; omega

theorem run_buf (ho : o0.Below n0) (he : e0.Below n0) (hh : Handler.BelowL n0 hs0) {b : Nat} (hb : n0 ≤ b)
    (sched : Sched) : ∀ {s : Shared}, TInv n0 o0 e0 hs0 s →
    (b < s.out.next → ∃ l, (runSched fmt sched s).out.buffers b = s.out.buffers b ++ l ∧
      l.Sublist ((saidBy sched).map Ev.text)) ∧
    (s.out.next ≤ b → b < (runSched fmt sched s).out.next →
      ((runSched fmt sched s).out.buffers b).Sublist ((saidBy sched).map Ev.text)) := by
  induction sched with
  | nil =>
    intro s h
    exact ⟨fun _ => ⟨[], by simp [runSched], List.nil_sublist _⟩, fun h1 h2 => absurd h2 (by simpa [runSched] using h1)⟩
  | cons c l ih =>
    intro s h
    obtain ⟨i, c⟩ := c
    have hs : (saidBy ((i, c) :: l)).map Ev.text = c.said.map Ev.text ++ (saidBy l).map Ev.text := by simp [saidBy]
    rw [runSched_cons, hs]
    obtain ⟨h1, h2, h3⟩ := step_buf (fmt := fmt) h ho he hh hb c
    obtain ⟨i1, i2⟩ := ih (h.step (fmt := fmt) c)
    refine ⟨fun hlt => ?_, fun hge hlt => ?_⟩
    · obtain ⟨l1, e1, s1⟩ := h2 hlt
      obtain ⟨l2, e2, s2⟩ := i1 (Nat.lt_of_lt_of_le hlt h1)
      exact ⟨l1 ++ l2, by rw [e2, e1, List.append_assoc], s1.append s2⟩
    · rcases Nat.lt_or_ge b (c.step fmt s).out.next with hl | hl
      · obtain ⟨l2, e2, s2⟩ := i1 hl
        rw [e2, h3 hge hl]
        exact s2.trans (List.sublist_append_right _ _)
      · exact (i2 hl hlt).trans (List.sublist_append_right _ _)

/-! ## Nested blocks -/

theorem nested_frame {n m : Nat} {sched : Sched} (h : Nested n sched m) : ∀ {s : Shared}, s.caps.length = n →
    (runSched fmt sched s).out.out = s.out.out ∧ (runSched fmt sched s).out.err = s.out.err ∧
    (runSched fmt sched s).out.handlers = s.out.handlers ∧ (runSched fmt sched s).caps.length = m ∧
    s.out.next ≤ (runSched fmt sched s).out.next ∧ s.caps <+: (runSched fmt sched s).caps := by
  induction h with
  | nil n => intro s hs; exact ⟨rfl, rfl, rfl, hs, Nat.le_refl _, List.prefix_rfl⟩
  | say i ev h ih =>
    intro s hs
    rw [runSched_cons]
    obtain ⟨h1, h2, h3, h4, h5, h6⟩ := ih (s := Cmd.step fmt s (.say ev)) hs
    obtain ⟨f1, f2, f3, f4⟩ := sayEv_frame fmt ev s.out
    simp only [Cmd.step] at h1 h2 h3 h4 h5 h6 ⊢
    rw [f1] at h1; rw [f2] at h2; rw [f3] at h3; rw [f4] at h5
    exact ⟨h1, h2, h3, h4, h5, h6⟩
  | @block n p q m btw mid rest i tb h1 h2 h3 ih1 ih2 ih3 =>
    intro s hs
    rw [runSched_cons, runSched_append, runSched_cons, runSched_append, runSched_cons]
    generalize hs1 : Cmd.step fmt s (i, Cmd.create).2 = s1
    have e1 : s1 = { out := (newCapturer s.out).2, caps := s.caps ++ [(newCapturer s.out).1] } := hs1.symm
    obtain ⟨a1, a2, a3, a4, a5, a6⟩ := ih1 (s := s1) (by rw [e1]; simp [hs])
    generalize hs2 : runSched fmt btw s1 = s2 at *
    have hg : s2.caps[n]? = some (newCapturer s.out).1 := by
      obtain ⟨t, ht⟩ := a6
      rw [← ht, e1, List.append_assoc, List.getElem?_append_right (by omega)]
      simp [hs]
    generalize hs3 : Cmd.step fmt s2 (i, Cmd.enter n).2 = s3
    have e3 : s3 = { s2 with out := (newCapturer s.out).1.enter s2.out } := by
      rw [← hs3]; simp only [Cmd.step, hg]
    obtain ⟨b1, b2, b3, b4, b5, b6⟩ := ih2 (s := s3) (by rw [e3]; exact a4)
    generalize hs4 : runSched fmt mid s3 = s4 at *
    have hg4 : s4.caps[n]? = some (newCapturer s.out).1 := by
      obtain ⟨t, ht⟩ := b6
      rw [← ht, e3]
      have : n < s2.caps.length := by
        rcases Nat.lt_or_ge n s2.caps.length with h | h
        · exact h
        · rw [List.getElem?_eq_none h] at hg; cases hg
      rw [List.getElem?_append_left this]; exact hg
    generalize hs5 : Cmd.step fmt s4 (i, Cmd.exit n tb).2 = s5
    have e5 : s5 = { s4 with out := (newCapturer s.out).1.exit tb s4.out } := by
      rw [← hs5]; simp only [Cmd.step, hg4]
    obtain ⟨c1, c2, c3, c4, c5, c6⟩ := ih3 (s := s5) (by rw [e5]; exact b4)
    obtain ⟨f1, f2, f3, f4⟩ := exit_frame fmt (newCapturer s.out).1 tb s4.out
    refine ⟨?_, ?_, ?_, c4, ?_, ?_⟩
    · rw [c1, e5]; exact f1
    · rw [c2, e5]; exact f2
    · rw [c3, e5]; exact f3
    · have d5 : s5.out.next = s4.out.next := by rw [e5]; exact f4
      have d3 : s3.out.next = s2.out.next := by rw [e3]; rfl
      have d1 : s1.out.next = s.out.next + 1 := by rw [e1]; rfl
      omega
    · have p1 : s.caps <+: s1.caps := by rw [e1]; exact List.prefix_append _ _
      have p2 : s2.caps <+: s4.caps := by rw [e3] at b6; exact b6
      have p3 : s4.caps = s5.caps := by rw [e5]
      exact (((p1.trans a6).trans p2).trans (p3 ▸ List.prefix_rfl)).trans c6

theorem ite_append {α : Type} (P : Prop) [Decidable P] (a b : List α) :
    (if P then a ++ b else []) = (if P then a else []) ++ (if P then b else []) := by split <;> simp

theorem nested_buf (ho : o0.Below n0) (he : e0.Below n0) (hh : Handler.BelowL n0 hs0)
    {n m : Nat} {sched : Sched} (h : Nested n sched m) : ∀ {s : Shared} {bs : List Nat} {b : Nat}, s.caps.length = n →
    Over n0 o0 e0 hs0 s.out.out s.out.err s.out.handlers bs → (∀ b ∈ bs, b < s.out.next) → n0 ≤ s.out.next →
    n0 ≤ b → b < s.out.next →
    (runSched fmt sched s).out.buffers b =
      s.out.buffers b ++ (if b ∈ bs then (saidBy sched).map Ev.text else []) := by
  induction h with
  | nil n => intro s bs b _ _ _ _ _ _; simp [runSched, saidBy]
  | @say n m rest i ev h ih =>
    intro s bs b hs hO hbs hle hb hlt
    rw [runSched_cons]
    obtain ⟨f1, f2, f3, f4⟩ := sayEv_frame fmt ev s.out
    have key := ih (s := Cmd.step fmt s (.say ev)) (bs := bs) (b := b) hs
      (by show Over _ _ _ _ (sayEv fmt ev s.out).out (sayEv fmt ev s.out).err (sayEv fmt ev s.out).handlers bs
          rw [f1, f2, f3]; exact hO)
      (by show ∀ b ∈ bs, b < (sayEv fmt ev s.out).next
          rw [f4]; exact hbs)
      (by show n0 ≤ (sayEv fmt ev s.out).next
          rw [f4]; exact hle) hb
      (by show b < (sayEv fmt ev s.out).next
          rw [f4]; exact hlt)
    refine key.trans ?_
    show (sayEv fmt ev s.out).buffers b ++ _ = _
    rw [say_buf hO ho he hh hb ev, List.append_assoc]
    congr 1
    have : (saidBy ((i, Cmd.say ev) :: rest)).map Ev.text = [ev.text] ++ (saidBy rest).map Ev.text := by
      simp [saidBy, Cmd.said]
    rw [this, ite_append]
  | @block n p q m btw mid rest i tb h1 h2 h3 ih1 ih2 ih3 =>
    intro s bs b hs hO hbs hle hb hlt
    rw [runSched_cons, runSched_append, runSched_cons, runSched_append, runSched_cons]
    generalize hs1 : Cmd.step fmt s (i, Cmd.create).2 = s1
    have e1 : s1 = { out := (newCapturer s.out).2, caps := s.caps ++ [(newCapturer s.out).1] } := hs1.symm
    have l1 : s1.caps.length = n + 1 := by rw [e1]; simp [hs]
    have d1 : s1.out.next = s.out.next + 1 := by rw [e1]; rfl
    obtain ⟨a1, a2, a3, a4, a5, a6⟩ := nested_frame (fmt := fmt) h1 l1
    have w1 := ih1 (s := s1) (bs := bs) (b := b) l1 (by rw [e1]; exact hO)
      (fun b hb => by have := hbs b hb; omega) (by omega) hb (by omega)
    generalize hs2 : runSched fmt btw s1 = s2 at *
    have hg : s2.caps[n]? = some (newCapturer s.out).1 := by
      obtain ⟨t, ht⟩ := a6
      rw [← ht, e1, List.append_assoc, List.getElem?_append_right (by omega)]
      simp [hs]
    generalize hs3 : Cmd.step fmt s2 (i, Cmd.enter n).2 = s3
    have e3 : s3 = { s2 with out := (newCapturer s.out).1.enter s2.out } := by
      rw [← hs3]; exact step_enter hg
    have l3 : s3.caps.length = p := by rw [e3]; exact a4
    have d3 : s3.out.next = s2.out.next := by rw [e3]; rfl
    have hO3 : Over n0 o0 e0 hs0 s3.out.out s3.out.err s3.out.handlers (s.out.next :: bs) := by
      rw [e3]; exact .tee _ hO hbs hle
    have hbs3 : ∀ b ∈ s.out.next :: bs, b < s3.out.next := by
      intro b hbb
      rcases List.mem_cons.1 hbb with rfl | hbb
      · omega
      · have := hbs b hbb; omega
    obtain ⟨b1, b2, b3, b4, b5, b6⟩ := nested_frame (fmt := fmt) h2 l3
    have w2 := ih2 (s := s3) (bs := s.out.next :: bs) (b := b) l3 hO3 hbs3 (by omega) hb (by omega)
    generalize hs4 : runSched fmt mid s3 = s4 at *
    have hg4 : s4.caps[n]? = some (newCapturer s.out).1 := by
      obtain ⟨t, ht⟩ := b6
      rw [← ht, e3]
      have : n < s2.caps.length := by
        rcases Nat.lt_or_ge n s2.caps.length with h | h
        · exact h
        · rw [List.getElem?_eq_none h] at hg; cases hg
      rw [List.getElem?_append_left this]; exact hg
    have hO4 : Over n0 o0 e0 hs0 s4.out.out s4.out.err s4.out.handlers (s.out.next :: bs) := by
      rw [b1, b2, b3]; exact hO3
    generalize hs5 : Cmd.step fmt s4 (i, Cmd.exit n tb).2 = s5
    have e5 : s5 = { s4 with out := (newCapturer s.out).1.exit tb s4.out } := by
      rw [← hs5]; exact step_exit hg4
    obtain ⟨f1, f2, f3, f4⟩ := exit_frame fmt (newCapturer s.out).1 tb s4.out
    have d5 : s5.out.next = s4.out.next := by rw [e5]; exact f4
    have l5 : s5.caps.length = q := by rw [e5]; exact b4
    have w3 := ih3 (s := s5) (bs := bs) (b := b) l5
      (by rw [e5]; show Over _ _ _ _ (Capturer.exit _ tb s4.out).out (Capturer.exit _ tb s4.out).err
            (Capturer.exit _ tb s4.out).handlers bs
          rw [f1, f2, f3]; exact hO)
      (fun b hb => by have := hbs b hb; omega) (by omega) hb (by omega)
    have hne : b ≠ s.out.next := by omega
    have hm : (b ∈ s.out.next :: bs) ↔ b ∈ bs := by simp [hne]
    have w5 : s5.out.buffers b = s4.out.buffers b ++
        (if b ∈ bs then (Cmd.said (.exit n tb)).map Ev.text else []) := by
      rw [e5]
      show (Capturer.exit _ tb s4.out).buffers b = _
      rw [exit_say fmt]
      cases tb with
      | none => simp [Cmd.said]
      | some t =>
        have := say_buf (fmt := fmt) hO4 ho he hh hb (.err t)
        simp only [hm] at this
        exact this
    have w0 : s1.out.buffers b = s.out.buffers b := by
      rw [e1]
      show (if b = s.out.next then [] else s.out.buffers b) = _
      rw [if_neg hne]
    have w3' : s3.out.buffers b = s2.out.buffers b := by rw [e3]; rfl
    simp only [hm] at w2
    rw [w3, w5, w2, w3', w1, w0]
    simp only [List.append_assoc]
    congr 1
    have hsaid : (saidBy ((i, Cmd.create) :: (btw ++ (i, Cmd.enter n) :: (mid ++ (i, Cmd.exit n tb) :: rest)))).map Ev.text =
        (saidBy btw).map Ev.text ++ ((saidBy mid).map Ev.text ++ ((Cmd.said (.exit n tb)).map Ev.text ++
          (saidBy rest).map Ev.text)) := by
      have e1 : Cmd.said .create = [] := rfl
      have e2 : Cmd.said (.enter n) = [] := rfl
      simp only [saidBy, List.flatMap_cons, List.flatMap_append, List.map_append, e1, e2, List.nil_append]
    rw [hsaid]
    by_cases hbb : b ∈ bs
    · simp only [if_pos hbb]
    · simp only [if_neg hbb, List.append_nil]

end Pyth.Output
