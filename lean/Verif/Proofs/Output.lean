import Verif.Spec.Output
namespace Pyth.Output

/-- an elementary append -/
inductive Atom
  | base (k : Nat) (t : String)
  | buf (b : Nat) (t : String)

def Atom.app : Atom → Out → Out
  | .base k t, s => s.addBase k t
  | .buf b t, s => s.addBuffer b t

def apply : List Atom → Out → Out
  | [], s => s
  | a :: as, s => apply as (a.app s)

theorem apply_append : ∀ (as bs : List Atom) (s : Out), apply (as ++ bs) s = apply bs (apply as s)
  | [], _, _ => rfl
  | a :: as, bs, s => by simp [apply, apply_append as bs]

def onBase (k : Nat) : List Atom → List String
  | [] => []
  | .base j t :: as => if k = j then t :: onBase k as else onBase k as
  | .buf _ _ :: as => onBase k as

def onBuf (b : Nat) : List Atom → List String
  | [] => []
  | .buf j t :: as => if b = j then t :: onBuf b as else onBuf b as
  | .base _ _ :: as => onBuf b as

theorem onBase_append (k : Nat) : ∀ (as bs : List Atom),
    onBase k (as ++ bs) = onBase k as ++ onBase k bs
  | [], _ => rfl
  | .base j t :: as, bs => by
    simp only [List.cons_append, onBase, onBase_append k as bs]; split <;> simp
  | .buf j t :: as, bs => by simp only [List.cons_append, onBase, onBase_append k as bs]

theorem onBuf_append (k : Nat) : ∀ (as bs : List Atom),
    onBuf k (as ++ bs) = onBuf k as ++ onBuf k bs
  | [], _ => rfl
  | .buf j t :: as, bs => by
    simp only [List.cons_append, onBuf, onBuf_append k as bs]; split <;> simp
  | .base j t :: as, bs => by simp only [List.cons_append, onBuf, onBuf_append k as bs]

theorem apply_spec : ∀ (as : List Atom) (s : Out),
    (apply as s).out = s.out ∧ (apply as s).err = s.err ∧ (apply as s).handlers = s.handlers ∧
    (apply as s).next = s.next ∧ (∀ k, (apply as s).bases k = s.bases k ++ onBase k as) ∧
    ∀ b, (apply as s).buffers b = s.buffers b ++ onBuf b as
  | [], s => by simp [apply, onBase, onBuf]
  | .base j t :: as, s => by
    obtain ⟨h1, h2, h3, h4, h5, h6⟩ := apply_spec as (s.addBase j t)
    refine ⟨h1, h2, h3, h4, ?_, ?_⟩
    · intro k
      rw [apply, Atom.app, h5]
      simp only [Out.addBase, onBase]
      split <;> simp
    · intro b; rw [apply, Atom.app, h6]; rfl
  | .buf j t :: as, s => by
    obtain ⟨h1, h2, h3, h4, h5, h6⟩ := apply_spec as (s.addBuffer j t)
    refine ⟨h1, h2, h3, h4, ?_, ?_⟩
    · intro k; rw [apply, Atom.app, h5]; rfl
    · intro b
      rw [apply, Atom.app, h6]
      simp only [Out.addBuffer, onBuf]
      split <;> simp

def atomsW : Stream → String → List Atom
  | .base k, t => [.base k t]
  | .tee o b, t => atomsW o t ++ [.buf b t]
  | .null, _ => []

theorem write_eq : ∀ (st : Stream) (t : String) (s : Out), write st t s = apply (atomsW st t) s
  | .base _, _, _ => rfl
  | .tee o b, t, s => by rw [write, write_eq o, atomsW, apply_append]; rfl
  | .null, _, _ => rfl

mutual
def atomsE (fmt : Fmt) : Handler → String → List Atom
  | .base k _ st, m => atomsW st (fmt k m)
  | .capture b hs, m => .buf b (m ++ "\n") :: atomsL fmt hs m
def atomsL (fmt : Fmt) : List Handler → String → List Atom
  | [], _ => []
  | h :: hs, m => atomsE fmt h m ++ atomsL fmt hs m
end

mutual
theorem emit_eq (fmt : Fmt) : ∀ (h : Handler) (m : String) (s : Out),
    emit fmt h m s = apply (atomsE fmt h m) s
  | .base k l st, m, s => by rw [emit, write_eq, atomsE]
  | .capture b hs, m, s => by rw [emit, emitL_eq fmt hs, atomsE, apply]; rfl
theorem emitL_eq (fmt : Fmt) : ∀ (hs : List Handler) (m : String) (s : Out),
    emitL fmt hs m s = apply (atomsL fmt hs m) s
  | [], _, _ => by rw [emitL, atomsL]; rfl
  | h :: hs, m, s => by rw [emitL, emitL_eq fmt hs, emit_eq fmt h, atomsL, apply_append]
end

def atomsG (fmt : Fmt) (err : Stream) (hs : List Handler) (l : Nat) (m : String) : List Atom :=
  match hs with
  | [] => if 30 ≤ l then atomsW err (m ++ "\n") else []
  | hs => atomsL fmt (hs.filter fun h => decide (h.level ≤ l)) m

theorem log_eq (fmt : Fmt) (l : Nat) (m : String) (s : Out) :
    log fmt l m s = apply (atomsG fmt s.err s.handlers l m) s := by
  unfold log atomsG
  cases s.handlers with
  | nil =>
    simp only []
    split
    · rw [write_eq]
    · rfl
  | cons h hs => simp only [emitL_eq]

def atomsEv (fmt : Fmt) (o e : Stream) (hs : List Handler) : Ev → List Atom
  | .out t => atomsW o t
  | .err t => atomsW e t
  | .log l m => atomsG fmt e hs l m

def atomsOf (fmt : Fmt) (o e : Stream) (hs : List Handler) : List Ev → List Atom
  | [] => []
  | ev :: es => atomsEv fmt o e hs ev ++ atomsOf fmt o e hs es

theorem atomsOf_append (fmt : Fmt) (o e : Stream) (hs : List Handler) : ∀ (as bs : List Ev),
    atomsOf fmt o e hs (as ++ bs) = atomsOf fmt o e hs as ++ atomsOf fmt o e hs bs
  | [], _ => rfl
  | a :: as, bs => by simp [atomsOf, atomsOf_append fmt o e hs as bs]

theorem perform_eq (fmt : Fmt) : ∀ (es : List Ev) (s : Out),
    perform fmt es s = apply (atomsOf fmt s.out s.err s.handlers es) s
  | [], _ => rfl
  | .out t :: es, s => by
    have := apply_spec (atomsW s.out t) s
    rw [perform, perform_eq fmt es, write_eq, this.1, this.2.1, this.2.2.1, atomsOf, atomsEv,
      apply_append]
  | .err t :: es, s => by
    have := apply_spec (atomsW s.err t) s
    rw [perform, perform_eq fmt es, write_eq, this.1, this.2.1, this.2.2.1, atomsOf, atomsEv,
      apply_append]
  | .log l m :: es, s => by
    have := apply_spec (atomsG fmt s.err s.handlers l m) s
    rw [perform, perform_eq fmt es, log_eq, this.1, this.2.1, this.2.2.1, atomsOf, atomsEv,
      apply_append]

/-! ## Freshness -/

theorem onBuf_W {n : Nat} (t : String) : ∀ (st : Stream), st.Below n → onBuf n (atomsW st t) = []
  | .base _, _ => rfl
  | .tee o b, h => by
    have hb : n ≠ b := by have := h.2; omega
    rw [atomsW, onBuf_append, onBuf_W t o h.1]
    simp [onBuf, hb]
  | .null, _ => rfl

mutual
theorem onBuf_E (fmt : Fmt) {n : Nat} (m : String) : ∀ (h : Handler), h.Below n →
    onBuf n (atomsE fmt h m) = []
  | .base k l st, h => by
    rw [Handler.Below] at h
    rw [atomsE]; exact onBuf_W _ _ h
  | .capture b hs, h => by
    rw [Handler.Below] at h
    have hb : n ≠ b := by have := h.1; omega
    rw [atomsE, onBuf, if_neg hb]; exact onBuf_L fmt m hs h.2
theorem onBuf_L (fmt : Fmt) {n : Nat} (m : String) : ∀ (hs : List Handler), Handler.BelowL n hs →
    onBuf n (atomsL fmt hs m) = []
  | [], _ => by rw [atomsL]; rfl
  | h :: hs, hb => by
    rw [Handler.BelowL] at hb
    rw [atomsL, onBuf_append, onBuf_E fmt m h hb.1, onBuf_L fmt m hs hb.2]; rfl
end

theorem Stream.Below.mono {n m : Nat} (hnm : n ≤ m) : ∀ {st : Stream}, st.Below n → st.Below m
  | .base _, _ => trivial
  | .tee o b, h => ⟨Stream.Below.mono hnm h.1, by have := h.2; omega⟩
  | .null, _ => trivial

mutual
theorem Handler.Below.mono {n m : Nat} (hnm : n ≤ m) : ∀ {h : Handler}, h.Below n → h.Below m
  | .base _ _ _, h => by rw [Handler.Below] at h ⊢; exact h.mono hnm
  | .capture b hs, h => by
    rw [Handler.Below] at h ⊢
    exact ⟨by have := h.1; omega, Handler.BelowL.mono hnm h.2⟩
theorem Handler.BelowL.mono {n m : Nat} (hnm : n ≤ m) : ∀ {hs : List Handler},
    Handler.BelowL n hs → Handler.BelowL m hs
  | [], _ => by rw [Handler.BelowL]; trivial
  | h :: hs, hb => by
    rw [Handler.BelowL] at hb ⊢
    exact ⟨hb.1.mono hnm, Handler.BelowL.mono hnm hb.2⟩
end

/-! ## Capturing and suppressing, event by event -/

theorem filter_all {hs : List Handler} (h : ∀ x ∈ hs, x.level = 0) (l : Nat) :
    hs.filter (fun h => decide (h.level ≤ l)) = hs := by
  rw [List.filter_eq_self]; intro x hx; simp [h x hx]

theorem atomsG_unfiltered (fmt : Fmt) (e : Stream) {hs : List Handler} (hne : hs ≠ [])
    (h : ∀ x ∈ hs, x.level = 0) (l : Nat) (m : String) :
    atomsG fmt e hs l m = atomsL fmt hs m := by
  unfold atomsG
  split
  · exact absurd rfl hne
  · rw [filter_all h]

theorem atomsG_capture (fmt : Fmt) (e : Stream) (n : Nat) (hs : List Handler) (l : Nat) (m : String) :
    atomsG fmt e [.capture n hs] l m = .buf n (m ++ "\n") :: atomsL fmt hs m := by
  rw [atomsG_unfiltered fmt e (by simp) (by simp [Handler.level])]
  simp [atomsL, atomsE]

/-- what the capturing state does with a piece of output, on everything but its own buffer -/
theorem capture_base (fmt : Fmt) (o e : Stream) (hs : List Handler) (n : Nat) (ev : Ev)
    (hu : ev.isLog = true → hs ≠ [] ∧ ∀ h ∈ hs, h.level = 0) (k : Nat) :
    onBase k (atomsEv fmt (.tee o n) (.tee e n) [.capture n hs] ev)
      = onBase k (atomsEv fmt o e hs ev) := by
  cases ev with
  | out t => simp [atomsEv, atomsW, onBase_append, onBase]
  | err t => simp [atomsEv, atomsW, onBase_append, onBase]
  | log l m =>
    obtain ⟨h1, h2⟩ := hu rfl
    rw [atomsEv, atomsEv, atomsG_capture, atomsG_unfiltered fmt e h1 h2]; rfl

theorem capture_buf (fmt : Fmt) (o e : Stream) (hs : List Handler) (n : Nat) (ev : Ev)
    (hu : ev.isLog = true → hs ≠ [] ∧ ∀ h ∈ hs, h.level = 0) (b : Nat) (hb : b < n) :
    onBuf b (atomsEv fmt (.tee o n) (.tee e n) [.capture n hs] ev)
      = onBuf b (atomsEv fmt o e hs ev) := by
  have hbn : b ≠ n := by omega
  cases ev with
  | out t => simp [atomsEv, atomsW, onBuf_append, onBuf, hbn]
  | err t => simp [atomsEv, atomsW, onBuf_append, onBuf, hbn]
  | log l m =>
    obtain ⟨h1, h2⟩ := hu rfl
    rw [atomsEv, atomsEv, atomsG_capture, atomsG_unfiltered fmt e h1 h2, onBuf, if_neg hbn]

/-- every piece of output reaches the capturer's buffer exactly once -/
theorem capture_own (fmt : Fmt) (o e : Stream) (hs : List Handler) (n : Nat) (ev : Ev)
    (ho : o.Below n) (he : e.Below n) (hh : Handler.BelowL n hs) :
    onBuf n (atomsEv fmt (.tee o n) (.tee e n) [.capture n hs] ev) = [ev.text] := by
  cases ev with
  | out t => simp [atomsEv, atomsW, onBuf_append, onBuf, onBuf_W t o ho, Ev.text]
  | err t => simp [atomsEv, atomsW, onBuf_append, onBuf, onBuf_W t e he, Ev.text]
  | log l m =>
    rw [atomsEv, atomsG_capture, onBuf, if_pos rfl, onBuf_L fmt m hs hh]; rfl

theorem capture_bases (fmt : Fmt) (o e : Stream) (hs : List Handler) (n k : Nat) :
    ∀ (es : List Ev), ((∃ ev ∈ es, ev.isLog = true) → hs ≠ [] ∧ ∀ h ∈ hs, h.level = 0) →
    onBase k (atomsOf fmt (.tee o n) (.tee e n) [.capture n hs] es)
      = onBase k (atomsOf fmt o e hs es)
  | [], _ => rfl
  | ev :: es, hu => by
    rw [atomsOf, atomsOf, onBase_append, onBase_append,
      capture_base fmt o e hs n ev (fun h => hu ⟨ev, by simp, h⟩),
      capture_bases fmt o e hs n k es (fun ⟨x, hx, h⟩ => hu ⟨x, by simp [hx], h⟩)]

theorem capture_bufs (fmt : Fmt) (o e : Stream) (hs : List Handler) (n b : Nat) (hb : b < n) :
    ∀ (es : List Ev), ((∃ ev ∈ es, ev.isLog = true) → hs ≠ [] ∧ ∀ h ∈ hs, h.level = 0) →
    onBuf b (atomsOf fmt (.tee o n) (.tee e n) [.capture n hs] es)
      = onBuf b (atomsOf fmt o e hs es)
  | [], _ => rfl
  | ev :: es, hu => by
    rw [atomsOf, atomsOf, onBuf_append, onBuf_append,
      capture_buf fmt o e hs n ev (fun h => hu ⟨ev, by simp, h⟩) b hb,
      capture_bufs fmt o e hs n b hb es (fun ⟨x, hx, h⟩ => hu ⟨x, by simp [hx], h⟩)]

theorem capture_owns (fmt : Fmt) (o e : Stream) (hs : List Handler) (n : Nat)
    (ho : o.Below n) (he : e.Below n) (hh : Handler.BelowL n hs) : ∀ (es : List Ev),
    onBuf n (atomsOf fmt (.tee o n) (.tee e n) [.capture n hs] es) = es.map Ev.text
  | [] => rfl
  | ev :: es => by
    rw [atomsOf, onBuf_append, capture_own fmt o e hs n ev ho he hh,
      capture_owns fmt o e hs n ho he hh es]; rfl

theorem suppress_atoms (fmt : Fmt) (o e : Stream) (hs : List Handler) : ∀ (es : List Ev),
    ((∃ ev ∈ es, ev.isLog = true) → hs ≠ []) →
    atomsOf fmt .null .null hs es = atomsOf fmt o e hs (es.filter Ev.isLog)
  | [], _ => rfl
  | .out t :: es, hu => by
    rw [atomsOf, atomsEv, atomsW, List.filter_cons_of_neg (by simp [Ev.isLog])]
    exact suppress_atoms fmt o e hs es (fun ⟨x, hx, h⟩ => hu ⟨x, by simp [hx], h⟩)
  | .err t :: es, hu => by
    rw [atomsOf, atomsEv, atomsW, List.filter_cons_of_neg (by simp [Ev.isLog])]
    exact suppress_atoms fmt o e hs es (fun ⟨x, hx, h⟩ => hu ⟨x, by simp [hx], h⟩)
  | .log l m :: es, hu => by
    have hne := hu ⟨_, List.mem_cons_self, rfl⟩
    rw [atomsOf, List.filter_cons_of_pos rfl, atomsOf,
      suppress_atoms fmt o e hs es (fun _ => hne)]
    congr 1
    rw [atomsEv, atomsEv]
    unfold atomsG
    split
    · exact absurd rfl hne
    · rfl

/-! ## Simulation -/

/-- The two states agree on the redirections, the real streams and the buffers below `n`. -/
structure Same (n : Nat) (s t : Out) : Prop where
  out : s.out = t.out
  err : s.err = t.err
  handlers : s.handlers = t.handlers
  bases : ∀ k, s.bases k = t.bases k
  buffers : ∀ b, b < n → s.buffers b = t.buffers b

theorem Same.rfl' {n : Nat} {s : Out} : Same n s s := ⟨rfl, rfl, rfl, fun _ => rfl, fun _ _ => rfl⟩

theorem Same.trans {n : Nat} {s t u : Out} (h : Same n s t) (h' : Same n t u) : Same n s u :=
  ⟨h.out.trans h'.out, h.err.trans h'.err, h.handlers.trans h'.handlers,
    fun k => (h.bases k).trans (h'.bases k), fun b hb => (h.buffers b hb).trans (h'.buffers b hb)⟩

theorem Same.mono {n m : Nat} {s t : Out} (h : Same m s t) (hnm : n ≤ m) : Same n s t :=
  ⟨h.out, h.err, h.handlers, h.bases, fun b hb => h.buffers b (by omega)⟩

theorem Same.apply {n : Nat} {s t : Out} (h : Same n s t) (as : List Atom) :
    Same n (apply as s) (apply as t) := by
  obtain ⟨h1, h2, h3, -, h5, h6⟩ := apply_spec as s
  obtain ⟨g1, g2, g3, -, g5, g6⟩ := apply_spec as t
  exact ⟨h1.trans (h.out.trans g1.symm), h2.trans (h.err.trans g2.symm),
    h3.trans (h.handlers.trans g3.symm), fun k => by rw [h5, g5, h.bases],
    fun b hb => by rw [h6, g6, h.buffers b hb]⟩

theorem Same.perform {n : Nat} {s t : Out} (h : Same n s t) (fmt : Fmt) (es : List Ev) :
    Same n (perform fmt es s) (perform fmt es t) := by
  rw [perform_eq, perform_eq, h.out, h.err, h.handlers]
  exact h.apply _

theorem perform_append (fmt : Fmt) (as bs : List Ev) (s : Out) :
    perform fmt (as ++ bs) s = perform fmt bs (perform fmt as s) := by
  have := apply_spec (atomsOf fmt s.out s.err s.handlers as) s
  rw [perform_eq, perform_eq fmt bs, perform_eq fmt as, this.1, this.2.1, this.2.2.1,
    atomsOf_append, apply_append]

theorem perform_fixed (fmt : Fmt) (es : List Ev) (s : Out) :
    (perform fmt es s).out = s.out ∧ (perform fmt es s).err = s.err ∧
    (perform fmt es s).handlers = s.handlers ∧ (perform fmt es s).next = s.next := by
  have := apply_spec (atomsOf fmt s.out s.err s.handlers es) s
  rw [perform_eq]
  exact ⟨this.1, this.2.1, this.2.2.1, this.2.2.2.1⟩

/-- states with the same redirections and more buffers are well-formed -/
theorem WF.of_same {s t : Out} (h : WF s) {m : Nat} (hs : Same m t s) (hn : s.next ≤ t.next) :
    WF t := by
  refine ⟨?_, ?_, ?_⟩
  · rw [hs.out]; exact h.1.mono hn
  · rw [hs.err]; exact h.2.1.mono hn
  · rw [hs.handlers]; exact h.2.2.mono hn

/-- the state in which a captured block starts -/
def capState (s : Out) : Out := (newCapturer s).1.enter (newCapturer s).2

theorem capState_wf {s : Out} (h : WF s) : WF (capState s) := by
  refine ⟨⟨h.1.mono (Nat.le_succ _), ?_⟩, ⟨h.2.1.mono (Nat.le_succ _), ?_⟩, ?_⟩
  · exact Nat.lt_succ_self s.next
  · exact Nat.lt_succ_self s.next
  · show Handler.BelowL (s.next + 1) [.capture s.next s.handlers]
    rw [Handler.BelowL, Handler.Below, Handler.BelowL]
    exact ⟨⟨Nat.lt_succ_self _, h.2.2.mono (Nat.le_succ _)⟩, trivial⟩

theorem capState_unfiltered (s : Out) : Unfiltered (capState s) := by
  refine ⟨by simp [capState, Capturer.enter], ?_⟩
  intro h hh
  simp only [capState, Capturer.enter, List.mem_singleton] at hh
  subst hh; rfl

/-- performing in the capturing state, seen from outside -/
theorem capState_perform (fmt : Fmt) {s : Out} (es : List Ev)
    (hu : (∃ ev ∈ es, ev.isLog = true) → Unfiltered s) :
    (∀ k, (perform fmt es (capState s)).bases k = (perform fmt es s).bases k) ∧
    (∀ b, b < s.next → (perform fmt es (capState s)).buffers b = (perform fmt es s).buffers b) := by
  obtain ⟨-, -, -, -, h5, h6⟩ := apply_spec (atomsOf fmt (capState s).out (capState s).err
    (capState s).handlers es) (capState s)
  obtain ⟨-, -, -, -, g5, g6⟩ := apply_spec (atomsOf fmt s.out s.err s.handlers es) s
  rw [perform_eq, perform_eq]
  constructor
  · intro k
    rw [h5, g5]
    have := capture_bases fmt s.out s.err s.handlers s.next k es hu
    simp only [capState, newCapturer, Capturer.enter] at this ⊢
    rw [this]
  · intro b hb
    rw [h6, g6]
    have := capture_bufs fmt s.out s.err s.handlers s.next b hb es hu
    have hne : b ≠ s.next := by omega
    simp only [capState, newCapturer, Capturer.enter, if_neg hne] at this ⊢
    rw [this]

/-- the capturer's own buffer -/
theorem capState_buffer (fmt : Fmt) {s : Out} (h : WF s) (es : List Ev) :
    (perform fmt es (capState s)).buffers s.next = es.map Ev.text := by
  obtain ⟨-, -, -, -, -, h6⟩ := apply_spec (atomsOf fmt (capState s).out (capState s).err
    (capState s).handlers es) (capState s)
  rw [perform_eq, h6]
  have := capture_owns fmt s.out s.err s.handlers s.next h.1 h.2.1 h.2.2 es
  simp only [capState, newCapturer, Capturer.enter, if_pos] at this ⊢
  rw [this]; rfl

/-- the traceback printed by `__exit__` is one more piece of output to stderr -/
theorem exit_eq (fmt : Fmt) (c : Capturer) (r : Option String) (s : Out) :
    c.exit r s = { perform fmt (r.toList.map Ev.err) s with
      out := c.originalOut, err := c.originalErr, handlers := c.originalHandlers } := by
  cases r <;> rfl

/-- what a captured block has said in total -/
theorem says_capture (tb : Nat → String) (P : Prog) : says tb (.capture P)
    = ((says tb P).1 ++ ((says tb P).2.map tb).toList.map Ev.err, (says tb P).2) := by
  rw [says]
  cases h : (says tb P).2 <;> simp

/-- end state of a captured block, given the simulation for its body -/
theorem capture_end (fmt : Fmt) (tb : Nat → String) (P : Prog) (s : Out)
    (ih : (run fmt tb P (capState s)).1 = (says tb P).2 ∧
      Same (capState s).next (run fmt tb P (capState s)).2
        (perform fmt (says tb P).1 (capState s)) ∧
      (capState s).next ≤ (run fmt tb P (capState s)).2.next) :
    (run fmt tb (.capture P) s).1 = (says tb P).2 ∧
    (∀ k, (run fmt tb (.capture P) s).2.bases k
      = (perform fmt (says tb (.capture P)).1 (capState s)).bases k) ∧
    (∀ b, b ≤ s.next → (run fmt tb (.capture P) s).2.buffers b
      = (perform fmt (says tb (.capture P)).1 (capState s)).buffers b) ∧
    (run fmt tb (.capture P) s).2.out = s.out ∧ (run fmt tb (.capture P) s).2.err = s.err ∧
    (run fmt tb (.capture P) s).2.handlers = s.handlers ∧
    s.next + 1 ≤ (run fmt tb (.capture P) s).2.next := by
  obtain ⟨h1, h2, h3⟩ := ih
  have e : run fmt tb (.capture P) s = ((run fmt tb P (capState s)).1,
      (newCapturer s).1.exit ((run fmt tb P (capState s)).1.map tb)
        (run fmt tb P (capState s)).2) := rfl
  rw [e, h1]
  have h4 := h2.perform fmt (((says tb P).2.map tb).toList.map Ev.err)
  rw [← perform_append] at h4
  rw [says_capture]
  rw [exit_eq fmt]
  refine ⟨rfl, fun k => h4.bases k, fun b hb => h4.buffers b ?_, rfl, rfl, rfl, ?_⟩
  · show b < s.next + 1; omega
  · rw [show s.next + 1 = (capState s).next from rfl]
    show _ ≤ (perform fmt _ _).next
    rw [(perform_fixed _ _ _).2.2.2]; exact h3

/-- continue a simulated run -/
theorem sim_then (fmt : Fmt) {s r2 r3 : Out} {ea eb : List Ev} (hw : WF s)
    (hu : (∃ ev ∈ ea ++ eb, ev.isLog = true) → Unfiltered s)
    (h2 : Same s.next r2 (perform fmt ea s)) (h3 : s.next ≤ r2.next) :
    (WF r2 ∧ ((∃ ev ∈ eb, ev.isLog = true) → Unfiltered r2)) ∧
    (Same r2.next r3 (perform fmt eb r2) → Same s.next r3 (perform fmt (ea ++ eb) s)) := by
  have hf := perform_fixed fmt ea s
  refine ⟨⟨⟨?_, ?_, ?_⟩, ?_⟩, ?_⟩
  · rw [h2.out, hf.1]; exact hw.1.mono h3
  · rw [h2.err, hf.2.1]; exact hw.2.1.mono h3
  · rw [h2.handlers, hf.2.2.1]; exact hw.2.2.mono h3
  · rintro ⟨x, hx, h⟩
    have := hu ⟨x, List.mem_append_right _ hx, h⟩
    unfold Unfiltered at this ⊢
    rw [h2.handlers, hf.2.2.1]; exact this
  · intro h4
    rw [perform_append]
    exact (h4.mono h3).trans (h2.perform fmt eb)

theorem sim (fmt : Fmt) (tb : Nat → String) : ∀ (P : Prog) (s : Out), Plain P → WF s →
    ((∃ ev ∈ (says tb P).1, ev.isLog = true) → Unfiltered s) →
    (run fmt tb P s).1 = (says tb P).2 ∧
    Same s.next (run fmt tb P s).2 (perform fmt (says tb P).1 s) ∧
    s.next ≤ (run fmt tb P s).2.next
  | .skip, s, _, _, _ => ⟨rfl, .rfl', Nat.le_refl _⟩
  | .raise n, s, _, _, _ => ⟨rfl, .rfl', Nat.le_refl _⟩
  | .print t, s, _, _, _ => by
    refine ⟨rfl, .rfl', ?_⟩
    rw [run, write_eq, (apply_spec _ _).2.2.2.1]; exact Nat.le_refl _
  | .eprint t, s, _, _, _ => by
    refine ⟨rfl, .rfl', ?_⟩
    rw [run, write_eq, (apply_spec _ _).2.2.2.1]; exact Nat.le_refl _
  | .log l m, s, _, _, _ => by
    refine ⟨rfl, .rfl', ?_⟩
    rw [run, log_eq, (apply_spec _ _).2.2.2.1]; exact Nat.le_refl _
  | .setOut _, _, h, _, _ => h.elim
  | .setErr _, _, h, _, _ => h.elim
  | .addHandler _ _, _, h, _, _ => h.elim
  | .seq a b, s, hp, hw, hu => by
    rw [says] at hu ⊢
    cases ha : (says tb a).2 with
    | some n =>
      rw [ha] at hu
      obtain ⟨h1, h2, h3⟩ := sim fmt tb a s hp.1 hw hu
      rw [ha] at h1
      rw [run]
      generalize run fmt tb a s = r at h1 h2 h3 ⊢
      obtain ⟨r1, r2⟩ := r
      subst h1
      exact ⟨rfl, h2, h3⟩
    | none =>
      rw [ha] at hu
      obtain ⟨h1, h2, h3⟩ := sim fmt tb a s hp.1 hw
        (fun ⟨x, hx, h⟩ => hu ⟨x, List.mem_append_left _ hx, h⟩)
      rw [ha] at h1
      rw [run]
      generalize run fmt tb a s = r at h1 h2 h3 ⊢
      obtain ⟨r1, r2⟩ := r
      subst h1
      obtain ⟨⟨hw2, hu2⟩, hk⟩ := sim_then fmt (r3 := (run fmt tb b r2).2) hw hu h2 h3
      obtain ⟨k1, k2, k3⟩ := sim fmt tb b r2 hp.2 hw2 hu2
      exact ⟨k1, hk k2, Nat.le_trans h3 k3⟩
  | .tryExcept a b, s, hp, hw, hu => by
    rw [says] at hu ⊢
    cases ha : (says tb a).2 with
    | none =>
      rw [ha] at hu
      obtain ⟨h1, h2, h3⟩ := sim fmt tb a s hp.1 hw hu
      rw [ha] at h1
      rw [run]
      generalize run fmt tb a s = r at h1 h2 h3 ⊢
      obtain ⟨r1, r2⟩ := r
      subst h1
      exact ⟨rfl, h2, h3⟩
    | some n =>
      rw [ha] at hu
      obtain ⟨h1, h2, h3⟩ := sim fmt tb a s hp.1 hw
        (fun ⟨x, hx, h⟩ => hu ⟨x, List.mem_append_left _ hx, h⟩)
      rw [ha] at h1
      rw [run]
      generalize run fmt tb a s = r at h1 h2 h3 ⊢
      obtain ⟨r1, r2⟩ := r
      subst h1
      obtain ⟨⟨hw2, hu2⟩, hk⟩ := sim_then fmt (r3 := (run fmt tb b r2).2) hw hu h2 h3
      obtain ⟨k1, k2, k3⟩ := sim fmt tb b r2 hp.2 hw2 hu2
      exact ⟨k1, hk k2, Nat.le_trans h3 k3⟩
  | .capture P, s, hp, hw, hu => by
    have ih := sim fmt tb P (capState s) hp (capState_wf hw) (fun _ => capState_unfiltered s)
    obtain ⟨h1, h2, h3, h4, h5, h6, h7⟩ := capture_end fmt tb P s ih
    have hcp := capState_perform fmt (s := s) (says tb (.capture P)).1 hu
    have hf := perform_fixed fmt (says tb (.capture P)).1 s
    refine ⟨by rw [h1, says_capture], ⟨?_, ?_, ?_, ?_, ?_⟩, by omega⟩
    · rw [h4, hf.1]
    · rw [h5, hf.2.1]
    · rw [h6, hf.2.2.1]
    · intro k; rw [h2, hcp.1]
    · intro b hb; rw [h3 b (by omega), hcp.2 b hb]
  | .suppress P, s, hp, hw, hu => by
    have hlog : (∃ ev ∈ (says tb P).1, ev.isLog = true) → Unfiltered s := by
      rintro ⟨x, hx, h⟩
      exact hu ⟨x, List.mem_filter.mpr ⟨hx, h⟩, h⟩
    obtain ⟨h1, h2, h3⟩ := sim fmt tb P { s with out := .null, err := .null } hp
      ⟨trivial, trivial, hw.2.2⟩ hlog
    have hf := perform_fixed fmt (says tb (.suppress P)).1 s
    have hat := suppress_atoms fmt s.out s.err s.handlers (says tb P).1 (fun h => (hlog h).1)
    obtain ⟨-, -, -, -, g5, g6⟩ := apply_spec (atomsOf fmt .null .null s.handlers (says tb P).1)
      { s with out := .null, err := .null }
    obtain ⟨-, -, -, -, k5, k6⟩ := apply_spec
      (atomsOf fmt s.out s.err s.handlers ((says tb P).1.filter Ev.isLog)) s
    rw [perform_eq] at h2
    refine ⟨h1, ⟨?_, ?_, ?_, ?_, ?_⟩, h3⟩
    · rw [hf.1]; rfl
    · rw [hf.2.1]; rfl
    · rw [hf.2.2.1]
      exact h2.handlers.trans (apply_spec _ _).2.2.1
    · intro k
      rw [perform_eq, show (says tb (.suppress P)).1 = (says tb P).1.filter Ev.isLog from rfl, k5]
      have := h2.bases k
      rw [g5, hat] at this
      exact this
    · intro b hb
      rw [perform_eq, show (says tb (.suppress P)).1 = (says tb P).1.filter Ev.isLog from rfl, k6]
      have := h2.buffers b hb
      rw [g6, hat] at this
      exact this

end Pyth.Output
