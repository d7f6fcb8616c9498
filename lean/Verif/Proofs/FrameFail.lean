import Verif.Spec.FrameFail
/-! Helper lemmas for C103. -/
namespace Pyth.FrameFail
open Pyth.Portal (PortalId Sys)
open Pyth.World (Exc Kind ctxKind)

/-- restored, including the exceptions being handled -/
structure Kept (s s' : St) : Prop extends Restored s s' where
  handling : s'.handling = s.handling

theorem Kept.refl (s : St) : Kept s s := ⟨⟨rfl, rfl, rfl⟩, rfl⟩
theorem Kept.trans {a b c : St} (h : Kept a b) (h' : Kept b c) : Kept a c :=
  ⟨⟨h'.portals.trans h.portals, h'.output.trans h.output, h'.frames.trans h.frames⟩, h'.handling.trans h.handling⟩
theorem Kept.valid {a b : St} (h : Kept a b) (ha : Valid a) : Valid b := by
  unfold Valid; rw [h.portals]; exact ha

def Keeps (m : M) : Prop := ∀ s, Valid s → Kept s (m s).2

theorem Keeps.raiseNew (k : Kind) : Keeps (raiseNew k) := fun s _ => ⟨⟨rfl, rfl, rfl⟩, rfl⟩
theorem Keeps.write (ok : Bool) : Keeps (write ok) := fun s hs => by
  cases ok
  · exact Keeps.raiseNew _ s hs
  · exact Kept.refl s

theorem Keeps.handlingE {e : Exc} {m : M} (h : Keeps m) : Keeps (handlingE e m) := fun s hs => by
  have h1 := h { s with handling := e :: s.handling } hs
  unfold FrameFail.handlingE
  cases hm : m { s with handling := e :: s.handling } with
  | mk r s' =>
    rw [hm] at h1
    exact ⟨⟨h1.portals, h1.output, h1.frames⟩, congrArg List.tail h1.handling⟩

theorem Keeps.persist (ok : Bool) (e : Exc) : Keeps (persist ok e) := fun s hs => by
  unfold FrameFail.persist
  by_cases h : e.id ∈ s.marked
  · rw [if_pos h]; exact Kept.refl s
  · rw [if_neg h]
    cases ok
    · exact Keeps.raiseNew _ s hs
    · exact ⟨⟨rfl, rfl, rfl⟩, rfl⟩

theorem persist_true (e : Exc) (s : St) : ∃ m, persist true e s = (.ok (), { s with marked := m }) := by
  by_cases hm : e.id ∈ s.marked
  · exact ⟨s.marked, by simp only [persist, if_pos hm]⟩
  · exact ⟨e.id :: s.marked, by simp only [persist, if_neg hm, if_true]⟩

theorem logger_true (s : St) : ∃ m, logger true s = (.ok (), { s with marked := m }) := by
  have h : (s.handling = [] ∧ logger true s = (.ok (), s)) ∨ ∃ e, logger true s = persist true e s := by
    simp only [logger]
    cases h : s.handling with
    | nil => exact .inl ⟨rfl, rfl⟩
    | cons e l => exact .inr ⟨e, rfl⟩
  rcases h with h | ⟨e, h⟩
  · exact ⟨s.marked, h.2⟩
  · rw [h]; exact persist_true e s

theorem enterP_eq (p : PortalId) (s : St) (hs : Valid s) : ∃ sys', enterP p s = (.ok (), { s with sys := sys' }) ∧
    Portal.Rep sys'.stack sys'.counters ∧ Portal.exit p sys' = .ok s.sys ∧ sys'.stack.head? = some p := by
  obtain ⟨sys', h1, h2, _, _, h5, h6⟩ := Portal.enter_spec s.sys p hs
  exact ⟨sys', by unfold enterP; rw [h1], h2, h6, h5⟩

theorem exitP_true (p : PortalId) (s : St) {sys0 : Sys} (h : Portal.exit p s.sys = .ok sys0) :
    ∃ m, exitP true p s = (.ok (), { s with marked := m, sys := sys0 }) := by
  obtain ⟨m, hm⟩ := logger_true s
  refine ⟨m, ?_⟩
  unfold exitP PyM.bind
  rw [hm]
  simp only [baseExit, h]

/-- the rule for `with` -/
theorem withM_keeps {enter : M} {exit : Option Exc → M} {body : M} {s s1 : St} (he : enter s = (.ok (), s1))
    (hb : Keeps body) (hv : Valid s1)
    (hx : ∀ e s2, Kept s1 s2 → Kept s { (exit e s2).2 with handling := s.handling } ∧ (exit e s2).2.handling = s2.handling)
    (hx' : ∀ e h s2, Kept s1 s2 → Kept s { (exit (some e) { s2 with handling := h }).2 with handling := s.handling } ∧
      (exit (some e) { s2 with handling := h }).2.handling = h) (hh : s1.handling = s.handling) :
    Kept s (withM enter exit body s).2 := by
  unfold withM
  rw [he]
  simp only
  have h1 := hb s1 hv
  cases hm : body s1 with
  | mk r s2 =>
    rw [hm] at h1
    have h1 : Kept s1 s2 := h1
    cases r with
    | ok a =>
      obtain ⟨h2, h3⟩ := hx none s2 h1
      exact ⟨⟨h2.portals, h2.output, h2.frames⟩, by rw [h3, h1.handling, hh]⟩
    | error e =>
      simp only [handlingE]
      obtain ⟨h2, h3⟩ := hx' e (e :: s2.handling) s2 h1
      cases hy : exit (some e) { s2 with handling := e :: s2.handling } with
      | mk r3 s3 =>
        rw [hy] at h2 h3
        cases r3 <;>
        exact ⟨⟨h2.portals, h2.output, h2.frames⟩, by
          show s3.handling.tail = _
          rw [show s3.handling = e :: s2.handling from h3]; exact h1.handling.trans hh⟩

theorem Keeps.withP (p : PortalId) {body : M} (hb : Keeps body) : Keeps (withP true p body) := fun s hs => by
  obtain ⟨sys', h1, h2, h3, _⟩ := enterP_eq p s hs
  have key : ∀ s2 : St, Kept { s with sys := sys' } s2 → ∀ h,
      ∃ m, exitP true p { s2 with handling := h } = (.ok (), { s2 with handling := h, marked := m, sys := s.sys }) := by
    intro s2 hk h
    exact exitP_true p { s2 with handling := h } (by rw [show s2.sys = sys' from hk.portals]; exact h3)
  refine withM_keeps h1 hb h2 (fun e s2 hk => ?_) (fun e h s2 hk => ?_) rfl
  · obtain ⟨m, hm⟩ := key s2 hk s2.handling
    have hm : exitP true p s2 = _ := hm
    rw [hm]
    exact ⟨⟨⟨rfl, hk.output, hk.frames⟩, rfl⟩, rfl⟩
  · obtain ⟨m, hm⟩ := key s2 hk h
    rw [hm]
    exact ⟨⟨⟨rfl, hk.output, hk.frames⟩, rfl⟩, rfl⟩

/-- `__enter__` of a frame up to the registration of the attempt -/
theorem frame_opened (fr : Frame) (io : Io) (s : St) {sys' : Sys} (h : enterP fr.portal s = (.ok (), { s with sys := sys' })) :
    fr.enter io s = (PyM.bind (write io.attempt) fun _ =>
      PyM.bind (PyM.modify fun s => { s with attempts := s.attempts ++ [fr.run] }) fun _ => write io.source : M)
      { s with
        sys := sys', out := fr.buffer :: fr.saved
        stacks := fun g => if g = fr.fn then fr.run :: s.stacks g else s.stacks g } := by
  simp only [Frame.enter, PyM.bind, h, PyM.modify]

/-- the state in which the body of a frame starts, its attempt having been recorded -/
def opened (fr : Frame) (sys' : Sys) (s : St) : St :=
  { s with
    sys := sys', out := fr.buffer :: fr.saved, attempts := s.attempts ++ [fr.run]
    stacks := fun g => if g = fr.fn then fr.run :: s.stacks g else s.stacks g }

theorem frame_entered (fr : Frame) (io : Io) (h1 : io.attempt = true) (h2 : io.source = true) (s : St) {sys' : Sys}
    (h : enterP fr.portal s = (.ok (), { s with sys := sys' })) : fr.enter io s = (.ok (), opened fr sys' s) := by
  rw [frame_opened fr io s h]
  simp only [PyM.bind, PyM.modify, write, h1, h2, if_true]
  rfl

theorem frame_enter_ok (fr : Frame) (s : St) {sys' : Sys} (h : enterP fr.portal s = (.ok (), { s with sys := sys' })) :
    fr.enter {} s = (.ok (), { s with
      sys := sys', out := fr.buffer :: fr.saved, attempts := s.attempts ++ [fr.run]
      stacks := fun g => if g = fr.fn then fr.run :: s.stacks g else s.stacks g }) := by
  rw [frame_opened fr {} s h]; rfl

/-- the state in which the output is stored -/
def closing (fr : Frame) (e : Option Exc) (s : St) : St :=
  { (match e with
      | some e => print (traceback e.kind) s
      | none => s) with out := fr.saved }

theorem closing_sys (fr : Frame) (e : Option Exc) (s : St) :
    (closing fr e s).sys = s.sys ∧ (closing fr e s).out = fr.saved ∧ (closing fr e s).stacks = s.stacks ∧
      (closing fr e s).handling = s.handling ∧ (closing fr e s).outputs = s.outputs ∧ (closing fr e s).nextExc = s.nextExc := by
  cases e <;> exact ⟨rfl, rfl, rfl, rfl, rfl, rfl⟩

/-- `__exit__` of a frame from the storing of the output on -/
theorem frame_closing (fr : Frame) (io : Io) (e : Option Exc) (s : St) : fr.exit io e s =
    (PyM.bind (write io.output) fun _ =>
      PyM.bind (PyM.modify fun s => { s with outputs := s.outputs ++ [(fr.run, s.buffers fr.buffer)] }) fun _ =>
      PyM.bind (exitP io.log fr.portal) fun _ =>
      PyM.modify fun s => { s with stacks := fun g => if g = fr.fn then (s.stacks g).tail else s.stacks g } : M)
    (closing fr e s) := rfl

theorem frame_exit_fail (fr : Frame) (io : Io) (ho : io.output = false) (e : Option Exc) (s : St) : fr.exit io e s =
    (.error ⟨s.nextExc, .storageError⟩, { closing fr e s with nextExc := s.nextExc + 1 }) := by
  rw [frame_closing]
  simp only [PyM.bind, write, ho, raiseNew, (closing_sys fr e s).2.2.2.2.2]
  rfl

theorem frame_exit_ok (fr : Frame) (e : Option Exc) (s : St) {sys0 : Sys} (h : Portal.exit fr.portal s.sys = .ok sys0) :
    ∃ m o, fr.exit {} e s = (.ok (), { closing fr e s with
      outputs := o, marked := m, sys := sys0
      stacks := fun g => if g = fr.fn then (s.stacks g).tail else s.stacks g }) := by
  obtain ⟨h1, _, h3, _⟩ := closing_sys fr e s
  obtain ⟨m, hm⟩ := exitP_true fr.portal
    { closing fr e s with outputs := (closing fr e s).outputs ++ [(fr.run, (closing fr e s).buffers fr.buffer)] }
    (by rw [← h1] at h; exact h)
  refine ⟨m, (closing fr e s).outputs ++ [(fr.run, (closing fr e s).buffers fr.buffer)], ?_⟩
  rw [frame_closing]
  simp only at hm
  simp only [PyM.bind, PyM.modify, write, if_true, hm]
  simp only [h3]

theorem Keeps.withFrame (p : PortalId) (f : Nat) {body : M} (hb : Keeps body) : Keeps (withFrame p f {} body) := fun s hs => by
  obtain ⟨sys', h1, h2, h3, _⟩ := enterP_eq p (newFrame p f s).2 hs
  have hen := frame_enter_ok (newFrame p f s).1 (newFrame p f s).2 h1
  have hst : ∀ s2 : St, s2.stacks = (fun g => if g = f then s.nextRun :: s.stacks g else s.stacks g) →
      (fun g => if g = f then (s2.stacks g).tail else s2.stacks g) = s.stacks := by
    intro s2 h
    funext g
    rw [h]
    by_cases hg : g = f <;> simp [hg]
  have key := withM_keeps (exit := (newFrame p f s).1.exit {}) hen hb h2 (fun e s2 hk => ?_) (fun e h s2 hk => ?_) rfl
  · exact ⟨⟨key.portals, key.output, key.frames⟩, key.handling⟩
  · obtain ⟨m, o, hm⟩ := frame_exit_ok (newFrame p f s).1 e s2 (sys0 := s.sys) (by rw [show s2.sys = sys' from hk.portals]; exact h3)
    rw [hm]
    exact ⟨⟨⟨rfl, (closing_sys (newFrame p f s).1 e s2).2.1, hst s2 hk.frames⟩, rfl⟩, (closing_sys (newFrame p f s).1 e s2).2.2.2.1⟩
  · obtain ⟨m, o, hm⟩ := frame_exit_ok (newFrame p f s).1 (some e) { s2 with handling := h } (sys0 := s.sys)
      (by show Portal.exit p s2.sys = _; rw [show s2.sys = sys' from hk.portals]; exact h3)
    rw [hm]
    exact ⟨⟨⟨rfl, (closing_sys (newFrame p f s).1 (some e) { s2 with handling := h }).2.1, hst s2 hk.frames⟩, rfl⟩, rfl⟩

theorem Keeps.logged (ok : Bool) {body : M} (hb : Keeps body) : Keeps (logged ok body) := fun s hs => by
  have h1 := hb s hs
  unfold FrameFail.logged
  cases hm : body s with
  | mk r s1 =>
    rw [hm] at h1
    have h1 : Kept s s1 := h1
    cases r with
    | ok a => exact h1
    | error e =>
      have h2 := Keeps.handlingE (e := e) (Keeps.persist ok e) s1 (h1.valid hs)
      simp only
      cases hx : FrameFail.handlingE e (FrameFail.persist ok e) s1 with
      | mk r2 s2 =>
        rw [hx] at h2
        cases r2 <;> exact h1.trans h2

theorem sound_keeps (a : Prog) (h : a.Sound) : Keeps a.run := by
  induction a with
  | skip => exact fun s _ => Kept.refl s
  | raise n => exact Keeps.raiseNew _
  | print t => exact fun s _ => ⟨⟨rfl, rfl, rfl⟩, rfl⟩
  | store ok => exact Keeps.write ok
  | seq a b iha ihb =>
    intro s hs
    have h1 := iha h.1 s hs
    simp only [Prog.run, PyM.bind]
    cases hm : a.run s with
    | mk r s1 =>
      rw [hm] at h1
      cases r with
      | ok x => exact h1.trans (ihb h.2 s1 (h1.valid hs))
      | error e => exact h1
  | tryExcept a b iha ihb =>
    intro s hs
    have h1 := iha h.1 s hs
    simp only [Prog.run, PyM.tryExcept]
    cases hm : a.run s with
    | mk r s1 =>
      rw [hm] at h1
      cases r with
      | ok x => exact h1
      | error e => exact h1.trans (Keeps.handlingE (ihb h.2) s1 (h1.valid hs))
  | within p log a ih =>
    obtain ⟨rfl, h⟩ := h
    exact Keeps.withP p (ih h)
  | frame p f io a ih =>
    obtain ⟨rfl, h⟩ := h
    exact Keeps.withFrame p f (ih h)
  | logged ok a ih => exact Keeps.logged ok (ih h)

/-- run ids are not used twice -/
structure Later (s s' : St) : Prop where
  runs : s.nextRun ≤ s'.nextRun
  outputs : ∀ x ∈ s'.outputs, x ∈ s.outputs ∨ s.nextRun ≤ x.1
  attempts : ∀ x ∈ s.attempts, x ∈ s'.attempts

theorem Later.refl (s : St) : Later s s := ⟨Nat.le_refl _, fun _ h => .inl h, fun _ h => h⟩
theorem Later.trans {a b c : St} (h : Later a b) (h' : Later b c) : Later a c :=
  ⟨Nat.le_trans h.runs h'.runs, fun x hx => (h'.outputs x hx).elim (h.outputs x) fun h2 => .inr (Nat.le_trans h.runs h2),
    fun x hx => h'.attempts x (h.attempts x hx)⟩
theorem Later.same {s s' : St} (h : s'.nextRun = s.nextRun) (h' : s'.outputs = s.outputs) (h2 : s'.attempts = s.attempts) : Later s s' :=
  ⟨Nat.le_of_eq h.symm, fun x hx => .inl (h' ▸ hx), fun x hx => h2 ▸ hx⟩

def Lates (m : M) : Prop := ∀ s, Later s (m s).2

theorem Lates.raiseNew (k : Kind) : Lates (raiseNew k) := fun _ => .same rfl rfl rfl
theorem Lates.write (ok : Bool) : Lates (write ok) := fun s => by
  cases ok
  · exact Lates.raiseNew _ s
  · exact .refl s
theorem Lates.bind {a : M} {b : Unit → M} (ha : Lates a) (hb : ∀ x, Lates (b x)) : Lates (PyM.bind a b) := fun s => by
  have h1 := ha s
  simp only [PyM.bind]
  cases hm : a s with
  | mk r s1 =>
    rw [hm] at h1
    cases r with
    | ok x => exact h1.trans (hb x s1)
    | error e => exact h1
theorem Lates.handlingE {e : Exc} {m : M} (h : Lates m) : Lates (handlingE e m) := fun s => by
  have h1 := h { s with handling := e :: s.handling }
  unfold FrameFail.handlingE
  cases hm : m { s with handling := e :: s.handling } with
  | mk r s' => rw [hm] at h1; exact ⟨h1.runs, h1.outputs, h1.attempts⟩
theorem Lates.persist (ok : Bool) (e : Exc) : Lates (persist ok e) := fun s => by
  unfold FrameFail.persist
  by_cases h : e.id ∈ s.marked
  · rw [if_pos h]; exact .refl s
  · rw [if_neg h]
    cases ok
    · exact Lates.raiseNew _ s
    · exact .same rfl rfl rfl
theorem Lates.logger (ok : Bool) : Lates (logger ok) := fun s => by
  unfold FrameFail.logger
  cases s.handling with
  | nil => exact .refl s
  | cons e l => exact Lates.persist ok e s
theorem Lates.enterP (p : PortalId) : Lates (enterP p) := fun s => by
  unfold FrameFail.enterP
  cases Portal.enter p s.sys with
  | ok x => exact .same rfl rfl rfl
  | error e => exact Lates.raiseNew _ s
theorem Lates.exitP (ok : Bool) (p : PortalId) : Lates (exitP ok p) := Lates.bind (Lates.logger ok) fun _ s => by
  unfold baseExit
  cases Portal.exit p s.sys with
  | ok x => exact .same rfl rfl rfl
  | error e => exact Lates.raiseNew _ s

theorem withM_lates {enter : M} {exit : Option Exc → M} {body : M} {s : St} (he : Later s (enter s).2) (hb : Lates body)
    (hx : ∀ e s', s.nextRun ≤ s'.nextRun → Later s s' → Later s (exit e s').2) : Later s (withM enter exit body s).2 := by
  unfold withM
  cases hm : enter s with
  | mk r s1 =>
    rw [hm] at he
    cases r with
    | error e => exact he
    | ok x =>
      have he : Later s s1 := he
      have h1 := he.trans (hb s1)
      simp only
      cases hm2 : body s1 with
      | mk r2 s2 =>
        rw [hm2] at h1
        have h1 : Later s s2 := h1
        cases r2 with
        | ok y => exact hx none s2 h1.runs h1
        | error e =>
          have h2 : Later s { s2 with handling := e :: s2.handling } := ⟨h1.runs, h1.outputs, h1.attempts⟩
          have h3 := hx (some e) _ h2.runs h2
          simp only [FrameFail.handlingE]
          cases hm3 : exit (some e) { s2 with handling := e :: s2.handling } with
          | mk r3 s3 =>
            rw [hm3] at h3
            cases r3 <;> exact ⟨h3.runs, h3.outputs, h3.attempts⟩

theorem frame_enter_lates (fr : Frame) (io : Io) : Lates (fr.enter io) := by
  unfold Frame.enter
  exact Lates.bind (Lates.enterP _) fun _ => Lates.bind (fun _ => .same rfl rfl rfl) fun _ =>
    Lates.bind (Lates.write _) fun _ => Lates.bind (fun _ => ⟨Nat.le_refl _, fun _ h => .inl h, fun _ h => List.mem_append_left _ h⟩)
      fun _ => Lates.write _

theorem frame_exit_lates (fr : Frame) (io : Io) (e : Option Exc) {s s' : St} (hr : s.nextRun ≤ fr.run) (h : Later s s') :
    Later s (fr.exit io e s').2 := by
  rw [frame_closing]
  have h1 : Later s (closing fr e s') := by
    cases e <;> exact ⟨h.runs, h.outputs, h.attempts⟩
  generalize closing fr e s' = s1 at h1
  simp only [PyM.bind]
  cases ho : io.output with
  | false => exact ⟨h1.runs, h1.outputs, h1.attempts⟩
  | true =>
    simp only [write, if_true, PyM.modify]
    have h2 : Later s { s1 with outputs := s1.outputs ++ [(fr.run, s1.buffers fr.buffer)] } :=
      ⟨h1.runs, fun x hx => by
        rcases List.mem_append.1 hx with hx | hx
        · exact h1.outputs x hx
        · rw [List.mem_singleton] at hx; subst hx; exact .inr hr, h1.attempts⟩
    generalize ({ s1 with outputs := s1.outputs ++ [(fr.run, s1.buffers fr.buffer)] } : St) = s2 at h2
    have h3 := h2.trans (Lates.exitP io.log fr.portal s2)
    cases hm : exitP io.log fr.portal s2 with
    | mk r s3 =>
      rw [hm] at h3
      cases r <;> exact ⟨h3.runs, h3.outputs, h3.attempts⟩

theorem lates (a : Prog) : Lates a.run := by
  induction a with
  | skip => exact fun s => .refl s
  | raise n => exact Lates.raiseNew _
  | print t => exact fun s => .same rfl rfl rfl
  | store ok => exact Lates.write ok
  | seq a b iha ihb => exact Lates.bind iha fun _ => ihb
  | tryExcept a b iha ihb =>
    intro s
    have h1 := iha s
    simp only [Prog.run, PyM.tryExcept]
    cases hm : a.run s with
    | mk r s1 =>
      rw [hm] at h1
      cases r with
      | ok x => exact h1
      | error e => exact h1.trans (Lates.handlingE ihb s1)
  | within p log a ih =>
    exact fun s => withM_lates (Lates.enterP p s) ih fun e s' _ h => h.trans (Lates.exitP log p s')
  | frame p f io a ih =>
    intro s
    have h0 : Later s (newFrame p f s).2 := ⟨Nat.le_succ _, fun x hx => .inl hx, fun x hx => hx⟩
    simp only [Prog.run, FrameFail.withFrame, withM]
    have h2 := frame_enter_lates (newFrame p f s).1 io (newFrame p f s).2
    have h2' := h0.trans h2
    cases hm : (newFrame p f s).1.enter io (newFrame p f s).2 with
    | mk r s1 =>
      rw [hm] at h2'
      cases r with
      | error e => exact h2'
      | ok x =>
        have h3 := h2'.trans (ih s1)
        simp only
        cases hm2 : a.run s1 with
        | mk r2 s2 =>
          rw [hm2] at h3
          have h3 : Later s s2 := h3
          cases r2 with
          | ok y => exact frame_exit_lates _ io none (Nat.le_refl _) h3
          | error e =>
            have h4 : Later s { s2 with handling := e :: s2.handling } := ⟨h3.runs, h3.outputs, h3.attempts⟩
            have h5 := frame_exit_lates (newFrame p f s).1 io (some e) (Nat.le_refl _) h4
            simp only [FrameFail.handlingE]
            cases hm3 : (newFrame p f s).1.exit io (some e) { s2 with handling := e :: s2.handling } with
            | mk r3 s3 =>
              rw [hm3] at h5
              cases r3 <;> exact ⟨h5.runs, h5.outputs, h5.attempts⟩
  | logged ok a ih =>
    intro s
    have h1 := ih s
    simp only [Prog.run, FrameFail.logged]
    cases hm : a.run s with
    | mk r s1 =>
      rw [hm] at h1
      cases r with
      | ok x => exact h1
      | error e =>
        have h2 := h1.trans (Lates.handlingE (e := e) (Lates.persist ok e) s1)
        simp only
        cases hx : FrameFail.handlingE e (FrameFail.persist ok e) s1 with
        | mk r2 s2 => rw [hx] at h2; cases r2 <;> exact h2

end Pyth.FrameFail
