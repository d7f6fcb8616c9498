import Verif.Proofs.FrameFail
/-! # Proofs for C103: what is captured -/
namespace Pyth.FrameFail
open Pyth.Portal (PortalId Sys)
open Pyth.World (Exc Kind ctxKind)

/-- nothing printed, nothing captured -/
structure Still (s s' : St) : Prop where
  screen : s'.screen = s.screen
  buffers : s'.buffers = s.buffers
  out : s'.out = s.out
  next : s'.nextBuf = s.nextBuf

theorem Still.refl (s : St) : Still s s := ⟨rfl, rfl, rfl, rfl⟩
theorem Still.trans {a b c : St} (h : Still a b) (h' : Still b c) : Still a c :=
  ⟨h'.screen.trans h.screen, h'.buffers.trans h.buffers, h'.out.trans h.out, h'.next.trans h.next⟩

theorem still_raise (k : Kind) (s : St) : Still s (raiseNew k s).2 := ⟨rfl, rfl, rfl, rfl⟩

theorem still_write (ok : Bool) (s : St) : Still s (write ok s).2 := by
  unfold write; cases ok
  · exact still_raise _ s
  · exact .refl s

theorem still_bind {a : M} {b : Unit → M} {s : St} (ha : Still s (a s).2) (hb : ∀ x s', Still s' (b x s').2) :
    Still s (PyM.bind a b s).2 := by
  simp only [PyM.bind]
  cases hm : a s with
  | mk r s1 =>
    rw [hm] at ha
    cases r with
    | ok x => exact ha.trans (hb x s1)
    | error e => exact ha

theorem still_persist (ok : Bool) (e : Exc) (s : St) : Still s (persist ok e s).2 := by
  unfold persist
  split
  · exact .refl s
  · cases ok
    · exact still_raise _ s
    · exact ⟨rfl, rfl, rfl, rfl⟩

theorem still_handling {e : Exc} {m : M} {s : St} (h : ∀ s', Still s' (m s').2) : Still s (handlingE e m s).2 := by
  have h1 := h { s with handling := e :: s.handling }
  unfold handlingE
  cases hm : m { s with handling := e :: s.handling } with
  | mk r s' => rw [hm] at h1; exact ⟨h1.screen, h1.buffers, h1.out, h1.next⟩

theorem still_logger (ok : Bool) (s : St) : Still s (logger ok s).2 := by
  unfold logger
  cases s.handling with
  | nil => exact .refl s
  | cons e l => exact still_persist ok e s

theorem still_enter (p : PortalId) (s : St) : Still s (enterP p s).2 := by
  unfold enterP
  cases Portal.enter p s.sys with
  | ok x => exact ⟨rfl, rfl, rfl, rfl⟩
  | error e => exact still_raise _ s

theorem still_exit (ok : Bool) (p : PortalId) (s : St) : Still s (exitP ok p s).2 :=
  still_bind (still_logger ok s) fun _ s => by
    unfold baseExit
    cases Portal.exit p s.sys with
    | ok x => exact ⟨rfl, rfl, rfl, rfl⟩
    | error e => exact still_raise _ s

/-- the texts `d` were printed, and the capturers in force took them -/
structure Tee (d : List String) (s s' : St) : Prop where
  screen : s'.screen = s.screen ++ d
  captured : ∀ b ∈ s.out, s'.buffers b = s.buffers b ++ d
  others : ∀ b, b < s.nextBuf → b ∉ s.out → s'.buffers b = s.buffers b
  next : s.nextBuf ≤ s'.nextBuf
  stay : ∀ b ∈ s.out, b ∈ s'.out
  new : ∀ b ∈ s'.out, b ∈ s.out ∨ s.nextBuf ≤ b
  clean : Clean s → Clean s'

theorem Still.tee {s s' : St} (h : Still s s') : Tee [] s s' where
  screen := by rw [h.screen]; simp
  captured b _ := by rw [h.buffers]; simp
  others b _ _ := by rw [h.buffers]
  next := Nat.le_of_eq h.next.symm
  stay b hb := by rw [h.out]; exact hb
  new b hb := by rw [h.out] at hb; exact .inl hb
  clean hc := ⟨by rw [h.next, h.buffers]; exact hc.unused, by rw [h.next, h.out]; exact hc.used⟩

theorem Tee.trans {d d' : List String} {a b c : St} (h : Tee d a b) (h' : Tee d' b c) : Tee (d ++ d') a c where
  screen := by rw [h'.screen, h.screen]; simp
  captured x hx := by rw [h'.captured x (h.stay x hx), h.captured x hx]; simp
  others x hx hn := by
    rw [h'.others x (Nat.lt_of_lt_of_le hx h.next) ?_, h.others x hx hn]
    intro hm
    rcases h.new x hm with h1 | h1
    · exact hn h1
    · exact absurd hx (Nat.not_lt.2 h1)
  next := Nat.le_trans h.next h'.next
  stay x hx := h'.stay x (h.stay x hx)
  new x hx := by
    rcases h'.new x hx with h1 | h1
    · exact h.new x h1
    · exact .inr (Nat.le_trans h.next h1)
  clean hc := h'.clean (h.clean hc)

theorem Tee.still {d : List String} {a b c : St} (h : Tee d a b) (h' : Still b c) : Tee d a c := by
  have := h.trans h'.tee; rwa [List.append_nil] at this

theorem print_tee (t : String) (s : St) : Tee [t] s (print t s) where
  screen := rfl
  captured b hb := if_pos hb
  others b _ hn := if_neg hn
  next := Nat.le_refl _
  stay _ h := h
  new _ h := .inl h
  clean hc := ⟨fun b hb => (if_neg fun h => absurd (hc.used b h) (Nat.not_lt.2 hb)).trans (hc.unused b hb), hc.used⟩

/-- the state in which the capturer of a new frame is in force -/
def capturing (s : St) : St := { s with out := s.nextBuf :: s.out, nextBuf := s.nextBuf + 1 }

/-- a frame, from when its capturer is in force to when the earlier streams are back -/
theorem Tee.frame {d : List String} {s s1 s' : St} (h : Tee d (capturing s) s1) (h1 : s'.screen = s1.screen)
    (h2 : s'.buffers = s1.buffers) (h3 : s'.nextBuf = s1.nextBuf) (h4 : s'.out = s.out ∨ s'.out = s1.out) : Tee d s s' where
  screen := by rw [h1, h.screen]; rfl
  captured b hb := by rw [h2, h.captured b (List.mem_cons_of_mem _ hb)]; rfl
  others b hb hn := by
    rw [h2, h.others b (Nat.lt_succ_of_lt hb) ?_]; rfl
    intro hm
    rcases List.mem_cons.1 hm with h5 | h5
    · exact absurd hb (by rw [h5]; exact Nat.lt_irrefl _)
    · exact hn h5
  next := by rw [h3]; exact Nat.le_trans (Nat.le_succ _) h.next
  stay b hb := by
    rcases h4 with h4 | h4
    · rw [h4]; exact hb
    · rw [h4]; exact h.stay b (List.mem_cons_of_mem _ hb)
  new b hb := by
    rcases h4 with h4 | h4
    · rw [h4] at hb; exact .inl hb
    · rw [h4] at hb
      rcases h.new b hb with h5 | h5
      · rcases List.mem_cons.1 h5 with h6 | h6
        · exact .inr (Nat.le_of_eq h6.symm)
        · exact .inl h6
      · exact .inr (Nat.le_trans (Nat.le_succ _) h5)
  clean hc := by
    have h5 : Clean (FrameFail.capturing s) := by
      refine ⟨fun b hb => hc.unused b (Nat.le_trans (Nat.le_succ _) hb), fun b hb => ?_⟩
      rcases List.mem_cons.1 hb with h6 | h6
      · rw [h6]; exact Nat.lt_succ_self _
      · exact Nat.lt_succ_of_lt (hc.used b h6)
    have h6 := h.clean h5
    refine ⟨by rw [h3, h2]; exact h6.unused, fun b hb => ?_⟩
    rw [h3]
    rcases h4 with h4 | h4
    · rw [h4] at hb; exact Nat.lt_of_lt_of_le (hc.used b hb) (Nat.le_trans (Nat.le_succ _) h.next)
    · rw [h4] at hb; exact h6.used b hb

/-- what a frame does on entering, as far as streams are concerned -/
theorem enter_streams (p : PortalId) (f : Nat) (io : Io) (s : St) :
    (∃ e s1, (newFrame p f s).1.enter io (newFrame p f s).2 = (.error e, s1) ∧ Still (newFrame p f s).2 s1) ∨
    (∃ r s1, (newFrame p f s).1.enter io (newFrame p f s).2 = (r, s1) ∧ Still (capturing s) s1) := by
  unfold Frame.enter
  have h1 := still_enter p (newFrame p f s).2
  simp only [PyM.bind]
  cases hm : enterP (newFrame p f s).1.portal (newFrame p f s).2 with
  | mk r s1 =>
    have hm' : enterP p (newFrame p f s).2 = (r, s1) := hm
    rw [hm'] at h1
    have h1 : Still (newFrame p f s).2 s1 := h1
    cases r with
    | error e => exact .inl ⟨e, s1, rfl, h1⟩
    | ok x =>
      refine .inr ?_
      simp only [PyM.modify]
      refine ⟨_, _, rfl, ?_⟩
      have h2 : Still (capturing s) { s1 with
          out := (newFrame p f s).1.buffer :: (newFrame p f s).1.saved
          stacks := fun g => if g = (newFrame p f s).1.fn then (newFrame p f s).1.run :: s1.stacks g else s1.stacks g } :=
        ⟨h1.screen, h1.buffers, rfl, h1.next⟩
      refine h2.trans ?_
      exact still_bind (still_write _ _) fun _ s3 => by
        have h3 : Still s3 { s3 with attempts := s3.attempts ++ [(newFrame p f s).1.run] } := ⟨rfl, rfl, rfl, rfl⟩
        exact h3.trans (still_write _ _)

/-- what a frame does on leaving -/
theorem exit_streams (fr : Frame) (io : Io) (e : Option Exc) (s : St) : Still (closing fr e s) (fr.exit io e s).2 := by
  rw [frame_closing]
  exact still_bind (still_write _ _) fun _ s1 => still_bind ⟨rfl, rfl, rfl, rfl⟩ fun _ s2 =>
    still_bind (still_exit _ _ _) fun _ s3 => ⟨rfl, rfl, rfl, rfl⟩

theorem closing_tee (fr : Frame) (e : Option Exc) (s : St) : ∃ d s', Tee d s s' ∧ (closing fr e s).screen = s'.screen ∧
    (closing fr e s).buffers = s'.buffers ∧ (closing fr e s).nextBuf = s'.nextBuf ∧ (closing fr e s).out = fr.saved := by
  cases e with
  | none => exact ⟨[], s, (Still.refl s).tee, rfl, rfl, rfl, rfl⟩
  | some e => exact ⟨_, _, print_tee (traceback e.kind) s, rfl, rfl, rfl, rfl⟩

theorem closed_tee {d : List String} {s s2 s4 : St} (p : PortalId) (f : Nat) (e : Option Exc) (h : Tee d (capturing s) s2)
    (hx : Still (closing (newFrame p f s).1 e s2) s4) : ∃ d, Tee d s s4 := by
  obtain ⟨d', s3, h1, h2, h3, h4, h5⟩ := closing_tee (newFrame p f s).1 e s2
  exact ⟨d ++ d', (h.trans h1).frame (hx.screen.trans h2) (hx.buffers.trans h3) (hx.next.trans h4) (.inl (hx.out.trans h5))⟩

theorem handled_still {e : Exc} {fr : Frame} {io : Io} {s : St} :
    Still (closing fr (some e) s) (handlingE e (fr.exit io (some e)) s).2 := by
  have h := exit_streams fr io (some e) { s with handling := e :: s.handling }
  unfold handlingE
  cases hm : fr.exit io (some e) { s with handling := e :: s.handling } with
  | mk r s' => rw [hm] at h; exact ⟨h.screen, h.buffers, h.out, h.next⟩

theorem with_tee {enter : M} {exit : Option Exc → M} {body : M} {s : St} (he : Still s (enter s).2)
    (hb : ∀ s', ∃ d, Tee d s' (body s').2) (hx : ∀ e s', Still s' (exit e s').2) : ∃ d, Tee d s (withM enter exit body s).2 := by
  unfold withM
  cases hm : enter s with
  | mk r s1 =>
    rw [hm] at he
    have he : Still s s1 := he
    cases r with
    | error e => exact ⟨_, he.tee⟩
    | ok x =>
      obtain ⟨d, h1⟩ := hb s1
      have h2 := he.tee.trans h1
      rw [List.nil_append] at h2
      simp only
      cases hm2 : body s1 with
      | mk r2 s2 =>
        rw [hm2] at h2
        have h2 : Tee d s s2 := h2
        cases r2 with
        | ok y => exact ⟨d, h2.still (hx none s2)⟩
        | error e =>
          have h3 : Still s2 (handlingE e (exit (some e)) s2).2 := still_handling (hx (some e))
          simp only
          cases hm3 : handlingE e (exit (some e)) s2 with
          | mk r3 s3 => rw [hm3] at h3; cases r3 <;> exact ⟨d, h2.still h3⟩

theorem handling_tee {e : Exc} {m : M} {s : St} (h : ∀ s', ∃ d, Tee d s' (m s').2) : ∃ d, Tee d s (handlingE e m s).2 := by
  obtain ⟨d, h1⟩ := h { s with handling := e :: s.handling }
  refine ⟨d, ?_⟩
  unfold handlingE
  cases hm : m { s with handling := e :: s.handling } with
  | mk r s' =>
    rw [hm] at h1
    exact ⟨h1.screen, h1.captured, h1.others, h1.next, h1.stay, h1.new,
      fun hc => ⟨(h1.clean ⟨hc.unused, hc.used⟩).unused, (h1.clean ⟨hc.unused, hc.used⟩).used⟩⟩

/-- every program, whatever fails -/
theorem tees (a : Prog) : ∀ s, ∃ d, Tee d s (a.run s).2 := by
  induction a with
  | skip => exact fun s => ⟨_, (Still.refl s).tee⟩
  | raise n => exact fun s => ⟨_, (still_raise _ s).tee⟩
  | print t => exact fun s => ⟨_, print_tee t s⟩
  | store ok => exact fun s => ⟨_, (still_write ok s).tee⟩
  | seq a b iha ihb =>
    intro s
    obtain ⟨d, h1⟩ := iha s
    simp only [Prog.run, PyM.bind]
    cases hm : a.run s with
    | mk r s1 =>
      rw [hm] at h1
      cases r with
      | error e => exact ⟨d, h1⟩
      | ok x => obtain ⟨d', h2⟩ := ihb s1; exact ⟨_, h1.trans h2⟩
  | tryExcept a b iha ihb =>
    intro s
    obtain ⟨d, h1⟩ := iha s
    simp only [Prog.run, PyM.tryExcept]
    cases hm : a.run s with
    | mk r s1 =>
      rw [hm] at h1
      cases r with
      | ok x => exact ⟨d, h1⟩
      | error e => obtain ⟨d', h2⟩ := handling_tee (e := e) (s := s1) ihb; exact ⟨_, h1.trans h2⟩
  | within p log a ih => exact fun s => with_tee (still_enter p s) ih fun _ s' => still_exit log p s'
  | logged ok a ih =>
    intro s
    obtain ⟨d, h1⟩ := ih s
    simp only [Prog.run, FrameFail.logged]
    cases hm : a.run s with
    | mk r s1 =>
      rw [hm] at h1
      cases r with
      | ok x => exact ⟨d, h1⟩
      | error e =>
        have h2 := h1.still (still_handling (e := e) (still_persist ok e))
        simp only
        cases hx : FrameFail.handlingE e (FrameFail.persist ok e) s1 with
        | mk r2 s2 => rw [hx] at h2; cases r2 <;> exact ⟨d, h2⟩
  | frame p f io a ih =>
    intro s
    simp only [Prog.run, FrameFail.withFrame, withM]
    rcases enter_streams p f io s with ⟨e, s1, hm, h1⟩ | ⟨r, s1, hm, h1⟩
    · rw [hm]
      refine ⟨[], ?_⟩
      have h2 : Tee [] s (newFrame p f s).2 :=
        ⟨by simp [newFrame], fun b _ => by simp [newFrame], fun b _ _ => rfl, Nat.le_succ _, fun _ h => h, fun _ h => .inl h,
          fun hc => ⟨fun b hb => hc.unused b (Nat.le_trans (Nat.le_succ _) hb), fun b hb => Nat.lt_succ_of_lt (hc.used b hb)⟩⟩
      exact h2.still h1
    · rw [hm]
      cases r with
      | error e => exact ⟨[], h1.tee.frame rfl rfl rfl (.inr rfl)⟩
      | ok x =>
        obtain ⟨d, h2⟩ := ih s1
        have h3 := h1.tee.trans h2
        simp only
        cases hm2 : a.run s1 with
        | mk r2 s2 =>
          rw [hm2] at h3
          cases r2 with
          | ok y => exact closed_tee p f none h3 (exit_streams _ io none s2)
          | error e =>
            have h4 := closed_tee p f (some e) h3 (handled_still (io := io))
            simp only
            cases hm3 : FrameFail.handlingE e ((newFrame p f s).1.exit io (some e)) s2 with
            | mk r3 s3 => rw [hm3] at h4; cases r3 <;> exact h4

theorem exit_outputs (ok : Bool) (p : PortalId) (s : St) : (exitP ok p s).2.outputs = s.outputs := by
  have h1 : (logger ok s).2.outputs = s.outputs := by
    unfold logger
    cases s.handling with
    | nil => rfl
    | cons e l =>
      show (persist ok e s).2.outputs = s.outputs
      unfold persist
      split
      · rfl
      · cases ok <;> rfl
  simp only [exitP, PyM.bind]
  cases hm : logger ok s with
  | mk r s1 =>
    rw [hm] at h1
    cases r with
    | error e => exact h1
    | ok x =>
      simp only [baseExit]
      cases Portal.exit p s1.sys with
      | ok y => exact h1
      | error e => exact h1

/-- the output stored on leaving a frame -/
theorem exit_stores (fr : Frame) (io : Io) (ho : io.output = true) (e : Option Exc) (s : St) :
    (fr.run, (closing fr e s).buffers fr.buffer) ∈ (fr.exit io e s).2.outputs := by
  rw [frame_closing]
  simp only [PyM.bind, write, ho, if_true, PyM.modify]
  have ho : (exitP io.log fr.portal { closing fr e s with
      outputs := (closing fr e s).outputs ++ [(fr.run, (closing fr e s).buffers fr.buffer)] }).2.outputs =
      (closing fr e s).outputs ++ [(fr.run, (closing fr e s).buffers fr.buffer)] := exit_outputs _ _ _
  cases hm : exitP io.log fr.portal { closing fr e s with
      outputs := (closing fr e s).outputs ++ [(fr.run, (closing fr e s).buffers fr.buffer)] } with
  | mk r s3 =>
    rw [hm] at ho
    have ho : s3.outputs = _ := ho
    cases r with
    | ok x => show _ ∈ s3.outputs; rw [ho]; simp
    | error e => show _ ∈ s3.outputs; rw [ho]; simp

end Pyth.FrameFail
