import Verif.Spec.SwarmJoin
import Verif.Props.SwarmDone
/-!
# Waiting for calls that others make
-/
namespace Pyth.Parts
open Pyth.Pure (Val FnId)

variable {U A P : Type} [DecidableEq P] [DecidableEq A] {h : Val U A → A}
  {code : FnId → List (String × Val U A) → Code U A P} {T : Prop} {knows : P → List P → Prop} {i : Nat}
  {τ : Nat → State U A P} {w : Nat → Nat}

/-- What process `i` does, in states `τ n` such that `B n`: unless it is at rest it takes a step, and until then its program is the same;
everything stays in order, and grows. -/
structure Track (h : Val U A → A) (code : FnId → List (String × Val U A) → Code U A P) (T : Prop) (knows : P → List P → Prop)
    (i : Nat) (τ : Nat → State U A P) (B : Nat → Prop) : Prop where
  next : ∀ n, B n → ¬ Resting ((τ n).procs i) → ∃ m, n ≤ m ∧ B m ∧ B (m + 1) ∧ (τ m).procs i = (τ n).procs i ∧
    Act h code T knows i (τ m) (τ (m + 1))
  grow : ∀ n m, n ≤ m → B n → B m → AllOk h code T True (τ n) → AllOk h code T True (τ m) ∧ Grow (τ n) (τ m)

variable {B : Nat → Prop}

/-- the claims "at some later time" -/
def Later (W : {n // B n} → Prop) : Prop := ∃ G : Nat → Prop, W = fun n => ∃ m, n.1 ≤ m ∧ G m

theorem Track.steppable (al : Track h code T knows i τ B) :
    Steppable h code T knows i (fun n : {n // B n} => τ n.1) Later := by
  rintro _ ⟨G, rfl⟩ ⟨n, bn⟩ x o e busy can all
  obtain ⟨m, h1, b1, b2, h2, h3⟩ := al.next n bn (e ▸ busy)
  obtain ⟨o1, g1⟩ := al.grow n m h1 bn b1 o
  obtain ⟨o2, g2⟩ := al.grow n (m + 1) (by omega) bn b2 o
  obtain ⟨u, hu, hg⟩ := all (τ m) ⟨m + 1, b2⟩ o1 g1 (h2.trans e) h3 o2 g2
  exact ⟨u, by simp only at hu ⊢; omega, hg⟩

/-- a round of the waiting loop when the result is there -/
theorem round_there_ok {p : P} {os : List P} {a : A} {again : Io U A P} {s : Shared U A P}
    {Q : Reply U A P → Shared U A P → Prop} {J : Need A P → Prop} (hr : (s.results p a).isSome = true)
    (q : ∀ v, Correct h code True a (h v) → ∀ t, Q (.got a v) t) : Ok h code T True J Q (round h p os a again) s := by
  unfold round ready
  intro t lt it
  have h1 := lt.results p a hr
  cases e : t.results p a with
  | none => rw [e] at h1; cases h1
  | some r =>
    refine readResult_ok h1 fun u lu iu r hr => ?_
    obtain ⟨_, ns⟩ | ⟨v, rfl, cr⟩ := hr
    · exact absurd trivial ns
    exact ok_drop fun x lx _ => ok_got cr fun z _ => q v cr z

theorem Correct.outcome (inj : Function.Injective h) {f : FnId} {kw : List (String × Val U A)} {v : Val U A}
    (x : Correct h code True (callOf h f kw) (h v)) : Outcome h code True (code f kw) (.val v) := by
  obtain ⟨f', kw', v', e1, e2, e3⟩ := x
  obtain ⟨rfl, rfl⟩ := callOf_inj inj e1
  rw [inj e2]
  exact e3

theorem torn_answer (inj : Function.Injective h) {f : FnId} {kw : List (String × Val U A)} {p q : P} {os : List P} {n : Option Nat}
    (x : Torn h code True (callOf h f kw)) (t : Shared U A P) (_ : (t.results q (callOf h f kw)).isSome = true) :
    Answer h code True (.getResult p os (callOf h f kw) n) .clash := by
  obtain ⟨f', kw', v, w, e, x1, x2, ne⟩ := x
  obtain ⟨rfl, rfl⟩ := callOf_inj inj e
  exact .clash _ f kw v w rfl x1 x2 ne

/-- If the result arrives some time, whoever waits for it will get it. -/
theorem Track.await (inj : Function.Injective h) (al : Track h code T knows i τ B) {p : P} {f : FnId}
    {kw : List (String × Val U A)}
    (served : ∀ n os, B n → ((τ n).procs i).mode = .io (.wait p os (callOf h f kw)) →
      ∃ N, ∀ k, N ≤ k → ((τ k).sh.results p (callOf h f kw)).isSome = true) :
    AwaitGets h code T i (fun n : {n // B n} => τ n.1) Later p f kw := by
  rintro _ ⟨G, rfl⟩ ⟨n, bn⟩ os st job hos o e hc hk
  have sp := al.steppable
  obtain ⟨N, hN⟩ := served n os bn (by rw [e])
  -- the next step starts a round
  have start : ∀ k os, B k → (τ k).procs i = ⟨.io (.wait p os (callOf h f kw)), st, job⟩ → ∃ m, k < m ∧ B m ∧
      (τ m).procs i = ⟨.io (round h p os (callOf h f kw) (.wait p os (callOf h f kw))), st, job⟩ := by
    intro k os bk ek
    obtain ⟨m, h1, _, b2, h2, h3⟩ := al.next k bk (ek ▸ busy_io)
    have h4 := h2.trans ek
    refine ⟨m + 1, by omega, b2, ?_⟩
    obtain ⟨_, h5⟩ := act_io h4 rfl h3
    rw [h5]
    simp [ioNext, State.goto, h4]
  -- one round after the other
  have loop : ∀ d, (∃ m, n ≤ m ∧ G m) ∨ ∃ k os, n + d ≤ k ∧ B k ∧ (T → ∀ q, q = p ∨ q ∈ os) ∧
      (τ k).procs i = ⟨.io (.wait p os (callOf h f kw)), st, job⟩ := by
    intro d
    induction d with
    | zero => exact .inr ⟨n, os, Nat.le_refl n, bn, hos, e⟩
    | succ d ih =>
      rcases ih with ih | ⟨k, os, hk1, bk, hos, ek⟩
      · exact .inl ih
      · obtain ⟨m, hm, bm, em⟩ := start k os bk ek
        obtain ⟨om, gm⟩ := al.grow n m (by omega) bn bm o
        have := io_gets (J := fun x => match x with
            | .run _ => False
            | .await q a => q = p ∧ a = callOf h f kw)
          (Q := fun r _ => Answer h code True (.getResult p os (callOf h f kw) none) r)
          (st := st) (job := job) (W := fun n' : {n // B n} => ∃ m', n'.1 ≤ m' ∧ (G m' ∨ ∃ os, B m' ∧ (T → ∀ q, q = p ∨ q ∈ os) ∧
            (τ m').procs i = ⟨.io (.wait p os (callOf h f kw)), st, job⟩)) (n := ⟨m, bm⟩)
          sp (fun f' kw' x => x.elim) ⟨_, rfl⟩ (round h p os (callOf h f kw) (.wait p os (callOf h f kw))) om em
          (by
            have wo : WaitOk h code T True (fun r _ => Answer h code True (.getResult p os (callOf h f kw) none) r)
                p os (callOf h f kw) (τ m).sh :=
              ⟨hc.mono gm.le, fun _ => hos, fun x => absurd trivial x,
                torn_answer inj, fun v hv t _ => .call _ f kw v rfl (hv.outcome inj)⟩
            exact round_ok inj wo fun t lt => (wo.mono lt).ok ⟨rfl, rfl⟩)
          (fun u r ou gu eu hr => by
            obtain ⟨x, hx, gx⟩ := hk u r ou (gm.trans gu) eu (hr.ask _ (.refl _)).away
            exact ⟨x, hx, .inl gx⟩)
          (fun u q os2 a ou gu eu hx => by
            obtain ⟨⟨rfl, rfl⟩, _, h3, _, _⟩ := hx
            exact ⟨u.1, Nat.le_refl u.1, .inr ⟨os2, u.2, h3 trivial, eu⟩⟩)
        obtain ⟨x, hx, hx2⟩ := this
        simp only at hx
        rcases hx2 with hx2 | ⟨os2, b3, h3, hx2⟩
        · exact .inl ⟨x, by omega, hx2⟩
        · exact .inr ⟨x, os2, by omega, b3, h3, hx2⟩
  rcases loop N with hl | ⟨k, os, hk1, bk, hos, ek⟩
  · exact hl
  · obtain ⟨m, hm, bm, em⟩ := start k os bk ek
    obtain ⟨om, gm⟩ := al.grow n m (by omega) bn bm o
    have hr := hN m (by omega)
    obtain ⟨x, hx, gx⟩ := io_gets (J := fun _ => False)
      (Q := fun r _ => Answer h code True (.getResult p os (callOf h f kw) none) r)
      (st := st) (job := job) (W := fun n' : {n // B n} => ∃ m', n'.1 ≤ m' ∧ G m') (n := ⟨m, bm⟩)
      sp (fun f' kw' x => x.elim) ⟨_, rfl⟩ (round h p os (callOf h f kw) (.wait p os (callOf h f kw))) om em
      (round_there_ok hr fun v hv t => .call _ f kw v rfl (hv.outcome inj))
      (fun u r ou gu eu hr => hk u r ou (gm.trans gu) eu (hr.ask _ (.refl _)).away)
      (fun u q os2 a ou gu eu hx => hx.1.elim)
    exact ⟨x, by simp only at hx ⊢; omega, gx⟩

/-- process `i` has been busy from time `m` to (before) time `n` -/
def Busy (σ : Nat → State U A P) (i m n : Nat) : Prop := m ≤ n ∧ ∀ l, m ≤ l → l < n → ¬ Resting ((σ l).procs i)

omit [DecidableEq P] [DecidableEq A] in
theorem Busy.refl (σ : Nat → State U A P) (i m : Nat) : Busy σ i m m := ⟨Nat.le_refl m, fun l h1 h2 => absurd h1 (by omega)⟩

/-- What is needed of an infinite execution.  `V i s` is what process `i` sees of state `s`. -/
structure Course (h : Val U A → A) (code : FnId → List (String × Val U A) → Code U A P) (T : Prop) (knows : P → List P → Prop)
    (σ : Nat → State U A P) (who : Nat → Nat) (V : Nat → State U A P → State U A P) : Prop where
  sh : ∀ i s, (V i s).sh = s.sh
  proc : ∀ i s, (V i s).procs i = s.procs i
  trail : ∀ i m, AliveFrom h code T knows i σ who m → Track h code T knows i (fun n => V i (σ n)) (Busy σ i m)
  found : ∀ n i x, (σ n).procs i = {} → Act h code T knows i (σ n) ((σ n).setProc i x) →
    AllOk h code T True (V i ((σ n).setProc i x))
  keep : ∀ n m p a, n ≤ m → ((σ n).sh.results p a).isSome = true → ((σ m).sh.results p a).isSome = true
  asked : ∀ n m p a, NeverDropped σ who p a → n ≤ m → Asked (σ n).sh p a → Asked (σ m).sh p a
  awaited : ∀ n i p os a, NeverDropped σ who p a → ((σ n).procs i).mode = .io (.wait p os a) → Asked (σ n).sh p a
  value : ∀ n p f kw r, (σ n).sh.results p (callOf h f kw) = some r → ∃ v, r = h v ∧ Outcome h code True (code f kw) (.val v)

variable {σ : Nat → State U A P} {who : Nat → Nat} {V : Nat → State U A P → State U A P}

/-- a call that is asked for gets done if workers come to the end of its code -/
theorem Course.doneWith (inj : Function.Injective h) (kn : T → KnowsAll knows)
    (R : Course h code T knows σ who V) {p : P} {f : FnId} {kw : List (String × Val U A)}
    (nd : NeverDropped σ who p (callOf h f kw)) (sv : Served h code T knows σ who p (callOf h f kw))
    (run : ∀ {i m : Nat}, AliveFrom h code T knows i σ who m →
      CodeGets h code T i (fun n : {n // Busy σ i m n} => V i (σ n.1)) Later [] [] (code f kw))
    (well : ¬ Outcome h code True (code f kw) .raised) {n : Nat} (ha : Asked (σ n).sh p (callOf h f kw)) :
    ∃ N, n ≤ N ∧ ∀ k, N ≤ k → ((σ k).sh.results p (callOf h f kw)).isSome = true := by
  by_cases e : ∃ m, n ≤ m ∧ ((σ m).sh.results p (callOf h f kw)).isSome = true
  · obtain ⟨m, h1, h2⟩ := e
    exact ⟨m, h1, fun k hk => R.keep m k p _ hk h2⟩
  · exfalso
    have req : ∀ m, n ≤ m → (σ m).sh.requests p (callOf h f kw) = true := by
      intro m hm
      rcases R.asked _ _ _ _ nd hm ha with x | x
      · exact x
      · exact absurd ⟨m, hm, x⟩ e
    obtain ⟨m, i, os, h1, hk, hi, hs, al⟩ := sv n req
    have o := R.found m i _ hi (.found p os _ hi hk (req m h1))
    rw [← hs] at o
    obtain ⟨k, h2, h3⟩ := work_gets (at' := fun n : {n // Busy σ i (m + 1) n} => V i (σ n.1))
      (W := fun n' => ∃ m', n'.1 ≤ m' ∧ ((σ m').sh.results p (callOf h f kw)).isSome = true)
      (n := ⟨m + 1, Busy.refl _ _ _⟩) inj (R.trail i _ al).steppable (fun z => kn z p os hk) (run al) ⟨_, rfl⟩ o
      (st := []) (job := some (callOf h f kw)) (by simp only [hs]; rw [R.proc]; simp [State.setProc])
      (o.inv.requests p _ (by rw [R.sh]; exact req _ (by omega))) fun u r _ _ _ hu => by
        rcases hu with ⟨v, h4, _⟩ | h4
        · exact ⟨u.1, Nat.le_refl u.1, by rw [R.sh] at h4; rw [h4]; rfl⟩
        · exact absurd h4 well
    exact e ⟨k, by simp only at h2; omega, h3⟩

/-- calls that wait for other calls come to an end -/
theorem Course.runs (inj : Function.Injective h) (kn : T → KnowsAll knows)
    (lawful : ∀ f kw, Lawful h code T knows [] [] (code f kw))
    (R : Course h code T knows σ who V)
    (fair : ∀ p a, Awaited σ p a → NeverDropped σ who p a ∧ Served h code T knows σ who p a)
    {c : Code U A P} (x : Halts h code True c) :
    ∀ {i m : Nat} {vs rs : List (P × A)}, AliveFrom h code T knows i σ who m →
    Lawful h code T knows vs rs c → CodeGets h code T i (fun n : {n // Busy σ i m n} => V i (σ n.1)) Later vs rs c := by
  induction x with
  | ret v => exact fun _ _ => codeGets_ret
  | raise => exact fun _ _ => codeGets_raise
  | op c next run may call well rest ih1 ih2 ih3 =>
    intro i m vs rs al l
    cases l with
    | op _ _ _ _ legal hn =>
    refine codeGets_op inj kn (R.trail i m al).steppable (fun f kw hr => ih1 f kw hr al (lawful f kw))
      (fun p os f kw e => ?_) legal fun r hr => ih3 r hr al (hn r hr)
    refine (R.trail i m al).await inj fun n os' _ hm => ?_
    rw [R.proc] at hm
    obtain ⟨nd, sv⟩ := fair p (callOf h f kw) ⟨n, i, os', hm⟩
    obtain ⟨N, _, hN⟩ := R.doneWith inj kn nd sv (fun al' => ih2 p os f kw e al' (lawful f kw)) (well p os f kw e)
      (R.awaited n i p os' _ nd hm)
    exact ⟨N, fun k' hk' => by rw [R.sh]; exact hN _ hk'⟩

/-- a call that is asked for gets its value -/
theorem Course.done (inj : Function.Injective h) (kn : T → KnowsAll knows)
    (lawful : ∀ f kw, Lawful h code T knows [] [] (code f kw)) (R : Course h code T knows σ who V)
    (fair : ∀ p a, Awaited σ p a → NeverDropped σ who p a ∧ Served h code T knows σ who p a) {p : P} {f : FnId}
    {kw : List (String × Val U A)} (nd : NeverDropped σ who p (callOf h f kw))
    (sv : Served h code T knows σ who p (callOf h f kw)) (halts : Halts h code True (code f kw)) {v : Val U A}
    (one : ∀ r, Outcome h code True (code f kw) r → r = .val v) {n : Nat} (ha : Asked (σ n).sh p (callOf h f kw)) :
    ∃ m, n ≤ m ∧ ∀ k, m ≤ k → (σ k).sh.results p (callOf h f kw) = some (h v) := by
  obtain ⟨N, h4, h5⟩ := R.doneWith inj kn nd sv (fun al => R.runs inj kn lawful fair halts al (lawful _ _))
    (fun x => by cases one _ x) ha
  refine ⟨N, h4, fun k hk => ?_⟩
  obtain ⟨r, hr⟩ := Option.isSome_iff_exists.1 (h5 k hk)
  obtain ⟨w, rfl, hw⟩ := R.value k p f kw r hr
  cases one _ hw
  exact hr

/-- a program comes to its end -/
theorem Course.ends (inj : Function.Injective h) (kn : T → KnowsAll knows)
    (lawful : ∀ f kw, Lawful h code T knows [] [] (code f kw)) (R : Course h code T knows σ who V)
    (fair : ∀ p a, Awaited σ p a → NeverDropped σ who p a ∧ Served h code T knows σ who p a) {k i : Nat}
    (al : AliveFrom h code T knows i σ who k) {c : Code U A P} (o : AllOk h code T True (V i (σ k)))
    (hi : (σ k).procs i = ⟨.code c, [], none⟩) (lawful' : Lawful h code T knows [] [] c) (halts : Halts h code True c) :
    ∃ m, k ≤ m ∧ ((∃ v, (σ m).procs i = ⟨.code (.ret v), [], none⟩ ∧ Outcome h code True c (.val v)) ∨
      ((σ m).procs i = ⟨.code .raise, [], none⟩ ∧ Outcome h code True c .raised)) := by
  refine R.runs inj kn lawful fair halts al lawful'
    (fun n => ∃ m, n.1 ≤ m ∧ ((∃ v, (σ m).procs i = ⟨.code (.ret v), [], none⟩ ∧ Outcome h code True c (.val v)) ∨
      ((σ m).procs i = ⟨.code .raise, [], none⟩ ∧ Outcome h code True c .raised))) ⟨_, rfl⟩ ⟨k, Busy.refl _ _ _⟩ [] none
    o ((R.proc _ _).trans hi) (Has.nil _) fun m r _ _ em hr => ?_
  refine ⟨m.1, Nat.le_refl m.1, ?_⟩
  simp only [R.proc] at em
  rcases hr.bodyReply with ⟨v, rfl⟩ | rfl
  · exact .inl ⟨v, em, hr⟩
  · exact .inr ⟨em, hr⟩

/-- `addr.get()` without a timeout returns -/
theorem Course.get (inj : Function.Injective h) (kn : T → KnowsAll knows)
    (lawful : ∀ f kw, Lawful h code T knows [] [] (code f kw)) (R : Course h code T knows σ who V)
    (fair : ∀ p a, Awaited σ p a → NeverDropped σ who p a ∧ Served h code T knows σ who p a) {k i : Nat}
    (al : AliveFrom h code T knows i σ who k) (o : AllOk h code T True (V i (σ k))) {p : P} (some : ∃ os, knows p os) {os : List P}
    {f : FnId} {kw : List (String × Val U A)} {next : Reply U A P → Code U A P} {st : List (Frame U A P)} {job : Option A}
    (hi : (σ k).procs i = ⟨.code (.op (.getResult p os (callOf h f kw) none) next), st, job⟩)
    (held : Held T (V i (σ k)).raddrs p (callOf h f kw)) (halts : Halts h code True (code f kw))
    (well : ¬ Outcome h code True (code f kw) .raised) :
    ∃ m, k ≤ m ∧ ((∃ v, (σ m).procs i = ⟨.code (next (.got (callOf h f kw) v)), st, job⟩ ∧
      Outcome h code True (code f kw) (.val v)) ∨ ((σ m).procs i = ⟨.code (next .clash), st, job⟩ ∧
      ∃ v w, v ≠ w ∧ Outcome h code True (code f kw) (.val v) ∧ Outcome h code True (code f kw) (.val w))) := by
  obtain ⟨os', hos⟩ := some
  have := op_gets (at' := fun n : {n // Busy σ i k n} => V i (σ n.1))
    (W := fun n => ∃ m, n.1 ≤ m ∧ ∃ r, Answer h code True (.getResult p os (callOf h f kw) none : Cmd U A P) r ∧
      (σ m).procs i = ⟨.code (next r), st, job⟩) inj kn (R.trail i k al).steppable
    (c := .getResult p os (callOf h f kw) none) (fun f' kw' e => e.elim) (fun p' os2 f' kw' e => ?_)
    ⟨p, os', hos, held⟩ ⟨_, rfl⟩ (n := ⟨k, Busy.refl _ _ _⟩) o ((R.proc _ _).trans hi)
    ⟨fun _ x => x, fun _ x => x⟩ fun m r _ _ _ em hr => ⟨m.1, Nat.le_refl m.1, r, hr, (R.proc _ _).symm.trans em⟩
  · obtain ⟨m, hm, r, hr, em⟩ := this
    cases hr with
    | call f' vs v e x =>
      obtain ⟨rfl, rfl⟩ := callOf_inj inj e
      exact ⟨m, hm, .inl ⟨v, em, x⟩⟩
    | raised f' vs e x => exact e.elim
    | other _ e =>
      cases r <;> first | exact e.elim | skip
      exact absurd rfl e
    | missing e => exact absurd trivial e
    | clash f' vs v w e x x' ne =>
      obtain ⟨rfl, rfl⟩ := callOf_inj inj e
      exact ⟨m, hm, .inr ⟨em, v, w, ne, x, x'⟩⟩
  · injection e with e1 e2 e3 e4
    subst e1
    obtain ⟨rfl, rfl⟩ := callOf_inj inj e3
    refine (R.trail i k al).await inj fun n os' _ hm => ?_
    rw [R.proc] at hm
    obtain ⟨nd, sv⟩ := fair p (callOf h f kw) ⟨n, i, os', hm⟩
    obtain ⟨N, _, hN⟩ := R.doneWith inj kn nd sv (fun al => R.runs inj kn lawful fair halts al (lawful _ _)) well
      (R.awaited n i p os' _ nd hm)
    exact ⟨N, fun k' hk' => by rw [R.sh]; exact hN _ hk'⟩

/-- an execution without failing accesses -/
theorem Run.course (inj : Function.Injective h) (kn : T → KnowsAll knows) (R : Run h code T knows σ who) :
    Course h code T knows σ who (fun _ s => s) where
  sh := fun _ _ => rfl
  proc := fun _ _ => rfl
  trail := fun i m al =>
    { next := fun n bn busy => by
        obtain ⟨k, h1, _, h3, _, h5, h6⟩ := al.next (fun n hn => step_other hn (R.step n)) bn.1 bn.2 busy
        exact ⟨k, h1, ⟨Nat.le_trans bn.1 h1, fun l hl1 hl2 => h6 l hl1 (by omega)⟩, ⟨by have := bn.1; omega, h6⟩, h3 k h1 (Nat.le_refl k), h5⟩
      grow := fun n m hn bn bm o => by
        obtain ⟨d, rfl⟩ := Nat.exists_eq_add_of_le hn
        clear hn bm
        induction d with
        | zero => exact ⟨o, .refl _⟩
        | succ d ih =>
          exact ⟨step_ok inj (fun _ => kn) ih.1 (R.step _), ih.2.trans (step_grow inj ih.1 (R.step _))⟩ }
  found := fun n i x hi hx => act_ok inj (fun _ => kn) ((R.reachable n).ok inj fun _ => kn) hx
  keep := fun n m p a hn hr => by
    obtain ⟨d, rfl⟩ := Nat.exists_eq_add_of_le hn
    clear hn
    induction d with
    | zero => exact hr
    | succ d ih => exact isSome_step (R.reachable _) (R.step _) p _ ih
  asked := fun n m p a nd hn ha => R.asked nd hn ha
  awaited := fun n i p os a nd hm => C92_awaited_is_requested
    (R.calm (N := fun q b => q = p ∧ b = a) (fun q b e => by obtain ⟨rfl, rfl⟩ := e; exact nd) _) hm ⟨rfl, rfl⟩
  value := fun n p f kw r hr => by
    obtain ⟨f', kw', w, e1, e2, e3⟩ := (((R.reachable n).ok (strict := True) inj fun _ => kn).inv.results p _ r hr).2.2
    obtain ⟨rfl, rfl⟩ := callOf_inj inj e1
    exact ⟨w, e2, e3⟩

end Pyth.Parts
