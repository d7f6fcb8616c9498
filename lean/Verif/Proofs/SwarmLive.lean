import Verif.Spec.SwarmLive
import Verif.Proofs.SwarmValues
/-!
# Termination under interference
-/
namespace Pyth.Parts
open Pyth.Pure (Val FnId)

variable {U A P : Type} [DecidableEq P] [DecidableEq A] {h : Val U A → A}
  {code : FnId → List (String × Val U A) → Code U A P} {T : Prop} {knows : P → List P → Prop} {i : Nat}
  {G : State U A P → Prop}

omit [DecidableEq P] [DecidableEq A] in
theorem step_other [DecidableEq P] [DecidableEq A] {j : Nat} {s t : State U A P} (hj : j ≠ i)
    (x : Step h code T knows j s t) : t.procs i = s.procs i := by
  have e : ∀ y, Function.update s.procs j y i = s.procs i := fun y => Function.update_of_ne (Ne.symm hj) _ _
  cases x with
  | crash => exact e _
  | act _ x => cases x <;> exact e _

/-- `Will` in infinite executions -/
theorem Will.alive {s : State U A P} (w : Will h code T knows i G s) : ∀ {σ : Nat → State U A P} {who : Nat → Nat} (n : Nat),
    Alive h code T knows i σ who → σ n = s → ∃ m, n ≤ m ∧ G (σ m) := by
  induction w with
  | now s g => intro σ who n al e; exact ⟨n, Nat.le_refl n, e ▸ g⟩
  | later s busy can all ih =>
    intro σ who n al e
    obtain ⟨m, hm, hw⟩ := al.again n (e ▸ busy)
    -- the first own step after n
    have key : ∀ k, n + k ≤ m → (∀ j, n ≤ j → j < n + k → who j ≠ i) → Others h code T knows i s (σ (n + k)) := by
      intro k
      induction k with
      | zero => intro _ _; rw [Nat.add_zero, e]; exact .refl
      | succ k ihk =>
        intro hk hj
        exact .step (who (n + k)) (hj _ (Nat.le_add_right _ _) (by omega)) (ihk (by omega) fun j h1 h2 => hj j h1 (by omega))
          (al.step (n + k))
    have hex : ∃ k, n + k ≤ m ∧ who (n + k) = i := ⟨m - n, by omega, by rw [Nat.add_sub_cancel' hm]; exact hw⟩
    classical
    let k := Nat.find hex
    obtain ⟨h1, h2⟩ := Nat.find_spec hex
    have ho := key k h1 fun j hj1 hj2 hj3 => by
      have := Nat.find_min hex (m := j - n) (by omega)
      exact this ⟨by omega, by rw [Nat.add_sub_cancel' hj1]; exact hj3⟩
    have he : (σ (n + k)).procs i = s.procs i := by
      clear h1 h2 ih all can
      generalize σ (n + k) = u at ho
      induction ho with
      | refl => rfl
      | step j hj x y ih' => exact (step_other hj y).trans ih'
    obtain ⟨m', h3, h4⟩ := ih _ _ ho (al.own _ h2 (he ▸ busy)) (n + k + 1) al rfl
    exact ⟨m', by omega, h4⟩

/-- process `i` alone can do it -/
theorem Will.possible {s : State U A P} (w : Will h code T knows i G s) : ∃ t, Steps h code T knows s t ∧ G t := by
  induction w with
  | now s g => exact ⟨s, .refl s, g⟩
  | later s busy can all ih =>
    obtain ⟨t, ht⟩ := can s .refl
    obtain ⟨u, hu, g⟩ := ih s t .refl ht
    refine ⟨u, ?_, g⟩
    clear g
    induction hu with
    | refl => exact .step i (.refl _) (.act _ ht)
    | step j x y ih' => exact .step j ih' y

variable {strict : Prop}

theorem Others.spec (inj : Function.Injective h) (kn : strict → T → KnowsAll knows) {s t : State U A P}
    (o : AllOk h code T strict s) (x : Others h code T knows i s t) :
    AllOk h code T strict t ∧ Le s.sh t.sh ∧ t.procs i = s.procs i := by
  induction x with
  | refl => exact ⟨o, .refl _, rfl⟩
  | step j hj x y ih =>
    obtain ⟨h1, h2, h3⟩ := ih
    exact ⟨step_ok inj kn h1 y, h2.trans (step_le inj h1 y), (step_other hj y).trans h3⟩

/-! what the next step of a process is -/

/-- the next step inside an operation -/
def ioNext (h : Val U A → A) (s : State U A P) (i : Nat) (st : List (Frame U A P)) (job : Option A)
    (code : FnId → List (String × Val U A) → Code U A P) (b : Bool) : Io U A P → State U A P
  | .done _ => s
  | .put p a v k => s.next (s.sh.put p a v) i (.io k)
  | .load p a k => s.goto i (.io (k (s.sh.store p a)))
  | .result p a k => s.goto i (.io (k (s.sh.results p a)))
  | .setResult p a r k => s.next (s.sh.setResult p a r) i (.io k)
  | .request p a k => s.next (s.sh.setRequest p a true) i (.io k)
  | .drop p a k => s.next (s.sh.setRequest p a false) i (.io k)
  | .body _ f kw k => s.setProc i ⟨.code (code f kw), .inOp k :: st, job⟩
  | .wait p os a => s.goto i (.io (round h p os a (.wait p os a)))
  | .toss k => s.goto i (.io (k b))

def Io.isDone : Io U A P → Bool
  | .done _ => true
  | _ => false

theorem act_io {s t : State U A P} {x : Io U A P} {st : List (Frame U A P)} {job : Option A}
    (e : s.procs i = ⟨.io x, st, job⟩) (hx : x.isDone = false) (y : Act h code T knows i s t) :
    ∃ b, t = ioNext h s i st job code b x := by
  cases y with
  | script c hm => rw [e] at hm; cases hm
  | found p os a hm hk hr => rw [e] at hm; cases hm
  | op c next p os hm hl => rw [e] at hm; cases hm
  | done r c next st job hm => rw [e] at hm; cases hm; cases hx
  | workDone r job hm => rw [e] at hm; cases hm; cases hx
  | put p a v k hm => rw [e] at hm; cases hm; exact ⟨true, rfl⟩
  | load p a k hm => rw [e] at hm; cases hm; exact ⟨true, rfl⟩
  | result p a k hm => rw [e] at hm; cases hm; exact ⟨true, rfl⟩
  | setResult p a r k hm => rw [e] at hm; cases hm; exact ⟨true, rfl⟩
  | request p a k hm => rw [e] at hm; cases hm; exact ⟨true, rfl⟩
  | drop p a k hm => rw [e] at hm; cases hm; exact ⟨true, rfl⟩
  | wait p os a hm => rw [e] at hm; cases hm; exact ⟨true, rfl⟩
  | body a f kw k hm => rw [e] at hm; cases hm; exact ⟨true, by simp only [ioNext]; rw [e]⟩
  | toss k b hm => rw [e] at hm; cases hm; exact ⟨b, rfl⟩
  | ret v k st job hm => rw [e] at hm; cases hm
  | raise k st job hm => rw [e] at hm; cases hm

theorem act_ret {s t : State U A P} {v : Val U A} {k : Reply U A P → Io U A P} {st : List (Frame U A P)} {job : Option A}
    (e : s.procs i = ⟨.code (.ret v), .inOp k :: st, job⟩) (y : Act h code T knows i s t) :
    t = s.setProc i ⟨.io (k (.val v)), st, job⟩ := by
  cases y with
  | script c hm => rw [e] at hm; cases hm
  | found p os a hm hk hr => rw [e] at hm; cases hm
  | op c next p os hm hl => rw [e] at hm; cases hm
  | done r c next st job hm => rw [e] at hm; cases hm
  | workDone r job hm => rw [e] at hm; cases hm
  | put p a v k hm => rw [e] at hm; cases hm
  | load p a k hm => rw [e] at hm; cases hm
  | result p a k hm => rw [e] at hm; cases hm
  | setResult p a r k hm => rw [e] at hm; cases hm
  | request p a k hm => rw [e] at hm; cases hm
  | drop p a k hm => rw [e] at hm; cases hm
  | wait p os a hm => rw [e] at hm; cases hm
  | toss k b hm => rw [e] at hm; cases hm
  | body a f kw k hm => rw [e] at hm; cases hm
  | ret v k st job hm => rw [e] at hm; cases hm; rfl
  | raise k st job hm => rw [e] at hm; cases hm

theorem act_raise {s t : State U A P} {k : Reply U A P → Io U A P} {st : List (Frame U A P)} {job : Option A}
    (e : s.procs i = ⟨.code .raise, .inOp k :: st, job⟩) (y : Act h code T knows i s t) :
    t = s.setProc i ⟨.io (k .raised), st, job⟩ := by
  cases y with
  | script c hm => rw [e] at hm; cases hm
  | found p os a hm hk hr => rw [e] at hm; cases hm
  | op c next p os hm hl => rw [e] at hm; cases hm
  | done r c next st job hm => rw [e] at hm; cases hm
  | workDone r job hm => rw [e] at hm; cases hm
  | put p a v k hm => rw [e] at hm; cases hm
  | load p a k hm => rw [e] at hm; cases hm
  | result p a k hm => rw [e] at hm; cases hm
  | setResult p a r k hm => rw [e] at hm; cases hm
  | request p a k hm => rw [e] at hm; cases hm
  | drop p a k hm => rw [e] at hm; cases hm
  | wait p os a hm => rw [e] at hm; cases hm
  | toss k b hm => rw [e] at hm; cases hm
  | body a f kw k hm => rw [e] at hm; cases hm
  | ret v k st job hm => rw [e] at hm; cases hm
  | raise k st job hm => rw [e] at hm; cases hm; rfl

theorem act_op {s t : State U A P} {c : Cmd U A P} {next : Reply U A P → Code U A P} {st : List (Frame U A P)}
    {job : Option A} (e : s.procs i = ⟨.code (.op c next), st, job⟩) (y : Act h code T knows i s t) :
    ∃ p os, Legal T knows s.vaddrs s.raddrs (c.at p os) ∧
      t = s.setProc i ⟨.io (prog h (c.at p os)), .inCode (c.at p os) next :: st, job⟩ := by
  cases y with
  | script c hm => rw [e] at hm; cases hm
  | found p os a hm hk hr => rw [e] at hm; cases hm
  | op c next p os hm hl => rw [e] at hm; cases hm; exact ⟨p, os, hl, by rw [e]⟩
  | done r c next st job hm => rw [e] at hm; cases hm
  | workDone r job hm => rw [e] at hm; cases hm
  | put p a v k hm => rw [e] at hm; cases hm
  | load p a k hm => rw [e] at hm; cases hm
  | result p a k hm => rw [e] at hm; cases hm
  | setResult p a r k hm => rw [e] at hm; cases hm
  | request p a k hm => rw [e] at hm; cases hm
  | drop p a k hm => rw [e] at hm; cases hm
  | wait p os a hm => rw [e] at hm; cases hm
  | toss k b hm => rw [e] at hm; cases hm
  | body a f kw k hm => rw [e] at hm; cases hm
  | ret v k st job hm => rw [e] at hm; cases hm
  | raise k st job hm => rw [e] at hm; cases hm

theorem act_done {s t : State U A P} {r : Reply U A P} {c : Cmd U A P} {next : Reply U A P → Code U A P} {st : List (Frame U A P)}
    {job : Option A} (e : s.procs i = ⟨.io (.done r), .inCode c next :: st, job⟩) (y : Act h code T knows i s t) :
    t = { s.setProc i ⟨.code (next r), st, job⟩ with vaddrs := r.vaddrs ++ s.vaddrs, raddrs := r.raddrs ++ s.raddrs } := by
  cases y with
  | script c hm => rw [e] at hm; cases hm
  | found p os a hm hk hr => rw [e] at hm; cases hm
  | op c next p os hm hl => rw [e] at hm; cases hm
  | done r c next st job hm => rw [e] at hm; cases hm; rfl
  | workDone r job hm => rw [e] at hm; cases hm
  | put p a v k hm => rw [e] at hm; cases hm
  | load p a k hm => rw [e] at hm; cases hm
  | result p a k hm => rw [e] at hm; cases hm
  | setResult p a r k hm => rw [e] at hm; cases hm
  | request p a k hm => rw [e] at hm; cases hm
  | drop p a k hm => rw [e] at hm; cases hm
  | wait p os a hm => rw [e] at hm; cases hm
  | toss k b hm => rw [e] at hm; cases hm
  | body a f kw k hm => rw [e] at hm; cases hm
  | ret v k st job hm => rw [e] at hm; cases hm
  | raise k st job hm => rw [e] at hm; cases hm

theorem can_io {s : State U A P} {x : Io U A P} {st : List (Frame U A P)} {job : Option A}
    (e : s.procs i = ⟨.io x, st, job⟩) (hx : x.isDone = false) : ∃ t, Act h code T knows i s t := by
  have hm : (s.procs i).mode = .io x := by rw [e]
  cases x with
  | done r => cases hx
  | put p a v k => exact ⟨_, .put p a v k hm⟩
  | load p a k => exact ⟨_, .load p a k hm⟩
  | result p a k => exact ⟨_, .result p a k hm⟩
  | setResult p a r k => exact ⟨_, .setResult p a r k hm⟩
  | request p a k => exact ⟨_, .request p a k hm⟩
  | drop p a k => exact ⟨_, .drop p a k hm⟩
  | wait p os a => exact ⟨_, .wait p os a hm⟩
  | body a f kw k => exact ⟨_, .body a f kw k hm⟩
  | toss k => exact ⟨_, .toss k true hm⟩

/-- the code at which a function with outcome `r` ends -/
def finalCode : Reply U A P → Code U A P
  | .val v => .ret v
  | _ => .raise

omit [DecidableEq P] [DecidableEq A] in
theorem busy_io {x : Io U A P} {st : List (Frame U A P)} {job : Option A} : ¬ Resting ⟨.io x, st, job⟩ := by
  rintro (h1 | ⟨⟨v, h1⟩ | h1, _⟩) <;> cases h1

omit [DecidableEq P] [DecidableEq A] in
theorem busy_op {c : Cmd U A P} {next : Reply U A P → Code U A P} {st : List (Frame U A P)} {job : Option A} :
    ¬ Resting ⟨.code (.op c next), st, job⟩ := by
  rintro (h1 | ⟨⟨v, h1⟩ | h1, _⟩) <;> cases h1

omit [DecidableEq P] [DecidableEq A] in
theorem busy_code {c : Code U A P} {f : Frame U A P} {st : List (Frame U A P)} {job : Option A} :
    ¬ Resting ⟨.code c, f :: st, job⟩ := by
  rintro (h1 | ⟨_, h1⟩) <;> cases h1

/-! address objects stay held, and stored things stay stored -/

/-- what is stored in `s` is stored in `t`, and address objects held in `s` are held in `t` -/
structure Grow (s t : State U A P) : Prop where
  le : Le s.sh t.sh
  vals : ∀ x ∈ s.vaddrs, x ∈ t.vaddrs
  calls : ∀ x ∈ s.raddrs, x ∈ t.raddrs

theorem Grow.refl (s : State U A P) : Grow s s := ⟨.refl _, fun _ x => x, fun _ x => x⟩

theorem Grow.trans {s t u : State U A P} (x : Grow s t) (y : Grow t u) : Grow s u :=
  ⟨x.le.trans y.le, fun z hz => y.vals z (x.vals z hz), fun z hz => y.calls z (x.calls z hz)⟩

theorem step_grow (inj : Function.Injective h) {j : Nat} {s t : State U A P} (o : AllOk h code T strict s)
    (x : Step h code T knows j s t) : Grow s t := by
  have l := step_le inj o x
  cases x with
  | crash => exact ⟨l, fun _ x => x, fun _ x => x⟩
  | act _ x =>
    cases x with
    | done r c next st job hm => exact ⟨l, fun _ x => List.mem_append_right _ x, fun _ x => List.mem_append_right _ x⟩
    | _ => exact ⟨l, fun _ x => x, fun _ x => x⟩

/-- address objects that are held -/
structure Has (vs rs : List (P × A)) (s : State U A P) : Prop where
  vals : ∀ x ∈ vs, x ∈ s.vaddrs
  calls : ∀ x ∈ rs, x ∈ s.raddrs

theorem Has.grow {vs rs : List (P × A)} {s t : State U A P} (x : Has vs rs s) (g : Grow s t) : Has vs rs t :=
  ⟨fun z hz => g.vals z (x.vals z hz), fun z hz => g.calls z (x.calls z hz)⟩

omit [DecidableEq P] [DecidableEq A] in
theorem Has.nil (s : State U A P) : Has [] [] s := ⟨fun _ x => (nomatch x), fun _ x => (nomatch x)⟩

omit [DecidableEq P] [DecidableEq A] in
theorem Held.mono {l m : List (P × A)} (k : ∀ x ∈ l, x ∈ m) {p : P} {a : A} : Held T l p a → Held T m p a
  | .inl x => .inl (k _ x)
  | .inr ⟨z, q, x⟩ => .inr ⟨z, q, k _ x⟩

omit [DecidableEq P] [DecidableEq A] in
theorem ArgsKnown.mono {vs rs vs' rs' : List (P × A)} (hv : ∀ x ∈ vs, x ∈ vs') (hr : ∀ x ∈ rs, x ∈ rs')
    {kw : List (String × Arg U A P)} (x : ArgsKnown T vs rs kw) : ArgsKnown T vs' rs' kw :=
  fun n home a hx => (x n home a hx).imp (fun z => z.mono hv) fun z => z.mono hr

omit [DecidableEq P] [DecidableEq A] in
theorem Legal.mono {vs rs vs' rs' : List (P × A)} (hv : ∀ x ∈ vs, x ∈ vs') (hr : ∀ x ∈ rs, x ∈ rs')
    {c : Cmd U A P} (x : Legal T knows vs rs c) : Legal T knows vs' rs' c := by
  cases c with
  | store => trivial
  | fetch p os a => exact ⟨x.1, x.2.imp (fun z => z.mono hv) fun z => z.mono hr⟩
  | getAddress p os f kw => exact ⟨x.1, x.2.mono hv hr⟩
  | swarm p os f kw => exact ⟨x.1, x.2.mono hv hr⟩
  | swarmList p os f kws sh => exact ⟨x.1, fun kw hk => (x.2.1 kw hk).mono hv hr, x.2.2⟩
  | execute p os f kw => exact ⟨x.1, x.2.mono hv hr⟩
  | executeAddr p os a => exact ⟨x.1, x.2.mono hr⟩
  | requestAddr p os a => exact ⟨x.1, x.2.mono hr⟩
  | dropAddr p a => exact Held.mono hr x
  | isReady p os a => exact ⟨x.1, x.2.mono hr⟩
  | getResult p os a n => exact ⟨x.1, x.2.mono hr⟩
  | lookAt p os a => exact ⟨x.1, x.2.mono hr⟩

/-! ### getting something done, one own step after the other

The same argument is used for `Will` (where a position is a state) and for infinite executions (where it is a time). -/

section gets
variable {ι : Type}

/-- The claims in `𝒲` about positions can be proved by looking at the next own step of process `i`. -/
def Steppable (h : Val U A → A) (code : FnId → List (String × Val U A) → Code U A P) (T : Prop)
    (knows : P → List P → Prop) (i : Nat) (at' : ι → State U A P) (𝒲 : (ι → Prop) → Prop) : Prop :=
  ∀ W, 𝒲 W → ∀ n x, AllOk h code T True (at' n) → (at' n).procs i = x → ¬ Resting x →
    (∀ s', Grow (at' n) s' → s'.procs i = x → ∃ t, Act h code T knows i s' t) →
    (∀ s' m, AllOk h code T True s' → Grow (at' n) s' → s'.procs i = x → Act h code T knows i s' (at' m) →
      AllOk h code T True (at' m) → Grow (at' n) (at' m) → W m) → W n

variable {at' : ι → State U A P} {𝒲 : (ι → Prop) → Prop}

/-- process `i`, in code `c`, holding the addresses `vs` and `rs`, will come to the end of the code, with a possible outcome -/
def CodeGets (h : Val U A → A) (code : FnId → List (String × Val U A) → Code U A P) (T : Prop)
    (i : Nat) (at' : ι → State U A P) (𝒲 : (ι → Prop) → Prop) (vs rs : List (P × A)) (c : Code U A P) : Prop :=
  ∀ W, 𝒲 W → ∀ (n : ι) (st : List (Frame U A P)) (job : Option A), AllOk h code T True (at' n) →
    (at' n).procs i = ⟨.code c, st, job⟩ → Has vs rs (at' n) →
    (∀ m r, AllOk h code T True (at' m) → Grow (at' n) (at' m) → (at' m).procs i = ⟨.code (finalCode r), st, job⟩ →
      Outcome h code True c r → W m) → W n

omit [DecidableEq P] [DecidableEq A] in
theorem Outcome.bodyReply {c : Code U A P} {r : Reply U A P} (x : Outcome h code strict c r) : BodyReply r := by
  induction x with
  | ret v => exact .inl ⟨v, rfl⟩
  | raise => exact .inr rfl
  | call _ _ _ _ _ _ _ _ _ _ ih => exact ih
  | callRaise _ _ _ _ _ _ _ _ _ ih => exact ih
  | other _ _ _ _ _ _ ih => exact ih
  | missing _ _ _ _ _ ih => exact ih
  | clash _ _ _ _ _ _ _ _ _ _ _ _ _ _ ih => exact ih

theorem io_gets (sp : Steppable h code T knows i at' 𝒲) {J : Need A P → Prop}
    {Q : Reply U A P → Shared U A P → Prop} {st : List (Frame U A P)} {job : Option A}
    (hj : ∀ f kw, J (.run (callOf h f kw)) → CodeGets h code T i at' 𝒲 [] [] (code f kw))
    {W : ι → Prop} (hW : 𝒲 W) (x : Io U A P) :
    ∀ {n : ι}, AllOk h code T True (at' n) → (at' n).procs i = ⟨.io x, st, job⟩ → Ok h code T True J Q x (at' n).sh →
    (∀ m r, AllOk h code T True (at' m) → Grow (at' n) (at' m) → (at' m).procs i = ⟨.io (.done r), st, job⟩ →
      ReplyOk h code T True Q (at' m).sh r → W m) →
    (∀ m p os a, AllOk h code T True (at' m) → Grow (at' n) (at' m) → (at' m).procs i = ⟨.io (.wait p os a), st, job⟩ →
      Ok h code T True J Q (.wait p os a) (at' m).sh → W m) → W n := by
  induction x with
  | done r => intro n o e hx hk hw; exact hk n r o (.refl _) e hx
  | wait p os a => intro n o e hx hk hw; exact hw n p os a o (.refl _) e hx
  | put p a v k ih =>
    intro n o e hx hk hw
    refine sp W hW n _ o e busy_io (fun s' _ e' => can_io e' rfl) fun s' m o' g e' y om gm => ?_
    obtain ⟨b, em⟩ := act_io e' rfl y
    refine ih om (by rw [em]; simp [ioNext, State.next, e']) (by rw [em]; exact hx.2 s'.sh g.le o'.inv)
      (fun u r ou gu => hk u r ou (gm.trans gu)) fun u p os a ou gu => hw u p os a ou (gm.trans gu)
  | load p a k ih =>
    intro n o e hx hk hw
    refine sp W hW n _ o e busy_io (fun s' _ e' => can_io e' rfl) fun s' m o' g e' y om gm => ?_
    obtain ⟨b, em⟩ := act_io e' rfl y
    refine ih _ om (by rw [em]; simp [ioNext, State.goto, e']; rfl) (by rw [em]; exact (hx s'.sh g.le o'.inv).1)
      (fun u r ou gu => hk u r ou (gm.trans gu)) fun u p os a ou gu => hw u p os a ou (gm.trans gu)
  | result p a k ih =>
    intro n o e hx hk hw
    refine sp W hW n _ o e busy_io (fun s' _ e' => can_io e' rfl) fun s' m o' g e' y om gm => ?_
    obtain ⟨b, em⟩ := act_io e' rfl y
    refine ih _ om (by rw [em]; simp [ioNext, State.goto, e']; rfl) (by rw [em]; exact hx s'.sh g.le o'.inv)
      (fun u r ou gu => hk u r ou (gm.trans gu)) fun u p os a ou gu => hw u p os a ou (gm.trans gu)
  | setResult p a r k ih =>
    intro n o e hx hk hw
    refine sp W hW n _ o e busy_io (fun s' _ e' => can_io e' rfl) fun s' m o' g e' y om gm => ?_
    obtain ⟨b, em⟩ := act_io e' rfl y
    refine ih om (by rw [em]; simp [ioNext, State.next, e']) (by rw [em]; exact (hx s'.sh g.le o'.inv).2.2.2)
      (fun u r ou gu => hk u r ou (gm.trans gu)) fun u p os a ou gu => hw u p os a ou (gm.trans gu)
  | request p a k ih =>
    intro n o e hx hk hw
    refine sp W hW n _ o e busy_io (fun s' _ e' => can_io e' rfl) fun s' m o' g e' y om gm => ?_
    obtain ⟨b, em⟩ := act_io e' rfl y
    refine ih om (by rw [em]; simp [ioNext, State.next, e']) (by rw [em]; exact (hx s'.sh g.le o'.inv).2)
      (fun u r ou gu => hk u r ou (gm.trans gu)) fun u p os a ou gu => hw u p os a ou (gm.trans gu)
  | drop p a k ih =>
    intro n o e hx hk hw
    refine sp W hW n _ o e busy_io (fun s' _ e' => can_io e' rfl) fun s' m o' g e' y om gm => ?_
    obtain ⟨b, em⟩ := act_io e' rfl y
    refine ih om (by rw [em]; simp [ioNext, State.next, e']) (by rw [em]; exact hx s'.sh g.le o'.inv)
      (fun u r ou gu => hk u r ou (gm.trans gu)) fun u p os a ou gu => hw u p os a ou (gm.trans gu)
  | toss k ih =>
    intro n o e hx hk hw
    refine sp W hW n _ o e busy_io (fun s' _ e' => can_io e' rfl) fun s' m o' g e' y om gm => ?_
    obtain ⟨b, em⟩ := act_io e' rfl y
    refine ih _ om (by rw [em]; simp [ioNext, State.goto, e']; rfl) (by rw [em]; exact (hx b).mono g.le)
      (fun u r ou gu => hk u r ou (gm.trans gu)) fun u p os a ou gu => hw u p os a ou (gm.trans gu)
  | body a f kw k ih =>
    intro n o e hx hk hw
    obtain ⟨ja, ea, hx⟩ := hx
    subst ea
    refine sp W hW n _ o e busy_io (fun s' _ e' => can_io e' rfl) fun s' m o' g e' y om gm => ?_
    obtain ⟨b, em⟩ := act_io e' rfl y
    refine hj f kw ja W hW m (.inOp k :: st) job om (by rw [em]; simp [ioNext, State.setProc]) (Has.nil _)
      fun u r ou gu eu ho => ?_
    rcases ho.bodyReply with ⟨v, rfl⟩ | rfl
    · refine sp W hW u _ ou eu busy_code (fun s' _ e' => ⟨_, .ret v k st job e'⟩) fun s2 m2 o2 g2 e2 y2 om2 gm2 => ?_
      have et := act_ret e2 y2
      refine ih _ om2 (by rw [et]; simp [State.setProc]; rfl) ?_ (fun w r ow gw => hk w r ow (gm.trans (gu.trans (gm2.trans gw))))
        fun w p os a ow gw => hw w p os a ow (gm.trans (gu.trans (gm2.trans gw)))
      rw [et]
      exact hx _ (gm.le.trans (gu.le.trans g2.le)) o2.inv _ (.inl ⟨v, rfl⟩) ho
    · refine sp W hW u _ ou eu busy_code (fun s' _ e' => ⟨_, .raise k st job e'⟩) fun s2 m2 o2 g2 e2 y2 om2 gm2 => ?_
      have et := act_raise e2 y2
      refine ih _ om2 (by rw [et]; simp [State.setProc]; rfl) ?_ (fun w r ow gw => hk w r ow (gm.trans (gu.trans (gm2.trans gw))))
        fun w p os a ow gw => hw w p os a ow (gm.trans (gu.trans (gm2.trans gw)))
      rw [et]
      exact hx _ (gm.le.trans (gu.le.trans g2.le)) o2.inv _ (.inr rfl) ho

omit [DecidableEq P] [DecidableEq A] in
theorem runs_at {c : Cmd U A P} {p : P} {os : List P} {f : FnId} {vs : List (String × Val U A)}
    (x : Runs h (c.at p os) f vs) : Runs h c f vs := by
  cases c <;> exact x

omit [DecidableEq P] [DecidableEq A] in
theorem getResult_at {c : Cmd U A P} {p q : P} {os os' : List P} {a : A} {n : Option Nat}
    (x : c.at p os = .getResult q os' a n) : ∃ os'', c = .getResult q os'' a n := by
  cases c <;> simp only [Cmd.at] at x <;> first | cases x; done | skip
  injection x with h1 h2 h3 h4
  subst h1 h3 h4
  exact ⟨_, rfl⟩

/-- process `i` will get the result for which it waits -/
def AwaitGets (h : Val U A → A) (code : FnId → List (String × Val U A) → Code U A P) (T : Prop)
    (i : Nat) (at' : ι → State U A P) (𝒲 : (ι → Prop) → Prop) (p : P) (f : FnId) (kw : List (String × Val U A)) : Prop :=
  ∀ W, 𝒲 W → ∀ (n : ι) (os : List P) (st : List (Frame U A P)) (job : Option A), (T → ∀ q, q = p ∨ q ∈ os) → AllOk h code T True (at' n) →
    (at' n).procs i = ⟨.io (.wait p os (callOf h f kw)), st, job⟩ → Complete h T (at' n).sh p (callOf h f kw) →
    (∀ m r, AllOk h code T True (at' m) → Grow (at' n) (at' m) → (at' m).procs i = ⟨.io (.done r), st, job⟩ →
      Answer h code True (.getResult p os (callOf h f kw) none) r → W m) → W n

omit [DecidableEq P] [DecidableEq A] in
/-- answers to `addr.get()` do not depend on the other portals -/
theorem Answer.away {p : P} {os os' : List P} {a : A} {n : Option Nat} {r : Reply U A P}
    (x : Answer h code strict (.getResult p os a n) r) : Answer h code strict (.getResult p os' a n) r := by
  generalize e : Cmd.getResult p os a n = c at x
  cases x with
  | call f vs v ec x => subst e; exact .call _ f vs v ec x
  | raised f vs ec x => subst e; exact ec.elim
  | other _ ec => subst e; exact .other _ _ (by cases r <;> exact ec)
  | missing hs => exact .missing _ hs
  | clash f vs v w ec x x' ne => subst e; exact .clash _ f vs v w ec x x' ne

/-- an operation comes to its end -/
theorem op_gets (inj : Function.Injective h) (kn : T → KnowsAll knows) (sp : Steppable h code T knows i at' 𝒲)
    {vs rs : List (P × A)} {c : Cmd U A P} {next : Reply U A P → Code U A P}
    (run : ∀ f kw, Runs h c f kw → CodeGets h code T i at' 𝒲 [] [] (code f kw))
    (wait : ∀ p os f kw, c = .getResult p os (callOf h f kw) none → AwaitGets h code T i at' 𝒲 p f kw)
    (legal : ∃ p os, Legal T knows vs rs (c.at p os)) {W : ι → Prop} (hW : 𝒲 W) {n : ι} {st : List (Frame U A P)}
    {job : Option A} (o : AllOk h code T True (at' n)) (e : (at' n).procs i = ⟨.code (.op c next), st, job⟩)
    (has : Has vs rs (at' n))
    (hk : ∀ m r, AllOk h code T True (at' m) → Grow (at' n) (at' m) → Has (r.vaddrs ++ vs) (r.raddrs ++ rs) (at' m) →
      (at' m).procs i = ⟨.code (next r), st, job⟩ → Answer h code True c r → W m) : W n := by
  refine sp W hW n _ o e busy_op (fun s' g e' => ?_) fun s' m o' g e' y om gm => ?_
  · obtain ⟨p, os, hl⟩ := legal
    exact ⟨_, .op c next p os (by rw [e']) (hl.mono (has.grow g).vals (has.grow g).calls)⟩
  · obtain ⟨p, os, hl, em⟩ := act_op e' y
    have fin : ∀ u r, AllOk h code T True (at' u) → Grow (at' m) (at' u) →
        (at' u).procs i = ⟨.io (.done r), .inCode (c.at p os) next :: st, job⟩ → Answer h code True c r → W u := by
      intro u r ou gu eu hr
      refine sp W hW u _ ou eu busy_io (fun s' _ e' => ⟨_, .done _ _ next st job e'⟩) fun s2 m2 o2 g2 e2 y2 om2 gm2 => ?_
      have e3 := act_done e2 y2
      have hs := has.grow (gm.trans (gu.trans g2))
      refine hk m2 r om2 (gm.trans (gu.trans gm2)) ⟨fun z hz => ?_, fun z hz => ?_⟩ (by rw [e3]; simp [State.setProc]) hr
      · rw [e3]
        rcases List.mem_append.1 hz with hz | hz
        · exact List.mem_append_left _ hz
        · exact List.mem_append_right _ (hs.vals z hz)
      · rw [e3]
        rcases List.mem_append.1 hz with hz | hz
        · exact List.mem_append_left _ hz
        · exact List.mem_append_right _ (hs.calls z hz)
    refine io_gets (J := fun x => match x with
      | .run a => ∃ f kw, a = callOf h f kw ∧ Runs h c f kw
      | .await q a => ∃ os', c = .getResult q os' a none) (Q := fun r _ => Answer h code True c r)
      (st := .inCode (c.at p os) next :: st) (job := job) sp (fun f kw hf => ?_) hW (prog h (c.at p os)) om
      (by rw [em]; simp [State.setProc]) ?_ (fun u r ou gu eu hr => fin u r ou gu eu (hr.ask _ (.refl _)))
      fun u q os2 a ou gu eu hx => ?_
    · obtain ⟨f', kw', e1, e2⟩ := hf
      obtain ⟨rfl, rfl⟩ := callOf_inj inj e1
      exact run _ _ e2
    · refine prog_ok inj (fun _ => kn) om.inv om.vals om.calls _ (by rw [em]; exact hl) (fun f kw hr => ⟨f, kw, rfl, runs_at hr⟩)
        (fun q os' a hq => getResult_at hq) fun r hr _ => hr.of_at
    · obtain ⟨⟨os', hc⟩, h2, h3, h4, h5⟩ := hx
      obtain ⟨f, kw, rfl⟩ := Complete.call ou.inv h2
      refine wait q os' f kw hc W hW u os2 _ job (h3 trivial) ou eu h2 fun m r om gm em hr => ?_
      exact fin m _ om (gu.trans gm) em (by rw [hc]; exact hr.away)

/-- code the evaluation of which comes to an end comes to its end: one operation -/
theorem codeGets_op (inj : Function.Injective h) (kn : T → KnowsAll knows) (sp : Steppable h code T knows i at' 𝒲)
    {vs rs : List (P × A)} {c : Cmd U A P} {next : Reply U A P → Code U A P}
    (run : ∀ f kw, Runs h c f kw → CodeGets h code T i at' 𝒲 [] [] (code f kw))
    (wait : ∀ p os f kw, c = .getResult p os (callOf h f kw) none → AwaitGets h code T i at' 𝒲 p f kw)
    (legal : ∃ p os, Legal T knows vs rs (c.at p os))
    (rest : ∀ r, Answer h code True c r → CodeGets h code T i at' 𝒲 (r.vaddrs ++ vs) (r.raddrs ++ rs) (next r)) :
    CodeGets h code T i at' 𝒲 vs rs (.op c next) := by
  intro W hW n st job o e has hk
  refine op_gets inj kn sp run wait legal hW o e has fun m r om gm hm em hr => ?_
  exact rest r hr W hW m st job om em hm fun u r' ou gu eu ho => hk u r' ou (gm.trans gu) eu (hr.outcome ho)

/-- a worker comes to the end of its work -/
theorem work_gets (inj : Function.Injective h) (sp : Steppable h code T knows i at' 𝒲) {p : P} {os : List P} {f : FnId}
    {kw : List (String × Val U A)} (kn : T → ∀ q, q = p ∨ q ∈ os)
    (run : CodeGets h code T i at' 𝒲 [] [] (code f kw)) {W : ι → Prop} (hW : 𝒲 W) {n : ι} {st : List (Frame U A P)}
    {job : Option A} (o : AllOk h code T True (at' n)) (e : (at' n).procs i = ⟨.io (work h p os (callOf h f kw)), st, job⟩)
    (hc : Complete h T (at' n).sh p (callOf h f kw))
    (hk : ∀ m r, AllOk h code T True (at' m) → Grow (at' n) (at' m) → (at' m).procs i = ⟨.io (.done r), st, job⟩ →
      ((∃ v, (at' m).sh.results p (callOf h f kw) = some (h v) ∧ Outcome h code True (code f kw) (.val v)) ∨
        Outcome h code True (code f kw) .raised) → W m) : W n := by
  refine io_gets (J := fun x => match x with
      | .run a => a = callOf h f kw
      | .await _ _ => False)
    (Q := fun _ t => (t.results p (callOf h f kw)).isSome = true ∨ Outcome h code True (code f kw) .raised)
    (st := st) (job := job) sp (fun f' kw' ea => ?_) hW (work h p os (callOf h f kw)) o e ?_ (fun u r ou gu eu hr => ?_)
    fun u q os2 a ou gu eu hx => hx.1.elim
  · obtain ⟨rfl, rfl⟩ := callOf_inj inj ea
    exact run
  · refine work_ok inj (fun _ => kn) rfl hc (fun x => absurd trivial x) (fun _ t ht => .inl ht) (fun t ht => .inl ht) fun f' l e kw' e' => ?_
    subst e'
    obtain ⟨rfl, rfl⟩ := callOf_inj inj (e : callOf h f kw = callOf h f' kw')
    exact ⟨fun v hv t ht => .inl ht, fun hv t => .inr hv⟩
  · refine hk u r ou gu eu ((hr.ask _ (.refl _)).imp_left fun hs => ?_)
    obtain ⟨r2, hr2⟩ := Option.isSome_iff_exists.1 hs
    obtain ⟨f', kw', v, e1, e2, e3⟩ := (ou.inv.results p _ r2 hr2).2.2
    obtain ⟨rfl, rfl⟩ := callOf_inj inj e1
    exact ⟨v, by rw [hr2, e2], e3⟩

theorem codeGets_ret {vs rs : List (P × A)} {v : Val U A} : CodeGets h code T i at' 𝒲 vs rs (.ret v) :=
  fun _ _ n _ _ o e _ hk => hk n (.val v) o (.refl _) e (.ret v)

theorem codeGets_raise {vs rs : List (P × A)} : CodeGets h code T i at' 𝒲 vs rs .raise :=
  fun _ _ n _ _ o e _ hk => hk n .raised o (.refl _) e .raise

end gets

/-! ### evaluation that gives an outcome comes to an end -/

omit [DecidableEq P] [DecidableEq A] in
/-- an operation that runs or awaits calls has no other answers, except timeouts -/
theorem no_says {c c' : Cmd U A P} {f : FnId} {vs : List (String × Val U A)} {r : Reply U A P} (l : c.Like c')
    (no : ∀ p os a n, c ≠ .getResult p os a (some n)) (x : Calls h c' f vs) (y : Says h c r) : False := by
  cases c <;> cases c' <;> first | exact l.elim | exact x.elim | skip
  case execute.execute => cases r <;> exact y.elim
  case executeAddr.executeAddr => cases r <;> exact y.elim
  case getResult.getResult p os a n p' os' b m =>
    cases r <;> first | exact y.elim | skip
    cases n with
    | none => exact y rfl
    | some n => exact no p os a n rfl

omit [DecidableEq P] [DecidableEq A] in
/-- If code does not depend on what others do and its evaluation gives an outcome, the evaluation always comes to an end. -/
theorem steady_halts (inj : Function.Injective h) (det : ∀ f kw, Steady False (code f kw)) {c : Code U A P} {r : Reply U A P}
    (x : Outcome h code True c r) : ∀ {c'}, Alike False c c' → Halts h code True c' := by
  have one : OneValue h code := steady_oneValue inj det
  induction x with
  | ret v => intro c' l; cases l; exact .ret v
  | raise => intro c' l; cases l; exact .raise
  | call c next f vs v r e x y ih1 ih2 =>
    intro c' l
    cases l with
    | op _ c' _ next' l no exc hn =>
    have no := no id
    have uniq := outcome_unique inj det x (det _ _)
    refine .op _ _ (fun f' vs' e' => ?_) (fun _ _ _ _ => trivial) (fun p os f' vs' e' => ?_) (fun p os f' vs' e' y' => ?_)
      fun r0 hr => ?_
    · obtain ⟨rfl, rfl⟩ := calls_unique inj l e e'.calls
      exact ih1 (det _ _)
    · subst e'
      obtain ⟨rfl, rfl⟩ := calls_unique inj l e (f' := f') (vs' := vs') rfl
      exact ih1 (det _ _)
    · subst e'
      obtain ⟨rfl, rfl⟩ := calls_unique inj l e (f' := f') (vs' := vs') rfl
      cases uniq _ y'
    · cases hr with
      | call f' vs' v' e' x' =>
        obtain ⟨rfl, rfl⟩ := calls_unique inj l e e'
        cases uniq _ x'
        exact ih2 (hn _ _ (e.fits _ _) (e'.fits _ _) ⟨rfl, rfl⟩)
      | raised f' vs' e' x' =>
        obtain ⟨rfl, rfl⟩ := calls_unique inj l e e'.calls
        cases uniq _ x'
      | other _ hs =>
        obtain ⟨rfl, p, os, a, n, rfl⟩ := Calls.says l e hs
        exact absurd rfl (no p os a n)
      | missing hs => exact absurd trivial hs
      | clash f' vs' v' w' _ x1 x2 ne => exact absurd (one _ _ _ _ x1 x2) ne
  | callRaise c next f vs r e x y ih1 ih2 =>
    intro c' l
    cases l with
    | op _ c' _ next' l no exc hn =>
    have no := no id
    have uniq := outcome_unique inj det x (det _ _)
    refine .op _ _ (fun f' vs' e' => ?_) (fun _ _ _ _ => trivial) (fun p os f' vs' e' => ?_) (fun p os f' vs' e' y' => ?_)
      fun r0 hr => ?_
    · obtain ⟨rfl, rfl⟩ := calls_unique inj l e.calls e'.calls
      exact ih1 (det _ _)
    · subst e'
      cases c <;> first | exact l.elim | exact e.elim
    · subst e'
      cases c <;> first | exact l.elim | exact e.elim
    · cases hr with
      | call f' vs' v' e' x' =>
        obtain ⟨rfl, rfl⟩ := calls_unique inj l e.calls e'
        cases uniq _ x'
      | raised f' vs' e' x' => exact ih2 (hn _ _ e.fits e'.fits trivial)
      | other _ hs =>
        obtain ⟨rfl, p, os, a, n, rfl⟩ := Calls.says l e.calls hs
        exact absurd rfl (no p os a n)
      | missing hs => exact absurd trivial hs
      | clash f' vs' v' w' _ x1 x2 ne => exact absurd (one _ _ _ _ x1 x2) ne
  | other c next r0 r e y ih =>
    intro c' l
    cases l with
    | op _ c' _ next' l no exc hn =>
    have no := no id
    refine .op _ _ (fun f' vs' e' => (no_says l no e'.calls e).elim) (fun _ _ _ _ => trivial) (fun p os f' vs' e' => ?_)
      (fun p os f' vs' e' y' => ?_) fun r1 hr => ?_
    · subst e'; exact (no_says (f := f') (vs := vs') l no rfl e).elim
    · subst e'; exact (no_says (f := f') (vs := vs') l no rfl e).elim
    · cases hr with
      | call f' vs' v' e' x' => exact (no_says l no e' e).elim
      | raised f' vs' e' x' => exact (no_says l no e'.calls e).elim
      | other _ hs =>
        rcases says_like inj l e hs with ⟨h3, h4, h5⟩ | ⟨h3, h4⟩
        · exact ih (hn _ _ h4 h5 h3)
        · subst h3
          cases c with
          | getResult p os a n =>
            cases n with
            | none => exact absurd rfl e
            | some n => exact absurd rfl (no p os a n)
          | _ => exact e.elim
      | missing hs => exact absurd trivial hs
      | clash f' vs' v' w' _ x1 x2 ne => exact absurd (one _ _ _ _ x1 x2) ne
  | missing c next r hs y ih => exact absurd trivial hs
  | clash c next f vs v w r e x x' ne y ih1 ih2 ih3 => exact absurd (one _ _ _ _ x x') ne

omit [DecidableEq P] [DecidableEq A] in
theorem callsOnly_halts (inj : Function.Injective h) (det : ∀ f kw, CallsOnly (code f kw)) {c : Code U A P} {r : Reply U A P}
    (x : Outcome h code True c r) : CallsOnly c → Halts h code False c := by
  have st := fun f kw => (det f kw).steady
  have one : OneValue h code := steady_oneValue inj st
  have key : ∀ {c : Cmd U A P} {next : Reply U A P → Code U A P}, CallsOnly (.op c next) → ∃ p os f us, c = .execute p os f (raws us) := by
    intro c next hc
    generalize e : Code.op c next = d at hc
    cases hc with
    | ret => cases e
    | raise => cases e
    | call p os f us next' hn => injection e with e _; exact ⟨p, os, f, us, e⟩
  have tail : ∀ {c : Cmd U A P} {next : Reply U A P → Code U A P}, CallsOnly (.op c next) → ∀ r, CallsOnly (next r) := by
    intro c next hc r
    generalize e : Code.op c next = d at hc
    cases hc with
    | ret => cases e
    | raise => cases e
    | call p os f us next' hn => injection e with _ e; rw [e]; exact hn r
  induction x with
  | ret v => exact fun _ => .ret v
  | raise => exact fun _ => .raise
  | call c next f vs v r e x y ih1 ih2 =>
    intro hc
    obtain ⟨p, os, g, us, rfl⟩ := key hc
    have uniq := outcome_unique inj st x (st _ _)
    refine .op _ _ (fun f' vs' e' => ?_) (fun _ _ _ e' => (nomatch e')) (fun _ _ _ _ e' => (nomatch e'))
      (fun _ _ _ _ e' => (nomatch e')) fun r0 hr => ?_
    · obtain ⟨rfl, rfl⟩ := calls_unique inj (c := .execute p os g (raws us)) (c' := .execute p os g (raws us)) ⟨rfl, rfl⟩ e e'.calls
      exact ih1 (det _ _)
    · cases hr with
      | call f' vs' v' e' x' =>
        obtain ⟨rfl, rfl⟩ := calls_unique inj (c := .execute p os g (raws us)) (c' := .execute p os g (raws us)) ⟨rfl, rfl⟩ e e'
        cases uniq _ x'
        exact ih2 (tail hc _)
      | raised f' vs' e' x' =>
        obtain ⟨rfl, rfl⟩ := calls_unique inj (c := .execute p os g (raws us)) (c' := .execute p os g (raws us)) ⟨rfl, rfl⟩ e e'.calls
        cases uniq _ x'
      | other _ hs => cases r0 <;> exact hs.elim
      | missing hs => exact absurd trivial hs
      | clash f' vs' v' w' _ x1 x2 ne => exact absurd (one _ _ _ _ x1 x2) ne
  | callRaise c next f vs r e x y ih1 ih2 =>
    intro hc
    obtain ⟨p, os, g, us, rfl⟩ := key hc
    have uniq := outcome_unique inj st x (st _ _)
    refine .op _ _ (fun f' vs' e' => ?_) (fun _ _ _ e' => (nomatch e')) (fun _ _ _ _ e' => (nomatch e'))
      (fun _ _ _ _ e' => (nomatch e')) fun r0 hr => ?_
    · obtain ⟨rfl, rfl⟩ := calls_unique inj (c := .execute p os g (raws us)) (c' := .execute p os g (raws us)) ⟨rfl, rfl⟩ e.calls e'.calls
      exact ih1 (det _ _)
    · cases hr with
      | call f' vs' v' e' x' =>
        obtain ⟨rfl, rfl⟩ := calls_unique inj (c := .execute p os g (raws us)) (c' := .execute p os g (raws us)) ⟨rfl, rfl⟩ e.calls e'
        cases uniq _ x'
      | raised f' vs' e' x' => exact ih2 (tail hc _)
      | other _ hs => cases r0 <;> exact hs.elim
      | missing hs => exact absurd trivial hs
      | clash f' vs' v' w' _ x1 x2 ne => exact absurd (one _ _ _ _ x1 x2) ne
  | other c next r0 r e y ih =>
    intro hc
    obtain ⟨p, os, g, us, rfl⟩ := key hc
    cases r0 <;> exact e.elim
  | missing c next r hs y ih => exact absurd trivial hs
  | clash c next f vs v w r e x x' ne y ih1 ih2 ih3 => exact absurd (one _ _ _ _ x x') ne

omit [DecidableEq P] [DecidableEq A] in
theorem argsKnown_raws {vs rs : List (P × A)} (us : List (String × U)) : ArgsKnown T vs rs (raws us : List (String × Arg U A P)) := by
  intro n home a hx
  obtain ⟨x, _, hx⟩ := List.mem_map.1 hx
  injection hx with _ hx
  cases hx

omit [DecidableEq P] [DecidableEq A] in
theorem callsOnly_lawful (some : ∃ p os, knows p os) {c : Code U A P} (x : CallsOnly c) :
    ∀ {vs rs : List (P × A)}, Lawful h code T knows vs rs c := by
  induction x with
  | ret v => exact .ret _ _ _
  | raise => exact .raise _ _
  | call p os f us next y ih =>
    intro vs rs
    obtain ⟨p', os', hp⟩ := some
    exact .op _ _ _ _ ⟨p', os', hp, argsKnown_raws us⟩ fun r _ => ih r

/-! ### whatever the others do -/

theorem Others.grow (inj : Function.Injective h) (kn : T → KnowsAll knows) {s t : State U A P}
    (o : AllOk h code T True s) (x : Others h code T knows i s t) : Grow s t := by
  induction x with
  | refl => exact .refl _
  | step j hj x y ih =>
    obtain ⟨h1, _, _⟩ := Others.spec inj (fun _ => kn) o x
    exact ih.trans (step_grow inj h1 y)

theorem will_steppable (inj : Function.Injective h) (kn : T → KnowsAll knows) :
    Steppable h code T knows i (fun s : State U A P => s) (fun W => ∃ G, W = Will h code T knows i G) := by
  rintro _ ⟨G, rfl⟩ s x o e busy can all
  refine .later s (e ▸ busy) (fun s' hs' => ?_) fun s' t hs' ht => ?_
  · exact can s' (hs'.grow inj kn o) ((Others.spec inj (fun _ => kn) o hs').2.2.trans e)
  · obtain ⟨h1, h2, h3⟩ := Others.spec inj (fun _ => kn) o hs'
    have g := hs'.grow inj kn o
    exact all s' t h1 g (h3.trans e) ht (act_ok inj (fun _ => kn) h1 ht) (g.trans (step_grow inj h1 (.act _ ht)))

/-- code that does not wait for others comes to its end -/
theorem code_will (inj : Function.Injective h) (kn : T → KnowsAll knows)
    (lawful : ∀ f kw, Lawful h code T knows [] [] (code f kw)) {c : Code U A P} (x : Halts h code False c) :
    ∀ {vs rs : List (P × A)}, Lawful h code T knows vs rs c →
    CodeGets h code T i (fun s : State U A P => s) (fun W => ∃ G, W = Will h code T knows i G) vs rs c := by
  induction x with
  | ret v => exact fun _ => codeGets_ret
  | raise => exact fun _ => codeGets_raise
  | op c next run may call well rest ih1 ih2 ih3 =>
    intro vs rs l
    cases l with
    | op _ _ _ _ legal hn =>
    exact codeGets_op inj kn (will_steppable inj kn) (fun f kw hr => ih1 f kw hr (lawful f kw))
      (fun p os f kw e => (may _ _ _ e).elim) legal fun r hr => ih3 r hr (hn r hr)

/-- `addr.get()` when the result is there -/
theorem getResult_ok {p : P} {os : List P} {a : A} {n : Option Nat} {s : Shared U A P} {Q : Reply U A P → Shared U A P → Prop}
    {J : Need A P → Prop} (hr : (s.results p a).isSome = true)
    (q : ∀ w, Correct h code True a (h w) → ∀ t, Q (.got a w) t) : Ok h code T True J Q (prog h (.getResult p os a n)) s := by
  unfold prog ready
  intro t lt it
  have h1 := lt.results p a hr
  cases e : t.results p a with
  | none => rw [e] at h1; cases h1
  | some r =>
    refine readResult_ok h1 fun u lu iu r hr => ?_
    obtain ⟨_, ns⟩ | ⟨v, rfl, cr⟩ := hr
    · exact absurd trivial ns
    exact ok_got cr fun z _ => q v cr z

end Pyth.Parts
