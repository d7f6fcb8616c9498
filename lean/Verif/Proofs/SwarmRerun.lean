import Verif.Proofs.SwarmChecks
/-!
# With consistency checks, a call runs its code
-/
namespace Pyth.Parts
open Pyth.Pure (Val FnId sortKw)

variable {U A P : Type}

/-- if code was run for the addresses `B`, program `x` returns only results of calls for which code was run, provided that
every check takes place -/
def Reruns : Io U A P → (A → Prop) → Prop
  | .done r, B => ∀ a v, r = .got a v → B a
  | .put _ _ _ k, B => Reruns k B
  | .load _ _ k, B => ∀ r, Reruns (k r) B
  | .result _ _ k, B => ∀ r, Reruns (k r) B
  | .setResult _ _ _ k, B => Reruns k B
  | .request _ _ k, B => Reruns k B
  | .drop _ _ k, B => Reruns k B
  | .body a _ _ k, B => ∀ r (B' : A → Prop), (∀ b, B b → B' b) → B' a → Reruns (k r) B'
  | .wait _ _ _, _ => False
  | .toss k, B => Reruns (k true) B

variable {h : Val U A → A} {B : A → Prop}

theorem Reruns.mono {B' : A → Prop} (l : ∀ b, B b → B' b) {x : Io U A P} (o : Reruns x B) : Reruns x B' := by
  induction x with
  | done r => exact fun a v e => l _ (o a v e)
  | put p a v k ih => exact ih o
  | load p a k ih => exact fun r => ih r (o r)
  | result p a k ih => exact fun r => ih r (o r)
  | setResult p a r k ih => exact ih o
  | request p a k ih => exact ih o
  | drop p a k ih => exact ih o
  | body a f kw k ih => exact fun r C lC hC => o r C (fun b hb => lC b (l b hb)) hC
  | wait p os a => exact o
  | toss k ih => exact ih true o

variable [DecidableEq P] [DecidableEq A]

omit [DecidableEq P] [DecidableEq A] in
theorem reruns_other {r : Reply U A P} (e : ∀ a v, r ≠ .got a v) : Reruns (.done r) B := fun a v x => absurd x (e a v)

omit [DecidableEq P] [DecidableEq A] in
theorem reruns_missing : Reruns (.done .missing : Io U A P) B := reruns_other fun _ _ => nofun

omit [DecidableEq P] [DecidableEq A] in
theorem valueGetOthers_reruns {p : P} {a : A} {k : Option (Val U A) → Io U A P} (hk : ∀ r, Reruns (k r) B) (os : List P) :
    Reruns (valueGetOthers p a k os) B := by
  induction os with
  | nil => exact hk none
  | cons o os ih =>
    intro r
    cases r with
    | none => exact ih
    | some v => exact hk (some v)

omit [DecidableEq P] [DecidableEq A] in
theorem valueGet_reruns {p : P} {os : List P} {a : A} {k : Option (Val U A) → Io U A P} (hk : ∀ r, Reruns (k r) B) :
    Reruns (valueGet p os a k) B := by
  intro r
  cases r with
  | none => exact valueGetOthers_reruns hk os
  | some v => exact hk (some v)

omit [DecidableEq A] in
theorem packOne_reruns {p : P} {os : List P} {k : Option A → Io U A P} (x : Arg U A P) (hk : ∀ r, Reruns (k r) B) :
    Reruns (packOne h p os k x) B := by
  cases x with
  | raw u => exact hk _
  | addr home a =>
    show Reruns (if home = p then _ else _) B
    by_cases e : home = p
    · rw [if_pos e]; exact hk _
    · rw [if_neg e]
      intro r
      cases r with
      | some v => exact hk _
      | none =>
        refine valueGet_reruns fun r => ?_
        cases r with
        | none => exact hk none
        | some v => exact hk _

omit [DecidableEq A] in
theorem packAll_reruns {p : P} {os : List P} (kw : List (String × Arg U A P)) :
    ∀ {k : Option (List (String × A)) → Io U A P}, (∀ r, Reruns (k r) B) → Reruns (packAll h p os kw k) B := by
  induction kw with
  | nil => exact fun hk => hk _
  | cons x kw ih =>
    intro k hk
    obtain ⟨n, x⟩ := x
    refine packOne_reruns x fun r => ?_
    cases r with
    | none => exact hk none
    | some a =>
      refine ih fun r => ?_
      cases r with
      | none => exact hk none
      | some l => exact hk _

omit [DecidableEq A] in
theorem getAddress_reruns {p : P} {os : List P} {f : FnId} {kw : List (String × Arg U A P)}
    {k : Option (A × List (String × A)) → Io U A P} (hk : ∀ r, Reruns (k r) B) :
    Reruns (getAddress h p os f kw k) B := by
  refine packAll_reruns _ fun r => ?_
  cases r with
  | none => exact hk none
  | some l =>
    refine packAll_reruns (B := B) _ fun r => ?_
    cases r with
    | none => exact hk none
    | some l => exact hk _

omit [DecidableEq P] [DecidableEq A] in
theorem unpackAll_reruns {p : P} {os : List P} (l : List (String × A)) :
    ∀ {k : Option (List (String × Val U A)) → Io U A P}, (∀ r, Reruns (k r) B) → Reruns (unpackAll p os l k) B := by
  induction l with
  | nil => exact fun hk => hk _
  | cons x l ih =>
    intro k hk
    obtain ⟨n, a⟩ := x
    refine valueGet_reruns fun r => ?_
    cases r with
    | none => exact hk none
    | some v =>
      refine ih fun r => ?_
      cases r with
      | none => exact hk none
      | some l => exact hk _

omit [DecidableEq P] [DecidableEq A] in
theorem getFunction_reruns {p : P} {os : List P} {a : A} {k : Option FnId → Io U A P} (hk : ∀ r, Reruns (k r) B) :
    Reruns (getFunction p os a k) B := by
  refine valueGet_reruns fun r => ?_
  rcases r with _ | ⟨_ | _ | _ | _⟩ <;> first | exact hk none | skip
  refine valueGet_reruns fun r => ?_
  rcases r with _ | ⟨_ | _ | _ | _⟩ <;> exact hk _

omit [DecidableEq P] [DecidableEq A] in
theorem getArguments_reruns {p : P} {os : List P} {a : A} {k : Option (List (String × A)) → Io U A P}
    (hk : ∀ r, Reruns (k r) B) : Reruns (getArguments p os a k) B := by
  refine valueGet_reruns fun r => ?_
  rcases r with _ | ⟨_ | _ | _ | _⟩ <;> first | exact hk none | skip
  refine valueGet_reruns fun r => ?_
  rcases r with _ | ⟨_ | _ | _ | _⟩ <;> exact hk _

omit [DecidableEq P] [DecidableEq A] in
theorem getKwargs_reruns {p : P} {os : List P} {a : A} {k : Option (List (String × Val U A)) → Io U A P}
    (hk : ∀ r, Reruns (k r) B) : Reruns (getKwargs p os a k) B := by
  refine getArguments_reruns fun r => ?_
  cases r with
  | none => exact hk none
  | some l => exact unpackAll_reruns l hk

omit [DecidableEq P] in
theorem compare_reruns {p : P} {a new : A} {k : Io U A P} {check : Bool} (hk : Reruns k B) :
    Reruns (compare p a check new k) B := by
  unfold compare
  cases check with
  | false => exact hk
  | true =>
    intro r
    cases r with
    | none => exact reruns_missing
    | some old =>
      show Reruns (if old = new then k else .done .clash) B
      by_cases e : old = new
      · rw [if_pos e]; exact hk
      · rw [if_neg e]; exact reruns_other fun _ _ => nofun

theorem ready_reruns {p : P} {os : List P} {a : A} {k : Option Bool → Io U A P} (hk : ∀ r, Reruns (k r) B) :
    Reruns (ready h p os a k) B := by
  have hrest : ∀ all, Reruns (readyOthers.rest p all a k) B := by
    intro all
    refine getFunction_reruns fun r => ?_
    cases r with
    | none => exact hk none
    | some f =>
      refine getKwargs_reruns fun r => ?_
      cases r with
      | none => exact hk none
      | some l => exact hk _
  have others : ∀ all l, Reruns (readyOthers h p all a k l) B := by
    intro all l
    induction l with
    | nil => exact hk _
    | cons o l ih =>
      intro r
      cases r with
      | none => exact ih
      | some r =>
        intro v
        cases v with
        | none => exact hk none
        | some v =>
          intro r'
          cases r' with
          | none => exact hrest all
          | some r' => exact compare_reruns (hrest all)
  intro r
  cases r with
  | some r => exact hk _
  | none => exact others os os

theorem runAt_reruns {p : P} {os : List P} {f : FnId} {a : A} {l : List (String × A)} {sure : Bool} :
    Reruns (runAt h p os f a l sure : Io U A P) B := by
  unfold runAt requestExec
  refine ready_reruns fun r => ?_
  have key : Reruns (unpackAll p os l fun
      | none => .done .missing
      | some vals => .body a f vals fun
        | .val v => register h p a v sure
        | _ => .done .raised : Io U A P) B := by
    refine unpackAll_reruns l fun r => ?_
    cases r with
    | none => exact reruns_missing
    | some vals =>
      intro r B' lB hB
      have fin : ∀ v, Reruns (.drop p a (.done (.got a v)) : Io U A P) B' := fun v b w e => by cases e; exact hB
      cases r <;> try exact reruns_other fun _ _ => nofun
      intro r
      cases r with
      | none => exact fin _
      | some r =>
        rename_i v
        cases sure
        · exact compare_reruns (fin v)
        · exact compare_reruns (check := true) (new := h v) (fin v)
  rcases r with _ | _ | _
  · exact reruns_missing
  · exact key
  · exact key

theorem execute_reruns {p : P} {os : List P} {f : FnId} {kw : List (String × Arg U A P)} :
    Reruns (execute h p os f kw) B := by
  refine getAddress_reruns fun r => ?_
  rcases r with _ | ⟨a, l⟩
  · exact reruns_missing
  · refine ready_reruns fun r => ?_
    rcases r with _ | _ | _
    · exact reruns_missing
    · exact runAt_reruns
    · exact runAt_reruns (sure := true)

theorem executeAddr_reruns {p : P} {os : List P} {a : A} : Reruns (executeAddr h p os a : Io U A P) B := by
  refine getFunction_reruns fun r => ?_
  cases r with
  | none => exact reruns_missing
  | some f =>
    refine getArguments_reruns fun r => ?_
    cases r with
    | none => exact reruns_missing
    | some l => exact execute_reruns

/-! ### processes -/

variable {F : Frame U A P} {st : List (Frame U A P)}

/-- frames below an operation called in frame `F` on top of `st` -/
def StackRuns (F : Frame U A P) (st : List (Frame U A P)) (B : A → Prop) : List (Frame U A P) → Prop
  | [] => True
  | .inOp k :: l => (l = F :: st → ∀ r, Reruns (k r) B) ∧ StackRuns F st B l
  | .inCode _ _ :: l => StackRuns F st B l

def ProcRuns (F : Frame U A P) (st : List (Frame U A P)) (B : A → Prop) (x : Proc U A P) : Prop :=
  StackRuns F st B x.stack ∧ ∀ y, x.mode = .io y → x.stack = F :: st → Reruns y B

omit [DecidableEq P] [DecidableEq A] in
theorem StackRuns.mono {B' : A → Prop} (l : ∀ b, B b → B' b) {m : List (Frame U A P)} (o : StackRuns F st B m) :
    StackRuns F st B' m := by
  induction m with
  | nil => trivial
  | cons f m ih =>
    cases f with
    | inOp k => exact ⟨fun e r => (o.1 e r).mono l, ih o.2⟩
    | inCode c n => exact ih o

omit [DecidableEq P] [DecidableEq A] in
theorem ProcRuns.mono {B' : A → Prop} (l : ∀ b, B b → B' b) {x : Proc U A P} (o : ProcRuns F st B x) : ProcRuns F st B' x :=
  ⟨o.1.mono l, fun y e e' => (o.2 y e e').mono l⟩

omit [DecidableEq P] [DecidableEq A] in
theorem stackRuns_short {m : List (Frame U A P)} (e : m.length ≤ st.length + 1) : StackRuns F st B m := by
  induction m with
  | nil => trivial
  | cons f m ih =>
    have := ih (by simp at e; omega)
    cases f with
    | inOp k => exact ⟨fun e' => by rw [e'] at e; simp at e, this⟩
    | inCode c n => exact this

/-- the addresses for which process `i` has started code in the states `l`, directly on top of `F :: st` -/
def Started (F : Frame U A P) (st : List (Frame U A P)) (i : Nat) (l : List (State U A P)) (a : A) : Prop :=
  ∃ t ∈ l, ∃ f kw k, (t.procs i).mode = .io (.body a f kw k) ∧ (t.procs i).stack = F :: st

variable {code : FnId → List (String × Val U A) → Code U A P} {travel : Prop} {knows : P → List P → Prop} {on : Nat → Prop}

theorem act_runs {c : Cmd U A P} {next : Reply U A P → Code U A P} (hc : ∀ B, Reruns (prog h c) B) {i : Nat} {s u : State U A P}
    {B : A → Prop} (hB : ∀ a f kw k, (s.procs i).mode = .io (.body a f kw k) → (s.procs i).stack = .inCode c next :: st → B a)
    (o : ProcRuns (.inCode c next) st B (s.procs i)) (x : Act h code travel knows i s u)
    (checked : ∀ k, (s.procs i).mode = .io (.toss k) → u = s.goto i (.io (k true)) ∨ u = s.setProc i {}) :
    ProcRuns (.inCode c next) st B (u.procs i) := by
  obtain ⟨o1, o2⟩ := o
  have goOn : ∀ {y : Io U A P}, u.procs i = { s.procs i with mode := .io y } →
      ((s.procs i).stack = .inCode c next :: st → Reruns y B) → ProcRuns (.inCode c next) st B (u.procs i) := by
    intro y e hy
    rw [e]
    exact ⟨o1, fun z hz => by cases hz; exact hy⟩
  cases x with
  | script c hm => simp only [State.setProc, Function.update_self]; exact ⟨trivial, fun _ e => (nomatch e)⟩
  | found p os a hm hk hr =>
    simp only [State.setProc, Function.update_self]
    exact ⟨trivial, fun _ _ e => (nomatch e)⟩
  | op c' next' p os hm hl =>
    simp only [State.setProc, Function.update_self]
    refine ⟨o1, fun y hy e => ?_⟩
    cases hy
    injection e with e e'
    injection e with e e'
    rw [e]
    exact hc B
  | done r c next st job hm =>
    simp only [State.setProc, Function.update_self]
    rw [hm] at o1
    exact ⟨o1, fun _ e => (nomatch e)⟩
  | workDone r job hm => simp only [State.setProc, Function.update_self]; exact ⟨trivial, fun _ e => (nomatch e)⟩
  | put p a v k hm => exact goOn (y := k) (by simp [State.next]) fun e => o2 (.put p a v k) hm e
  | load p a k hm => exact goOn (y := k (s.sh.store p a)) (by simp [State.goto]) fun e => o2 _ hm e _
  | result p a k hm => exact goOn (y := k (s.sh.results p a)) (by simp [State.goto]) fun e => o2 _ hm e _
  | setResult p a r k hm => exact goOn (y := k) (by simp [State.next]) fun e => o2 (.setResult p a r k) hm e
  | request p a k hm => exact goOn (y := k) (by simp [State.next]) fun e => o2 (.request p a k) hm e
  | drop p a k hm => exact goOn (y := k) (by simp [State.next]) fun e => o2 (.drop p a k) hm e
  | wait p os a hm => exact goOn (y := round h p os a (.wait p os a)) (by simp [State.goto]) fun e => (o2 _ hm e).elim
  | toss k b hm =>
    rcases checked k hm with e | e
    · exact goOn (y := k true) (by rw [e]; simp [State.goto]) fun e' => o2 (.toss k) hm e'
    · rw [e]
      simp only [State.setProc, Function.update_self]
      exact ⟨trivial, fun _ e => (nomatch e)⟩
  | body a f kw k hm =>
    simp only [State.setProc, Function.update_self]
    exact ⟨⟨fun e r => o2 _ hm e r B (fun _ x => x) (hB a f kw k hm e), o1⟩, fun _ e => (nomatch e)⟩
  | ret v k st job hm =>
    simp only [State.setProc, Function.update_self]
    rw [hm] at o1
    exact ⟨o1.2, fun y hy e => by cases hy; exact o1.1 e _⟩
  | raise k st job hm =>
    simp only [State.setProc, Function.update_self]
    rw [hm] at o1
    exact ⟨o1.2, fun y hy e => by cases hy; exact o1.1 e _⟩

/-- from the start `u` of an operation on -/
theorem Exec.runs {c : Cmd U A P} {next : Reply U A P → Code U A P} (hc : ∀ B, Reruns (prog h c) B) {i : Nat} (hon : on i)
    {u : State U A P} {l : List (State U A P)} (hu : (u.procs i).mode = .io (prog h c)) (hst : (u.procs i).stack = .inCode c next :: st) :
    ∀ (m : List (State U A P)) (s : State U A P) (m' : List (State U A P)), m ++ [u] = s :: m' →
      Exec h code travel knows on (m ++ u :: l) → ProcRuns (.inCode c next) st (Started (.inCode c next) st i m') (s.procs i) := by
  intro m
  induction m with
  | nil =>
    intro s m' e _
    cases e
    refine ⟨by rw [hst]; exact stackRuns_short (by simp), fun y hy _ => ?_⟩
    rw [hu] at hy
    cases hy
    exact hc _
  | cons s0 m ih =>
    intro s m' e x
    injection e with e e'
    subst e; subst e'
    have hcons : ∃ t m2, m ++ [u] = t :: m2 ∧ ∃ l2, m ++ u :: l = t :: l2 := by
      cases m with
      | nil => exact ⟨u, [], rfl, l, rfl⟩
      | cons t m => exact ⟨t, m ++ [u], rfl, m ++ u :: l, rfl⟩
    obtain ⟨t, m2, e2, l2, e3⟩ := hcons
    rw [List.cons_append, e3] at x
    cases x with
    | step j _ x y checked =>
    have o := ih t m2 e2 (by rw [e3]; exact x)
    show ProcRuns _ _ (Started _ _ i (m ++ [u])) _
    rw [e2]
    have o : ProcRuns (.inCode c next) st (Started (.inCode c next) st i (t :: m2)) (t.procs i) :=
      o.mono fun b ⟨w, hw, z⟩ => ⟨w, .tail _ hw, z⟩
    by_cases e : i = j
    · subst e
      cases y with
      | crash => simp only [State.setProc, Function.update_self]; exact ⟨trivial, fun _ e => (nomatch e)⟩
      | act _ y =>
        exact act_runs hc (fun a f kw k h1 h2 => ⟨t, .head _, f, kw, k, h1, h2⟩) o y (checked hon)
    · have e4 : s0.procs i = t.procs i := by
        cases y with
        | crash => simp [State.setProc, Function.update_of_ne e]
        | act _ y => exact act_others y e
      rw [e4]
      exact o

end Pyth.Parts
