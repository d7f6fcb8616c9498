import Verif.Spec.SwarmChecks
import Verif.Proofs.SwarmParts
/-!
# With consistency checks, returned results were stored
-/
namespace Pyth.Parts
open Pyth.Pure (Val FnId sortKw)

variable {U A P : Type}

/-- more results have been stored -/
def HLe (H H' : P → A → A → Prop) : Prop := ∀ p a r, H p a r → H' p a r

theorem HLe.refl (H : P → A → A → Prop) : HLe H H := fun _ _ _ x => x

theorem HLe.trans {H H' H'' : P → A → A → Prop} (x : HLe H H') (y : HLe H' H'') : HLe H H'' :=
  fun p a r z => y p a r (x p a r z)

/-- if `H` are the results stored so far, program `x` returns only results that are stored in portal `q` at some time,
provided that every check takes place -/
def Rec (h : Val U A → A) (q : P) : Io U A P → (P → A → A → Prop) → Prop
  | .done r, H => ∀ a v, r = .got a v → H q a (h v)
  | .put _ _ _ k, H => Rec h q k H
  | .load _ a k, H => Rec h q (k none) H ∧ ∀ v, a = h v → Rec h q (k (some v)) H
  | .result p a k, H => Rec h q (k none) H ∧ ∀ H', HLe H H' → ∀ r, H' p a r → Rec h q (k (some r)) H'
  | .setResult p a r k, H => ∀ H', HLe H H' → H' p a r → Rec h q k H'
  | .request _ _ k, H => Rec h q k H
  | .drop _ _ k, H => Rec h q k H
  | .body _ _ _ k, H => ∀ r, Rec h q (k r) H
  | .wait p _ _, _ => p = q
  | .toss k, H => Rec h q (k true) H

variable {h : Val U A → A} {q : P} {H : P → A → A → Prop}

theorem Rec.mono {H' : P → A → A → Prop} (l : HLe H H') {x : Io U A P} (o : Rec h q x H) : Rec h q x H' := by
  induction x with
  | done r => exact fun a v e => l _ _ _ (o a v e)
  | put p a v k ih => exact ih o
  | load p a k ih => exact ⟨ih _ o.1, fun v e => ih _ (o.2 v e)⟩
  | result p a k ih => exact ⟨ih _ o.1, fun H'' l' => o.2 H'' (l.trans l')⟩
  | setResult p a r k _ => exact fun H'' l' => o H'' (l.trans l')
  | request p a k ih => exact ih o
  | drop p a k ih => exact ih o
  | body a f kw k ih => exact fun r => ih r (o r)
  | wait p os a => exact o
  | toss k ih => exact ih true o

variable [DecidableEq P] [DecidableEq A]

theorem rec_other {r : Reply U A P} (e : ∀ a v, r ≠ .got a v) : Rec h q (.done r) H := fun a v x => absurd x (e a v)

theorem rec_missing : Rec h q (.done .missing : Io U A P) H := rec_other fun _ _ => nofun

theorem valueGetOthers_rec {p : P} {a : A} {k : Option (Val U A) → Io U A P} (hk : ∀ r, Rec h q (k r) H) (os : List P) :
    Rec h q (valueGetOthers p a k os) H := by
  induction os with
  | nil => exact hk none
  | cons o os ih => exact ⟨ih, fun v _ => hk (some v)⟩

theorem valueGet_rec {p : P} {os : List P} {a : A} {k : Option (Val U A) → Io U A P} (hk : ∀ r, Rec h q (k r) H) :
    Rec h q (valueGet p os a k) H := ⟨valueGetOthers_rec hk os, fun v _ => hk (some v)⟩

theorem packOne_rec {p : P} {os : List P} {k : Option A → Io U A P} (x : Arg U A P) (hk : ∀ r, Rec h q (k r) H) :
    Rec h q (packOne h p os k x) H := by
  cases x with
  | raw u => exact hk _
  | addr home a =>
    show Rec h q (if home = p then _ else _) H
    by_cases e : home = p
    · rw [if_pos e]; exact hk _
    · rw [if_neg e]
      refine ⟨valueGet_rec fun r => ?_, fun v _ => hk _⟩
      cases r with
      | none => exact hk none
      | some v => exact hk _

theorem packAll_rec {p : P} {os : List P} (kw : List (String × Arg U A P)) :
    ∀ {k : Option (List (String × A)) → Io U A P}, (∀ r, Rec h q (k r) H) → Rec h q (packAll h p os kw k) H := by
  induction kw with
  | nil => exact fun hk => hk _
  | cons x kw ih =>
    intro k hk
    obtain ⟨n, x⟩ := x
    refine packOne_rec x fun r => ?_
    cases r with
    | none => exact hk none
    | some a =>
      refine ih fun r => ?_
      cases r with
      | none => exact hk none
      | some l => exact hk _

theorem mkAddr_rec {p : P} {os : List P} {f : FnId} {kw : List (String × Arg U A P)} {k : Option A → Io U A P}
    (hk : ∀ r, Rec h q (k r) H) : Rec h q (mkAddr h p os f kw k) H := by
  refine packAll_rec (H := H) _ fun r => ?_
  cases r with
  | none => exact hk none
  | some l => exact hk _

theorem getAddress_rec {p : P} {os : List P} {f : FnId} {kw : List (String × Arg U A P)}
    {k : Option (A × List (String × A)) → Io U A P} (hk : ∀ r, Rec h q (k r) H) :
    Rec h q (getAddress h p os f kw k) H := by
  refine packAll_rec _ fun r => ?_
  cases r with
  | none => exact hk none
  | some l =>
    refine mkAddr_rec fun r => ?_
    cases r with
    | none => exact hk none
    | some l => exact hk _

theorem unpackAll_rec {p : P} {os : List P} (l : List (String × A)) :
    ∀ {k : Option (List (String × Val U A)) → Io U A P}, (∀ r, Rec h q (k r) H) → Rec h q (unpackAll p os l k) H := by
  induction l with
  | nil => exact fun hk => hk _
  | cons x l ih =>
    intro k hk
    obtain ⟨n, a⟩ := x
    refine valueGet_rec fun r => ?_
    cases r with
    | none => exact hk none
    | some v =>
      refine ih fun r => ?_
      cases r with
      | none => exact hk none
      | some l => exact hk _

theorem getFunction_rec {p : P} {os : List P} {a : A} {k : Option FnId → Io U A P} (hk : ∀ r, Rec h q (k r) H) :
    Rec h q (getFunction p os a k) H := by
  refine valueGet_rec fun r => ?_
  rcases r with _ | ⟨_ | _ | _ | _⟩ <;> first | exact hk none | skip
  refine valueGet_rec fun r => ?_
  rcases r with _ | ⟨_ | _ | _ | _⟩ <;> exact hk _

theorem getArguments_rec {p : P} {os : List P} {a : A} {k : Option (List (String × A)) → Io U A P}
    (hk : ∀ r, Rec h q (k r) H) : Rec h q (getArguments p os a k) H := by
  refine valueGet_rec fun r => ?_
  rcases r with _ | ⟨_ | _ | _ | _⟩ <;> first | exact hk none | skip
  refine valueGet_rec fun r => ?_
  rcases r with _ | ⟨_ | _ | _ | _⟩ <;> exact hk _

theorem getKwargs_rec {p : P} {os : List P} {a : A} {k : Option (List (String × Val U A)) → Io U A P}
    (hk : ∀ r, Rec h q (k r) H) : Rec h q (getKwargs p os a k) H := by
  refine getArguments_rec fun r => ?_
  cases r with
  | none => exact hk none
  | some l => exact unpackAll_rec l hk

/-- a check that takes place and does not fail -/
theorem compare_rec {p : P} {a new : A} {k : Io U A P} (hk : ∀ H', HLe H H' → H' p a new → Rec h q k H') :
    Rec h q (compare p a true new k) H := by
  refine ⟨rec_missing, fun H' l old ho => ?_⟩
  show Rec h q (if old = new then k else .done .clash) H'
  by_cases e : old = new
  · rw [if_pos e]; exact hk H' l (e ▸ ho)
  · rw [if_neg e]; exact rec_other fun _ _ => nofun

theorem readyOthers_rec {p : P} {all : List P} {a : A} {k : Option Bool → Io U A P} (hk : ∀ r, Rec h q (k r) H)
    (os : List P) : Rec h q (readyOthers h p all a k os) H := by
  have hrest : Rec h q (readyOthers.rest p all a k) H := by
    refine getFunction_rec fun r => ?_
    cases r with
    | none => exact hk none
    | some f =>
      refine getKwargs_rec fun r => ?_
      cases r with
      | none => exact hk none
      | some l => exact hk _
  induction os with
  | nil => exact hk _
  | cons o os ih =>
    refine ⟨ih, fun H' l r hr => ⟨(hk none).mono l, fun v hv => ⟨fun H2 l2 _ => hrest.mono (l.trans l2), fun H2 l2 r' hr' => ?_⟩⟩⟩
    exact compare_rec fun H3 l3 _ => hrest.mono (l.trans (l2.trans l3))

theorem ready_rec {p : P} {os : List P} {a : A} {k : Option Bool → Io U A P} (hk : ∀ r, Rec h q (k r) H) :
    Rec h q (ready h p os a k) H := ⟨readyOthers_rec hk os, fun _ l _ _ => (hk _).mono l⟩

theorem requestExec_rec {p : P} {os : List P} {a : A} {k : Bool → Io U A P} (hk : ∀ r, Rec h q (k r) H) :
    Rec h q (requestExec h p os a k) H := by
  refine ready_rec fun r => ?_
  rcases r with _ | _ | _ <;> exact hk _

theorem readResult_rec {a : A} {k : Option (Val U A) → Io U A P} (hn : Rec h q (k none) H)
    (hk : ∀ H', HLe H H' → ∀ v, H' q a (h v) → Rec h q (k (some v)) H') : Rec h q (readResult q a k) H :=
  ⟨hn, fun H' l r hr => ⟨hn.mono l, fun v e => hk H' l v (e ▸ hr)⟩⟩

theorem rec_got {a : A} {v : Val U A} (x : H q a (h v)) : Rec h q (.done (.got a v) : Io U A P) H :=
  fun b w e => by cases e; exact x

theorem readGot_rec {a : A} : Rec h q (readResult q a (replyGot a) : Io U A P) H :=
  readResult_rec rec_missing fun _ _ _ x => rec_got x

theorem register_rec {a : A} {v : Val U A} {sure : Bool} : Rec h q (register h q a v sure : Io U A P) H := by
  have fin : ∀ H', H' q a (h v) → Rec h q (.drop q a (.done (.got a v)) : Io U A P) H' := fun H' x => rec_got x
  refine ⟨fun H' _ x => fin H' x, fun H' l r hr => ?_⟩
  cases sure with
  | true => exact compare_rec fun H'' _ x => fin H'' x
  | false => exact compare_rec fun H'' _ x => fin H'' x

theorem runAt_rec {os : List P} {f : FnId} {a : A} {l : List (String × A)} {sure : Bool} :
    Rec h q (runAt h q os f a l sure : Io U A P) H := by
  refine requestExec_rec fun r => ?_
  cases r with
  | false => exact rec_missing
  | true =>
    refine unpackAll_rec l fun r => ?_
    cases r with
    | none => exact rec_missing
    | some vals =>
      intro r
      cases r <;> first | exact register_rec | exact rec_other fun _ _ => nofun

theorem executeAt_rec {os : List P} {f : FnId} {a : A} {l : List (String × A)} :
    Rec h q (executeAt h q os f a l : Io U A P) H := by
  refine ready_rec fun r => ?_
  rcases r with _ | _ | _
  · exact rec_missing
  · exact runAt_rec
  · exact runAt_rec (sure := true)

theorem execute_rec {os : List P} {f : FnId} {kw : List (String × Arg U A P)} : Rec h q (execute h q os f kw) H := by
  refine getAddress_rec fun r => ?_
  rcases r with _ | ⟨a, l⟩
  · exact rec_missing
  · exact executeAt_rec

theorem executeAddr_rec {os : List P} {a : A} : Rec h q (executeAddr h q os a : Io U A P) H := by
  refine getFunction_rec fun r => ?_
  cases r with
  | none => exact rec_missing
  | some f =>
    refine getArguments_rec fun r => ?_
    cases r with
    | none => exact rec_missing
    | some l => exact execute_rec

theorem round_rec {os : List P} {a : A} {again : Io U A P} (hk : Rec h q again H) : Rec h q (round h q os a again) H := by
  refine ready_rec fun r => ?_
  rcases r with _ | _ | _
  · exact rec_missing
  · exact hk
  · exact readResult_rec rec_missing fun _ _ _ x => rec_got x

theorem pollLoop_rec {os : List P} {a : A} (n : Option Nat) : Rec h q (pollLoop h q os a n : Io U A P) H := by
  cases n with
  | none => exact rfl
  | some n =>
    show Rec h q (poll h q os a n) H
    induction n with
    | zero => exact rec_other fun _ _ => nofun
    | succ n ih => exact round_rec ih

theorem mkAddrs_rec {p : P} {os : List P} {f : FnId} (kws : List (List (String × Arg U A P))) :
    ∀ {k : Option (List A) → Io U A P}, (∀ r, Rec h q (k r) H) → Rec h q (mkAddrs h p os f kws k) H := by
  induction kws with
  | nil => exact fun hk => hk _
  | cons kw kws ih =>
    intro k hk
    refine mkAddr_rec fun r => ?_
    cases r with
    | none => exact hk none
    | some a =>
      refine ih fun r => ?_
      cases r with
      | none => exact hk none
      | some l => exact hk _

theorem requestAll_rec {p : P} {os : List P} {k : Bool → Io U A P} (hk : ∀ r, Rec h q (k r) H) (l : List A) :
    Rec h q (requestAll h p os k l) H := by
  induction l with
  | nil => exact hk true
  | cons a l ih =>
    refine requestExec_rec fun r => ?_
    cases r with
    | false => exact hk false
    | true => exact ih

theorem prog_rec (c : Cmd U A P) : Rec h c.portal (prog h c) H := by
  have ok : ∀ {r : Reply U A P} {p : P}, (∀ a v, r ≠ .got a v) → Rec h p (.done r) H := fun e => rec_other e
  cases c with
  | store p v => exact ok fun _ _ => nofun
  | fetch p os a =>
    unfold prog
    refine valueGet_rec fun r => ?_
    cases r <;> exact ok fun _ _ => nofun
  | getAddress p os f kw =>
    unfold prog
    refine getAddress_rec fun r => ?_
    rcases r with _ | ⟨a, l⟩ <;> exact ok fun _ _ => nofun
  | swarm p os f kw =>
    unfold prog
    refine getAddress_rec fun r => ?_
    rcases r with _ | ⟨a, l⟩
    · exact ok fun _ _ => nofun
    · refine requestExec_rec fun r => ?_
      cases r <;> exact ok fun _ _ => nofun
  | swarmList p os f kws sh =>
    unfold prog
    refine mkAddrs_rec kws fun r => ?_
    cases r with
    | none => exact ok fun _ _ => nofun
    | some l =>
      refine requestAll_rec (fun r => ?_) _
      cases r <;> exact ok fun _ _ => nofun
  | execute p os f kw => exact execute_rec
  | executeAddr p os a => exact executeAddr_rec
  | requestAddr p os a =>
    unfold prog
    refine requestExec_rec fun r => ?_
    cases r <;> exact ok fun _ _ => nofun
  | dropAddr p a => exact ok fun _ _ => nofun
  | isReady p os a =>
    unfold prog
    refine ready_rec fun r => ?_
    cases r <;> exact ok fun _ _ => nofun
  | getResult p os a n =>
    unfold prog
    refine ready_rec fun r => ?_
    rcases r with _ | _ | _
    · exact ok fun _ _ => nofun
    · refine requestExec_rec fun r => ?_
      cases r with
      | false => exact ok fun _ _ => nofun
      | true => exact pollLoop_rec n
    · exact readGot_rec
  | lookAt p os a =>
    unfold prog
    refine getFunction_rec fun r => ?_
    cases r with
    | none => exact ok fun _ _ => nofun
    | some f =>
      refine getKwargs_rec fun r => ?_
      cases r <;> exact ok fun _ _ => nofun

/-! ### processes -/

/-- program `x` on top of stack `st` -/
def TopRec (h : Val U A → A) (H : P → A → A → Prop) (st : List (Frame U A P)) (x : Io U A P) : Prop :=
  ∀ c next st', st = .inCode c next :: st' → Rec h c.portal x H

def StackRec (h : Val U A → A) (H : P → A → A → Prop) : List (Frame U A P) → Prop
  | [] => True
  | .inOp k :: st => (∀ r, TopRec h H st (k r)) ∧ StackRec h H st
  | .inCode _ _ :: st => StackRec h H st

def ProcRec (h : Val U A → A) (H : P → A → A → Prop) (x : Proc U A P) : Prop :=
  StackRec h H x.stack ∧ ∀ y, x.mode = .io y → TopRec h H x.stack y

omit [DecidableEq P] [DecidableEq A] in
theorem TopRec.mono {H' : P → A → A → Prop} (l : HLe H H') {st : List (Frame U A P)} {x : Io U A P} (o : TopRec h H st x) :
    TopRec h H' st x := fun c n st' e => (o c n st' e).mono l

omit [DecidableEq P] [DecidableEq A] in
theorem StackRec.mono {H' : P → A → A → Prop} (l : HLe H H') {st : List (Frame U A P)} (o : StackRec h H st) :
    StackRec h H' st := by
  induction st with
  | nil => trivial
  | cons f st ih =>
    cases f with
    | inOp k => exact ⟨fun r => (o.1 r).mono l, ih o.2⟩
    | inCode c n => exact ih o

omit [DecidableEq P] [DecidableEq A] in
theorem ProcRec.mono {H' : P → A → A → Prop} (l : HLe H H') {x : Proc U A P} (o : ProcRec h H x) : ProcRec h H' x :=
  ⟨o.1.mono l, fun y e => (o.2 y e).mono l⟩

/-- the results stored in the states `l` -/
def Past (l : List (State U A P)) (p : P) (a r : A) : Prop := ∃ t ∈ l, t.sh.results p a = some r

variable {code : FnId → List (String × Val U A) → Code U A P} {travel : Prop} {knows : P → List P → Prop} {on : Nat → Prop}

omit [DecidableEq P] [DecidableEq A] in
theorem idle_rec : ProcRec h H ({} : Proc U A P) := ⟨trivial, fun _ e => (nomatch e)⟩

theorem act_rec {i : Nat} {s u : State U A P} {l : List (State U A P)} (store : ∀ p a v, s.sh.store p a = some v → a = h v)
    (o : ProcRec h (Past (s :: l)) (s.procs i)) (x : Act h code travel knows i s u)
    (checked : ∀ k, (s.procs i).mode = .io (.toss k) → u = s.goto i (.io (k true)) ∨ u = s.setProc i {}) :
    ProcRec h (Past (u :: s :: l)) (u.procs i) := by
  have le : HLe (Past (s :: l)) (Past (u :: s :: l)) := fun p a r ⟨t, ht, e⟩ => ⟨t, .tail _ ht, e⟩
  have now : ∀ p a r, s.sh.results p a = some r → Past (s :: l) p a r := fun p a r e => ⟨s, .head _, e⟩
  have now' : ∀ p a r, u.sh.results p a = some r → Past (u :: s :: l) p a r := fun p a r e => ⟨u, .head _, e⟩
  obtain ⟨o1, o2⟩ := o
  generalize Past (u :: s :: l) = H' at le now' ⊢
  have goOn : ∀ {y : Io U A P}, u.procs i = { s.procs i with mode := .io y } →
      TopRec h H' (s.procs i).stack y → ProcRec h H' (u.procs i) := by
    intro y e hy
    rw [e]
    exact ⟨o1.mono le, fun z hz => by cases hz; exact hy⟩
  cases x with
  | script c hm => simp only [State.setProc, Function.update_self]; exact ⟨trivial, fun _ e => (nomatch e)⟩
  | found p os a hm hk hr =>
    simp only [State.setProc, Function.update_self]
    exact ⟨trivial, fun _ _ _ _ _ e => (nomatch e)⟩
  | op c next p os hm hl =>
    simp only [State.setProc, Function.update_self]
    refine ⟨o1.mono le, fun y hy c' n st' e => ?_⟩
    cases e; cases hy
    exact prog_rec _
  | done r c next st job hm =>
    simp only [State.setProc, Function.update_self]
    rw [hm] at o1
    exact ⟨StackRec.mono (st := st) le o1, fun _ e => (nomatch e)⟩
  | workDone r job hm => simp only [State.setProc, Function.update_self]; exact idle_rec
  | put p a v k hm => exact goOn (y := k) (by simp [State.next]) fun c n st e => (o2 _ hm c n st e).mono le
  | load p a k hm =>
    refine goOn (y := k (s.sh.store p a)) (by simp [State.goto]) fun c n st e => ?_
    have := o2 _ hm c n st e
    cases e' : s.sh.store p a with
    | none => exact this.1.mono le
    | some v => exact (this.2 v (store p a v e')).mono le
  | result p a k hm =>
    refine goOn (y := k (s.sh.results p a)) (by simp [State.goto]) fun c n st e => ?_
    have := o2 _ hm c n st e
    cases e' : s.sh.results p a with
    | none => exact this.1.mono le
    | some r => exact this.2 _ le r (le _ _ _ (now p a r e'))
  | setResult p a r k hm =>
    exact goOn (y := k) (by simp [State.next]) fun c n st e =>
      o2 _ hm c n st e _ le (now' p a r (by simp [State.next, Shared.setResult]))
  | request p a k hm => exact goOn (y := k) (by simp [State.next]) fun c n st e => (o2 _ hm c n st e).mono le
  | drop p a k hm => exact goOn (y := k) (by simp [State.next]) fun c n st e => (o2 _ hm c n st e).mono le
  | wait p os a hm =>
    refine goOn (y := round h p os a (.wait p os a)) (by simp [State.goto]) fun c n st e => ?_
    have e1 : p = c.portal := o2 _ hm c n st e
    rw [e1]
    exact round_rec rfl
  | toss k b hm =>
    rcases checked k hm with e | e
    · refine goOn (y := k true) (by rw [e]; simp [State.goto]) fun c n st e' => ?_
      exact Rec.mono le (o2 _ hm c n st e')
    · rw [e]
      simp only [State.setProc, Function.update_self]
      exact idle_rec
  | body a f kw k hm =>
    simp only [State.setProc, Function.update_self]
    exact ⟨⟨fun r c n st e => (o2 _ hm c n st e r).mono le, o1.mono le⟩, fun _ e => (nomatch e)⟩
  | ret v k st job hm =>
    simp only [State.setProc, Function.update_self]
    rw [hm] at o1
    exact ⟨StackRec.mono (st := st) le o1.2, fun y hy => by cases hy; exact TopRec.mono (st := st) le (o1.1 _)⟩
  | raise k st job hm =>
    simp only [State.setProc, Function.update_self]
    rw [hm] at o1
    exact ⟨StackRec.mono (st := st) le o1.2, fun y hy => by cases hy; exact TopRec.mono (st := st) le (o1.1 _)⟩

theorem act_others {i j : Nat} {s u : State U A P} (x : Act h code travel knows i s u) (e : j ≠ i) : u.procs j = s.procs j := by
  cases x <;> simp [State.setProc, State.next, State.goto, Function.update_of_ne e]

theorem Exec.reachable {l : List (State U A P)} (x : Exec h code travel knows on l) : ∀ s ∈ l, Reachable h code travel knows s := by
  induction x with
  | start => intro s hs; cases List.mem_singleton.1 hs; exact .refl _
  | step i u x y _ ih =>
    intro s hs
    rcases List.mem_cons.1 hs with rfl | hs
    · exact .step i (ih _ (.head _)) y
    · exact ih s hs

theorem Exec.procRec (inj : Function.Injective h) {l : List (State U A P)} (x : Exec h code travel knows on l) :
    ∀ s l', l = s :: l' → ∀ i, on i → ProcRec h (Past l) (s.procs i) := by
  induction x with
  | start => intro s l' e i _; cases e; exact idle_rec
  | @step s l j u x y checked ih =>
    intro s' l' e i hi
    cases e
    have le : HLe (Past (s :: l)) (Past (u :: s :: l)) := fun p a r ⟨t, ht, e⟩ => ⟨t, .tail _ ht, e⟩
    have o := ih s l rfl i hi
    by_cases e : i = j
    · subst e
      cases y with
      | crash => simp only [State.setProc, Function.update_self]; exact idle_rec
      | act _ y =>
        have := ((x.reachable s (.head _)).ok (strict := False) inj fun x => x.elim).inv.store
        exact act_rec this o y (checked hi)
    · have : u.procs i = s.procs i := by
        cases y with
        | crash => simp [State.setProc, Function.update_of_ne e]
        | act _ y => exact act_others y e
      rw [this]
      exact o.mono le

end Pyth.Parts
