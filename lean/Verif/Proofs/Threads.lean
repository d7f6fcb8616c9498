import Verif.Spec.Threads
import Verif.Proofs.PortalStack
import Mathlib.Data.List.Forall2
/-! # Proofs for C109: threads with portal blocks -/
namespace Pyth.Threads
open Pyth.Portal (PortalId Err Sys Rep expand)

/-- the commands fit to the blocks the thread is in -/
def Fits : List PortalId → List Cmd → Prop
  | l, [] => l = []
  | l, .look :: r => Fits l r
  | l, .enter p :: r => Fits (p :: l) r
  | l, .exit p :: r => ∃ l', l = p :: l' ∧ Fits l' r

/-- what the looks of the commands should find -/
def viewsC : List PortalId → List Cmd → List (Option PortalId)
  | _, [] => []
  | l, .look :: r => l.head? :: viewsC l r
  | l, .enter p :: r => viewsC (p :: l) r
  | l, .exit _ :: r => viewsC l.tail r

theorem fits_cmds (P : Prog) : ∀ (l : List PortalId) (r : List Cmd), Fits l r → Fits l (P.cmds ++ r) := by
  induction P with
  | done => exact fun l r h => h
  | look P ih => exact fun l r h => ih l r h
  | block p b P ihb ih =>
    intro l r h
    show Fits (p :: l) ((b.cmds ++ .exit p :: P.cmds) ++ r)
    rw [List.append_assoc]
    exact ihb _ _ ⟨l, rfl, ih l r h⟩

theorem views_cmds (P : Prog) : ∀ (l : List PortalId) (r : List Cmd), viewsC l (P.cmds ++ r) = P.views l.head? ++ viewsC l r := by
  induction P with
  | done => exact fun l r => rfl
  | look P ih => exact fun l r => congrArg (l.head? :: ·) (ih l r)
  | block p b P ihb ih =>
    intro l r
    show viewsC (p :: l) ((b.cmds ++ .exit p :: P.cmds) ++ r) = (b.views (some p) ++ P.views l.head?) ++ viewsC l r
    rw [List.append_assoc, ihb, List.append_assoc]
    exact congrArg (_ ++ ·) (ih l r)

/-- the blocks the thread is in after the command it is executing -/
def after (t : Thread) : List PortalId :=
  match t.pc with
  | .eTop p | .ePush p | .eOne p | .eRead p | .eWrite p _ => p :: t.inside
  | .xCount _ | .xPop _ | .xPop2 _ | .xRead _ | .xWrite _ _ => t.inside.tail
  | .idle | .failed _ => t.inside

/-- a thread that executes `P` properly -/
structure TInv (P : Prog) (t : Thread) : Prop where
  fits : Fits (after t) t.todo
  views : t.seen ++ viewsC (after t) t.todo = P.views none

theorem tinv_start (P : Prog) : TInv P { todo := P.cmds } := by
  have h1 := fits_cmds P [] [] rfl
  have h2 := views_cmds P [] []
  rw [List.append_nil] at h1 h2
  exact ⟨h1, h2.trans (List.append_nil _)⟩

/-- the lists belong to the blocks of the thread -/
structure Own (sys : Sys) (t : Thread) : Prop where
  rep : Rep sys.stack sys.counters
  expand : expand sys.stack sys.counters = t.inside

/-- the lists while the thread is executing a command, with no other thread in a block -/
def SysInv (sys : Sys) (t : Thread) : Prop :=
  match t.pc with
  | .idle => Own sys t
  | .eTop _ => Own sys t ∧ sys.stack ≠ []
  | .ePush p => Own sys t ∧ sys.stack.head? ≠ some p
  | .eOne p => ∃ st, sys.stack = p :: st ∧ Own { sys with stack := st } t ∧ st.head? ≠ some p
  | .eRead p => Own sys t ∧ sys.stack.head? = some p
  | .eWrite p c => Own sys t ∧ sys.stack.head? = some p ∧ sys.counters.head? = some c
  | .xCount p => Own sys t ∧ sys.stack.head? = some p
  | .xPop p => Own sys t ∧ sys.stack.head? = some p ∧ sys.counters.head? = some 1
  | .xPop2 p => Own { sys with stack := p :: sys.stack } t ∧ sys.counters.head? = some 1
  | .xRead p => Own sys t ∧ sys.stack.head? = some p ∧ sys.counters.head? ≠ some 1
  | .xWrite p c => Own sys t ∧ sys.stack.head? = some p ∧ sys.counters.head? = some c ∧ c ≠ 1
  | .failed _ => False

theorem own_push {sys : Sys} {t : Thread} {p : PortalId} (h : Own sys t) (hp : sys.stack.head? ≠ some p) :
    Own { sys with stack := p :: sys.stack, counters := 1 :: sys.counters } { t with inside := p :: t.inside, pc := .idle } :=
  ⟨h.rep.push p hp, by show List.replicate 1 p ++ _ = _; rw [← h.expand]; rfl⟩

theorem own_incr {sys : Sys} {t : Thread} {p : PortalId} {c : Int} {cs : List Int} (h : Own sys t) (hp : sys.stack.head? = some p)
    (hc : sys.counters = c :: cs) : Own { sys with counters := (c + 1) :: cs } { t with inside := p :: t.inside, pc := .idle } := by
  obtain ⟨all, st, cnt⟩ := sys
  obtain ⟨h1, h2⟩ := h
  cases st with
  | nil => cases hp
  | cons q st =>
    cases hp
    simp only at hc h1 h2
    subst hc
    have := h1.pos
    refine ⟨h1.setHead (by omega), ?_⟩
    show List.replicate (c + 1).toNat p ++ _ = _
    rw [Portal.replicate_toNat_succ c (by omega), ← h2]
    rfl

theorem own_decr {sys : Sys} {t : Thread} {p : PortalId} {c : Int} {cs : List Int} (h : Own sys t) (hp : sys.stack.head? = some p)
    (hc : sys.counters = c :: cs) (h1 : c ≠ 1) : Own { sys with counters := (c - 1) :: cs } { t with inside := t.inside.tail, pc := .idle } := by
  obtain ⟨all, st, cnt⟩ := sys
  obtain ⟨h2, h3⟩ := h
  cases st with
  | nil => cases hp
  | cons q st =>
    cases hp
    simp only at hc h2 h3
    subst hc
    have := h2.pos
    refine ⟨h2.setHead (by omega), ?_⟩
    show List.replicate (c - 1).toNat p ++ _ = t.inside.tail
    rw [← h3]
    show _ = (List.replicate c.toNat p ++ _).tail
    have e : c = (c - 1) + 1 := by omega
    rw [e, Portal.replicate_toNat_succ (c - 1) (by omega)]
    simp

theorem own_pop {sys : Sys} {t : Thread} {p : PortalId} {cs : List Int} (h : Own { sys with stack := p :: sys.stack } t)
    (hc : sys.counters = 1 :: cs) : Own { sys with counters := cs } { t with inside := t.inside.tail, pc := .idle } := by
  obtain ⟨all, st, cnt⟩ := sys
  obtain ⟨h2, h3⟩ := h
  simp only at hc h2 h3
  subst hc
  refine ⟨h2.tail, ?_⟩
  show expand st cs = t.inside.tail
  rw [← h3]; rfl

theorem own_head {sys : Sys} {t : Thread} (h : Own sys t) : sys.stack.head? = t.inside.head? := by
  rw [← h.expand, Portal.expand_head h.rep]

theorem own_counters {sys : Sys} {t : Thread} {p : PortalId} (h : Own sys t) (hp : sys.stack.head? = some p) :
    ∃ c cs, sys.counters = c :: cs := by
  have h1 := h.rep
  cases hs : sys.stack with
  | nil => rw [hs] at hp; cases hp
  | cons q st => rw [hs] at h1; exact h1.nonempty

/-- one step of the thread that is in its blocks -/
theorem move_inv {P : Prog} {sys : Sys} {t : Thread} (hs : SysInv sys t) (ht : TInv P t) :
    SysInv (move sys t).1 (move sys t).2 ∧ TInv P (move sys t).2 := by
  obtain ⟨todo, pc, inside, seen⟩ := t
  obtain ⟨hf, hv⟩ := ht
  cases pc with
  | failed e => exact hs.elim
  | idle =>
    have hs : Own sys ⟨todo, .idle, inside, seen⟩ := hs
    cases todo with
    | nil => exact ⟨hs, hf, hv⟩
    | cons c r =>
      cases c with
      | look =>
        refine ⟨⟨hs.rep, hs.expand⟩, hf, ?_⟩
        have h1 := own_head hs
        show (seen ++ [sys.stack.head?]) ++ viewsC inside r = _
        rw [h1, List.append_assoc]
        exact hv
      | enter p =>
        by_cases he : sys.stack = []
        · simp only [move, begin, he, if_true]
          exact ⟨⟨⟨hs.rep, hs.expand⟩, by rw [he]; exact fun h => (nomatch h)⟩, hf, hv⟩
        · simp only [move, begin, he, if_false]
          exact ⟨⟨⟨hs.rep, hs.expand⟩, he⟩, hf, hv⟩
      | exit p =>
        obtain ⟨l, hl, hf⟩ := hf
        have hl : inside = p :: l := hl
        have h1 : sys.stack.head? = some p := by rw [own_head hs]; show inside.head? = _; rw [hl]; rfl
        cases hst : sys.stack with
        | nil => rw [hst] at h1; cases h1
        | cons q st =>
          have hq : q = p := by rw [hst] at h1; exact Option.some.inj h1
          simp only [move, begin, hst, hq, if_true]
          refine ⟨⟨⟨hs.rep, hs.expand⟩, h1⟩, ?_, ?_⟩
          · show Fits inside.tail r
            rw [hl]; exact hf
          · exact hv
  | eTop p =>
    obtain ⟨hs, hn⟩ := hs
    cases hst : sys.stack with
    | nil => exact absurd hst hn
    | cons q st =>
      by_cases hq : q = p
      · simp only [move, hst, hq, if_true]
        exact ⟨⟨⟨hs.rep, hs.expand⟩, by rw [hst, hq]; rfl⟩, hf, hv⟩
      · simp only [move, hst, hq, if_false]
        exact ⟨⟨⟨hs.rep, hs.expand⟩, by rw [hst]; exact fun h => hq (Option.some.inj h)⟩, hf, hv⟩
  | ePush p =>
    obtain ⟨hs, hn⟩ := hs
    exact ⟨⟨sys.stack, rfl, ⟨hs.rep, hs.expand⟩, hn⟩, hf, hv⟩
  | eOne p =>
    obtain ⟨st, h1, h2, h3⟩ := hs
    have h4 := own_push h2 h3
    refine ⟨?_, hf, hv⟩
    show Own { sys with counters := 1 :: sys.counters } _
    exact ⟨by rw [h1]; exact h4.rep, by rw [h1]; exact h4.expand⟩
  | eRead p =>
    obtain ⟨hs, h1⟩ := hs
    obtain ⟨c, cs, hc⟩ := own_counters hs h1
    simp only [move, hc]
    exact ⟨⟨⟨hs.rep, hs.expand⟩, h1, by rw [hc]; rfl⟩, hf, hv⟩
  | eWrite p c =>
    obtain ⟨hs, h1, h2⟩ := hs
    cases hc : sys.counters with
    | nil => rw [hc] at h2; cases h2
    | cons d cs =>
      have hd : d = c := by rw [hc] at h2; exact Option.some.inj h2
      subst hd
      simp only [move, hc]
      have h3 := own_incr hs h1 hc
      exact ⟨⟨h3.rep, h3.expand⟩, hf, hv⟩
  | xCount p =>
    obtain ⟨hs, h1⟩ := hs
    obtain ⟨c, cs, hc⟩ := own_counters hs h1
    by_cases h2 : c = 1
    · simp only [move, hc, h2, if_true]
      exact ⟨⟨⟨hs.rep, hs.expand⟩, h1, by rw [hc, h2]; rfl⟩, hf, hv⟩
    · simp only [move, hc, h2, if_false]
      exact ⟨⟨⟨hs.rep, hs.expand⟩, h1, by rw [hc]; exact fun h => h2 (Option.some.inj h)⟩, hf, hv⟩
  | xPop p =>
    obtain ⟨hs, h1, h2⟩ := hs
    cases hst : sys.stack with
    | nil => rw [hst] at h1; cases h1
    | cons q st =>
      have hq : q = p := by rw [hst] at h1; exact Option.some.inj h1
      subst hq
      simp only [move, hst]
      refine ⟨⟨⟨?_, ?_⟩, h2⟩, hf, hv⟩
      · show Rep (q :: st) sys.counters
        rw [← hst]; exact hs.rep
      · show expand (q :: st) sys.counters = inside
        rw [← hst]; exact hs.expand
  | xPop2 p =>
    obtain ⟨hs, h1⟩ := hs
    cases hc : sys.counters with
    | nil => rw [hc] at h1; cases h1
    | cons d cs =>
      have hd : d = 1 := by rw [hc] at h1; exact Option.some.inj h1
      subst hd
      simp only [move, hc]
      have h3 := own_pop hs hc
      exact ⟨⟨h3.rep, h3.expand⟩, hf, hv⟩
  | xRead p =>
    obtain ⟨hs, h1, h2⟩ := hs
    obtain ⟨c, cs, hc⟩ := own_counters hs h1
    simp only [move, hc]
    exact ⟨⟨⟨hs.rep, hs.expand⟩, h1, by rw [hc]; rfl, fun h => h2 (by rw [hc, h]; rfl)⟩, hf, hv⟩
  | xWrite p c =>
    obtain ⟨hs, h1, h2, h3⟩ := hs
    cases hc : sys.counters with
    | nil => rw [hc] at h2; cases h2
    | cons d cs =>
      have hd : d = c := by rw [hc] at h2; exact Option.some.inj h2
      subst hd
      simp only [move, hc]
      have h4 := own_decr hs h1 hc h3
      exact ⟨⟨h4.rep, h4.expand⟩, hf, hv⟩

/-- threads with a lock -/
structure Good (progs : List Prog) (s : St) : Prop where
  threads : ∀ (i : Nat) (t : Thread), s.threads[i]? = some t → ∃ P, progs[i]? = some P ∧ TInv P t
  lists : (∀ (i : Nat) (t : Thread), s.threads[i]? = some t → SysInv s.sys t ∨ Outside t) ∧
    ((∃ (i : Nat) (t : Thread), s.threads[i]? = some t ∧ SysInv s.sys t ∧
        ∀ (j : Nat) (u : Thread), j ≠ i → s.threads[j]? = some u → Outside u) ∨ s.sys.stack = [] ∧ s.sys.counters = [])

theorem own_nil {sys : Sys} {t : Thread} (h : Own sys t) (hi : t.inside = []) : sys.stack = [] ∧ sys.counters = [] := by
  have h1 := own_head h
  rw [hi] at h1
  have h2 : sys.stack = [] := List.head?_eq_none_iff.1 h1
  have h3 := h.rep
  rw [h2] at h3
  exact ⟨h2, h3.nil_left⟩

theorem own_outside {sys : Sys} {t : Thread} (h : sys.stack = [] ∧ sys.counters = []) (ho : Outside t) : SysInv sys t := by
  unfold SysInv
  rw [ho.2]
  exact ⟨by rw [h.1, h.2]; exact .nil, by rw [h.1, h.2, ho.1]; rfl⟩

theorem inv_outside {sys : Sys} {t : Thread} (h : SysInv sys t) (ho : Outside t) : sys.stack = [] ∧ sys.counters = [] := by
  unfold SysInv at h
  rw [ho.2] at h
  exact own_nil h ho.1

theorem good_start (progs : List Prog) : Good progs (start progs) := by
  have key : ∀ (i : Nat) (t : Thread), (start progs).threads[i]? = some t → ∃ P, progs[i]? = some P ∧ t = { todo := P.cmds } := by
    intro i t h
    have h : (progs.map fun P => ({ todo := P.cmds } : Thread))[i]? = some t := h
    rw [List.getElem?_map] at h
    cases hp : progs[i]? with
    | none => rw [hp] at h; cases h
    | some P => rw [hp] at h; cases h; exact ⟨P, rfl, rfl⟩
  refine ⟨fun i t h => ?_, fun i t h => ?_, .inr ⟨rfl, rfl⟩⟩
  · obtain ⟨P, h1, rfl⟩ := key i t h
    exact ⟨P, h1, tinv_start P⟩
  · obtain ⟨P, h1, rfl⟩ := key i t h
    exact .inr ⟨rfl, rfl⟩

theorem good_step {progs : List Prog} {s : St} (h : Good progs s) (i : Nat)
    (hl : ∀ (j : Nat) (t : Thread), j ≠ i → s.threads[j]? = some t → Outside t) : Good progs (stepAt s i) := by
  cases hi : s.threads[i]? with
  | none => simp only [stepAt, hi]; exact h
  | some t =>
    have hs : SysInv s.sys t := by
      rcases h.lists.2 with ⟨k, u, h1, h2, h3⟩ | h1
      · by_cases hk : k = i
        · subst hk; rw [hi] at h1; cases h1; exact h2
        · exact own_outside (inv_outside h2 (hl k u hk h1)) (h3 i t (Ne.symm hk) hi)
      · rcases h.lists.1 i t hi with h2 | h2
        · exact h2
        · exact own_outside h1 h2
    obtain ⟨P, hP, ht⟩ := h.threads i t hi
    have hm := move_inv hs ht
    simp only [stepAt, hi]
    have hlt : i < s.threads.length := (List.getElem?_eq_some_iff.1 hi).1
    have hget : ∀ (j : Nat) (u : Thread), (s.threads.set i (move s.sys t).2)[j]? = some u →
        (j = i ∧ u = (move s.sys t).2) ∨ (j ≠ i ∧ s.threads[j]? = some u) := by
      intro j u hu
      by_cases hj : i = j
      · subst hj
        rw [List.getElem?_set_self hlt] at hu
        exact .inl ⟨rfl, (Option.some.inj hu).symm⟩
      · rw [List.getElem?_set_ne hj] at hu
        exact .inr ⟨Ne.symm hj, hu⟩
    refine ⟨fun j u hu => ?_, fun j u hu => ?_, .inl ⟨i, _, List.getElem?_set_self hlt, hm.1, fun j u hj hu => ?_⟩⟩
    · rcases hget j u hu with ⟨rfl, rfl⟩ | ⟨_, h1⟩
      · exact ⟨P, hP, hm.2⟩
      · exact h.threads j u h1
    · rcases hget j u hu with ⟨rfl, rfl⟩ | ⟨h0, h1⟩
      · exact .inl hm.1
      · exact .inr (hl j u h0 h1)
    · rcases hget j u hu with ⟨h0, _⟩ | ⟨h0, h1⟩
      · exact absurd h0 hj
      · exact hl j u h0 h1

theorem good_run {progs : List Prog} : ∀ (sched : List Nat) (s : St), Good progs s → Locked s sched → Good progs (run s sched)
  | [], _, h, _ => h
  | i :: r, _, h, hl => good_run r _ (good_step h i hl.1) hl.2

/-! ## One portal, whole commands -/

/-- the commands of a thread that uses portal `p` only -/
def OnlyC (p : PortalId) (l : List Cmd) : Prop := ∀ c ∈ l, c = .look ∨ c = .enter p ∨ c = .exit p

theorem only_cmds {p : PortalId} (P : Prog) (h : P.Only p) : OnlyC p P.cmds := by
  induction P with
  | done => exact fun c hc => (List.not_mem_nil hc).elim
  | look P ih =>
    intro c hc
    rcases List.mem_cons.1 hc with h1 | h1
    · exact .inl h1
    · exact ih h c h1
  | block q b P ihb ih =>
    obtain ⟨h1, h2, h3⟩ := h
    subst h1
    intro c hc
    have hc : c ∈ (Cmd.enter q :: b.cmds) ++ .exit q :: P.cmds := hc
    rcases List.mem_append.1 hc with h4 | h4
    · rcases List.mem_cons.1 h4 with h5 | h5
      · exact .inr (.inl h5)
      · exact ihb h2 c h5
    · rcases List.mem_cons.1 h4 with h5 | h5
      · exact .inr (.inr h5)
      · exact ih h3 c h5

/-- the number of blocks all threads are in -/
def total (l : List Thread) : Nat := (l.map fun t => t.inside.length).sum

/-- the lists when `n` blocks of portal `p` are open -/
def Holds (p : PortalId) (n : Nat) (sys : Sys) : Prop :=
  (n = 0 ∧ sys.stack = [] ∧ sys.counters = []) ∨ (0 < n ∧ sys.stack = [p] ∧ sys.counters = [(n : Int)])

/-- a thread that uses portal `p` only -/
structure OInv (p : PortalId) (P : Prog) (t : Thread) : Prop where
  pc : t.pc = .idle
  only : OnlyC p t.todo
  own : ∀ q ∈ t.inside, q = p
  fits : Fits t.inside t.todo
  views : ∃ l, l ++ viewsC t.inside t.todo = P.views none ∧ List.Forall₂ (fun a b => ∀ q, b = some q → a = some q) t.seen l

theorem sum_set (l : List Thread) (i : Nat) (t u : Thread) (h : l[i]? = some t) :
    total (l.set i u) + t.inside.length = total l + u.inside.length := by
  induction l generalizing i with
  | nil => cases h
  | cons a l ih =>
    cases i with
    | zero =>
      cases h
      simp only [total, List.set_cons_zero, List.map_cons, List.sum_cons]
      omega
    | succ i =>
      have := ih i h
      simp only [total, List.set_cons_succ, List.map_cons, List.sum_cons] at this ⊢
      omega

theorem total_ge (l : List Thread) (i : Nat) (t : Thread) (h : l[i]? = some t) : t.inside.length ≤ total l := by
  induction l generalizing i with
  | nil => cases h
  | cons a l ih =>
    cases i with
    | zero => cases h; simp only [total, List.map_cons, List.sum_cons]; omega
    | succ i =>
      have := ih i h
      simp only [total, List.map_cons, List.sum_cons] at this ⊢
      omega

theorem enter_holds {p : PortalId} {n : Nat} {sys : Sys} (h : Holds p n sys) :
    ∃ sys', Portal.enter p sys = .ok sys' ∧ Holds p (n + 1) sys' := by
  obtain ⟨all, st, cs⟩ := sys
  rcases h with ⟨h1, h2, h3⟩ | ⟨h1, h2, h3⟩
  · simp only at h2 h3
    subst h1 h2 h3
    exact ⟨_, rfl, .inr ⟨Nat.succ_pos _, rfl, rfl⟩⟩
  · simp only at h2 h3
    subst h2 h3
    exact ⟨⟨all, [p], [(n : Int) + 1]⟩, by simp [Portal.enter], .inr ⟨Nat.succ_pos _, rfl, by simp⟩⟩

theorem exit_holds {p : PortalId} {n : Nat} {sys : Sys} (h : Holds p (n + 1) sys) :
    ∃ sys', Portal.exit p sys = .ok sys' ∧ Holds p n sys' := by
  obtain ⟨all, st, cs⟩ := sys
  rcases h with ⟨h1, h2, h3⟩ | ⟨h1, h2, h3⟩
  · cases h1
  · simp only at h2 h3
    subst h2 h3
    cases n with
    | zero => exact ⟨⟨all, [], []⟩, by simp [Portal.exit], .inl ⟨rfl, rfl, rfl⟩⟩
    | succ n =>
      refine ⟨⟨all, [p], [((n + 1 : Nat) : Int)]⟩, ?_, .inr ⟨Nat.succ_pos _, rfl, rfl⟩⟩
      have h4 : ((n + 1 + 1 : Nat) : Int) ≠ 1 := by omega
      simp only [Portal.exit, ne_eq, not_true_eq_false, if_false, if_neg h4]
      congr 4
      omega

/-- one command of one thread -/
theorem whole_inv {p : PortalId} {P : Prog} {n : Nat} {sys : Sys} {t : Thread} (hs : Holds p n sys) (ht : OInv p P t)
    (hn : t.inside.length ≤ n) :
    ∃ n', Holds p n' (whole sys t).1 ∧ OInv p P (whole sys t).2 ∧ n' + t.inside.length = n + (whole sys t).2.inside.length := by
  obtain ⟨todo, pc, inside, seen⟩ := t
  obtain ⟨h1, h2, h3, h4, l, h5, h6⟩ := ht
  simp only at h1 h2 h3 h4 h5 h6 hn
  subst h1
  cases todo with
  | nil => exact ⟨n, hs, ⟨rfl, h2, h3, h4, l, h5, h6⟩, rfl⟩
  | cons c r =>
    have h2' : OnlyC p r := fun d hd => h2 d (List.mem_cons_of_mem _ hd)
    cases c with
    | look =>
      refine ⟨n, hs, ⟨rfl, h2', h3, h4, l ++ [inside.head?], ?_, ?_⟩, rfl⟩
      · rw [List.append_assoc]; exact h5
      · show List.Forall₂ _ (seen ++ [sys.stack.head?]) (l ++ [inside.head?])
        refine List.rel_append h6 (.cons (fun q hq => ?_) .nil)
        cases inside with
        | nil => cases hq
        | cons x xs =>
          cases hq
          rw [h3 q List.mem_cons_self]
          rcases hs with ⟨k1, _⟩ | ⟨_, k2, _⟩
          · rw [k1] at hn; exact absurd hn (by simp)
          · rw [k2]; rfl
    | enter q =>
      have hq : q = p := by rcases h2 _ List.mem_cons_self with h | h | h <;> cases h; rfl
      subst hq
      obtain ⟨sys', k1, k2⟩ := enter_holds hs
      simp only [whole, k1]
      refine ⟨n + 1, k2, ⟨rfl, h2', fun x hx => ?_, h4, l, h5, h6⟩, by simp only [List.length_cons]; omega⟩
      rcases List.mem_cons.1 hx with h | h
      · exact h
      · exact h3 x h
    | exit q =>
      have hq : q = p := by rcases h2 _ List.mem_cons_self with h | h | h <;> cases h; rfl
      subst hq
      obtain ⟨l', hl, hf⟩ := h4
      subst hl
      cases n with
      | zero => exact absurd hn (by simp)
      | succ n =>
        obtain ⟨sys', k1, k2⟩ := exit_holds hs
        simp only [whole, k1]
        exact ⟨n, k2, ⟨rfl, h2', fun x hx => h3 x (List.mem_cons_of_mem _ hx), hf, l, h5, h6⟩,
          by simp only [List.length_cons, List.tail_cons]; omega⟩

/-- threads that use portal `p` only -/
structure GoodO (p : PortalId) (progs : List Prog) (s : St) : Prop where
  threads : ∀ (i : Nat) (t : Thread), s.threads[i]? = some t → ∃ P, progs[i]? = some P ∧ OInv p P t
  lists : Holds p (total s.threads) s.sys

theorem goodO_start {p : PortalId} (progs : List Prog) (h : ∀ P ∈ progs, P.Only p) : GoodO p progs (start progs) := by
  refine ⟨fun i t ht => ?_, .inl ⟨?_, rfl, rfl⟩⟩
  · have ht : (progs.map fun P => ({ todo := P.cmds } : Thread))[i]? = some t := ht
    rw [List.getElem?_map] at ht
    cases hp : progs[i]? with
    | none => rw [hp] at ht; cases ht
    | some P =>
      rw [hp] at ht; cases ht
      have h1 := tinv_start P
      exact ⟨P, rfl, rfl, only_cmds P (h P (List.mem_of_getElem? hp)), fun q hq => (List.not_mem_nil hq).elim, h1.fits,
        [], h1.views, .nil⟩
  · clear h
    show total (progs.map fun P => ({ todo := P.cmds } : Thread)) = 0
    induction progs with
    | nil => rfl
    | cons P l ih =>
      simp only [total, List.map_cons, List.sum_cons] at ih ⊢
      rw [ih]; rfl

theorem goodO_step {p : PortalId} {progs : List Prog} {s : St} (h : GoodO p progs s) (i : Nat) : GoodO p progs (wholeAt s i) := by
  cases hi : s.threads[i]? with
  | none => simp only [wholeAt, hi]; exact h
  | some t =>
    obtain ⟨P, hP, ht⟩ := h.threads i t hi
    obtain ⟨n', k1, k2, k3⟩ := whole_inv h.lists ht (total_ge _ i t hi)
    simp only [wholeAt, hi]
    have hlt : i < s.threads.length := (List.getElem?_eq_some_iff.1 hi).1
    refine ⟨fun j u hu => ?_, ?_⟩
    · by_cases hj : i = j
      · subst hj
        rw [List.getElem?_set_self hlt] at hu
        cases hu
        exact ⟨P, hP, k2⟩
      · rw [List.getElem?_set_ne hj] at hu
        exact h.threads j u hu
    · have h1 := sum_set s.threads i t (whole s.sys t).2 hi
      have h2 : total (s.threads.set i (whole s.sys t).2) = n' := by omega
      show Holds p (total (s.threads.set i (whole s.sys t).2)) _
      rw [h2]; exact k1

theorem goodO_run {p : PortalId} {progs : List Prog} : ∀ (sched : List Nat) (s : St), GoodO p progs s → GoodO p progs (runWhole s sched)
  | [], _, h => h
  | i :: r, _, h => goodO_run r _ (goodO_step h i)

end Pyth.Threads
