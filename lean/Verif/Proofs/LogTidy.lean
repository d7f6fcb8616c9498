import Verif.Proofs.World
import Mathlib.Data.List.Nodup
/-! What operations do to the crash histories. -/
set_option linter.unusedSectionVars false
set_option linter.unusedVariables false
set_option linter.unusedSimpArgs false
namespace Pyth.World
open Pyth.Portal (PortalId Sys Rep)

variable {A V E α β : Type} [DecidableEq A] [DecidableEq V]

/-- crash records are unique and belong to marked exceptions; all exceptions have been created -/
structure LogInv (s : World A V E) : Prop where
  nodup : ∀ q, (s.crashes q).Nodup
  marked : ∀ q, ∀ c ∈ s.crashes q, c.exc ∈ s.marked
  old : ∀ x ∈ s.marked, x < s.nextExc
  handled : ∀ e ∈ s.handling, e.id < s.nextExc

/-- an exception created since, or being handled then -/
def Mine (s : World A V E) (x : Nat) : Prop := s.nextExc ≤ x ∨ ∃ e ∈ s.handling, e.id = x

/-- from `s`, with outcome `r`, to `s'` -/
structure TidyAt (s : World A V E) (r : Except Exc α) (s' : World A V E) : Prop where
  ctx : Ctx s s'
  next : s.nextExc ≤ s'.nextExc
  grow : ∀ q, s.crashes q <+: s'.crashes q
  mono : ∀ x ∈ s.marked, x ∈ s'.marked
  fresh : ∀ x ∈ s'.marked, x ∈ s.marked ∨ (Mine s x ∧ ∀ q ∈ s.sys.stack, (⟨x, none⟩ : CrashRec) ∈ s'.crashes q)
  recs : ∀ q, ∀ c ∈ s'.crashes q, c ∈ s.crashes q ∨ (c.exc ∉ s.marked ∧ Mine s c.exc)
  inv : LogInv s → LogInv s'
  err : ∀ e, r = .error e → Mine s e.id
  errlt : LogInv s → ∀ e, r = .error e → e.id < s'.nextExc

def Tidy (m : M A V E α) : Prop := ∀ s, Ok s → TidyAt s (m s).1 (m s).2

/-- the same when `e` is being handled -/
def TidyH (e : Exc) (m : M A V E α) : Prop := ∀ s, Ok s → s.handling.head? = some e → TidyAt s (m s).1 (m s).2

theorem Tidy.h {m : M A V E α} (h : Tidy m) (e : Exc) : TidyH e m := fun s hs _ => h s hs

theorem Tidy.keeps {m : M A V E α} (h : Tidy m) : Keeps m := fun s hs => (h s hs).ctx

/-- a step that touches neither the logs nor exceptions -/
theorem TidyAt.frame {s s' : World A V E} (a : α) (hc : Ctx s s') (h1 : s'.nextExc = s.nextExc) (h2 : s'.crashes = s.crashes)
    (h3 : s'.marked = s.marked) : TidyAt s (.ok a) s' where
  ctx := hc
  next := by rw [h1]; exact Nat.le_refl _
  grow q := by rw [h2]; exact List.prefix_rfl
  mono x hx := by rw [h3]; exact hx
  fresh x hx := by rw [h3] at hx; exact Or.inl hx
  recs q c h := by rw [h2] at h; exact Or.inl h
  inv h := ⟨by rw [h2]; exact h.nodup, by rw [h2, h3]; exact h.marked, by rw [h1, h3]; exact h.old, by rw [h1, hc.handling]; exact h.handled⟩
  err e h := by cases h
  errlt _ e h := by cases h

theorem TidyAt.refl (s : World A V E) (a : α) : TidyAt s (.ok a) s := .frame a (.refl s) rfl rfl rfl

theorem Mine.back {s s' : World A V E} (hc : Ctx s s') (hn : s.nextExc ≤ s'.nextExc) {x : Nat} (h : Mine s' x) : Mine s x := by
  rcases h with h | h
  · exact Or.inl (Nat.le_trans hn h)
  · rw [hc.handling] at h; exact Or.inr h

theorem TidyAt.trans {s s1 s2 : World A V E} {r1 : Except Exc α} {r2 : Except Exc β} (h : TidyAt s r1 s1) (h' : TidyAt s1 r2 s2) :
    TidyAt s r2 s2 where
  ctx := h.ctx.trans h'.ctx
  next := Nat.le_trans h.next h'.next
  grow q := (h.grow q).trans (h'.grow q)
  mono x hx := h'.mono x (h.mono x hx)
  fresh x hx := by
    rcases h'.fresh x hx with a | ⟨a, b⟩
    · rcases h.fresh x a with a | ⟨a, b⟩
      · exact Or.inl a
      · exact Or.inr ⟨a, fun q hq => (h'.grow q).subset (b q hq)⟩
    · exact Or.inr ⟨a.back h.ctx h.next, by rw [h.ctx.stack] at b; exact b⟩
  recs q c hc := by
    rcases h'.recs q c hc with a | ⟨a, b⟩
    · exact h.recs q c a
    · exact Or.inr ⟨fun x => a (h.mono _ x), b.back h.ctx h.next⟩
  inv hi := h'.inv (h.inv hi)
  err e he := (h'.err e he).back h.ctx h.next
  errlt hi e he := h'.errlt (h.inv hi) e he

/-- only the outcome changes -/
theorem TidyAt.ok {s s' : World A V E} {r : Except Exc α} (h : TidyAt s r s') (b : β) : TidyAt s (.ok b : Except Exc β) s' :=
  { h with err := fun e he => (by cases he), errlt := fun _ e he => (by cases he) }

theorem TidyAt.error {s s' : World A V E} {e : Exc} (h : TidyAt s (.error e : Except Exc α) s') : TidyAt s (.error e : Except Exc β) s' :=
  { h with
    err := fun e' he => by cases he; exact h.err e rfl
    errlt := fun hi e' he => by cases he; exact h.errlt hi e rfl }

theorem Tidy.ret (a : α) : Tidy (PyM.ret a : M A V E α) := fun s _ => .refl s a
theorem Tidy.pure (a : α) : Tidy (Pure.pure a : M A V E α) := fun s _ => .refl s a
theorem Tidy.get : Tidy (PyM.get : M A V E (World A V E)) := fun s _ => .refl s s
theorem raiseNew_tidyAt (k : Kind) (s : World A V E) :
    TidyAt s (.error ⟨s.nextExc, k⟩ : Except Exc α) { s with nextExc := s.nextExc + 1 } where
  ctx := ⟨rfl, rfl, rfl, List.prefix_rfl⟩
  next := Nat.le_succ _
  grow _ := List.prefix_rfl
  mono _ h := h
  fresh _ h := Or.inl h
  recs _ _ h := Or.inl h
  inv h := ⟨h.nodup, h.marked, fun x hx => Nat.lt_succ_of_lt (h.old x hx), fun e he => Nat.lt_succ_of_lt (h.handled e he)⟩
  err e he := by cases he; exact Or.inl (Nat.le_refl _)
  errlt _ e he := by cases he; exact Nat.lt_succ_self _

theorem Tidy.raiseNew (k : Kind) : Tidy (raiseNew k : M A V E α) := fun s _ => raiseNew_tidyAt k s

theorem Tidy.bind {m : M A V E α} {k : α → M A V E β} (hm : Tidy m) (hk : ∀ a, Tidy (k a)) : Tidy (m >>= k) := by
  intro s hs
  have h1 := hm s hs
  rw [PyM.run_bind]
  cases hms : m s with
  | mk r s' =>
    rw [hms] at h1
    cases r with
    | ok a => exact h1.trans (hk a s' (h1.ctx.ok hs))
    | error e => exact h1.error

theorem Tidy.ite {c : Prop} [Decidable c] {m m' : M A V E α} (hm : Tidy m) (hm' : Tidy m') : Tidy (if c then m else m') := by
  split
  · exact hm
  · exact hm'

theorem TidyH.ite {e : Exc} {c : Prop} [Decidable c] {m m' : M A V E α} (hm : TidyH e m) (hm' : TidyH e m') : TidyH e (if c then m else m') := by
  split
  · exact hm
  · exact hm'

/-- re-raising the exception being handled -/
theorem TidyH.raise (e : Exc) : TidyH e (PyM.raise e : M A V E α) := by
  intro s hs he
  have hm : e ∈ s.handling := by
    cases hh : s.handling with
    | nil => rw [hh] at he; cases he
    | cons a l => rw [hh] at he; cases he; exact List.mem_cons_self ..
  exact { TidyAt.refl s () with
    err := fun e' he' => by cases he'; exact Or.inr ⟨e, hm, rfl⟩
    errlt := fun hi e' he' => by cases he'; exact hi.handled e hm }

/-- running under a handled exception -/
theorem TidyAt.handling {s s' : World A V E} {e : Exc} {m : M A V E β} (h : TidyAt s (.error e : Except Exc α) s')
    (hs : Ok s) (hm : TidyH e m) : TidyAt s (World.handlingE e m s').1 (World.handlingE e m s').2 := by
  have h1 := hm { s' with handling := e :: s'.handling } (h.ctx.ok hs) rfl
  have hmine : ∀ x, Mine { s' with handling := e :: s'.handling } x → Mine s x := by
    intro x hx
    rcases hx with a | ⟨e', ha, hb⟩
    · exact Or.inl (Nat.le_trans h.next a)
    · rcases List.mem_cons.1 ha with c | c
      · subst c; rw [← hb]; exact h.err _ rfl
      · rw [h.ctx.handling] at c; exact Or.inr ⟨e', c, hb⟩
  unfold World.handlingE
  cases hms : m { s' with handling := e :: s'.handling } with
  | mk r t =>
    rw [hms] at h1
    exact {
      ctx := h.ctx.trans ⟨h1.ctx.stack, h1.ctx.counters, congrArg List.tail h1.ctx.handling, h1.ctx.all⟩
      next := Nat.le_trans h.next h1.next
      grow := fun q => (h.grow q).trans (h1.grow q)
      mono := fun x hx => h1.mono x (h.mono x hx)
      fresh := fun x hx => by
        rcases h1.fresh x hx with a | ⟨a, b⟩
        · rcases h.fresh x a with a | ⟨a, b⟩
          · exact Or.inl a
          · exact Or.inr ⟨a, fun q hq => (h1.grow q).subset (b q hq)⟩
        · refine Or.inr ⟨hmine x a, ?_⟩
          have b : ∀ q ∈ s'.sys.stack, _ := b
          rw [h.ctx.stack] at b; exact b
      recs := fun q c hc => by
        rcases h1.recs q c hc with a | ⟨a, b⟩
        · exact h.recs q c a
        · exact Or.inr ⟨fun x => a (h.mono _ x), hmine _ b⟩
      inv := fun hi => by
        have hi' := h.inv hi
        have hi2 := h1.inv ⟨hi'.nodup, hi'.marked, hi'.old, fun e' he' => by
          rcases List.mem_cons.1 he' with c | c
          · subst c; exact h.errlt hi _ rfl
          · exact hi'.handled e' c⟩
        exact ⟨hi2.nodup, hi2.marked, hi2.old, fun e' he' => hi2.handled e' (List.mem_of_mem_tail he')⟩
      err := fun e' he' => hmine _ (h1.err e' he')
      errlt := fun hi e' he' => by
        have hi' := h.inv hi
        exact h1.errlt ⟨hi'.nodup, hi'.marked, hi'.old, fun e' he' => by
          rcases List.mem_cons.1 he' with c | c
          · subst c; exact h.errlt hi _ rfl
          · exact hi'.handled e' c⟩ e' he' }

theorem Tidy.tryE {m : M A V E α} {k : Exc → M A V E α} (hm : Tidy m) (hk : ∀ e, TidyH e (k e)) : Tidy (tryE m k) := by
  intro s hs
  have h1 := hm s hs
  unfold World.tryE
  cases hms : m s with
  | mk r s' =>
    rw [hms] at h1
    cases r with
    | ok a => exact h1
    | error e => exact h1.handling hs (hk e)

theorem mem_enteredList (s : World A V E) (q : PortalId) : q ∈ enteredList s ↔ q ∈ s.sys.stack := by
  unfold enteredList
  have : ∀ (l d : List PortalId), q ∈ l.foldl Portal.dictInsert d ↔ q ∈ d ∨ q ∈ l := by
    intro l
    induction l with
    | nil => intro d; simp
    | cons a l ih =>
      intro d
      rw [List.foldl_cons, ih]
      unfold Portal.dictInsert
      by_cases h : a ∈ d
      · simp only [h, if_true, List.mem_cons]
        constructor
        · rintro (x | x)
          · exact Or.inl x
          · exact Or.inr (Or.inr x)
        · rintro (x | x | x)
          · exact Or.inl x
          · subst x; exact Or.inl h
          · exact Or.inr x
      · simp only [h, if_false, List.mem_append, List.mem_cons, List.not_mem_nil, or_false]
        exact or_assoc
  simpa using this s.sys.stack []

/-- logging an exception that was raised since `s`, or was handled then -/
theorem TidyAt.log {s s' : World A V E} {r : Except Exc α} (h : TidyAt s r s') {e : Exc} (he : Mine s e.id)
    (hlt : LogInv s → e.id < s'.nextExc) {pre : List (Option Nat)} (hn : none ∈ pre) (hd : pre.Nodup) :
    TidyAt s r (persistExc pre e s') := by
  unfold persistExc
  by_cases hm : e.id ∈ s'.marked
  · rw [if_pos hm]; exact h
  · rw [if_neg hm]
    have hm0 : e.id ∉ s.marked := fun x => hm (h.mono _ x)
    exact {
      ctx := ⟨h.ctx.stack, h.ctx.counters, h.ctx.handling, h.ctx.all⟩
      next := h.next
      grow := fun q => by
        show s.crashes q <+: if q ∈ enteredList s' then _ else _
        split
        · exact (h.grow q).trans (List.prefix_append _ _)
        · exact h.grow q
      mono := fun x hx => List.mem_cons_of_mem _ (h.mono x hx)
      fresh := fun x hx => by
        have key : ∀ q ∈ s.sys.stack, q ∈ enteredList s' := fun q hq => by
          rw [mem_enteredList, h.ctx.stack]; exact hq
        rcases List.mem_cons.1 hx with c | c
        · subst c
          refine Or.inr ⟨he, fun q hq => ?_⟩
          show _ ∈ if q ∈ enteredList s' then _ else _
          rw [if_pos (key q hq)]
          exact List.mem_append_right _ (List.mem_map.2 ⟨none, hn, rfl⟩)
        · rcases h.fresh x c with a | ⟨a, b⟩
          · exact Or.inl a
          · refine Or.inr ⟨a, fun q hq => ?_⟩
            show _ ∈ if q ∈ enteredList s' then _ else _
            rw [if_pos (key q hq)]
            exact List.mem_append_left _ (b q hq)
      recs := fun q c hc => by
        have hc : c ∈ if q ∈ enteredList s' then s'.crashes q ++ pre.map (fun f => ⟨e.id, f⟩) else s'.crashes q := hc
        split at hc
        · rcases List.mem_append.1 hc with x | x
          · exact h.recs q c x
          · obtain ⟨f, _, rfl⟩ := List.mem_map.1 x
            exact Or.inr ⟨hm0, he⟩
        · exact h.recs q c hc
      inv := fun hi => by
        have hi' := h.inv hi
        refine ⟨fun q => ?_, fun q c hc => ?_, fun x hx => ?_, hi'.handled⟩
        · show (if q ∈ enteredList s' then s'.crashes q ++ pre.map (fun f => ⟨e.id, f⟩) else s'.crashes q).Nodup
          split
          · refine List.nodup_append.2 ⟨hi'.nodup q, ?_, ?_⟩
            · exact hd.map (fun a b hab => by injection hab)
            · intro c hc d hd' hcd
              subst hcd
              obtain ⟨f, _, hf⟩ := List.mem_map.1 hd'
              have := hi'.marked q c hc
              rw [← hf] at this
              exact hm this
          · exact hi'.nodup q
        · have hc : c ∈ if q ∈ enteredList s' then s'.crashes q ++ pre.map (fun f => ⟨e.id, f⟩) else s'.crashes q := hc
          split at hc
          · rcases List.mem_append.1 hc with x | x
            · exact List.mem_cons_of_mem _ (hi'.marked q c x)
            · obtain ⟨f, _, rfl⟩ := List.mem_map.1 x
              exact List.mem_cons_self ..
          · exact List.mem_cons_of_mem _ (hi'.marked q c hc)
        · rcases List.mem_cons.1 hx with c | c
          · subst c; exact hlt hi
          · exact hi'.old x c
      err := h.err
      errlt := h.errlt }

theorem TidyAt.logError {s s' : World A V E} {e : Exc} (h : TidyAt s (.error e : Except Exc α) s') {pre : List (Option Nat)}
    (hn : none ∈ pre) (hd : pre.Nodup) : TidyAt s (.error e : Except Exc α) (persistExc pre e s') :=
  h.log (h.err e rfl) (fun hi => h.errlt hi e rfl) hn hd

theorem persistExc_marked (pre : List (Option Nat)) (e : Exc) (s : World A V E) : e.id ∈ (persistExc pre e s).marked := by
  unfold persistExc
  split
  · assumption
  · exact List.mem_cons_self ..

theorem TidyAt.logger {s s' : World A V E} {r : Except Exc α} (h : TidyAt s r s') : TidyAt s r (exceptionLogger s') := by
  unfold exceptionLogger
  cases hh : s'.handling with
  | nil => exact h
  | cons e l =>
    have he : e ∈ s'.handling := by rw [hh]; exact List.mem_cons_self ..
    exact h.log (Or.inr ⟨e, by rw [← h.ctx.handling]; exact he, rfl⟩) (fun hi => (h.inv hi).handled e he) (List.mem_singleton.2 rfl)
      (List.nodup_singleton _)

/-- logging under a handled exception, then restoring the handled exceptions -/
theorem logger_handling (e : Exc) (s : World A V E) :
    { exceptionLogger { s with handling := e :: s.handling } with handling := s.handling } = persistExc [none] e s := by
  unfold exceptionLogger persistExc
  simp only
  split <;> rfl

/-- leaving a block: the stack of the surrounding code is back -/
theorem TidyAt.leave {s s' : World A V E} {r : Except Exc α} {p : PortalId} (hs : Ok s) (h : TidyAt (inside p s) r s') :
    TidyAt s r { s' with sys := { s.sys with all := s'.sys.all } } := by
  obtain ⟨sys', h1, h2, h3, h4, h5, h6⟩ := enterP_ok p s hs
  rw [h6] at h
  have hst : ∀ q ∈ s.sys.stack, q ∈ sys'.stack := by
    intro q hq
    unfold Portal.exit at h5
    cases hst : sys'.stack with
    | nil => rw [hst] at h4; cases h4
    | cons a st =>
      rw [hst] at h5
      simp only at h5
      split at h5
      · cases h5
      · cases hcs : sys'.counters with
        | nil => rw [hcs] at h5; cases h5
        | cons c cs =>
          rw [hcs] at h5
          simp only at h5
          split at h5
          · injection h5 with h5
            have this : s.sys.stack = st := by rw [← h5]
            rw [this] at hq; exact List.mem_cons_of_mem _ hq
          · injection h5 with h5
            have this : s.sys.stack = sys'.stack := by rw [← h5, hst]
            rw [this, hst] at hq; exact hq
  exact {
    ctx := ⟨rfl, rfl, h.ctx.handling, by have := h.ctx.all; rw [show sys'.all = s.sys.all from h3] at this; exact this⟩
    next := h.next
    grow := h.grow
    mono := h.mono
    fresh := fun x hx => (h.fresh x hx).imp id (fun a => ⟨a.1, fun q hq => a.2 q (hst q hq)⟩)
    recs := h.recs
    inv := fun hi => have x := h.inv ⟨hi.nodup, hi.marked, hi.old, hi.handled⟩; ⟨x.nodup, x.marked, x.old, x.handled⟩
    err := h.err
    errlt := fun hi => h.errlt ⟨hi.nodup, hi.marked, hi.old, hi.handled⟩ }

theorem withP_error_state (p : PortalId) (s s' : World A V E) (e : Exc) :
    { exceptionLogger { s' with handling := e :: s'.handling } with
          sys := { s.sys with all := s'.sys.all }, handling := s'.handling } =
      { persistExc [none] e s' with sys := { s.sys with all := (persistExc [none] e s').sys.all } } := by
  rw [← logger_handling e s']
  have := (logger_sys (A := A) (V := V) (E := E) { s' with handling := e :: s'.handling }).1
  simp only [this]

theorem Tidy.withP (p : PortalId) {m : M A V E α} (hm : Tidy m) : Tidy (withP p m) := by
  intro s hs
  rw [withP_eq p m s hs hm.keeps]
  have hin := (inside_ok p s hs).1
  have h1 := hm _ hin
  cases hms : m (inside p s) with
  | mk r s' =>
    rw [hms] at h1
    cases r with
    | ok a =>
      have := h1.logger.leave hs
      rw [(logger_sys s').1] at this
      exact this
    | error e =>
      show TidyAt s (.error e) { exceptionLogger { s' with handling := e :: s'.handling } with
          sys := { s.sys with all := s'.sys.all }, handling := s'.handling }
      rw [withP_error_state p]
      exact (h1.logError (List.mem_singleton.2 rfl) (List.nodup_singleton _)).leave hs

theorem Tidy.withOpt (p : Option PortalId) {m : PortalId → M A V E α} (hm : ∀ q, Tidy (m q)) : Tidy (withOpt p m) := by
  cases p with
  | none => exact Tidy.raiseNew _
  | some q => exact Tidy.withP q (hm q)

theorem Tidy.needPortal (p : Option PortalId) : Tidy (needPortal p : M A V E PortalId) := by
  cases p with
  | none => exact Tidy.raiseNew _
  | some q => exact Tidy.ret q

theorem Tidy.bestPortal (p : Option PortalId) : Tidy (bestPortal p : M A V E PortalId) := by
  intro s hs
  have hk := Keeps.bestPortal (A := A) (V := V) (E := E) p s hs
  revert hk
  unfold World.bestPortal
  cases p with
  | some q => exact fun hk => .frame q hk rfl rfl rfl
  | none =>
    simp only
    split
    · exact fun hk => .frame _ hk rfl rfl rfl
    · split
      · exact fun hk => .frame _ hk rfl rfl rfl
      · exact fun hk => .frame _ hk rfl rfl rfl

theorem Tidy.storeGet (p : PortalId) (a : A) : Tidy (storeGet p a : M A V E V) := by
  intro s hs
  unfold World.storeGet
  split
  · exact .refl s _
  · exact raiseNew_tidyAt _ s

theorem Tidy.storeHas (p : PortalId) (a : A) : Tidy (storeHas p a : M A V E Bool) := fun s _ => .refl s _

theorem Tidy.storeSet (p : PortalId) (a : A) (v : V) : Tidy (storeSet p a v : M A V E Unit) := by
  intro s hs
  unfold World.storeSet
  simp only
  generalize FirstEntry.setItem (⟨a, v, s.draws s.nd, .none, .none⟩ : FirstEntry.Op A V) (s.store p) = y
  obtain ⟨r, d⟩ := y
  have hf : ∀ t : World A V E, t = { s with nd := s.nd + 1, store := fun q => if q = p then d else s.store q } → TidyAt s (.ok ()) t :=
    fun t ht => by subst ht; exact .frame () ⟨rfl, rfl, rfl, List.prefix_rfl⟩ rfl rfl rfl
  cases r with
  | ok _ => exact hf _ rfl
  | error e => exact (hf _ rfl).trans (raiseNew_tidyAt (α := Unit) _ _)

theorem Tidy.alloc (o : AddrObj A V) : Tidy (alloc o : M A V E Nat) :=
  fun s _ => .frame _ ⟨rfl, rfl, rfl, List.prefix_rfl⟩ rfl rfl rfl
theorem Tidy.updObj (i : Nat) (f : AddrObj A V → AddrObj A V) : Tidy (updObj i f : M A V E Unit) :=
  fun s _ => .frame _ ⟨rfl, rfl, rfl, List.prefix_rfl⟩ rfl rfl rfl
theorem Tidy.readObj (i : Nat) : Tidy (readObj i : M A V E (AddrObj A V)) := by
  intro s hs
  unfold World.readObj
  split
  · exact .refl s _
  · exact raiseNew_tidyAt _ s

end Pyth.World
