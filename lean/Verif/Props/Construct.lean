import Verif.Model.Construct
import Mathlib.Tactic
/-!
# C74: records of a program are removed when it ends; C75: construction and clearing of portals
-/
namespace Pyth.Construct

/-! ### specification -/

/-- position of a class in the hierarchy -/
def Kind.rank : Kind → Nat
  | .basic => 1 | .logging => 2 | .data => 3 | .ordinary => 4 | .safe => 5 | .autonomous => 6 | .pure => 7 | .swarming => 8

/-- the class that introduces an attribute -/
def Attr.owner : Attr → Kind
  | .rootDict => .basic
  | .crashHistory | .eventLog => .logging
  | .valueStore | .pChecks => .data
  | .islandName | .knownFns => .autonomous
  | .results | .requests | .runHistory => .pure
  | .nWorkers | .computeNodes | .nodeId | .runtimeId => .swarming

/-- a portal object has all attributes of its class (and no others) -/
def Complete (o : Obj) : Prop := ∀ a, o.usable a = true ↔ a.owner.rank ≤ o.kind.rank

/-- acceptable parameters for a class -/
structure Valid (k : Kind) (p : Params) : Prop where
  root : p.rootOk = true
  checks : Kind.data.rank ≤ k.rank → ∀ x, p.p = some x → 0 ≤ x ∧ x ≤ 1
  island : Kind.autonomous.rank ≤ k.rank → ∃ x, p.island = some x ∧ x ≠ ""
  workers : Kind.swarming.rank ≤ k.rank → ∃ n, p.n = some n ∧ 0 ≤ n

/-- what a program does with portals -/
inductive Op
  | construct (k : Kind) (p : Params)
  | clearAll

def step (s : Sys) : Op → Sys
  | .construct k p => (construct k p s).1
  | .clearAll => (clearAll s).1

def run (s : Sys) (ops : List Op) : Sys := ops.foldl step s

/-- a program that has just started; `rec`: records left behind by other programs; runtime ids from `n` on are this
program's -/
def start (rec : Nat → Option Nat) (n : Nat) : Sys := { record := rec, fresh := n }

/-- a portal whose creation makes the program remove its records when it ends: a swarming portal without given runtime id,
created while no portal is known -/
def FirstSwarming (s : Sys) : Op → Prop
  | .construct .swarming p => Valid .swarming p ∧ p.rid = none ∧ s.known = []
  | _ => False

/-! ### proof support -/

theorem modify_last (l : List Obj) (o : Obj) (f : Obj → Obj) : (l ++ [o]).modify l.length f = l ++ [f o] := by
  induction l with
  | nil => rfl
  | cons a l ih => simpa using ih

theorem assign_new (s : Sys) (l : List Obj) (o : Obj) (as : List Attr) (h : s.objs = l ++ [o]) :
    s.assign l.length as = { s with objs := l ++ [{ o with usable := fun a => o.usable a || as.contains a }] } := by
  unfold Sys.assign
  rw [h, modify_last]

/-- the two checks of parameters below the swarming level -/
def checkP (p : Params) : Bool := match p.p with | none => true | some x => decide (0 ≤ x ∧ x ≤ 1)
def checkIsland (p : Params) : Bool := match p.island with | none => false | some x => decide (1 ≤ x.length)

theorem checkP_iff (p : Params) : checkP p = true ↔ ∀ x, p.p = some x → 0 ≤ x ∧ x ≤ 1 := by
  unfold checkP
  cases h : p.p <;> simp

theorem checkIsland_iff (p : Params) : checkIsland p = true ↔ ∃ x, p.island = some x ∧ x ≠ "" := by
  unfold checkIsland
  cases h : p.island with
  | none => simp
  | some x =>
    simp only [decide_eq_true_eq, Option.some.injEq, ne_eq, exists_eq_left']
    constructor
    · rintro h rfl; simp at h
    · intro h
      have : x.length ≠ 0 := fun e => h (String.length_eq_zero_iff.mp e)
      omega

theorem chain_rank (k : Kind) : k.chain = ([.basic, .logging, .data, .ordinary, .safe, .autonomous, .pure, .swarming] : List Kind).take k.rank := by
  cases k <;> rfl

/-- whether a stage accepts the parameters -/
def stageOk (p : Params) : Kind → Bool
  | .data => checkP p
  | .autonomous => checkIsland p
  | .swarming => match p.n with | none => false | some n => decide (0 ≤ n)
  | _ => true

/-- attributes assigned by a stage -/
def attrsOf : Kind → List Attr
  | .basic => [.rootDict]
  | .logging => [.crashHistory, .eventLog]
  | .data => [.pChecks, .valueStore]
  | .ordinary => []
  | .safe => []
  | .autonomous => [.islandName, .knownFns]
  | .pure => [.results, .requests, .runHistory]
  | .swarming => [.nWorkers, .computeNodes, .nodeId, .runtimeId]

theorem mem_attrsOf (a : Attr) (k : Kind) : a ∈ attrsOf k ↔ a.owner = k := by
  cases a <;> cases k <;> simp [attrsOf, Attr.owner]

/-- one stage -/
theorem stage_eq (k : Kind) (p : Params) (l : List Obj) (o : Obj) (s : Sys) (h : s.objs = l ++ [o]) :
    (stageOk p k = false → (stage k p l.length s).1 = s ∧ (stage k p l.length s).2 ≠ none) ∧
    (stageOk p k = true → (stage k p l.length s).2 = none ∧
      (stage k p l.length s).1.objs = l ++ [{ o with usable := fun a => o.usable a || (attrsOf k).contains a }] ∧
      (stage k p l.length s).1.known = (if k = .basic then s.known ++ [l.length] else s.known) ∧
      (stage k p l.length s).1.atexit =
        (if k = .swarming ∧ p.rid = none then s.atexit || decide (s.known.length = 1) else s.atexit) ∧
      (stage k p l.length s).1.record =
        (if k = .swarming ∧ p.rid = none then fun d => if d = p.store then some s.fresh else s.record d else s.record) ∧
      (stage k p l.length s).1.fresh = (if k = .swarming ∧ p.rid = none then s.fresh + 1 else s.fresh) ∧
      (stage k p l.length s).1.handlers = (if k = .logging then true else s.handlers)) := by
  cases k
  case swarming =>
    unfold stageOk stage
    cases hn : p.n with
    | none => simp
    | some n =>
      by_cases hlt : n < 0
      · simp [hlt]
      · have : 0 ≤ n := by omega
        cases hr : p.rid <;> simp [hlt, this, assign_new s l o _ h, attrsOf]
  case data =>
    have : stage .data p l.length s =
      if checkP p then (s.assign l.length [.pChecks, .valueStore], none) else (s, some .assertion) := rfl
    rw [this]
    cases hc : checkP p <;> simp [stageOk, hc, assign_new s l o _ h, attrsOf]
  case autonomous =>
    have : stage .autonomous p l.length s =
      if checkIsland p then (s.assign l.length [.islandName, .knownFns], none) else (s, some .assertion) := rfl
    rw [this]
    cases hc : checkIsland p <;> simp [stageOk, hc, assign_new s l o _ h, attrsOf]
  case ordinary => simp [stageOk, stage, attrsOf, h]
  case safe => simp [stageOk, stage, attrsOf, h]
  all_goals simp [stageOk, stage, assign_new s l o _ h, attrsOf]

/-- the classes whose stages succeed -/
def okPart (p : Params) (ks : List Kind) : List Kind := ks.takeWhile (stageOk p)

theorem okPart_ok {p : Params} {ks : List Kind} {k : Kind} (h : k ∈ okPart p ks) : stageOk p k = true := by
  induction ks with
  | nil => simp [okPart] at h
  | cons j l ih =>
    unfold okPart at h
    rw [List.takeWhile_cons] at h
    split at h
    · rcases List.mem_cons.mp h with rfl | h
      · assumption
      · exact ih h
    · simp at h

theorem stages_eq (p : Params) (l : List Obj) : ∀ (ks : List Kind) (o : Obj) (s : Sys), s.objs = l ++ [o] → ks.Nodup →
    Kind.basic ∉ ks →
    ((stages p l.length ks s).2 = none ↔ ∀ k ∈ ks, stageOk p k = true) ∧
    (stages p l.length ks s).1.objs =
      l ++ [{ o with usable := fun a => o.usable a || (okPart p ks).any fun k => (attrsOf k).contains a }] ∧
    (stages p l.length ks s).1.known = s.known ∧
    (stages p l.length ks s).1.atexit = (if .swarming ∈ okPart p ks ∧ p.rid = none then s.atexit || decide (s.known.length = 1)
      else s.atexit) ∧
    (stages p l.length ks s).1.record = (if .swarming ∈ okPart p ks ∧ p.rid = none then
      fun d => if d = p.store then some s.fresh else s.record d else s.record) ∧
    (stages p l.length ks s).1.handlers = (s.handlers || decide (.logging ∈ okPart p ks))
  | [], o, s, h, _, _ => by simp [stages, okPart, h]
  | k :: ks, o, s, h, hnd, hb => by
    obtain ⟨h1, h2⟩ := stage_eq k p l o s h
    rw [List.nodup_cons] at hnd
    have hkb : k ≠ .basic := fun e => hb (by simp [e])
    cases hk : stageOk p k
    · obtain ⟨e1, e2⟩ := h1 hk
      have : stages p l.length (k :: ks) s = (s, (stage k p l.length s).2) := by
        rw [stages]
        revert e1 e2
        rcases stage k p l.length s with ⟨s', _ | e⟩
        · simp
        · rintro rfl _; rfl
      rw [this]
      simp [okPart, hk, h, e2]
    · obtain ⟨e1, e2, e3, e4, e5, e6, e7⟩ := h2 hk
      have : stages p l.length (k :: ks) s = stages p l.length ks (stage k p l.length s).1 := by
        rw [stages]
        revert e1
        rcases stage k p l.length s with ⟨s', _ | e⟩
        · simp
        · simp
      rw [this]
      obtain ⟨i1, i2, i3, i4, i5, i6⟩ := stages_eq p l ks _ (stage k p l.length s).1 e2 hnd.2 (fun hm => hb (by simp [hm]))
      have hok : okPart p (k :: ks) = k :: okPart p ks := by simp [okPart, hk]
      have hsub : ∀ x, x ∈ okPart p ks → x ∈ ks := fun x hx => (List.takeWhile_prefix _).subset hx
      refine ⟨?_, ?_, ?_, ?_, ?_, ?_⟩
      · rw [i1]; simp [hk]
      · rw [i2, hok]
        simp [Bool.or_assoc]
      · rw [i3, e3, if_neg hkb]
      · rw [i4, e4, e3, if_neg hkb, hok]
        by_cases hs : k = .swarming
        · subst hs
          have : Kind.swarming ∉ okPart p ks := fun hm => hnd.1 (hsub _ hm)
          by_cases hr : p.rid = none <;> simp [this, hr]
        · have hs' : ¬ (Kind.swarming = k) := fun e => hs e.symm
          simp [hs, hs']
      · rw [i5, e5, e6, hok]
        by_cases hs : k = .swarming
        · subst hs
          have : Kind.swarming ∉ okPart p ks := fun hm => hnd.1 (hsub _ hm)
          by_cases hr : p.rid = none <;> simp [this, hr]
        · have hs' : ¬ (Kind.swarming = k) := fun e => hs e.symm
          simp [hs, hs']
      · rw [i6, e7, hok]
        by_cases hs : k = .logging
        · subst hs; simp
        · have hs' : ¬ (Kind.logging = k) := fun e => hs e.symm
          simp [hs, hs']

/-- all classes of the chain above the basic one -/
def Kind.above (k : Kind) : List Kind := k.chain.tail

theorem chain_eq (k : Kind) : k.chain = .basic :: k.above := by cases k <;> rfl
theorem above_nodup (k : Kind) : k.above.Nodup := by cases k <;> decide
theorem above_basic (k : Kind) : Kind.basic ∉ k.above := by cases k <;> decide
theorem mem_chain (k j : Kind) : j ∈ k.chain ↔ j.rank ≤ k.rank := by cases k <;> cases j <;> simp [Kind.chain, Kind.rank]

theorem valid_iff (k : Kind) (p : Params) : Valid k p ↔ p.rootOk = true ∧ ∀ j ∈ k.above, stageOk p j = true := by
  have hs : stageOk p .swarming = true ↔ ∃ n, p.n = some n ∧ 0 ≤ n := by
    unfold stageOk; cases p.n <;> simp
  constructor
  · rintro ⟨h1, h2, h3, h4⟩
    refine ⟨h1, fun j hj => ?_⟩
    have hr : j.rank ≤ k.rank := (mem_chain k j).mp (by rw [chain_eq]; simp [hj])
    cases j <;> try rfl
    · exact (checkP_iff p).mpr (h2 hr)
    · exact (checkIsland_iff p).mpr (h3 hr)
    · exact hs.mpr (h4 hr)
  · rintro ⟨h1, h2⟩
    have key : ∀ j : Kind, j ≠ .basic → j.rank ≤ k.rank → stageOk p j = true := by
      intro j hj hr
      have := (mem_chain k j).mpr hr
      rw [chain_eq, List.mem_cons] at this
      exact h2 j (this.resolve_left hj)
    exact ⟨h1, fun hr => (checkP_iff p).mp (key .data (by decide) hr),
      fun hr => (checkIsland_iff p).mp (key .autonomous (by decide) hr), fun hr => hs.mp (key .swarming (by decide) hr)⟩

/-- the attributes of an object after the stages `ks` -/
def madeBy (ks : List Kind) (a : Attr) : Bool := decide (a.owner ∈ Kind.basic :: ks)

/-- a construction whose directory can be opened -/
theorem construct_eq (k : Kind) (p : Params) (s : Sys) (hr : p.rootOk = true) :
    ((construct k p s).2 = none ↔ Valid k p) ∧
    (construct k p s).1.objs = s.objs ++ [{ kind := k, store := p.store, usable := madeBy (okPart p k.above) }] ∧
    (construct k p s).1.known = s.known ++ [s.objs.length] ∧
    (construct k p s).1.atexit = (if .swarming ∈ okPart p k.above ∧ p.rid = none then s.atexit || decide (s.known = [])
      else s.atexit) ∧
    (construct k p s).1.record = (if .swarming ∈ okPart p k.above ∧ p.rid = none then
      fun d => if d = p.store then some s.fresh else s.record d else s.record) ∧
    (construct k p s).1.handlers = (s.handlers || decide (.logging ∈ okPart p k.above)) := by
  have hc : construct k p s = stages p s.objs.length k.above
      (stage .basic p s.objs.length { s with objs := s.objs ++ [{ kind := k, store := p.store }] }).1 := by
    unfold construct
    rw [if_pos hr, chain_eq, stages]
    rfl
  obtain ⟨-, h2⟩ := stage_eq .basic p s.objs { kind := k, store := p.store }
    { s with objs := s.objs ++ [{ kind := k, store := p.store }] } rfl
  obtain ⟨-, e2, e3, e4, e5, e6, e7⟩ := h2 rfl
  obtain ⟨i1, i2, i3, i4, i5, i6⟩ := stages_eq p s.objs k.above _ _ e2 (above_nodup k) (above_basic k)
  rw [hc]
  refine ⟨?_, ?_, ?_, ?_, ?_, ?_⟩
  · rw [i1, valid_iff]; simp [hr]
  · rw [i2]
    congr 3
    funext a
    rw [Bool.eq_iff_iff]
    simp only [madeBy, Bool.false_or, Bool.or_eq_true, List.contains_iff_mem, mem_attrsOf, List.any_eq_true, decide_eq_true_eq, List.mem_cons]
    constructor
    · rintro (h | ⟨j, hj, h⟩)
      · exact .inl h
      · exact .inr (h ▸ hj)
    · rintro (h | h)
      · exact .inl h
      · exact .inr ⟨_, h, rfl⟩
  · rw [i3, e3]; rfl
  · rw [i4, e4, e3]
    simp
  · rw [i5, e5, e6]
    simp
  · rw [i6, e7]; simp

theorem okPart_of_valid {k : Kind} {p : Params} (h : Valid k p) : okPart p k.above = k.above := by
  have := ((valid_iff k p).mp h).2
  revert this
  rw [okPart]
  induction k.above with
  | nil => intro _; rfl
  | cons j l ih => intro h; rw [List.takeWhile_cons_of_pos (h j (by simp)), ih fun x hx => h x (by simp [hx])]

theorem madeBy_complete {k : Kind} {p : Params} (h : Valid k p) (d : Nat) :
    Complete { kind := k, store := d, usable := madeBy (okPart p k.above) } := by
  intro a
  rw [okPart_of_valid h]
  simp only [madeBy, decide_eq_true_eq, ← chain_eq, mem_chain]

/-! ### clearing -/

/-- the object after `_clear` -/
def Obj.afterClear (o : Obj) : Obj := { o with usable := fun a => o.usable a && !(cleared o.kind).contains a }

/-- `_clear` can be called on the object -/
def Clearable (o : Obj) : Prop := o.kind = .swarming → o.usable .nodeId = true ∧ o.usable .computeNodes = true

instance (o : Obj) : Decidable (Clearable o) := inferInstanceAs (Decidable (_ → _))

theorem clear_some {i : Nat} {s : Sys} {o : Obj} (h : s.objs[i]? = some o) (hc : Clearable o) :
    clear i s = some { s with
      record := if o.kind = .swarming then (fun d => if d = o.store then none else s.record d) else s.record
      objs := s.objs.modify i Obj.afterClear } := by
  unfold clear
  rw [h]
  simp only
  rw [if_neg (fun hh => hh.2 (hc hh.1))]
  rfl

theorem clear_none {i : Nat} {s : Sys} {o : Obj} (h : s.objs[i]? = some o) (hc : ¬ Clearable o) : clear i s = none := by
  unfold clear
  rw [h]
  simp only
  rw [if_pos]
  unfold Clearable at hc
  simp only [Classical.not_imp] at hc
  exact hc

/-- the loop over portals that can all be cleared -/
theorem clearLoop_ok : ∀ (l : List Nat) (s : Sys), l.Nodup → (∀ i ∈ l, ∃ o, s.objs[i]? = some o ∧ Clearable o) →
    (clearLoop l s).2 = none ∧ (clearLoop l s).1.known = s.known ∧ (clearLoop l s).1.atexit = s.atexit ∧
    (clearLoop l s).1.handlers = s.handlers ∧ (clearLoop l s).1.fresh = s.fresh ∧
    (∀ j, (clearLoop l s).1.objs[j]? = if j ∈ l then s.objs[j]?.map Obj.afterClear else s.objs[j]?) ∧
    (∀ d, (clearLoop l s).1.record d =
      if ∃ i ∈ l, ∃ o, s.objs[i]? = some o ∧ o.kind = .swarming ∧ o.store = d then none else s.record d)
  | [], s, _, _ => by simp [clearLoop]
  | i :: l, s, hnd, h => by
    rw [List.nodup_cons] at hnd
    obtain ⟨o, ho, hc⟩ := h i (by simp)
    have e := clear_some ho hc
    set t : Sys := { s with
      record := if o.kind = .swarming then (fun d => if d = o.store then none else s.record d) else s.record
      objs := s.objs.modify i Obj.afterClear } with ht
    have hobj : ∀ j, t.objs[j]? = if i = j then s.objs[j]?.map Obj.afterClear else s.objs[j]? := by
      intro j; rw [ht]; simp only [List.getElem?_modify]
      by_cases hij : i = j <;> simp [hij]
    have hl : ∀ j ∈ l, t.objs[j]? = s.objs[j]? := by
      intro j hj
      rw [hobj, if_neg]; rintro rfl; exact hnd.1 hj
    obtain ⟨h1, h2, h3, h4, h5, h6, h7⟩ := clearLoop_ok l t hnd.2 (fun j hj => by
      rw [hl j hj]; exact h j (by simp [hj]))
    rw [clearLoop, e]
    refine ⟨h1, h2, h3, h4, h5, fun j => ?_, fun d => ?_⟩
    · rw [h6]
      by_cases hj : j ∈ l
      · rw [if_pos hj, if_pos (by simp [hj]), hl j hj]
      · rw [if_neg hj, hobj]
        by_cases hij : i = j
        · subst hij; simp
        · rw [if_neg hij, if_neg]
          simp only [List.mem_cons, not_or]
          exact ⟨fun e => hij e.symm, hj⟩
    · rw [h7]
      have hiff : (∃ j ∈ i :: l, ∃ o, s.objs[j]? = some o ∧ o.kind = .swarming ∧ o.store = d) ↔
          ((o.kind = .swarming ∧ o.store = d) ∨ ∃ j ∈ l, ∃ o, t.objs[j]? = some o ∧ o.kind = .swarming ∧ o.store = d) := by
        constructor
        · rintro ⟨j, hj, o', ho', hk⟩
          rcases List.mem_cons.mp hj with rfl | hj
          · rw [ho] at ho'; injection ho' with ho'; subst ho'; exact .inl hk
          · exact .inr ⟨j, hj, o', by rw [hl j hj]; exact ho', hk⟩
        · rintro (hk | ⟨j, hj, o', ho', hk⟩)
          · exact ⟨i, by simp, o, ho, hk⟩
          · exact ⟨j, by simp [hj], o', by rw [← hl j hj]; exact ho', hk⟩
      by_cases hx : ∃ j ∈ l, ∃ o, t.objs[j]? = some o ∧ o.kind = .swarming ∧ o.store = d
      · rw [if_pos hx, if_pos (hiff.mpr (.inr hx))]
      · rw [if_neg hx]
        by_cases hy : o.kind = .swarming ∧ o.store = d
        · rw [if_pos (hiff.mpr (.inl hy))]
          simp [ht, hy.1, hy.2]
        · rw [if_neg (fun hh => (hiff.mp hh).elim hy hx), ht]
          simp only
          by_cases hk : o.kind = .swarming
          · have : d ≠ o.store := fun e => hy ⟨hk, e.symm⟩
            simp [hk, this]
          · simp [hk]

/-- the loop stops at a portal that cannot be cleared -/
theorem clearLoop_blocked : ∀ (l : List Nat) (s : Sys) (i : Nat) (o : Obj), i ∈ l → s.objs[i]? = some o → ¬ Clearable o →
    (clearLoop l s).2 = some .attribute
  | [], _, _, _, hi, _, _ => by simp at hi
  | j :: l, s, i, o, hi, ho, hc => by
    rw [clearLoop]
    cases e : clear j s with
    | none => rfl
    | some t =>
      have hne : j ≠ i := by
        rintro rfl
        rw [clear_none ho hc] at e; cases e
      have hi' : i ∈ l := (List.mem_cons.mp hi).resolve_left (fun e => hne e.symm)
      refine clearLoop_blocked l t i o hi' ?_ hc
      unfold clear at e
      split at e
      · cases e
      · split at e
        · cases e
        · injection e with e
          subst e
          simp [List.getElem?_modify, hne, ho]

/-- whatever happens, the loop keeps the known portals, kinds, directories, and gives no object new attributes -/
theorem clearLoop_weak : ∀ (l : List Nat) (s : Sys),
    (clearLoop l s).1.known = s.known ∧ (clearLoop l s).1.atexit = s.atexit ∧ (clearLoop l s).1.objs.length = s.objs.length ∧
    (∀ d, (clearLoop l s).1.record d = s.record d ∨ (clearLoop l s).1.record d = none) ∧
    (∀ (j : Nat) (o : Obj), s.objs[j]? = some o → ∃ o', (clearLoop l s).1.objs[j]? = some o' ∧ o'.kind = o.kind ∧ o'.store = o.store ∧
      (∀ a, o'.usable a = true → o.usable a = true) ∧ o'.usable .nodeId = o.usable .nodeId ∧
      (o.usable .computeNodes = true → o'.usable .computeNodes = true ∨ (clearLoop l s).1.record o.store = none))
  | [], s => by
    refine ⟨rfl, rfl, rfl, fun _ => .inl rfl, fun j o h => ⟨o, h, rfl, rfl, fun _ h => h, rfl, fun h => .inl h⟩⟩
  | i :: l, s => by
    rw [clearLoop]
    cases e : clear i s with
    | none =>
      refine ⟨rfl, rfl, rfl, fun _ => .inl rfl, fun j o h => ⟨o, h, rfl, rfl, fun _ h => h, rfl, fun h => .inl h⟩⟩
    | some t =>
      obtain ⟨oi, hoi⟩ : ∃ o, s.objs[i]? = some o := by
        cases h : s.objs[i]? with
        | none => unfold clear at e; rw [h] at e; cases e
        | some o => exact ⟨o, rfl⟩
      have hcl : Clearable oi := by
        by_contra hc; rw [clear_none hoi hc] at e; cases e
      rw [clear_some hoi hcl] at e
      injection e with e
      subst e
      obtain ⟨h1, h2, h3, h4, h5⟩ := clearLoop_weak l { s with
        record := if oi.kind = .swarming then (fun d => if d = oi.store then none else s.record d) else s.record
        objs := s.objs.modify i Obj.afterClear }
      refine ⟨h1, h2, by rw [h3]; simp, fun d => ?_, fun j o ho => ?_⟩
      · rcases h4 d with h | h
        · rw [h]
          by_cases hk : oi.kind = .swarming
          · by_cases hd : d = oi.store
            · right; simp [hk, hd]
            · left; simp [hk, hd]
          · left; simp [hk]
        · exact .inr h
      · by_cases hij : i = j
        · subst hij
          rw [hoi] at ho; injection ho with ho; subst ho
          obtain ⟨o', a1, a2, a3, a4, a5, a6⟩ := h5 i oi.afterClear (by simp [List.getElem?_modify, hoi])
          refine ⟨o', a1, a2, a3, fun a ha => ?_, ?_, fun hcn => ?_⟩
          · have := a4 a ha
            simp only [Obj.afterClear, Bool.and_eq_true] at this
            exact this.1
          · rw [a5]
            have : (cleared oi.kind).contains Attr.nodeId = false := by
              cases oi.kind <;> decide
            simp only [Obj.afterClear, this, Bool.not_false, Bool.and_true]
          · by_cases hk : oi.kind = .swarming
            · right
              rcases h4 oi.store with h | h
              · rw [h]; simp [hk]
              · exact h
            · have hnc : (cleared oi.kind).contains Attr.computeNodes = false := by
                revert hk; cases oi.kind <;> decide
              have := a6 (by simp only [Obj.afterClear, hcn, hnc, Bool.not_false, Bool.and_true])
              rwa [show oi.afterClear.store = oi.store from rfl] at this
        · obtain ⟨o', a1, a2, a3, a4, a5, a6⟩ := h5 j o (by simp [List.getElem?_modify, hij, ho])
          exact ⟨o', a1, a2, a3, a4, a5, a6⟩

/-! ### C75: construction -/

/-- **C75**: a constructor succeeds iff the parameters are acceptable; then the new portal has all attributes of its class
and is the most recently added one. -/
theorem C75_constructed (k : Kind) (p : Params) (s : Sys) :
    ((construct k p s).2 = none ↔ Valid k p) ∧
    (Valid k p → ∃ o, (construct k p s).1.objs = s.objs ++ [o] ∧ o.kind = k ∧ o.store = p.store ∧ Complete o ∧
      (construct k p s).1.known = s.known ++ [s.objs.length]) := by
  by_cases hr : p.rootOk = true
  · obtain ⟨h1, h2, h3, -⟩ := construct_eq k p s hr
    exact ⟨h1, fun hv => ⟨_, h2, rfl, rfl, madeBy_complete hv _, h3⟩⟩
  · have hc : construct k p s = (s, some .os) := by unfold construct; rw [if_neg hr]
    refine ⟨?_, fun hv => absurd hv.root hr⟩
    rw [hc]
    exact ⟨fun h => by simp at h, fun hv => absurd hv.root hr⟩

/-- **C75**: a constructor, successful or not, leaves all other portal objects alone, and no portal gets lost. -/
theorem C75_others_untouched (k : Kind) (p : Params) (s : Sys) :
    (∀ (i : Nat) (o : Obj), s.objs[i]? = some o → (construct k p s).1.objs[i]? = some o) ∧ s.known <+: (construct k p s).1.known := by
  by_cases hr : p.rootOk = true
  · obtain ⟨-, h2, h3, -⟩ := construct_eq k p s hr
    refine ⟨fun i o ho => ?_, by rw [h3]; exact List.prefix_append _ _⟩
    rw [h2, List.getElem?_append_left (by
      by_contra hc
      rw [List.getElem?_eq_none (by omega)] at ho; cases ho)]
    exact ho
  · have hc : construct k p s = (s, some .os) := by unfold construct; rw [if_neg hr]
    rw [hc]; exact ⟨fun _ _ h => h, List.prefix_refl _⟩

/-- "A portal whose construction fails is not known" is false of the code (C75): after a constructor has refused its
parameters, the unfinished object is known to the library as the most recently added portal, i.e. it is the portal used
outside of all `with` blocks; it lacks attributes of its class. -/
theorem C75_failed_construction_counterexample (k : Kind) (p : Params) (s : Sys) (hr : p.rootOk = true) (hv : ¬ Valid k p) :
    (construct k p s).2 ≠ none ∧ (construct k p s).1.known.getLast? = some s.objs.length ∧
    ∃ o a, (construct k p s).1.objs[s.objs.length]? = some o ∧ o.kind = k ∧ a.owner.rank ≤ k.rank ∧ o.usable a = false := by
  obtain ⟨h1, h2, h3, -⟩ := construct_eq k p s hr
  refine ⟨fun h => hv (h1.mp h), by rw [h3]; simp, ?_⟩
  have hj : ∃ j ∈ k.above, stageOk p j = false := by
    by_contra hn
    push Not at hn
    exact hv ((valid_iff k p).mpr ⟨hr, fun j hj => by simpa using hn j hj⟩)
  obtain ⟨j, hj, hjo⟩ := hj
  have hnot : j ∉ okPart p k.above := by
    intro hm
    have := okPart_ok hm
    rw [hjo] at this; cases this
  have hjb : j ≠ .basic := fun e => above_basic k (e ▸ hj)
  obtain ⟨a, ha⟩ : ∃ a : Attr, a.owner = j := by
    cases j <;> first | (exfalso; exact hjb rfl) | (simp [stageOk] at hjo; done) | skip
    · exact ⟨.pChecks, rfl⟩
    · exact ⟨.islandName, rfl⟩
    · exact ⟨.nWorkers, rfl⟩
  refine ⟨{ kind := k, store := p.store, usable := madeBy (okPart p k.above) }, a, by rw [h2]; simp, rfl, ?_, ?_⟩
  · rw [ha]; exact (mem_chain k j).mp (by rw [chain_eq]; simp [hj])
  · simp only [madeBy, decide_eq_false_iff_not, List.mem_cons, not_or, ha]
    exact ⟨hjb, hnot⟩

/-- histories in which all constructors get acceptable parameters -/
def AllValid (ops : List Op) : Prop := ∀ k p, Op.construct k p ∈ ops → Valid k p

/-- all known portals are finished objects -/
structure Sound (s : Sys) : Prop where
  nodup : s.known.Nodup
  lt : ∀ i ∈ s.known, i < s.objs.length
  complete : ∀ i ∈ s.known, ∃ o, s.objs[i]? = some o ∧ Complete o

theorem Complete.clearable {o : Obj} (h : Complete o) : Clearable o := by
  intro hk
  exact ⟨(h _).mpr (by rw [hk]; decide), (h _).mpr (by rw [hk]; decide)⟩

theorem Sound.clearAll {s : Sys} (h : Sound s) : (clearAll s).2 = none ∧ (clearAll s).1.known = [] ∧
    (clearAll s).1.objs.length = s.objs.length ∧
    ∀ d, (Construct.clearAll s).1.record d =
      if ∃ i ∈ s.known, ∃ o, s.objs[i]? = some o ∧ o.kind = .swarming ∧ o.store = d then none else s.record d := by
  obtain ⟨h1, h2, h3, h4, h5, h6, h7⟩ := clearLoop_ok s.known { s with handlers := false } h.nodup
    (fun i hi => by obtain ⟨o, ho, hc⟩ := h.complete i hi; exact ⟨o, ho, hc.clearable⟩)
  have hw := (clearLoop_weak s.known { s with handlers := false }).2.2.1
  unfold Construct.clearAll
  revert h1 h7 hw
  rcases clearLoop s.known { s with handlers := false } with ⟨t, _ | e⟩
  · intro _ h7 hw
    exact ⟨rfl, rfl, hw, h7⟩
  · intro h1; cases h1

theorem construct_sound {s : Sys} (h : Sound s) {k : Kind} {p : Params} (hv : Valid k p) : Sound (construct k p s).1 := by
  obtain ⟨o, h1, h2, h3, h4, h5⟩ := (C75_constructed k p s).2 hv
  refine ⟨?_, ?_, ?_⟩
  · rw [h5, List.nodup_append]
    refine ⟨h.nodup, by simp, ?_⟩
    intro a ha b hb
    simp only [List.mem_singleton] at hb
    have := h.lt a ha
    omega
  · rw [h5, h1]
    intro i hi
    rcases List.mem_append.mp hi with hi | hi
    · have := h.lt i hi; simp; omega
    · simp only [List.mem_singleton] at hi; simp [hi]
  · rw [h5, h1]
    intro i hi
    rcases List.mem_append.mp hi with hi | hi
    · obtain ⟨o', ho', hc⟩ := h.complete i hi
      exact ⟨o', by rw [List.getElem?_append_left (h.lt i hi)]; exact ho', hc⟩
    · simp only [List.mem_singleton] at hi
      subst hi
      exact ⟨o, by simp, h4⟩

theorem run_sound : ∀ (ops : List Op) (s : Sys), Sound s → AllValid ops → Sound (run s ops)
  | [], _, h, _ => h
  | .construct k p :: ops, s, h, hv =>
    run_sound ops _ (construct_sound h (hv k p (by simp))) (fun k p hm => hv k p (by simp [hm]))
  | .clearAll :: ops, s, h, hv => by
    refine run_sound ops _ ?_ (fun k p hm => hv k p (by simp [hm]))
    obtain ⟨-, h2, -⟩ := h.clearAll
    exact ⟨by simp [step, h2], by simp [step, h2], by simp [step, h2]⟩

/-- **C75** (partial): after any history of constructions with acceptable parameters and of clearings, clearing succeeds: no
portal is known any more, the records of all swarming portals are removed and no others.  Missing: histories with a failed
construction. -/
theorem C75_clear_all_partial (rec : Nat → Option Nat) (n : Nat) (ops : List Op) (hv : AllValid ops) :
    (clearAll (run (start rec n) ops)).2 = none ∧ (clearAll (run (start rec n) ops)).1.known = [] ∧
    ∀ d, (clearAll (run (start rec n) ops)).1.record d =
      if ∃ i ∈ (run (start rec n) ops).known, ∃ o, (run (start rec n) ops).objs[i]? = some o ∧ o.kind = .swarming ∧ o.store = d
      then none else (run (start rec n) ops).record d := by
  have hs : Sound (start rec n) := ⟨by simp [start], by simp [start], by simp [start]⟩
  obtain ⟨h1, h2, -, h3⟩ := (run_sound ops _ hs hv).clearAll
  exact ⟨h1, h2, h3⟩

/-- an attribute through which data in storage is accessed -/
def Attr.isStorage : Attr → Bool
  | .rootDict | .crashHistory | .eventLog | .valueStore | .results | .requests | .runHistory | .computeNodes => true
  | .pChecks | .islandName | .knownFns | .nWorkers | .nodeId | .runtimeId => false

theorem cleared_storage (k : Kind) (a : Attr) (h : a.isStorage = true) (hk : a.owner.rank ≤ k.rank) : (cleared k).contains a = true := by
  cases a <;> cases h <;> cases k <;> first | rfl | (exact absurd hk (by decide))

/-- one portal is cleared -/
theorem clear_objs {i : Nat} {s s' : Sys} (h : clear i s = some s') (j : Nat) (o : Obj) (ho : s.objs[j]? = some o) :
    ∃ o', s'.objs[j]? = some o' ∧ o'.kind = o.kind ∧ (∀ a, o'.usable a = true → o.usable a = true) ∧
      (j = i → ∀ a, (cleared o.kind).contains a = true → o'.usable a = false) := by
  unfold clear at h
  cases hi : s.objs[i]? with
  | none => rw [hi] at h; cases h
  | some x =>
    rw [hi] at h
    simp only at h
    split at h
    · cases h
    · cases h
      by_cases hj : i = j
      · subst hj
        refine ⟨{ o with usable := fun a => o.usable a && !(cleared o.kind).contains a }, ?_, rfl, fun a ha => ?_, fun _ a ha => ?_⟩
        · simp [ho]
        · simp only [Bool.and_eq_true] at ha; exact ha.1
        · simp only [ha, Bool.not_true, Bool.and_false]
      · exact ⟨o, by simp [List.getElem?_modify, hj, ho], rfl, fun _ h => h, fun e => absurd e.symm hj⟩

theorem clearLoop_objs : ∀ (l : List Nat) (s : Sys), (clearLoop l s).2 = none → ∀ (j : Nat) (o : Obj), s.objs[j]? = some o →
    ∃ o', (clearLoop l s).1.objs[j]? = some o' ∧ o'.kind = o.kind ∧ (∀ a, o'.usable a = true → o.usable a = true) ∧
      (j ∈ l → ∀ a, (cleared o.kind).contains a = true → o'.usable a = false)
  | [], s, _, j, o, ho => ⟨o, ho, rfl, fun _ h => h, fun h => (List.not_mem_nil h).elim⟩
  | i :: l, s, h, j, o, ho => by
    simp only [clearLoop] at h ⊢
    cases hc : clear i s with
    | none => rw [hc] at h; cases h
    | some s1 =>
      rw [hc] at h
      simp only at h ⊢
      obtain ⟨o1, h1, h2, h3, h4⟩ := clear_objs hc j o ho
      obtain ⟨o2, k1, k2, k3, k4⟩ := clearLoop_objs l s1 h j o1 h1
      refine ⟨o2, k1, k2.trans h2, fun a ha => h3 a (k3 a ha), fun hm a ha => ?_⟩
      rcases List.mem_cons.1 hm with e | hm
      · have := h4 e a ha
        cases hu : o2.usable a with
        | false => rfl
        | true => rw [k3 a hu] at this; cases this
      · rw [← h2] at ha
        exact k4 hm a ha

/-- **C75**: after a clearing that succeeds, no portal object that was known can be used any more to get at stored
data: the attributes with its dictionaries are gone, in all of its class's levels.  (A clearing succeeds unless a construction has
failed, see `C75_clear_all_partial`.) -/
theorem C75_cleared_unusable (s : Sys) (hc : (clearAll s).2 = none) (i : Nat) (hi : i ∈ s.known) (o : Obj) (ho : s.objs[i]? = some o) :
    ∃ o', (clearAll s).1.objs[i]? = some o' ∧ o'.kind = o.kind ∧
      ∀ a, a.isStorage = true → a.owner.rank ≤ o.kind.rank → o'.usable a = false := by
  unfold clearAll at hc ⊢
  cases hl : clearLoop s.known { s with handlers := false } with
  | mk s' r =>
    have h1 := clearLoop_objs s.known { s with handlers := false }
    rw [hl] at hc h1
    cases r with
    | some e => cases hc
    | none =>
      obtain ⟨o', k1, k2, -, k4⟩ := h1 rfl i o ho
      exact ⟨o', k1, k2, fun a h1 h2 => k4 hi a (cleared_storage _ a h1 h2)⟩

/-- non-vacuity: a pure portal that is complete, and its results after clearing -/
example : let s := (construct .pure { rootOk := true, store := 0, p := none, island := some "x", n := none, rid := none } (start (fun _ => none) 0)).1
    s.known = [0] ∧ (clearAll s).2 = none ∧ (s.objs[0]?.map fun o => o.usable .runHistory) = some true ∧
      ((clearAll s).1.objs[0]?.map fun o => o.usable .runHistory) = some false := by
  decide +kernel

/-- portal `i` is known and cannot be cleared -/
def Blocked (i : Nat) (s : Sys) : Prop := i ∈ s.known ∧ ∃ o, s.objs[i]? = some o ∧ ¬ Clearable o

theorem Blocked.clearAll {i : Nat} {s : Sys} (h : Blocked i s) :
    (clearAll s).2 = some .attribute ∧ (clearAll s).1 = (clearLoop s.known { s with handlers := false }).1 := by
  obtain ⟨hi, o, ho, hc⟩ := h
  have hb := clearLoop_blocked s.known { s with handlers := false } i o hi ho hc
  unfold Construct.clearAll
  revert hb
  rcases clearLoop s.known { s with handlers := false } with ⟨t, _ | e⟩
  · intro h; cases h
  · intro h; exact ⟨h, rfl⟩

theorem Blocked.step {i : Nat} {s : Sys} (h : Blocked i s) (op : Op) : Blocked i (step s op) := by
  obtain ⟨hi, o, ho, hc⟩ := id h
  cases op with
  | construct k p =>
    obtain ⟨h1, h2⟩ := C75_others_untouched k p s
    exact ⟨h2.subset hi, o, h1 i o ho, hc⟩
  | clearAll =>
    obtain ⟨w1, -, -, -, w5⟩ := clearLoop_weak s.known { s with handlers := false }
    obtain ⟨o', a1, a2, -, a4, a5, -⟩ := w5 i o ho
    have he := h.clearAll.2
    refine ⟨?_, o', ?_, ?_⟩
    · change i ∈ (Construct.clearAll s).1.known
      rw [he, w1]; exact hi
    · change (Construct.clearAll s).1.objs[i]? = some o'
      rw [he]; exact a1
    · intro hcl
      apply hc
      intro hk
      obtain ⟨b1, b2⟩ := hcl (a2.trans hk)
      exact ⟨a4 _ b1, a4 _ b2⟩

theorem Blocked.run {i : Nat} {s : Sys} (h : Blocked i s) (ops : List Op) : Blocked i (run s ops) := by
  induction ops generalizing s with
  | nil => exact h
  | cons op ops ih => exact ih (h.step op)

/-- C75 is false of the code after a failure: once the construction of a swarming portal has failed (for example with
`n_background_workers=None`), clearing all portals — and with it `pth.initialize` — raises for the rest of the program,
and the unfinished portal stays known, whatever else the program does. -/
theorem C75_never_cleared_counterexample (p : Params) (hr : p.rootOk = true) (hv : ¬ Valid .swarming p) (s : Sys)
    (ops : List Op) :
    (clearAll (run (construct .swarming p s).1 ops)).2 = some .attribute ∧
    s.objs.length ∈ (clearAll (run (construct .swarming p s).1 ops)).1.known := by
  obtain ⟨h1, h2, h3, -⟩ := construct_eq .swarming p s hr
  have hno : Kind.swarming ∉ okPart p Kind.swarming.above := by
    intro hm
    apply hv
    rw [valid_iff]
    refine ⟨hr, fun j hj => ?_⟩
    have hpre : okPart p Kind.swarming.above <+: Kind.swarming.above := List.takeWhile_prefix _
    obtain ⟨t, ht⟩ := hpre
    have htn : t = [] := by
      cases t with
      | nil => rfl
      | cons x t =>
        exfalso
        have hlast : (okPart p Kind.swarming.above ++ x :: t).getLast? = some Kind.swarming := by rw [ht]; rfl
        rw [List.getLast?_append] at hlast
        have hx : Kind.swarming ∈ x :: t := by
          have : (x :: t).getLast? = some Kind.swarming := by
            rw [List.getLast?_cons] at hlast ⊢
            simpa using hlast
          exact List.mem_of_getLast? this
        have hnd := above_nodup .swarming
        rw [← ht] at hnd
        exact (List.disjoint_of_nodup_append hnd) hm hx
    rw [htn, List.append_nil] at ht
    rw [← ht] at hj
    exact okPart_ok hj
  have hb : Blocked s.objs.length (construct .swarming p s).1 := by
    refine ⟨by rw [h3]; simp, { kind := .swarming, store := p.store, usable := madeBy (okPart p Kind.swarming.above) },
      by rw [h2]; simp, ?_⟩
    intro hcl
    have := (hcl rfl).1
    simp only [madeBy, Attr.owner, decide_eq_true_eq, List.mem_cons] at this
    rcases this with h | h
    · cases h
    · exact hno h
  exact ⟨(hb.run ops).clearAll.1, ((hb.run ops).step .clearAll).1⟩

/-! ### C74: the end of a program -/

theorem clearAll_weak (s : Sys) : (clearAll s).1.atexit = s.atexit ∧ ((clearAll s).1.known = s.known ∨ (clearAll s).1.known = []) ∧
    (clearAll s).1.objs = (clearLoop s.known { s with handlers := false }).1.objs ∧
    (clearAll s).1.record = (clearLoop s.known { s with handlers := false }).1.record ∧
    ((clearAll s).2 ≠ none → (clearAll s).1.known = s.known) ∧ (clearAll s).2 = (clearLoop s.known { s with handlers := false }).2 := by
  obtain ⟨w1, w2, -⟩ := clearLoop_weak s.known { s with handlers := false }
  unfold clearAll
  revert w1 w2
  rcases clearLoop s.known { s with handlers := false } with ⟨t, _ | e⟩
  · intro w1 w2; exact ⟨w2, .inr rfl, rfl, rfl, fun h => absurd rfl h, rfl⟩
  · intro w1 w2; exact ⟨w2, .inl w1, rfl, rfl, fun _ => w1, rfl⟩

theorem construct_atexit (k : Kind) (p : Params) (s : Sys) :
    (construct k p s).1.atexit = true ↔ s.atexit = true ∨ FirstSwarming s (.construct k p) := by
  by_cases hr : p.rootOk = true
  · obtain ⟨h1, h2, h3, h4, -⟩ := construct_eq k p s hr
    have hsw : Kind.swarming ∈ okPart p k.above ↔ k = .swarming ∧ Valid .swarming p := by
      constructor
      · intro hm
        have hk : k = .swarming := by
          have := (List.takeWhile_prefix (stageOk p)).subset hm
          revert this; cases k <;> decide
        subst hk
        refine ⟨rfl, ?_⟩
        by_contra hv
        have hd := okPart_ok hm
        -- a stage before the last one fails, or the last one
        rw [valid_iff] at hv
        apply hv
        refine ⟨hr, fun j hj => ?_⟩
        have : ∀ j ∈ Kind.swarming.above, stageOk p j = true := by
          have hm' : Kind.swarming ∈ ([.logging, .data, .ordinary, .safe, .autonomous, .pure, .swarming] : List Kind).takeWhile (stageOk p) := hm
          have hab : Kind.swarming.above = [.logging, .data, .ordinary, .safe, .autonomous, .pure, .swarming] := rfl
          cases h1 : stageOk p .data
          · simp [List.takeWhile, stageOk] at hm'
            simp [stageOk] at h1
            simp [h1] at hm'
          · cases h2 : stageOk p .autonomous
            · simp only [stageOk] at h1 h2
              simp [List.takeWhile, stageOk, h1, h2] at hm'
            · intro j hj
              rw [hab] at hj
              simp only [List.mem_cons, List.not_mem_nil, or_false] at hj
              rcases hj with rfl | rfl | rfl | rfl | rfl | rfl | rfl <;> first | assumption | rfl
        exact this j hj
      · rintro ⟨rfl, hv⟩
        rw [okPart_of_valid hv]; decide
    rw [h4]
    by_cases hc : Kind.swarming ∈ okPart p k.above ∧ p.rid = none
    · rw [if_pos hc]
      obtain ⟨rfl, hv⟩ := hsw.mp hc.1
      simp [FirstSwarming, hv, hc.2]
    · rw [if_neg hc]
      constructor
      · exact .inl
      · rintro (h | h)
        · exact h
        · cases k <;> simp only [FirstSwarming] at h
          exact absurd ⟨hsw.mpr ⟨rfl, h.1⟩, h.2.1⟩ hc
  · have hc : construct k p s = (s, some .os) := by unfold construct; rw [if_neg hr]
    rw [hc]
    constructor
    · exact .inl
    · rintro (h | h)
      · exact h
      · cases k <;> simp only [FirstSwarming] at h
        exact absurd h.1.root hr

/-- **C74**: exactly which programs remove their records when they end: those that have created a swarming portal (without
given runtime id) at a time when no portal was known. -/
theorem C74_registered_iff (rec : Nat → Option Nat) (n : Nat) (ops : List Op) :
    (run (start rec n) ops).atexit = true ↔
      ∃ pre op post, ops = pre ++ op :: post ∧ FirstSwarming (run (start rec n) pre) op := by
  induction ops using List.reverseRecOn with
  | nil => simp [run, start]
  | append_singleton ops op ih =>
    have hrun : run (start rec n) (ops ++ [op]) = step (run (start rec n) ops) op := by simp [run]
    have hstep : (step (run (start rec n) ops) op).atexit = true ↔
        (run (start rec n) ops).atexit = true ∨ FirstSwarming (run (start rec n) ops) op := by
      cases op with
      | construct k p => exact construct_atexit k p _
      | clearAll => simp [step, (clearAll_weak _).1, FirstSwarming]
    rw [hrun, hstep, ih]
    constructor
    · rintro (⟨pre, o, post, rfl, h⟩ | h)
      · exact ⟨pre, o, post ++ [op], by simp, h⟩
      · exact ⟨ops, op, [], rfl, h⟩
    · rintro ⟨pre, o, post, e, h⟩
      rcases List.eq_nil_or_concat post with rfl | ⟨post, x, rfl⟩
      · have := List.append_inj' e rfl
        obtain ⟨rfl, h2⟩ := this
        injection h2 with h2; subst h2
        exact .inr h
      · left
        have e' : ops ++ [op] = (pre ++ o :: post) ++ [x] := by simpa using e
        obtain ⟨rfl, -⟩ := List.append_inj' e' rfl
        exact ⟨pre, o, post, rfl, h⟩

/-- a known portal whose record will be removed -/
def Covered (s : Sys) (d : Nat) : Prop := ∃ i ∈ s.known, ∃ o, s.objs[i]? = some o ∧ o.usable .computeNodes = true ∧ o.store = d

/-- the ids of this program are found only in directories of known portals -/
structure Inv (n : Nat) (s : Sys) : Prop where
  fresh : n ≤ s.fresh
  lt : ∀ i ∈ s.known, i < s.objs.length
  nodup : s.known.Nodup
  kind : ∀ (i : Nat) (o : Obj), s.objs[i]? = some o → o.usable .computeNodes = true → o.kind = .swarming
  own : ∀ d r, s.record d = some r → n ≤ r → Covered s d

theorem clearLoop_fresh : ∀ (l : List Nat) (s : Sys), (clearLoop l s).1.fresh = s.fresh
  | [], _ => rfl
  | i :: l, s => by
    rw [clearLoop]
    cases e : clear i s with
    | none => rfl
    | some t =>
      rw [clearLoop_fresh l t]
      unfold clear at e
      split at e
      · cases e
      · split at e
        · cases e
        · injection e with e; subst e; rfl

theorem clearAll_fresh (s : Sys) : (clearAll s).1.fresh = s.fresh := by
  have := clearLoop_fresh s.known { s with handlers := false }
  unfold clearAll
  revert this
  rcases clearLoop s.known { s with handlers := false } with ⟨t, _ | e⟩ <;> exact id

theorem construct_fresh (k : Kind) (p : Params) (s : Sys) : s.fresh ≤ (construct k p s).1.fresh := by
  have hstage : ∀ (j : Kind) (i : Nat) (t : Sys), t.fresh ≤ (stage j p i t).1.fresh := by
    intro j i t
    cases j
    case data =>
      have : stage .data p i t =
        if checkP p then (t.assign i [.pChecks, .valueStore], none) else (t, some .assertion) := rfl
      rw [this]; split <;> exact le_refl _
    case autonomous =>
      have : stage .autonomous p i t =
        if checkIsland p then (t.assign i [.islandName, .knownFns], none) else (t, some .assertion) := rfl
      rw [this]; split <;> exact le_refl _
    case swarming =>
      unfold stage
      cases p.n with
      | none => exact le_refl _
      | some m =>
        by_cases hm : m < 0
        · simp [hm]
        · cases p.rid <;> simp [hm, Sys.assign]
    all_goals exact le_refl _
  have hst : ∀ (ks : List Kind) (i : Nat) (t : Sys), t.fresh ≤ (stages p i ks t).1.fresh := by
    intro ks i
    induction ks with
    | nil => intro t; exact le_refl _
    | cons j ks ih =>
      intro t
      rw [stages]
      have := hstage j i t
      revert this
      rcases stage j p i t with ⟨u, _ | e⟩
      · intro h; exact le_trans h (ih u)
      · exact id
  unfold construct
  split
  · exact hst _ _ { s with objs := s.objs ++ [{ kind := k, store := p.store }] }
  · exact le_refl _

theorem Inv.step {n : Nat} {s : Sys} (h : Inv n s) (op : Op) : Inv n (step s op) := by
  cases op with
  | construct k p =>
    by_cases hr : p.rootOk = true
    · obtain ⟨h1, h2, h3, h4, h5, h6⟩ := construct_eq k p s hr
      change Inv n (construct k p s).1
      refine ⟨le_trans h.fresh (construct_fresh k p s), ?_, ?_, ?_, ?_⟩
      · rw [h3, h2]
        intro i hi
        rcases List.mem_append.mp hi with hi | hi
        · have := h.lt i hi; simp; omega
        · simp only [List.mem_singleton] at hi; simp [hi]
      · rw [h3, List.nodup_append]
        refine ⟨h.nodup, by simp, ?_⟩
        intro a ha b hb
        simp only [List.mem_singleton] at hb
        have := h.lt a ha
        omega
      · intro i o ho hc
        rw [h2] at ho
        by_cases hi : i < s.objs.length
        · rw [List.getElem?_append_left hi] at ho
          exact h.kind i o ho hc
        · rw [List.getElem?_append_right (by omega)] at ho
          cases hj : i - s.objs.length with
          | succ m => rw [hj] at ho; simp at ho
          | zero =>
            rw [hj] at ho
            simp only [List.getElem?_cons_zero, Option.some.injEq] at ho
            subst ho
            simp only [madeBy, Attr.owner, decide_eq_true_eq, List.mem_cons] at hc
            rcases hc with hc | hc
            · cases hc
            · have := (List.takeWhile_prefix (stageOk p)).subset hc
              change k = .swarming
              revert this; clear * -; cases k <;> decide
      · have hold : ∀ d, Covered s d → Covered (construct k p s).1 d := by
          rintro d ⟨i, hi, o, ho, hc⟩
          exact ⟨i, by rw [h3]; simp [hi], o, (C75_others_untouched k p s).1 i o ho, hc⟩
        intro d r hd hn
        rw [h5] at hd
        by_cases hc : Kind.swarming ∈ okPart p k.above ∧ p.rid = none
        · rw [if_pos hc] at hd
          by_cases hds : d = p.store
          · refine ⟨s.objs.length, by rw [h3]; simp,
              { kind := k, store := p.store, usable := madeBy (okPart p k.above) }, by rw [h2]; simp, ?_, hds.symm⟩
            simp only [madeBy, Attr.owner, decide_eq_true_eq, List.mem_cons]
            exact .inr hc.1
          · simp only [hds, if_false] at hd
            exact hold d (h.own d r hd hn)
        · rw [if_neg hc] at hd
          exact hold d (h.own d r hd hn)
    · have hc : construct k p s = (s, some .os) := by unfold construct; rw [if_neg hr]
      simp only [Construct.step, hc]; exact h
  | clearAll =>
    obtain ⟨c1, c2, c3, c4, c5, c6⟩ := clearAll_weak s
    obtain ⟨w1, w2, w3, w4, w5⟩ := clearLoop_weak s.known { s with handlers := false }
    change Inv n (clearAll s).1
    have hback : ∀ (i : Nat) (o' : Obj), (clearAll s).1.objs[i]? = some o' → ∃ o, s.objs[i]? = some o ∧ o'.kind = o.kind ∧
        (∀ a, o'.usable a = true → o.usable a = true) := by
      intro i o' ho'
      rw [c3] at ho'
      cases ho : s.objs[i]? with
      | none =>
        exfalso
        have : s.objs.length ≤ i := by simpa using ho
        rw [List.getElem?_eq_none (by rw [w3]; exact this)] at ho'; cases ho'
      | some o =>
        obtain ⟨o'', a1, a2, -, a4, -⟩ := w5 i o ho
        rw [a1] at ho'; injection ho' with ho'; subst ho'
        exact ⟨o, rfl, a2, a4⟩
    refine ⟨by rw [clearAll_fresh]; exact h.fresh, ?_, ?_, ?_, ?_⟩
    · intro i hi
      rw [c3, w3]
      rcases c2 with e | e
      · rw [e] at hi; exact h.lt i hi
      · rw [e] at hi; simp at hi
    · rcases c2 with e | e
      · rw [e]; exact h.nodup
      · rw [e]; simp
    · intro i o' ho' hc
      obtain ⟨o, ho, hk, hu⟩ := hback i o' ho'
      rw [hk]; exact h.kind i o ho (hu _ hc)
    · intro d r hd hn
      rw [c4] at hd
      have hd' : s.record d = some r := by
        rcases w4 d with e | e
        · rw [← e]; exact hd
        · rw [e] at hd; cases hd
      obtain ⟨i, hi, o, ho, hu, rfl⟩ := h.own d r hd' hn
      obtain ⟨o', a1, a2, a3, a4, a5, a6⟩ := w5 i o ho
      have hu' : o'.usable .computeNodes = true := by
        rcases a6 hu with e | e
        · exact e
        · rw [e] at hd; cases hd
      by_cases he : (clearAll s).2 = none
      · -- everything was cleared
        exfalso
        have hall : ∀ j ∈ s.known, ∃ o, s.objs[j]? = some o ∧ Clearable o := by
          intro j hj
          have := h.lt j hj
          refine ⟨s.objs[j], by simp [this], ?_⟩
          by_contra hc
          have := clearLoop_blocked s.known { s with handlers := false } j s.objs[j] hj (by simp [this]) hc
          rw [← c6, he] at this; cases this
        obtain ⟨-, -, -, -, -, -, q7⟩ := clearLoop_ok s.known { s with handlers := false } h.nodup hall
        rw [q7, if_pos ⟨i, hi, o, ho, h.kind i o ho hu, rfl⟩] at hd
        cases hd
      · exact ⟨i, by rw [c5 he]; exact hi, o', by rw [c3]; exact a1, hu', a3⟩

theorem Inv.run {n : Nat} {s : Sys} (h : Inv n s) (ops : List Op) : Inv n (run s ops) := by
  induction ops generalizing s with
  | nil => exact h
  | cons op ops ih => exact ih (h.step op)

theorem clean_record : ∀ (l : List Nat) (s : Sys) (d : Nat), (cleanRuntimeIds l s).record d =
    if ∃ i ∈ l, ∃ o, s.objs[i]? = some o ∧ o.usable .computeNodes = true ∧ o.store = d then none else s.record d
  | [], s, d => by simp [cleanRuntimeIds]
  | i :: l, s, d => by
    rw [cleanRuntimeIds, clean_record l]
    cases ho : s.objs[i]? with
    | none => simp [ho]
    | some o =>
      simp only [List.exists_mem_cons_iff, ho, Option.some.injEq, exists_eq_left']
      by_cases hu : o.usable .computeNodes = true
      · simp only [hu, if_true]
        by_cases hx : ∃ i ∈ l, ∃ o, s.objs[i]? = some o ∧ o.usable .computeNodes = true ∧ o.store = d
        · rw [if_pos hx, if_pos (.inr hx)]
        · rw [if_neg hx]
          by_cases hd : o.store = d
          · simp [hd]
          · have hd' : ¬ d = o.store := fun e => hd e.symm
            simp only [hd, hd', hx, and_false, or_false, if_false]
      · simp [hu]

/-- **C74** (partial): if a program has created a swarming portal while no other portal was known, then after its end no
record with a runtime id of this program remains in any portal, whatever else it did, so all its workers stop (C39).
Missing: programs whose first portals are not swarming portals (see the counterexample). -/
theorem C74_records_removed_partial (rec : Nat → Option Nat) (n : Nat) (hn : ∀ d r, rec d = some r → r < n) (ops : List Op)
    (hf : ∃ pre op post, ops = pre ++ op :: post ∧ FirstSwarming (run (start rec n) pre) op) :
    ∀ d r, (endProgram (run (start rec n) ops)).record d = some r → r < n := by
  have hinv : Inv n (run (start rec n) ops) := by
    apply Inv.run
    refine ⟨le_refl _, by simp [start], by simp [start], by simp [start], ?_⟩
    intro d r hd hr
    have := hn d r hd
    omega
  have hat := (C74_registered_iff rec n ops).mpr hf
  intro d r hd
  by_contra hr
  rw [endProgram, if_pos hat, clean_record] at hd
  by_cases hc : ∃ i ∈ (run (start rec n) ops).known, ∃ o, (run (start rec n) ops).objs[i]? = some o ∧
      o.usable .computeNodes = true ∧ o.store = d
  · rw [if_pos hc] at hd; cases hd
  · rw [if_neg hc] at hd
    exact hc (hinv.own d r hd (by omega))

/-- C74 is false of the code if the first portal of the program is not a swarming portal (or was given a runtime id): if the
program does not clear the portals, the record of every swarming portal it creates remains after its end, and its
workers go on for ever (C39). -/
theorem C74_first_portal_counterexample (rec : Nat → Option Nat) (n : Nat) (k : Kind) (p : Params) (hk : k ≠ .swarming)
    (hp : p.rootOk = true) (ops : List Op) (hc : Op.clearAll ∉ ops) (q : Params) (hq : Op.construct .swarming q ∈ ops)
    (hv : Valid .swarming q) (hr : q.rid = none) :
    ∃ r, n ≤ r ∧ (endProgram (run (start rec n) (.construct k p :: ops))).record q.store = some r := by
  -- as long as nothing is cleared, portals stay known and records stay
  have hmono : ∀ (ops : List Op) (s : Sys), Op.clearAll ∉ ops → s.known ≠ [] → s.atexit = false → n ≤ s.fresh →
      (run s ops).atexit = false ∧
      ((∃ r, n ≤ r ∧ s.record q.store = some r) ∨ Op.construct .swarming q ∈ ops →
        ∃ r, n ≤ r ∧ (run s ops).record q.store = some r) := by
    intro ops
    induction ops with
    | nil =>
      intro s _ _ h2 _
      refine ⟨h2, ?_⟩
      rintro (h | h)
      · exact h
      · simp at h
    | cons op ops ih =>
      intro s hc h1 h2 h3
      cases op with
      | clearAll => simp at hc
      | construct j x =>
        have hk' : (construct j x s).1.known ≠ [] := by
          obtain ⟨t, ht⟩ := (C75_others_untouched j x s).2
          rw [← ht]; simp [h1]
        have ha' : (construct j x s).1.atexit = false := by
          rw [Bool.eq_false_iff]
          intro hh
          rcases (construct_atexit j x s).mp hh with h | h
          · rw [h2] at h; cases h
          · cases j <;> simp only [FirstSwarming] at h
            exact h1 h.2.2
        obtain ⟨i1, i2⟩ := ih (construct j x s).1 (fun h => hc (by simp [h])) hk' ha' (le_trans h3 (construct_fresh j x s))
        refine ⟨i1, fun hh => i2 ?_⟩
        by_cases hx : x.rootOk = true
        · obtain ⟨-, -, -, -, e5, -⟩ := construct_eq j x s hx
          by_cases hy : Kind.swarming ∈ okPart x j.above ∧ x.rid = none
          · rw [if_pos hy] at e5
            by_cases hs : q.store = x.store
            · left; exact ⟨s.fresh, h3, by rw [e5]; simp [hs]⟩
            · rcases hh with ⟨r, hr1, hr2⟩ | hh
              · left; exact ⟨r, hr1, by rw [e5]; simp [hs, hr2]⟩
              · rcases List.mem_cons.mp hh with e | e
                · injection e with _ e; subst e; exact absurd rfl hs
                · exact .inr e
          · rw [if_neg hy] at e5
            rcases hh with ⟨r, hr1, hr2⟩ | hh
            · left; exact ⟨r, hr1, by rw [e5]; exact hr2⟩
            · rcases List.mem_cons.mp hh with e | e
              · injection e with e1 e2; subst e1; subst e2
                exact absurd ⟨by rw [okPart_of_valid hv]; decide, hr⟩ hy
              · exact .inr e
        · have he : construct j x s = (s, some .os) := by unfold construct; rw [if_neg hx]
          rw [he]
          rcases hh with hh | hh
          · exact .inl hh
          · rcases List.mem_cons.mp hh with e | e
            · injection e with _ e; subst e; exact absurd hv.root hx
            · exact .inr e
  obtain ⟨-, -, h3, -⟩ := construct_eq k p (start rec n) hp
  have ha : (construct k p (start rec n)).1.atexit = false := by
    rw [Bool.eq_false_iff]
    intro hh
    rcases (construct_atexit k p _).mp hh with h | h
    · simp [start] at h
    · cases k <;> simp only [FirstSwarming] at h
      exact hk rfl
  obtain ⟨i1, i2⟩ := hmono ops (construct k p (start rec n)).1 hc (by rw [h3]; simp) ha (construct_fresh k p (start rec n))
  have hend : endProgram (run (start rec n) (.construct k p :: ops)) = run (start rec n) (.construct k p :: ops) := by
    rw [endProgram, if_neg]
    change ¬ (run (construct k p (start rec n)).1 ops).atexit = true
    rw [i1]; simp
  rw [hend]
  exact i2 (.inr hq)

namespace Ex

/-- a swarming portal in directory `3`, default parameters -/
def sw : Params := { store := 3 }
theorem sw_valid : Valid .swarming sw :=
  ⟨rfl, fun _ x h => by simp [sw] at h, fun _ => ⟨"Samos", rfl, by decide⟩, fun _ => ⟨3, rfl, by decide⟩⟩
/-- a data portal in directory `5` that checks half of the values -/
def da : Params := { store := 5, p := some (1/2) }
theorem da_valid : Valid .data da :=
  ⟨rfl, fun _ x h => by simp only [da, Option.some.injEq] at h; subst h; norm_num, fun h => absurd h (by decide), fun h => absurd h (by decide)⟩
/-- `n_background_workers=None` -/
def bad : Params := { store := 3, n := none }
theorem bad_invalid : ¬ Valid .swarming bad := fun h => by
  obtain ⟨n, h, -⟩ := h.workers (by decide); simp [bad] at h

/-- another program's id `4` in directory `9` -/
def rec0 : Nat → Option Nat := fun d => if d = 9 then some 4 else none

-- a swarming portal, then a data portal: the record is removed
example : ∀ d r, (endProgram (run (start rec0 7) [.construct .swarming sw, .construct .data da])).record d = some r → r < 7 :=
  C74_records_removed_partial rec0 7 (by intro d r h; unfold rec0 at h; split at h <;> simp at h; omega) _
    ⟨[], _, _, rfl, sw_valid, rfl, rfl⟩
example : (run (start rec0 7) [.construct .swarming sw, .construct .data da]).record 3 = some 7 := by decide +kernel
-- the data portal first: it remains
example : ∃ r, 7 ≤ r ∧ (endProgram (run (start rec0 7) [.construct .data da, .construct .swarming sw])).record 3 = some r :=
  C74_first_portal_counterexample rec0 7 .data da (by decide) rfl [.construct .swarming sw] (by simp) sw (by simp) sw_valid rfl
-- a failed construction, then clearing
example := C75_failed_construction_counterexample .swarming bad (start rec0 7) rfl bad_invalid
example := (C75_never_cleared_counterexample bad rfl bad_invalid (start rec0 7) [.construct .swarming sw, .clearAll]).1
example : (clearAll (run (start rec0 7) [.construct .swarming sw, .construct .data da])).2 = none :=
  (C75_clear_all_partial rec0 7 [.construct .swarming sw, .construct .data da] (by
    intro k p h
    simp only [List.mem_cons, Op.construct.injEq, List.not_mem_nil, or_false] at h
    rcases h with ⟨rfl, rfl⟩ | ⟨rfl, rfl⟩
    · exact sw_valid
    · exact da_valid)).1
example := (C75_constructed .data da (start rec0 7)).2 da_valid

end Ex

end Pyth.Construct
