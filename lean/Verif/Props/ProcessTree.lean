import Verif.Model.ProcessTree
import Verif.Props.Construct
/-!
# C81: the processes of a program

Every process of a program other than the main program is a background worker launched by the constructor of a portal of
the main program, or a process launched by such a worker for one request.  Its portal has the parameters of that portal
of the main program, with no background workers of its own; it launches no workers, writes no runtime record, and does not
register the function that removes the records.
-/
namespace Pyth.Tree
open Pyth.Construct

/-! ## specification -/

/-- the parameters that a process other than the main program was launched with -/
def Proc.given (x : Proc) : Option Config :=
  match x.role with
  | .main => none
  | .worker c => some c
  | .request c _ => some c

/-- directory and runtime id of a background worker -/
def Proc.workerFor (x : Proc) : Option (Nat × Nat) :=
  match x.role with
  | .worker c => some (c.store, c.rid)
  | _ => none

/-- the process was launched by worker `j` -/
def Proc.childOf (x : Proc) (j : Nat) : Prop := ∃ c, x.role = .request c j

/-! ## construction of a swarming portal -/

theorem construct_launched (p : Params) (s : Sys) :
    (construct .swarming p s).1.launched = s.launched ++
      (if (construct .swarming p s).2 = none then List.replicate (p.n.getD 0).toNat (p.store, p.rid.getD s.fresh) else []) := by
  have hd : ∀ (i : Nat) (s : Sys), stage .data p i s = if checkP p then (s.assign i [.pChecks, .valueStore], none) else (s, some .assertion) :=
    fun _ _ => rfl
  have ha : ∀ (i : Nat) (s : Sys), stage .autonomous p i s = if checkIsland p then (s.assign i [.islandName, .knownFns], none)
      else (s, some .assertion) := fun _ _ => rfl
  unfold construct
  cases hr : p.rootOk
  · simp
  · rw [if_pos rfl]
    simp only [Kind.chain, stages, hd, ha]
    cases checkP p
    · simp [stage, Sys.assign]
    · cases checkIsland p
      · simp [stage, Sys.assign]
      · cases h3 : p.n with
        | none => simp [stage, Sys.assign, h3]
        | some n =>
          by_cases h4 : n < 0
          · simp [stage, Sys.assign, h3, h4]
          · cases h5 : p.rid <;> simp [stage, Sys.assign, h3, h4, h5]

theorem construct_worker (p : Params) (r : Nat) (hr : p.rid = some r) (s : Sys) :
    (construct .swarming p s).1.record = s.record ∧ (construct .swarming p s).1.atexit = s.atexit := by
  by_cases h : p.rootOk = true
  · obtain ⟨-, -, -, h4, h5, -⟩ := construct_eq .swarming p s h
    rw [h4, h5]; simp [hr]
  · unfold construct; rw [if_neg h]; exact ⟨rfl, rfl⟩

theorem construct_ok (p : Params) (s : Sys) : (construct .swarming p s).2 = none ↔ Valid .swarming p := by
  by_cases h : p.rootOk = true
  · exact (construct_eq .swarming p s h).1
  · constructor
    · intro hh; unfold construct at hh; rw [if_neg h] at hh; cases hh
    · intro hv; exact absurd hv.root h

/-! ## the invariant -/

/-- the parameters of a portal that exists -/
def Fine (c : Config) : Prop := 0 ≤ c.p ∧ c.p ≤ 1 ∧ c.island ≠ ""

theorem configOf_fine {cls : Cls} {p : Params} {rid : Nat} (h : Valid .swarming p) : Fine (configOf cls p rid) := by
  have hp := (checkP_iff p).mpr (h.checks (by decide))
  have hi := (checkIsland_iff p).mpr (h.island (by decide))
  obtain ⟨y, hy, hne⟩ := (checkIsland_iff p).mp hi
  refine ⟨?_, ?_, ?_⟩
  · show 0 ≤ p.p.getD 0
    cases h' : p.p with
    | none => exact le_refl _
    | some x => exact ((checkP_iff p).mp hp x h').1
  · show p.p.getD 0 ≤ 1
    cases h' : p.p with
    | none => decide
    | some x => exact ((checkP_iff p).mp hp x h').2
  · show p.island.getD "" ≠ ""
    rw [hy]; exact hne

theorem toParams_valid {c : Config} (h : Fine c) : Valid .swarming ({ c with n := 0 } : Config).toParams := by
  rw [valid_iff]
  refine ⟨rfl, fun j hj => ?_⟩
  cases j <;> try rfl
  · exact (checkP_iff ({ c with n := 0 } : Config).toParams).mpr fun x hx => by
      have : c.p = x := Option.some.inj hx
      exact this ▸ ⟨h.1, h.2.1⟩
  · exact (checkIsland_iff ({ c with n := 0 } : Config).toParams).mpr ⟨c.island, rfl, h.2.2⟩

/-- what is known of one process other than the main program -/
structure Loc (cs : List Config) (x : Proc) : Prop where
  given : ∃ c0 ∈ cs, x.given = some { c0 with n := 0 }
  launched : x.sys.launched = []
  atexit : x.sys.atexit = false
  starting : x.phase = .starting → x.configs = []
  running : x.phase = .running ∨ (∃ k, x.phase = .waiting k) → ∃ c, x.given = some c ∧ x.configs = [c] ∧ c.cls = .swarming
  mine : ∀ c ∈ x.configs, x.given = some c ∧ c.cls = .swarming

/-- what is known of the relation between processes -/
structure Str (l : List Proc) : Prop where
  parent : ∀ (i j : Nat) (c : Config) (x : Proc), l[i]? = some x → x.role = .request c j → ∃ w, l[j]? = some w ∧ w.role = .worker c
  waits : ∀ (i j : Nat) (c : Config) (x : Proc), l[i]? = some x → x.role = .request c j → x.phase ≠ .ended →
    ∃ w, l[j]? = some w ∧ (w.phase = .waiting i ∨ w.phase = .ended)
  uniq : ∀ (i k j : Nat) (x y : Proc), l[i]? = some x → l[k]? = some y → x.childOf j → y.childOf j → x.phase ≠ .ended →
    y.phase ≠ .ended → i = k

structure Inv (t : Tree) : Prop where
  main : ∃ m, t.procs[0]? = some m ∧ m.role = .main ∧ m.phase = .running ∧ (∀ c ∈ m.configs, Fine c) ∧
    t.procs.filterMap Proc.workerFor = m.sys.launched ∧
    ∀ (i : Nat) (x : Proc), i ≠ 0 → t.procs[i]? = some x → Loc m.configs x
  str : Str t.procs

theorem get_modify (l : List Proc) (i : Nat) (f : Proc → Proc) (j : Nat) :
    (l.modify i f)[j]? = if i = j then (l[j]?).map f else l[j]? := by
  rw [List.getElem?_modify]
  by_cases h : i = j
  · simp [h]
  · simp [h]

theorem get_modify_some {l : List Proc} {i : Nat} {f : Proc → Proc} {j : Nat} {y : Proc} (h : (l.modify i f)[j]? = some y) :
    ∃ x, l[j]? = some x ∧ y = if i = j then f x else x := by
  rw [get_modify] at h
  by_cases e : i = j
  · rw [if_pos e] at h
    cases hx : l[j]? with
    | none => rw [hx] at h; cases h
    | some x => rw [hx] at h; exact ⟨x, rfl, by rw [if_pos e]; exact (Option.some.inj h).symm⟩
  · rw [if_neg e] at h; exact ⟨y, h, by rw [if_neg e]⟩

theorem filterMap_modify (l : List Proc) (i : Nat) (f : Proc → Proc) (hf : ∀ x, (f x).role = x.role) :
    (l.modify i f).filterMap Proc.workerFor = l.filterMap Proc.workerFor := by
  induction l generalizing i with
  | nil => cases i <;> rfl
  | cons a l ih =>
    cases i with
    | zero =>
      have : (f a).workerFor = a.workerFor := by unfold Proc.workerFor; rw [hf]
      simp [List.filterMap_cons, this]
    | succ i =>
      rw [List.modify_succ_cons, List.filterMap_cons, List.filterMap_cons, ih]

/-- one process changes its phase -/
theorem Str.modify {l : List Proc} (h : Str l) (i : Nat) (f : Proc → Proc) (hf : ∀ x, (f x).role = x.role)
    (he : ∀ x, l[i]? = some x → x.phase = .ended → (f x).phase = .ended)
    (hw : ∀ x k, l[i]? = some x → x.phase = .waiting k → (f x).phase = .waiting k ∨ (f x).phase = .ended ∨
      ∃ y, l[k]? = some y ∧ y.phase = .ended) : Str (l.modify i f) := by
  have back : ∀ (j : Nat) (y : Proc), (l.modify i f)[j]? = some y →
      ∃ x, l[j]? = some x ∧ y.role = x.role ∧ (y.phase ≠ .ended → x.phase ≠ .ended) := by
    intro j y hy
    obtain ⟨x, hx, e⟩ := get_modify_some hy
    refine ⟨x, hx, ?_, ?_⟩
    · by_cases hij : i = j
      · rw [e, if_pos hij, hf]
      · rw [e, if_neg hij]
    · intro hy' hx'
      by_cases hij : i = j
      · subst hij
        rw [if_pos rfl] at e
        exact hy' (e ▸ he x hx hx')
      · rw [if_neg hij] at e; exact hy' (e ▸ hx')
  have fwd : ∀ (j : Nat) (x : Proc), l[j]? = some x → (l.modify i f)[j]? = some (if i = j then f x else x) := by
    intro j x hx
    rw [get_modify, hx]
    by_cases hij : i = j <;> simp [hij]
  refine ⟨?_, ?_, ?_⟩
  · intro a j c y hy hr
    obtain ⟨x, hx, er, -⟩ := back a y hy
    obtain ⟨w, hw1, hw2⟩ := h.parent a j c x hx (er ▸ hr)
    refine ⟨_, fwd j w hw1, ?_⟩
    by_cases hij : i = j <;> simp [hij, hf, hw2]
  · intro a j c y hy hr hph
    obtain ⟨x, hx, er, ep⟩ := back a y hy
    obtain ⟨w, hw1, hw2⟩ := h.waits a j c x hx (er ▸ hr) (ep hph)
    refine ⟨_, fwd j w hw1, ?_⟩
    by_cases hij : i = j
    · subst hij
      simp only [↓reduceIte]
      rcases hw2 with hw2 | hw2
      · rcases hw w a hw1 hw2 with h' | h' | ⟨z, hz, hz'⟩
        · exact .inl h'
        · exact .inr h'
        · rw [hx] at hz
          exact absurd (Option.some.inj hz ▸ hz') (ep hph)
      · exact .inr (he w hw1 hw2)
    · rw [if_neg hij]; exact hw2
  · intro a b j y z hy hz cy cz py pz
    obtain ⟨x, hx, er, ep⟩ := back a y hy
    obtain ⟨x', hx', er', ep'⟩ := back b z hz
    obtain ⟨c, hc⟩ := cy
    obtain ⟨c', hc'⟩ := cz
    exact h.uniq a b j x x' hx hx' ⟨c, er ▸ hc⟩ ⟨c', er' ▸ hc'⟩ (ep py) (ep' pz)

theorem get_append {l m : List Proc} {j : Nat} {y : Proc} (h : (l ++ m)[j]? = some y) :
    (j < l.length ∧ l[j]? = some y) ∨ (l.length ≤ j ∧ y ∈ m) := by
  by_cases hj : j < l.length
  · rw [List.getElem?_append_left hj] at h; exact .inl ⟨hj, h⟩
  · rw [List.getElem?_append_right (by omega)] at h; exact .inr ⟨by omega, List.mem_of_getElem? h⟩

theorem get_left {l m : List Proc} {j : Nat} {y : Proc} (h : l[j]? = some y) : (l ++ m)[j]? = some y := by
  rw [List.getElem?_append_left (List.getElem?_eq_some_iff.mp h).1]; exact h

/-- new workers -/
theorem Str.append {l m : List Proc} (h : Str l) (hm : ∀ x ∈ m, ∃ c, x.role = .worker c) : Str (l ++ m) := by
  have old : ∀ (i : Nat) (x : Proc) (c : Config) (j : Nat), (l ++ m)[i]? = some x → x.role = .request c j → l[i]? = some x := by
    intro i x c j hx hr
    rcases get_append hx with ⟨-, h'⟩ | ⟨-, h'⟩
    · exact h'
    · obtain ⟨c', hc'⟩ := hm x h'
      rw [hr] at hc'; cases hc'
  refine ⟨?_, ?_, ?_⟩
  · intro i j c x hx hr
    obtain ⟨w, h1, h2⟩ := h.parent i j c x (old i x c j hx hr) hr
    exact ⟨w, get_left h1, h2⟩
  · intro i j c x hx hr hp
    obtain ⟨w, h1, h2⟩ := h.waits i j c x (old i x c j hx hr) hr hp
    exact ⟨w, get_left h1, h2⟩
  · intro i k j x y hx hy hcx hcy hp hq
    obtain ⟨c, hc⟩ := hcx
    obtain ⟨c', hc'⟩ := hcy
    exact h.uniq i k j x y (old i x c j hx hc) (old k y c' j hy hc') ⟨c, hc⟩ ⟨c', hc'⟩ hp hq

/-- one new process for a request, launched by a worker that runs -/
theorem Str.spawn {l : List Proc} (h : Str l) (i : Nat) (w : Proc) (c : Config) (hw : l[i]? = some w) (hr : w.role = .worker c)
    (hp : w.phase = .running) (z : Proc) (hz : z.role = .request c i) :
    Str ((l.modify i fun y => { y with phase := .waiting l.length }) ++ [z]) := by
  have len : (l.modify i fun y => { y with phase := .waiting l.length }).length = l.length := List.length_modify _ _ _
  have none' : ∀ (a : Nat) (x : Proc), l[a]? = some x → x.childOf i → x.phase = .ended := by
    intro a x hx ⟨c', hc'⟩
    by_contra hne
    obtain ⟨w', h1, h2⟩ := h.waits a i c' x hx hc' hne
    rw [hw] at h1
    obtain rfl := Option.some.inj h1
    rcases h2 with h2 | h2 <;> rw [hp] at h2 <;> cases h2
  have base : Str (l.modify i fun y => { y with phase := .waiting l.length }) := by
    refine h.modify i _ (fun _ => rfl) ?_ ?_
    · intro x hx hx'
      rw [hw] at hx
      obtain rfl := Option.some.inj hx
      rw [hp] at hx'; cases hx'
    · intro x k hx hx'
      rw [hw] at hx
      obtain rfl := Option.some.inj hx
      rw [hp] at hx'; cases hx'
  have hwm : (l.modify i fun y => { y with phase := .waiting l.length })[i]? = some { w with phase := .waiting l.length } := by
    rw [get_modify, if_pos rfl, hw]; rfl
  have key : ∀ (a : Nat) (x : Proc), ((l.modify i fun y => { y with phase := .waiting l.length }) ++ [z])[a]? = some x →
      (l.modify i fun y => { y with phase := .waiting l.length })[a]? = some x ∨ (a = l.length ∧ x = z) := by
    intro a x hx
    by_cases ha : a < l.length
    · rw [List.getElem?_append_left (by omega)] at hx; exact .inl hx
    · rw [List.getElem?_append_right (by omega), len] at hx
      have := (List.getElem?_eq_some_iff.mp hx).1
      simp at this
      have ha' : a = l.length := by omega
      subst ha'
      simp at hx
      exact .inr ⟨rfl, hx.symm⟩
  have child_ended : ∀ (a : Nat) (x : Proc), (l.modify i fun y => { y with phase := .waiting l.length })[a]? = some x → x.childOf i →
      x.phase = .ended := by
    intro a x hx hc
    obtain ⟨x', hx', e⟩ := get_modify_some hx
    by_cases hia : i = a
    · subst hia
      rw [hw] at hx'
      obtain rfl := Option.some.inj hx'
      rw [if_pos rfl] at e
      obtain ⟨c', hc'⟩ := hc
      rw [e] at hc'
      simp only at hc'
      rw [hr] at hc'; cases hc'
    · rw [if_neg hia] at e
      subst e
      exact none' a _ hx' hc
  refine ⟨?_, ?_, ?_⟩
  · intro a j c' x hx hr'
    rcases key a x hx with h' | ⟨rfl, rfl⟩
    · obtain ⟨v, h1, h2⟩ := base.parent a j c' x h' hr'
      exact ⟨v, get_left h1, h2⟩
    · rw [hz] at hr'
      cases hr'
      exact ⟨_, get_left hwm, hr⟩
  · intro a j c' x hx hr' hph
    rcases key a x hx with h' | ⟨rfl, rfl⟩
    · obtain ⟨v, h1, h2⟩ := base.waits a j c' x h' hr' hph
      exact ⟨v, get_left h1, h2⟩
    · rw [hz] at hr'
      cases hr'
      exact ⟨_, get_left hwm, .inl rfl⟩
  · intro a b j x y hx hy cx cy px py
    rcases key a x hx with h1 | ⟨rfl, rfl⟩ <;> rcases key b y hy with h2 | ⟨e2, e2'⟩
    · exact base.uniq a b j x y h1 h2 cx cy px py
    · subst e2 e2'
      obtain ⟨c', hc'⟩ := cy
      rw [hz] at hc'
      cases hc'
      exact absurd (child_ended a x h1 cx) px
    · obtain ⟨c', hc'⟩ := cx
      rw [hz] at hc'
      cases hc'
      exact absurd (child_ended b y h2 cy) py
    · exact e2.symm ▸ rfl

/-- a process other than the main program changes -/
theorem Inv.modify {t : Tree} (h : Inv t) (i : Nat) (hi : i ≠ 0) (f : Proc → Proc) (r : Nat → Option Nat)
    (hf : ∀ x, (f x).role = x.role)
    (he : ∀ x, t.procs[i]? = some x → x.phase = .ended → (f x).phase = .ended)
    (hw : ∀ x k, t.procs[i]? = some x → x.phase = .waiting k → (f x).phase = .waiting k ∨ (f x).phase = .ended ∨
      ∃ y, t.procs[k]? = some y ∧ y.phase = .ended)
    (hl : ∀ x cs, t.procs[i]? = some x → Loc cs x → Loc cs (f x)) :
    Inv { procs := t.procs.modify i f, record := r } := by
  obtain ⟨m, h0, hr, hp, hF, hl', hL⟩ := h.main
  refine ⟨⟨m, ?_, hr, hp, hF, ?_, ?_⟩, h.str.modify i f hf he hw⟩
  · show (t.procs.modify i f)[0]? = some m
    rw [get_modify, if_neg hi]; exact h0
  · exact (filterMap_modify _ _ _ hf).trans hl'
  · intro j y hj hy
    obtain ⟨x, hx, e⟩ := get_modify_some hy
    by_cases hij : i = j
    · subst hij
      rw [if_pos rfl] at e
      exact e ▸ hl x _ hx (hL i x hj hx)
    · rw [if_neg hij] at e
      exact e ▸ hL j x hj hx

theorem Loc.end {cs : List Config} {x : Proc} (h : Loc cs x) : Loc cs { x with phase := .ended } :=
  ⟨h.given, h.launched, h.atexit, fun h => (by cases h), fun h => (by rcases h with h | ⟨k, h⟩ <;> cases h), h.mine⟩

theorem Inv.endProc {t : Tree} (h : Inv t) (i : Nat) (hi : i ≠ 0) : Inv (t.setPhase i .ended) :=
  h.modify i hi _ _ (fun _ => rfl) (fun _ _ _ => rfl) (fun _ _ _ _ => .inr (.inl rfl)) (fun _ _ _ h => h.end)

/-- `startProc` for a swarming portal whose parameters are accepted -/
theorem startProc_eq (c : Config) (hc : c.cls = .swarming) (hF : Fine c) (i : Nat) (x : Proc) (t : Tree)
    (hn : c.n = 0) (hl : x.sys.launched = []) (ha : x.sys.atexit = false) :
    ∃ s : Sys, s.launched = [] ∧ s.atexit = false ∧
      startProc c i x t = { t with procs := t.procs.modify i fun y => { y with phase := .running, sys := s, configs := y.configs ++ [c] } } := by
  have hcn : ({ c with n := 0 } : Config) = c := by cases c; simp only at hn; subst hn; rfl
  have hv : (construct .swarming ({ c with n := 0 } : Config).toParams { x.sys with record := t.record }).2 = none :=
    (construct_ok _ _).mpr (toParams_valid hF)
  have hla := construct_launched ({ c with n := 0 } : Config).toParams { x.sys with record := t.record }
  obtain ⟨hre, hat⟩ := construct_worker ({ c with n := 0 } : Config).toParams c.rid rfl { x.sys with record := t.record }
  rw [hcn] at hv hla hre hat
  cases hs : construct .swarming c.toParams { x.sys with record := t.record } with
  | mk s e =>
    rw [hs] at hv hla hre hat
    simp only at hv hla hre hat
    subst hv
    have hsl : s.launched = [] := by rw [hla, hl]; simp [Config.toParams, hn]
    refine ⟨s, hsl, hat.trans ha, ?_⟩
    unfold startProc rebuild
    rw [hcn, hc]
    simp only [build, hs, hsl, hre]
    simp only [Tree.setPhase, List.drop_nil, List.map_nil, List.append_nil, List.modify_modify_eq]
    congr 2
    funext y
    simp only [Function.comp_apply, Config.toParams, Option.getD_some, configOf]
    rw [← hc]

theorem startProc_default (c : Config) (hc : c.cls = .default) (i : Nat) (x : Proc) (t : Tree) :
    startProc c i x t = t.setPhase i .ended := by
  unfold startProc rebuild
  rw [hc]

/-- a worker or a process for a request starts -/
theorem Inv.startProc {t : Tree} (h : Inv t) (i : Nat) (c : Config) (x : Proc) (hx : t.procs[i]? = some x)
    (hg : x.given = some c) (hp : x.phase = .starting) : Inv (startProc c i x t) := by
  obtain ⟨m, h0, hr, hpm, hF, hlm, hL⟩ := h.main
  have hi : i ≠ 0 := by
    rintro rfl
    rw [h0] at hx
    obtain rfl := Option.some.inj hx
    rw [hpm] at hp; cases hp
  have L := hL i x hi hx
  obtain ⟨c0, hc0, e0⟩ := L.given
  rw [hg] at e0
  have e0 := Option.some.inj e0
  have hn : c.n = 0 := by rw [e0]
  have hFc : Fine c := by have := hF c0 hc0; rw [e0]; exact this
  cases hc : c.cls with
  | default => rw [startProc_default c hc]; exact h.endProc i hi
  | swarming =>
    obtain ⟨s, hs1, hs2, e⟩ := startProc_eq c hc hFc i x t hn L.launched L.atexit
    rw [e]
    refine h.modify i hi _ _ (fun _ => rfl) ?_ ?_ ?_
    · intro y hy hy'
      rw [hx] at hy; obtain rfl := Option.some.inj hy
      rw [hp] at hy'; cases hy'
    · intro y k hy hy'
      rw [hx] at hy; obtain rfl := Option.some.inj hy
      rw [hp] at hy'; cases hy'
    · intro y cs hy L'
      rw [hx] at hy; obtain rfl := Option.some.inj hy
      have hnil := L'.starting hp
      refine ⟨L'.given, hs1, hs2, fun h => (by cases h), fun _ => ⟨c, hg, ?_, hc⟩, ?_⟩
      · simp [hnil]
      · intro d hd
        simp only [hnil, List.nil_append, List.mem_singleton] at hd
        subst hd
        exact ⟨hg, hc⟩

theorem Loc.mono {cs cs' : List Config} {x : Proc} (h : Loc cs x) (hs : ∀ c ∈ cs, c ∈ cs') : Loc cs' x := by
  obtain ⟨c0, h0, e⟩ := h.given
  exact ⟨⟨c0, hs _ h0, e⟩, h.launched, h.atexit, h.starting, h.running, h.mine⟩

/-- the main program creates a portal -/
theorem Inv.build {t : Tree} (h : Inv t) (cls : Cls) (p : Params) (x : Proc) (hx : t.procs[0]? = some x) :
    Inv (build cls p 0 x t).1 := by
  obtain ⟨m, h0, hr, hpm, hF, hlm, hL⟩ := h.main
  rw [hx] at h0
  obtain rfl := Option.some.inj h0
  have hla := construct_launched p { x.sys with record := t.record }
  have hok := construct_ok p { x.sys with record := t.record }
  unfold Tree.build
  cases hs : construct .swarming p { x.sys with record := t.record } with
  | mk s e =>
    rw [hs] at hla hok
    simp only at hla hok
    have hdrop : s.launched.drop x.sys.launched.length = if e = none then List.replicate (p.n.getD 0).toNat (p.store, p.rid.getD x.sys.fresh) else [] := by
      rw [hla]; simp
    simp only
    rw [hdrop]
    have hst : Str (t.procs.modify 0 fun y => { y with sys := s, configs := match (generalizing := false) e with
        | none => y.configs ++ [configOf cls p (p.rid.getD x.sys.fresh)]
        | some _ => y.configs }) :=
      h.str.modify 0 _ (fun _ => rfl) (fun _ _ h => h) (fun _ _ _ h => .inl h)
    refine ⟨⟨{ x with sys := s, configs := match (generalizing := false) e with
        | none => x.configs ++ [configOf cls p (p.rid.getD x.sys.fresh)]
        | some _ => x.configs }, get_left (by rw [get_modify, if_pos rfl, hx]; rfl), hr, hpm, ?_, ?_, ?_⟩, hst.append ?_⟩
    · intro c hc
      cases e with
      | none =>
        simp only [List.mem_append, List.mem_singleton] at hc
        rcases hc with hc | rfl
        · exact hF c hc
        · exact configOf_fine (hok.mp rfl)
      | some e => exact hF c hc
    · rw [List.filterMap_append, filterMap_modify t.procs 0 _ (by intro y; rfl), hlm, hla]
      congr 1
      cases e with
      | some e => simp
      | none =>
        simp [List.filterMap_map, Function.comp_def, Proc.workerFor, configOf, List.filterMap_replicate]
    · intro j y hj hy
      rcases get_append hy with ⟨-, h'⟩ | ⟨-, h'⟩
      · rw [get_modify, if_neg (Ne.symm hj)] at h'
        refine (hL j y hj h').mono ?_
        intro c hc
        cases e <;> simp [hc]
      · cases e with
        | some e => simp at h'
        | none =>
          simp only [↓reduceIte, List.mem_map] at h'
          obtain ⟨q, hq, rfl⟩ := h'
          have hq := List.eq_of_mem_replicate hq
          subst hq
          refine ⟨⟨configOf cls p (p.rid.getD x.sys.fresh), by simp, rfl⟩, rfl, rfl, fun _ => rfl, ?_, fun c hc => by cases hc⟩
          rintro (h | ⟨k, h⟩) <;> cases h
    · intro y hy
      simp only [List.mem_map] at hy
      obtain ⟨q, -, rfl⟩ := hy
      exact ⟨_, rfl⟩

theorem Inv.notMain {t : Tree} (h : Inv t) {i : Nat} {x : Proc} (hx : t.procs[i]? = some x) (hr : x.role ≠ .main) : i ≠ 0 := by
  rintro rfl
  obtain ⟨m, h0, hm, -⟩ := h.main
  rw [h0] at hx
  exact hr (Option.some.inj hx ▸ hm)

theorem Inv.step {i : Nat} {t t' : Tree} (h : Inv t) (hs : Step i t t') : Inv t' := by
  cases hs with
  | construct cls p x hx hp => exact h.build cls p x hx
  | record r => exact ⟨h.main, h.str⟩
  | workerStart _ c x hx hr hp => exact h.startProc i c x hx (by simp [Proc.given, hr]) hp
  | requestStart _ j c x hx hr hp => exact h.startProc i c x hx (by simp [Proc.given, hr]) hp
  | quit _ c x hx hr hp _ => exact h.endProc i (h.notMain hx (by rw [hr]; exact fun h => by cases h))
  | requestEnd _ j c x hx hr hp => exact h.endProc i (h.notMain hx (by rw [hr]; exact fun h => by cases h))
  | kill _ hi => exact h.endProc i hi
  | join _ j x y hx hp hy hq =>
    have hi : i ≠ 0 := by
      rintro rfl
      obtain ⟨m, h0, -, hm, -⟩ := h.main
      rw [h0] at hx
      obtain rfl := Option.some.inj hx
      rw [hm] at hp; cases hp
    refine h.modify i hi _ _ (fun _ => rfl) ?_ ?_ ?_
    · intro z hz hz'
      rw [hx] at hz; obtain rfl := Option.some.inj hz
      rw [hp] at hz'; cases hz'
    · intro z k hz hz'
      rw [hx] at hz; obtain rfl := Option.some.inj hz
      rw [hp] at hz'; cases hz'
      exact .inr (.inr ⟨y, hy, hq⟩)
    · intro z cs hz L
      rw [hx] at hz; obtain rfl := Option.some.inj hz
      exact ⟨L.given, L.launched, L.atexit, fun h => (by cases h), fun _ => L.running (.inr ⟨j, hp⟩), L.mine⟩
  | spawn _ c x hx hr hp _ =>
    have hi : i ≠ 0 := h.notMain hx (by rw [hr]; exact fun h => by cases h)
    obtain ⟨m, h0, hrm, hpm, hF, hlm, hL⟩ := h.main
    have L := hL i x hi hx
    obtain ⟨c0, hc0, e0⟩ := L.given
    have hg : x.given = some c := by simp [Proc.given, hr]
    rw [hg] at e0
    have e0 := Option.some.inj e0
    have hcn : ({ c with n := 0 } : Config) = c := by rw [e0]
    rw [hcn]
    refine ⟨⟨m, get_left (by rw [get_modify, if_neg hi]; exact h0), hrm, hpm, hF, ?_, ?_⟩, h.str.spawn i x c hx hr hp _ rfl⟩
    · rw [List.filterMap_append, filterMap_modify t.procs i (fun y => { y with phase := .waiting t.procs.length }) (fun _ => rfl), hlm]
      simp [Proc.workerFor]
    · intro j y hj hy
      rcases get_append hy with ⟨-, h'⟩ | ⟨-, h'⟩
      · obtain ⟨z, hz, e⟩ := get_modify_some h'
        by_cases hij : i = j
        · subst hij
          rw [hx] at hz; obtain rfl := Option.some.inj hz
          rw [if_pos rfl] at e
          subst e
          exact ⟨L.given, L.launched, L.atexit, fun h => (by cases h), fun _ => L.running (.inl hp), L.mine⟩
        · rw [if_neg hij] at e
          exact e ▸ hL j z hj hz
      · simp only [List.mem_singleton] at h'
        subst h'
        refine ⟨⟨c0, hc0, by simp [Proc.given, e0]⟩, rfl, rfl, fun _ => rfl, ?_, fun c hc => by cases hc⟩
        rintro (h | ⟨k, h⟩) <;> cases h

theorem Inv.initial (r : Nat → Option Nat) : Inv (initial r) := by
  have key : ∀ (i : Nat) (x : Proc), (Tree.initial r).procs[i]? = some x → i = 0 ∧ x.role = .main := by
    intro i x hx
    have := List.mem_of_getElem? hx
    have hlt := (List.getElem?_eq_some_iff.mp hx).1
    simp [Tree.initial] at this hlt
    exact ⟨hlt, by rw [this]⟩
  refine ⟨⟨_, rfl, rfl, rfl, fun c hc => (by cases hc), rfl, fun i x hi hx => absurd (key i x hx).1 hi⟩, ?_, ?_, ?_⟩
  · intro i j c x hx hr; rw [(key i x hx).2] at hr; cases hr
  · intro i j c x hx hr; rw [(key i x hx).2] at hr; cases hr
  · intro i k j x y hx hy _ _ _ _; rw [(key i x hx).1, (key k y hy).1]

theorem Reachable.inv {r : Nat → Option Nat} {t : Tree} (h : Reachable r t) : Inv t := by
  induction h with
  | init => exact Inv.initial r
  | step _ hs ih => exact ih.step hs

theorem Reachable.step_cases {r : Nat → Option Nat} {t t' : Tree} {i : Nat} (h : Reachable r t) (hs : Step i t t') (hi : i ≠ 0) :
    t'.record = t.record ∧ (∀ (k : Nat) (y : Proc), t'.procs[k]? = some y →
      (k ≠ i ∧ t.procs[k]? = some y) ∨
      (k = i ∧ ∃ x, t.procs[k]? = some x ∧ y.role = x.role ∧
        (y.configs = x.configs ∨ (x.configs = [] ∧ ∃ c, y.given = some c ∧ y.configs = [c]))) ∨
      (k ≠ 0 ∧ y.configs = [] ∧ ∃ x c, t.procs[i]? = some x ∧ x.role = .worker c ∧ c.cls = .swarming ∧ y.role = .request c i)) ∧
    t'.procs[0]? = t.procs[0]? := by
  obtain ⟨m, h0, -, hpm, hF, -, hL⟩ := h.inv.main
  have hset : ∀ (ph : Phase) (k : Nat) (y : Proc), (t.setPhase i ph).procs[k]? = some y →
      (k ≠ i ∧ t.procs[k]? = some y) ∨ (k = i ∧ ∃ x, t.procs[k]? = some x ∧ y.role = x.role ∧
        (y.configs = x.configs ∨ (x.configs = [] ∧ ∃ c, y.given = some c ∧ y.configs = [c]))) := by
    intro ph k y hy
    obtain ⟨x, hx, e⟩ := get_modify_some hy
    by_cases hik : i = k
    · rw [if_pos hik] at e
      exact .inr ⟨hik.symm, x, hx, by rw [e], .inl (by rw [e])⟩
    · rw [if_neg hik] at e
      exact .inl ⟨fun h => hik h.symm, e ▸ hx⟩
  have hset' : ∀ ph, (t.setPhase i ph).procs[0]? = t.procs[0]? := by
    intro ph
    show (t.procs.modify i _)[0]? = _
    rw [get_modify, if_neg hi]
  have hstart : ∀ (c : Config) (x : Proc), t.procs[i]? = some x → x.given = some c → x.phase = .starting →
      (startProc c i x t).record = t.record ∧ (∀ (k : Nat) (y : Proc), (startProc c i x t).procs[k]? = some y →
      (k ≠ i ∧ t.procs[k]? = some y) ∨ (k = i ∧ ∃ x, t.procs[k]? = some x ∧ y.role = x.role ∧
        (y.configs = x.configs ∨ (x.configs = [] ∧ ∃ c, y.given = some c ∧ y.configs = [c])))) ∧
      (startProc c i x t).procs[0]? = t.procs[0]? := by
    intro c x hx hg hp
    have L := hL i x hi hx
    obtain ⟨c0, hc0, e⟩ := L.given
    rw [hg] at e
    have e := Option.some.inj e
    cases hc : c.cls with
    | default => rw [startProc_default c hc]; exact ⟨rfl, hset _, hset' _⟩
    | swarming =>
      obtain ⟨s, -, -, es⟩ := startProc_eq c hc (by have := hF c0 hc0; rw [e]; exact this) i x t (by rw [e]) L.launched L.atexit
      rw [es]
      refine ⟨rfl, fun k y hy => ?_, ?_⟩
      · obtain ⟨x', hx', ey⟩ := get_modify_some hy
        by_cases hik : i = k
        · rw [if_pos hik] at ey
          subst hik
          rw [hx] at hx'; obtain rfl := Option.some.inj hx'
          refine .inr ⟨rfl, x, hx, by rw [ey], .inr ⟨L.starting hp, c, by rw [ey]; exact hg, by rw [ey]; simp [L.starting hp]⟩⟩
        · rw [if_neg hik] at ey
          exact .inl ⟨fun h => hik h.symm, ey ▸ hx'⟩
      · show (t.procs.modify i _)[0]? = _
        rw [get_modify, if_neg hi]
  have lift : ∀ {t' : Tree}, (t'.record = t.record ∧ (∀ (k : Nat) (y : Proc), t'.procs[k]? = some y →
      (k ≠ i ∧ t.procs[k]? = some y) ∨ (k = i ∧ ∃ x, t.procs[k]? = some x ∧ y.role = x.role ∧
        (y.configs = x.configs ∨ (x.configs = [] ∧ ∃ c, y.given = some c ∧ y.configs = [c])))) ∧
      t'.procs[0]? = t.procs[0]?) → t'.record = t.record ∧ (∀ (k : Nat) (y : Proc), t'.procs[k]? = some y →
      (k ≠ i ∧ t.procs[k]? = some y) ∨
      (k = i ∧ ∃ x, t.procs[k]? = some x ∧ y.role = x.role ∧
        (y.configs = x.configs ∨ (x.configs = [] ∧ ∃ c, y.given = some c ∧ y.configs = [c]))) ∨
      (k ≠ 0 ∧ y.configs = [] ∧ ∃ x c, t.procs[i]? = some x ∧ x.role = .worker c ∧ c.cls = .swarming ∧ y.role = .request c i)) ∧
    t'.procs[0]? = t.procs[0]? := by
    intro t' ⟨a, b, c⟩
    exact ⟨a, fun k y hy => (b k y hy).elim .inl fun h => .inr (.inl h), c⟩
  cases hs with
  | construct cls p x hx hp => exact absurd rfl hi
  | record r => exact absurd rfl hi
  | workerStart _ c x hx hr hp => exact lift (hstart c x hx (by simp [Proc.given, hr]) hp)
  | requestStart _ j c x hx hr hp => exact lift (hstart c x hx (by simp [Proc.given, hr]) hp)
  | quit _ c x hx hr hp _ => exact lift ⟨rfl, hset _, hset' _⟩
  | requestEnd _ j c x hx hr hp => exact lift ⟨rfl, hset _, hset' _⟩
  | kill _ hi => exact lift ⟨rfl, hset _, hset' _⟩
  | join _ j x y hx hp hy hq => exact lift ⟨rfl, hset _, hset' _⟩
  | spawn _ c x hx hr hp _ =>
    have L := hL i x hi hx
    have hg : x.given = some c := by simp [Proc.given, hr]
    obtain ⟨c0, hc0, e0⟩ := L.given
    rw [hg] at e0
    have e0 := Option.some.inj e0
    have hcn : ({ c with n := 0 } : Config) = c := by rw [e0]
    rw [hcn]
    obtain ⟨c', hg', -, hsw⟩ := L.running (.inl hp)
    rw [hg] at hg'
    rw [← Option.some.inj hg'] at hsw
    refine ⟨rfl, fun k y hy => ?_, ?_⟩
    · rcases get_append hy with ⟨-, h'⟩ | ⟨hk, h'⟩
      · rcases hset (.waiting t.procs.length) k y h' with h | h
        · exact .inl h
        · exact .inr (.inl h)
      · simp only [List.mem_singleton] at h'
        have hlt := (List.getElem?_eq_some_iff.mp h0).1
        rw [List.length_modify] at hk
        exact .inr (.inr ⟨by omega, by rw [h'], x, c, hx, hr, hsw, by rw [h']⟩)
    · show ((t.procs.modify i _) ++ _)[0]? = _
      rw [h0, get_left (by rw [get_modify, if_neg hi]; exact h0)]

theorem only_main {r : Nat → Option Nat} {t t' : Tree} {i : Nat} (h : Reachable r t) (hs : Step i t t') (hi : i ≠ 0) :
    t'.record = t.record ∧ t'.procs[0]? = t.procs[0]? :=
  ⟨(h.step_cases hs hi).1, (h.step_cases hs hi).2.2⟩

/-- a process other than the main program is changed by its own steps only -/
theorem main_step {t t' : Tree} (hs : Step 0 t t') (h : Inv t) (k : Nat) (y : Proc) (hk : k ≠ 0) (hy : t'.procs[k]? = some y) :
    t.procs[k]? = some y ∨ (y.configs = [] ∧ ∃ c, y.role = .worker c) := by
  have hset : ∀ (ph : Phase), (t.setPhase 0 ph).procs[k]? = some y → t.procs[k]? = some y := by
    intro ph hy
    obtain ⟨x, hx, e⟩ := get_modify_some hy
    rw [if_neg (Ne.symm hk)] at e
    exact e ▸ hx
  obtain ⟨m, h0, hm, hp0, -⟩ := h.main
  have no : ∀ (x : Proc) (c : Config), t.procs[0]? = some x → x.role = .worker c → False := by
    intro x c hx hr
    rw [h0] at hx
    rw [← Option.some.inj hx, hm] at hr; cases hr
  have no' : ∀ (x : Proc) (c : Config) (j : Nat), t.procs[0]? = some x → x.role = .request c j → False := by
    intro x c j hx hr
    rw [h0] at hx
    rw [← Option.some.inj hx, hm] at hr; cases hr
  cases hs with
  | construct cls p x hx hp =>
    unfold build at hy
    cases hc : construct .swarming p { x.sys with record := t.record } with
    | mk s e =>
      rw [hc] at hy
      simp only at hy
      rcases get_append hy with ⟨-, h'⟩ | ⟨-, h'⟩
      · rw [get_modify, if_neg (Ne.symm hk)] at h'
        exact .inl h'
      · simp only [List.mem_map] at h'
        obtain ⟨q, -, rfl⟩ := h'
        exact .inr ⟨rfl, _, rfl⟩
  | record r => exact .inl hy
  | workerStart _ c x hx hr hp => exact (no x c hx hr).elim
  | requestStart _ j c x hx hr hp => exact (no' x c j hx hr).elim
  | quit _ c x hx hr hp _ => exact .inl (hset _ hy)
  | requestEnd _ j c x hx hr hp => exact .inl (hset _ hy)
  | kill _ hi => exact .inl (hset _ hy)
  | join _ j x y' hx hp hy' hq => exact .inl (hset _ hy)
  | spawn _ c x hx hr hp _ => exact (no x c hx hr).elim

theorem Reachable.configs {r : Nat → Option Nat} {t : Tree} (h : Reachable r t) {i : Nat} {x : Proc} {c : Config} (hi : i ≠ 0)
    (hx : t.procs[i]? = some x) (hg : x.given = some c) : x.configs = [] ∨ x.configs = [c] := by
  induction h generalizing i x c with
  | init =>
    have := (List.getElem?_eq_some_iff.mp hx).1
    simp [Tree.initial] at this
    exact absurd this hi
  | @step a t t' ht hs ih =>
    by_cases ha : a = 0
    · subst ha
      rcases main_step hs ht.inv i x hi hx with h' | ⟨h', -⟩
      · exact ih hi h' hg
      · exact .inl h'
    · rcases (ht.step_cases hs ha).2.1 i x hx with ⟨-, h'⟩ | ⟨-, z, hz, hr, hc⟩ | ⟨-, h', -⟩
      · exact ih hi h' hg
      · rcases hc with hc | ⟨-, c', hg', hc⟩
        · rw [hc]
          refine ih hi hz ?_
          unfold Proc.given at hg ⊢
          rw [← hr]; exact hg
        · rw [hg] at hg'
          rw [Option.some.inj hg']; exact .inr hc
      · exact .inl h'

/-- only workers of `SwarmingPortal` launch processes -/
theorem Reachable.parent_swarming {r : Nat → Option Nat} {t : Tree} (h : Reachable r t) {i j : Nat} {x : Proc} {c : Config}
    (hx : t.procs[i]? = some x) (hr : x.role = .request c j) : c.cls ≠ .default := by
  induction h generalizing i x c with
  | init =>
    have := List.mem_of_getElem? hx
    simp [Tree.initial] at this
    rw [this] at hr; cases hr
  | @step a t t' ht hs ih =>
    by_cases ha : a = 0
    · subst ha
      by_cases hi : i = 0
      · subst hi
        obtain ⟨m, h0, hm, -⟩ := (ht.inv.step hs).main
        rw [h0] at hx
        rw [← Option.some.inj hx, hm] at hr; cases hr
      · rcases main_step hs ht.inv i x hi hx with h' | ⟨-, c', h'⟩
        · exact ih h' hr
        · rw [hr] at h'; cases h'
    · rcases (ht.step_cases hs ha).2.1 i x hx with ⟨-, h'⟩ | ⟨-, z, hz, hr', -⟩ | ⟨-, -, z, c', -, -, hs', hr'⟩
      · exact ih h' hr
      · exact ih hz (hr' ▸ hr)
      · rw [hr] at hr'
        cases hr'
        rw [hs']; exact fun h => by cases h

/-! ## the theorems -/

/-- **C81**: the parameters reported by a portal that was created successfully create a portal again, and that portal
reports the same parameters. -/
theorem C81_params_round_trip (p : Params) (s s' : Sys) (h : (construct .swarming p s).2 = none) :
    (construct .swarming (configOf .swarming p (p.rid.getD s.fresh)).toParams s').2 = none ∧
    ∀ k, configOf .swarming (configOf .swarming p (p.rid.getD s.fresh)).toParams
        ((configOf .swarming p (p.rid.getD s.fresh)).toParams.rid.getD k) = configOf .swarming p (p.rid.getD s.fresh) := by
  have hv := (construct_ok p s).mp h
  obtain ⟨n, hn, h0⟩ := hv.workers (by decide)
  have hF := configOf_fine (cls := .swarming) (rid := p.rid.getD s.fresh) hv
  refine ⟨(construct_ok _ _).mpr ?_, fun k => rfl⟩
  have hvt := toParams_valid hF
  exact ⟨rfl, hvt.checks, hvt.island, fun _ => ⟨n, by simp [Config.toParams, configOf, hn], h0⟩⟩

/-- **C81**: every process other than the main program is a background worker with the parameters of one of the main
program's portals, or was launched by such a worker for one request, with the same parameters; the number of background
workers is 0 in these parameters.  The only portal that it creates has exactly these parameters; while it runs, or waits
for a process it has launched, that portal exists. -/
theorem C81_worker_params {r : Nat → Option Nat} {t : Tree} (h : Reachable r t) {i : Nat} {x : Proc} (hi : i ≠ 0)
    (hx : t.procs[i]? = some x) :
    ∃ m c0, t.procs[0]? = some m ∧ c0 ∈ m.configs ∧
      (x.role = .worker { c0 with n := 0 } ∨
        ∃ j w, x.role = .request { c0 with n := 0 } j ∧ t.procs[j]? = some w ∧ w.role = .worker { c0 with n := 0 }) ∧
      (x.configs = [] ∨ x.configs = [{ c0 with n := 0 }]) ∧
      (x.phase = .running ∨ (∃ k, x.phase = .waiting k) → x.configs = [{ c0 with n := 0 }]) := by
  obtain ⟨m, h0, -, -, -, -, hL⟩ := h.inv.main
  have L := hL i x hi hx
  obtain ⟨c0, hc0, e⟩ := L.given
  refine ⟨m, c0, h0, hc0, ?_, ?_, ?_⟩
  · unfold Proc.given at e
    cases hr : x.role with
    | main => rw [hr] at e; cases e
    | worker c => rw [hr] at e; exact .inl (by rw [Option.some.inj e])
    | request c j =>
      rw [hr] at e
      obtain ⟨w, hw, hw'⟩ := h.inv.str.parent i j c x hx hr
      have e := Option.some.inj e
      exact .inr ⟨j, w, by rw [e], hw, by rw [hw', e]⟩
  · exact Reachable.configs h hi hx e
  · intro hp
    obtain ⟨c, hg, hc, -⟩ := L.running hp
    rw [e] at hg
    rw [hc, Option.some.inj hg]

/-- **C81**: a worker, or a process for a request, of a portal whose class is `SwarmingPortal` creates its portal without
an exception. -/
theorem C81_worker_starts {r : Nat → Option Nat} {t : Tree} (h : Reachable r t) {i : Nat} {x : Proc} {c : Config}
    (hx : t.procs[i]? = some x) (hg : x.role = .worker c ∨ ∃ j, x.role = .request c j) (hp : x.phase = .starting)
    (hc : c.cls = .swarming) :
    ∃ y, (startProc c i x t).procs[i]? = some y ∧ y.phase = .running ∧ y.configs = [c] ∧ Step i t (startProc c i x t) := by
  have hgiven : x.given = some c := by
    unfold Proc.given
    rcases hg with hg | ⟨j, hg⟩ <;> rw [hg]
  have hi : i ≠ 0 := h.inv.notMain hx (by rcases hg with hg | ⟨j, hg⟩ <;> rw [hg] <;> exact fun h => by cases h)
  obtain ⟨m, h0, -, -, hF, -, hL⟩ := h.inv.main
  have L := hL i x hi hx
  obtain ⟨c0, hc0, e⟩ := L.given
  rw [hgiven] at e
  have e := Option.some.inj e
  obtain ⟨s, -, -, es⟩ := startProc_eq c hc (by have := hF c0 hc0; rw [e]; exact this) i x t (by rw [e]) L.launched L.atexit
  have hst : Step i t (startProc c i x t) := by
    rcases hg with hg | ⟨j, hg⟩
    · exact .workerStart i c x hx hg hp
    · exact .requestStart i j c x hx hg hp
  refine ⟨{ x with phase := .running, sys := s, configs := x.configs ++ [c] }, ?_, rfl, ?_, hst⟩
  · rw [es]
    show (t.procs.modify i _)[i]? = _
    rw [get_modify, if_pos rfl, hx]; rfl
  · simp [L.starting hp]

/-- the number of processes that have not ended, without the main program -/
def aliveCount (t : Tree) : Nat :=
  ((List.range t.procs.length).filter fun i => decide (i ≠ 0) && (match t.procs[i]? with
    | some x => decide (x.phase ≠ .ended)
    | none => false)).length

theorem worker_indices (l : List Proc) :
    ((List.range l.length).filter fun i => (l[i]?.bind Proc.workerFor).isSome).length = (l.filterMap Proc.workerFor).length := by
  induction l with
  | nil => rfl
  | cons a l ih =>
    rw [List.length_cons, List.range_succ_eq_map, List.filter_cons, List.filter_map, List.filterMap_cons]
    have e : ((fun i : Nat => ((a :: l)[i]?.bind Proc.workerFor).isSome) ∘ Nat.succ) = fun i => (l[i]?.bind Proc.workerFor).isSome := by
      funext i; simp
    rw [e]
    cases ha : a.workerFor <;> simp [ha, ih]

theorem filter_split (p : Nat → Bool) (l : List Nat) : l.length = (l.filter p).length + (l.filter fun i => !p i).length := by
  induction l with
  | nil => rfl
  | cons a l ih => cases h : p a <;> simp [h] <;> omega

/-- the process that launched process `i` -/
def parentOf (l : List Proc) (i : Nat) : Nat :=
  match l[i]? with
  | some x => (match x.role with | .request _ j => j | _ => 0)
  | none => 0

theorem count_bound {t : Tree} {m : Proc} (h0 : t.procs[0]? = some m) (hm : m.role = .main)
    (hg : ∀ (i : Nat) (x : Proc), i ≠ 0 → t.procs[i]? = some x → ∃ c, x.given = some c) (hs : Str t.procs) :
    aliveCount t ≤ 2 * (t.procs.filterMap Proc.workerFor).length := by
  unfold aliveCount
  generalize hA : ((List.range t.procs.length).filter fun i => decide (i ≠ 0) && (match t.procs[i]? with
    | some x => decide (x.phase ≠ .ended)
    | none => false)) = A
  have memA : ∀ i ∈ A, i ≠ 0 ∧ ∃ x, t.procs[i]? = some x ∧ x.phase ≠ .ended := by
    intro i hi
    rw [← hA, List.mem_filter] at hi
    have h2 := hi.2
    rw [Bool.and_eq_true] at h2
    refine ⟨by simpa using h2.1, ?_⟩
    cases hx : t.procs[i]? with
    | none => rw [hx] at h2; simp at h2
    | some x => rw [hx] at h2; exact ⟨x, rfl, by simpa using h2.2⟩
  have ndA : A.Nodup := hA ▸ List.nodup_range.filter _
  rw [← worker_indices]
  generalize hW : ((List.range t.procs.length).filter fun i => (t.procs[i]?.bind Proc.workerFor).isSome) = W
  have memW : ∀ (i : Nat) (x : Proc) (c : Config), t.procs[i]? = some x → x.role = .worker c → i ∈ W := by
    intro i x c hx hr
    rw [← hW, List.mem_filter]
    exact ⟨List.mem_range.mpr (List.getElem?_eq_some_iff.mp hx).1, by rw [hx]; simp [Proc.workerFor, hr]⟩
  have l1 : (A.filter fun i => (t.procs[i]?.bind Proc.workerFor).isSome).length ≤ W.length := by
    refine (List.subperm_of_subset (ndA.filter _) ?_).length_le
    intro i hi
    rw [List.mem_filter] at hi
    obtain ⟨-, x, hx, -⟩ := memA i hi.1
    rw [← hW, List.mem_filter]
    exact ⟨List.mem_range.mpr (List.getElem?_eq_some_iff.mp hx).1, hi.2⟩
  have req : ∀ i ∈ A.filter (fun i => !(t.procs[i]?.bind Proc.workerFor).isSome), ∃ x c j, t.procs[i]? = some x ∧ x.phase ≠ .ended ∧
      x.role = .request c j ∧ parentOf t.procs i = j := by
    intro i hi
    rw [List.mem_filter] at hi
    obtain ⟨h1, x, hx, hp⟩ := memA i hi.1
    obtain ⟨c, hc⟩ := hg i x h1 hx
    cases hr : x.role with
    | main => simp [Proc.given, hr] at hc
    | worker c' => have := hi.2; rw [hx] at this; simp [Proc.workerFor, hr] at this
    | request c' j => exact ⟨x, c', j, hx, hp, hr, by simp [parentOf, hx, hr]⟩
  have l2 : (A.filter fun i => !(t.procs[i]?.bind Proc.workerFor).isSome).length ≤ W.length := by
    rw [← List.length_map (parentOf t.procs)]
    refine (List.subperm_of_subset (List.Nodup.map_on ?_ (ndA.filter _)) ?_).length_le
    · intro i hi k hk e
      obtain ⟨x, c, j, hx, hp, hr, hj⟩ := req i hi
      obtain ⟨y, c', j', hy, hq, hr', hj'⟩ := req k hk
      have : j = j' := by rw [← hj, ← hj', e]
      subst this
      exact hs.uniq i k j x y hx hy ⟨c, hr⟩ ⟨c', hr'⟩ hp hq
    · intro j hj
      rw [List.mem_map] at hj
      obtain ⟨i, hi, e⟩ := hj
      obtain ⟨x, c, j', hx, hp, hr, hj'⟩ := req i hi
      obtain ⟨w, hw, hw'⟩ := hs.parent i j' c x hx hr
      rw [← e, hj']
      exact memW j' w c hw hw'
  have := filter_split (fun i => (t.procs[i]?.bind Proc.workerFor).isSome) A
  omega

/-- **C81**: the background workers are exactly the ones launched by the constructors of the main program's portals; each
has at most one process for a request that has not ended; there are at most twice as many processes as workers launched. -/
theorem C81_no_explosion {r : Nat → Option Nat} {t : Tree} (h : Reachable r t) :
    ∃ m, t.procs[0]? = some m ∧ t.procs.filterMap Proc.workerFor = m.sys.launched ∧
      (∀ (i k j : Nat) (x y : Proc), t.procs[i]? = some x → t.procs[k]? = some y → x.childOf j → y.childOf j →
        x.phase ≠ .ended → y.phase ≠ .ended → i = k) ∧
      aliveCount t ≤ 2 * m.sys.launched.length := by
  obtain ⟨m, h0, hrm, -, -, hlm, hL⟩ := h.inv.main
  refine ⟨m, h0, hlm, h.inv.str.uniq, ?_⟩
  rw [← hlm]
  exact count_bound h0 hrm (fun i x hi hx => have ⟨_, _, e⟩ := (hL i x hi hx).given; ⟨_, e⟩) h.inv.str

/-- **C81**: no process but the main program writes the runtime record of a directory, launches background workers, or
registers the function that removes the records. -/
theorem C81_only_main_writes {r : Nat → Option Nat} {t t' : Tree} {i : Nat} (h : Reachable r t) (hs : Step i t t') (hi : i ≠ 0) :
    t'.record = t.record ∧ t'.procs[0]? = t.procs[0]? ∧
    ∀ (k : Nat) (x : Proc), k ≠ 0 → t'.procs[k]? = some x → x.sys.launched = [] ∧ x.sys.atexit = false := by
  have hr' : Reachable r t' := .step h hs
  obtain ⟨m', h0', -, -, -, -, hL'⟩ := hr'.inv.main
  refine ⟨?_, ?_, fun k x hk hx => ⟨(hL' k x hk hx).launched, (hL' k x hk hx).atexit⟩⟩
  · exact (only_main h hs hi).1
  · exact (only_main h hs hi).2

/-- **C81, counterexample**: the background workers of the default portal never do anything: the class is recreated with
parameters, but its constructor takes none.  Such a worker ends at its first step, without having created a portal; no
process is ever launched for a request. -/
theorem C81_default_portal_counterexample {r : Nat → Option Nat} {t : Tree} (h : Reachable r t) {i : Nat} {x : Proc} {c : Config}
    (hx : t.procs[i]? = some x) (hr : x.role = .worker c) (hc : c.cls = .default) :
    (x.phase = .starting ∨ x.phase = .ended) ∧ x.configs = [] ∧ (∀ (k : Nat) (y : Proc), t.procs[k]? = some y → ¬ y.childOf i) ∧
    (x.phase = .starting → Step i t (t.setPhase i .ended)) := by
  have hg : x.given = some c := by simp [Proc.given, hr]
  have hi : i ≠ 0 := h.inv.notMain hx (by rw [hr]; exact fun h => by cases h)
  obtain ⟨m, h0, -, -, -, -, hL⟩ := h.inv.main
  have L := hL i x hi hx
  refine ⟨?_, ?_, ?_, ?_⟩
  · cases hp : x.phase with
    | starting => exact .inl rfl
    | ended => exact .inr rfl
    | running =>
      obtain ⟨c', hg', -, hs⟩ := L.running (.inl hp)
      rw [hg] at hg'
      rw [← Option.some.inj hg', hc] at hs; cases hs
    | waiting k =>
      obtain ⟨c', hg', -, hs⟩ := L.running (.inr ⟨k, hp⟩)
      rw [hg] at hg'
      rw [← Option.some.inj hg', hc] at hs; cases hs
  · cases hcs : x.configs with
    | nil => rfl
    | cons a l =>
      obtain ⟨hg', hs⟩ := L.mine a (by rw [hcs]; simp)
      rw [hg] at hg'
      rw [← Option.some.inj hg', hc] at hs; cases hs
  · rintro k y hy ⟨c', hc'⟩
    obtain ⟨w, hw, hw'⟩ := h.inv.str.parent k i c' y hy hc'
    rw [hx] at hw
    obtain rfl := Option.some.inj hw
    rw [hr] at hw'
    cases hw'
    exact absurd hc (Reachable.parent_swarming h hy hc')
  · intro hp
    have := Step.workerStart i c x hx hr hp
    rwa [startProc_default c hc] at this

/-! ## concrete cases -/

/-- a program that has created a portal of class `cls` with two background workers in directory 3 -/
def demo (cls : Cls) (r : Nat → Option Nat) : Tree :=
  (build cls { store := 3, n := some 2 } 0 { role := .main, phase := .running } (initial r)).1

def demoCfg (cls : Cls) : Config := { cls := cls, store := 3, p := 0, island := "Samos", n := 0, rid := 0 }

theorem demo_eq (cls : Cls) (r : Nat → Option Nat) : ∃ m : Proc, m.role = .main ∧ m.sys.launched = [(3, 0), (3, 0)] ∧
    (demo cls r).procs = [m, { role := .worker (demoCfg cls) }, { role := .worker (demoCfg cls) }] ∧
    (demo cls r).record 3 = some 0 := ⟨_, rfl, rfl, rfl, rfl⟩

theorem demo_reachable (cls : Cls) (r : Nat → Option Nat) : Reachable r (demo cls r) :=
  .step .init (.construct cls { store := 3, n := some 2 } { role := .main, phase := .running } rfl rfl)

/-- the first worker starts and launches a process for a request: four processes, three of them not the main program -/
example (r : Nat → Option Nat) : ∃ t x y, Reachable r t ∧ t.procs.length = 4 ∧ aliveCount t = 3 ∧
    t.procs[1]? = some x ∧ x.role = .worker (demoCfg .swarming) ∧ x.phase = .waiting 3 ∧ x.configs = [demoCfg .swarming] ∧
    t.procs[3]? = some y ∧ y.role = .request (demoCfg .swarming) 1 ∧ y.childOf 1 ∧ y.phase = .starting := by
  obtain ⟨m, hm, hl, he, hrec⟩ := demo_eq .swarming r
  have hR := demo_reachable .swarming r
  have hx : (demo .swarming r).procs[1]? = some { role := .worker (demoCfg .swarming) } := by rw [he]; rfl
  obtain ⟨s, -, -, es⟩ := startProc_eq (demoCfg .swarming) rfl ⟨le_refl _, by decide, by decide⟩ 1
    { role := .worker (demoCfg .swarming) } (demo .swarming r) rfl rfl rfl
  have hst := Step.workerStart 1 (demoCfg .swarming) _ hx rfl rfl
  rw [es, he] at hst
  have hR2 := Reachable.step hR hst
  have hsp := Step.spawn 1 (demoCfg .swarming) { role := .worker (demoCfg .swarming), phase := .running, sys := s, configs := [demoCfg .swarming] }
    (t := { demo .swarming r with procs := [m, { role := .worker (demoCfg .swarming), phase := .running, sys := s, configs := [demoCfg .swarming] },
      { role := .worker (demoCfg .swarming) }] }) rfl rfl rfl hrec
  have hmp : m.phase = .running := by
    obtain ⟨m', h0, -, h, -⟩ := hR.inv.main
    rw [he] at h0
    exact Option.some.inj h0 ▸ h
  exact ⟨_, _, _, .step hR2 hsp, rfl, rfl, rfl, rfl, rfl, rfl, rfl, rfl, ⟨_, rfl⟩, rfl⟩

/-- the default portal's workers exist, and `C81_default_portal_counterexample` applies to them -/
example (r : Nat → Option Nat) : ∃ x, (demo .default r).procs[1]? = some x ∧ x.role = .worker (demoCfg .default) ∧
    x.phase = .starting ∧ Step 1 (demo .default r) ((demo .default r).setPhase 1 .ended) := by
  obtain ⟨m, -, -, he, -⟩ := demo_eq .default r
  refine ⟨{ role := .worker (demoCfg .default) }, by rw [he]; rfl, rfl, rfl, ?_⟩
  exact (C81_default_portal_counterexample (demo_reachable .default r) (x := { role := .worker (demoCfg .default) }) (by rw [he]; rfl) rfl rfl).2.2.2 rfl

/-- whatever runtime ids are recorded in the directories when the program starts, that state is covered -/
example (r : Nat → Option Nat) : ∃ t, Reachable r t ∧ t.record = r ∧ t.procs.length = 1 :=
  ⟨_, .init, rfl, rfl⟩

end Pyth.Tree
