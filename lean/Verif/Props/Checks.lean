import Verif.Model.Checks
import Verif.Props.Registry
import Verif.Proofs.RegistryRestore
/-!
# C96: what kind of function is this?
-/
set_option linter.unusedVariables false
namespace Pyth.Registry
open Pyth.Analyzer

/-- the analysis of the function reports `x` as used from outside (C42: all names really used are reported) -/
def Reported (s : Src) (x : String) : Prop := ∃ a, analyze (definition s) = some a ∧ x ∈ a.glob ++ a.uncl

/-- C96: everything that is not callable is refused; everything else is loosely autonomous, strictly autonomous, or
neither; it is autonomous exactly if it is one of them; all pure functions are autonomous. -/
theorem C96_kinds (t : Thing) :
    (isAutonomous t = none ↔ t = .notCallable) ∧
    (isLooselyAutonomous t = none ↔ t = .notCallable) ∧ (isStrictlyAutonomous t = none ↔ t = .notCallable) ∧
    (isPure t = none ↔ t = .notCallable) ∧
    (isAutonomous t = some true ↔ isLooselyAutonomous t = some true ∨ isStrictlyAutonomous t = some true) ∧
    ¬ (isLooselyAutonomous t = some true ∧ isStrictlyAutonomous t = some true) ∧
    (isPure t = some true → isAutonomous t = some true) := by
  cases t with
  | fn o => cases h : o.strict <;> simp [isAutonomous, isLooselyAutonomous, isStrictlyAutonomous, isPure, h]
  | callable => simp [isAutonomous, isLooselyAutonomous, isStrictlyAutonomous, isPure]
  | notCallable => simp [isAutonomous, isLooselyAutonomous, isStrictlyAutonomous, isPure]

theorem provided_available {E : Env} {s : Src} {x : String} (h : Provided E s x) : x ∈ available E s.name := by
  simp only [Provided, List.mem_cons, List.not_mem_nil, or_false] at h
  simp only [available, primaryDecorators, List.mem_append, List.mem_cons, List.not_mem_nil, or_false]
  tauto

theorem start_full {E : Env} {R R' : Reg} {i : Nat} (hw : Wf R) (hs : start E R i = (R', true)) {o : Obj}
    (ho : R'.objs[i]? = some o) : complete E R i = (R', true) ∧ o.full = true ∧ runnable R' o = true := by
  unfold start at hs
  split at hs
  · cases hs
  · rename_i Q hc
    split at hs
    · cases hs
    · rename_i o' ho'
      injection hs with h1 h2
      subst h1
      obtain ⟨o1, h3, h4⟩ := complete_full hc hw
      rw [ho] at ho' h3
      injection ho' with ho'; injection h3 with h3
      subst ho'; subst h3
      exact ⟨hc, h4, h2⟩

/-- C96: once the body of a function has run, the function is strictly autonomous exactly if it uses nothing but what is
provided to every function; it is loosely autonomous exactly if it uses a function of its island. -/
theorem C96_after_running {E : Env} (hE : E.Ok) {R : Reg} (hR : Reachable E R) {i : Nat} {R' : Reg}
    (hs : start E R i = (R', true)) {o : Obj} (ho : R'.objs[i]? = some o) :
    (isStrictlyAutonomous (.fn o) = some true ↔ ∀ x, Reported o.src x → Provided E o.src x) ∧
    (isLooselyAutonomous (.fn o) = some true ↔
      ∃ x, Reported o.src x ∧ ¬ Provided E o.src x ∧ ∃ g, R'.at ⟨o.portal, o.island, x⟩ = some g) := by
  have hI := reachable_inv hE hR
  obtain ⟨hc, hfull, hrun⟩ := start_full hI.wf hs ho
  have hp := complete_prims (E := E) (b := true) hI.wf i
  rw [hc] at hp
  have hI' := prims_inv hE hI hp
  have hso : StrictOk E R' := by
    have := complete_strictOk (reachable_strictOk hR) i
    rw [hc] at this; exact this
  obtain ⟨r, hr, hrf⟩ := hI'.full i o ho hfull
  obtain ⟨r', q1, q2, q3, q4⟩ := hI'.wf.handle i o ho
  rw [hr] at q1; injection q1 with q1; subst q1
  obtain ⟨j, k1, k2, k3, k4, k5⟩ := hI'.wf.of_at hr
  obtain ⟨d, hd, _⟩ := hI'.done _ r hr hrf
  have hg := hI'.reg hr hd
  have hpo : r.portal = o.portal := by simpa [Obj.key] using congrArg Key.portal k3
  have his : r.island = o.island := by simpa [Obj.key] using congrArg Key.island k3
  rw [hpo, his, q2] at hg
  rw [q2] at k5
  obtain ⟨a, ha, _⟩ := acceptable_analyzes k5
  have hrep : ∀ x, Reported o.src x ↔ x ∈ a.glob ++ a.uncl := fun x =>
    ⟨fun ⟨a', ha', hx⟩ => by rw [show definition o.src = o.src.node from rfl, ha] at ha'; injection ha' with ha'; subst ha'; exact hx, fun hx => ⟨a, ha, hx⟩⟩
  have hcomp : o.compiled = true := by
    unfold runnable at hrun
    simp only [Bool.and_eq_true] at hrun
    exact hrun.1
  have hstrict : o.strict = true ↔ ∀ x, Reported o.src x → Provided E o.src x := by
    constructor
    · intro hst x hx
      -- C45
      unfold runnable at hrun
      simp only [Bool.and_eq_true] at hrun
      obtain ⟨_, hrun⟩ := hrun
      split at hrun
      · cases hrun
      · rename_i d' hd'
        obtain ⟨r2, d0, h1, h2, h3, h4, h5⟩ := dependencies_spec hd'
        rw [hr] at h1; injection h1 with h1; subst h1
        rw [hd] at h2; injection h2 with h2; subst h2
        obtain ⟨y, rfl⟩ := List.length_eq_one_iff.1 (h5 hst)
        have h7 := hg.self
        simp only [List.mem_singleton] at h7
        rcases hg.covers a ha x ((hrep x).1 hx) with h | h
        · exact mem_available h
        · simp only [List.mem_singleton] at h
          exact .inr (.inr (.inr (.inl (h.trans h7.symm))))
    · intro hall
      refine hso i o ho hcomp a ha ?_
      unfold required minus
      rw [List.filter_eq_nil_iff]
      intro x hx
      have := provided_available (hall x ((hrep x).2 hx))
      simpa using this
  refine ⟨by rw [isStrictlyAutonomous, Option.some.injEq]; exact hstrict, ?_⟩
  rw [isLooselyAutonomous, Option.some.injEq, Bool.not_eq_true']
  constructor
  · intro hl
    have hn : ¬ ∀ x, Reported o.src x → Provided E o.src x := fun h => by
      rw [hstrict.2 h] at hl; cases hl
    simp only [not_forall] at hn
    obtain ⟨x, hx, hnp⟩ := hn
    refine ⟨x, hx, hnp, ?_⟩
    rcases hg.covers a ha x ((hrep x).1 hx) with h | h
    · exact absurd (mem_available h) hnp
    · exact hg.names x h
  · rintro ⟨x, hx, hnp, _⟩
    cases hst : o.strict with
    | false => rfl
    | true => exact absurd (hstrict.1 hst x hx) hnp

theorem prim_fixed {E : Env} {b : Bool} {R R' : Reg} (h : Prim E b R R') {i : Nat} {o : Obj} (ho : R.objs[i]? = some o)
    (hf : o.full = true) : ∃ o', R'.objs[i]? = some o' ∧ o'.full = true ∧ o'.strict = o.strict ∧ o'.cls = o.cls := by
  have mod : ∀ (Q : Reg) (m : Nat) (f : Obj → Obj),
      (∃ q, Q.objs[i]? = some q ∧ q.full = true ∧ q.strict = o.strict ∧ q.cls = o.cls) →
      (m = i → ∀ q, Q.objs[i]? = some q → q.full = true → (f q).full = true ∧ (f q).strict = q.strict ∧ (f q).cls = q.cls) →
      ∃ q, (Q.modify m f).objs[i]? = some q ∧ q.full = true ∧ q.strict = o.strict ∧ q.cls = o.cls := by
    rintro Q m f ⟨q, h1, h2, h3, h4⟩ hm
    rw [get_modify, h1]
    by_cases e : m = i
    · obtain ⟨a1, a2, a3⟩ := hm e q h1 h2
      exact ⟨f q, by simp [e], a1, a2.trans h3, a3.trans h4⟩
    · exact ⟨q, by simp [e], h2, h3, h4⟩
  have base : ∃ q, R.objs[i]? = some q ∧ q.full = true ∧ q.strict = o.strict ∧ q.cls = o.cls := ⟨o, ho, hf, rfl, rfl⟩
  have alloc : ∀ (Q : Reg) (x : Obj), Q.objs = R.objs →
      ∃ q, (Q.alloc x).1.objs[i]? = some q ∧ q.full = true ∧ q.strict = o.strict ∧ q.cls = o.cls := by
    intro Q x hQ
    rw [getElem?_alloc]
    have hl : i < R.objs.length := (List.getElem?_eq_some_iff.1 ho).1
    rw [hQ, if_neg (by omega)]
    exact base
  cases h with
  | island p isl =>
    have : (addIsland R p isl).objs = R.objs := by unfold addIsland; split <;> rfl
    rw [this]; exact base
  | handle o1 q o' hq hsrc hd hc hf hu => exact alloc R o' rfl
  | register o1 hq hi ha hf => exact alloc { R with known := R.known ++ [(o1.key, R.objs.length)] } o1 rfl
  | compile m j o1 q c hq =>
    refine mod _ _ _ base fun e q' hq' hf' => ?_
    subst e
    exact ⟨hf', rfl, rfl⟩
  | flip m j o1 q a c hq hm ha hst hl =>
    refine mod _ _ _ base fun e q' hq' hf' => ?_
    subst e
    have := c.obj
    rw [ho] at this; injection this with this; subst this
    have := c.part
    rw [hf] at this; cases this
  | record m j o1 q a d c hq hm ha hst hqq hd hne =>
    have h1 : ∃ q, (recordDeps R m j d).objs[i]? = some q ∧ q.full = true ∧ q.strict = o.strict ∧ q.cls = o.cls :=
      mod _ _ _ (mod _ _ _ base fun _ _ _ h => ⟨h, rfl, rfl⟩) fun _ _ _ h => ⟨h, rfl, rfl⟩
    split
    · exact mod _ _ _ (mod _ _ _ h1 fun _ _ _ h => ⟨rfl, rfl, rfl⟩) fun _ _ _ h => ⟨rfl, rfl, rfl⟩
    · exact h1
  | refresh m j o1 q o' c hq hc hu =>
    refine mod _ _ _ base fun e q' hq' hf' => ?_
    subst e
    have := c.obj
    rw [ho] at this; injection this with this; subst this
    have := c.part
    rw [hf] at this; cases this
  | store m j o1 q es c hc he ha hm =>
    exact mod _ _ _ (mod _ _ _ (mod _ _ _ (mod _ _ _ base fun _ _ _ h => ⟨h, rfl, rfl⟩) fun _ _ _ h => ⟨h, rfl, rfl⟩)
      fun _ _ _ h => ⟨rfl, rfl, rfl⟩) fun _ _ _ h => ⟨rfl, rfl, rfl⟩
  | adopt k' j q es hl hq hf hc hb => exact mod _ _ _ base fun _ _ _ h => ⟨h, rfl, rfl⟩

/-- C96: once the body of a function has run, the answers about this function object are the same forever. -/
theorem C96_then_fixed {E : Env} (hE : E.Ok) {R : Reg} (hR : Reachable E R) {i : Nat} {R' : Reg}
    (hs : start E R i = (R', true)) {o : Obj} (ho : R'.objs[i]? = some o) (ops : List Op) :
    ∃ o', (run E R' ops).objs[i]? = some o' ∧
      isStrictlyAutonomous (.fn o') = isStrictlyAutonomous (.fn o) ∧
      isLooselyAutonomous (.fn o') = isLooselyAutonomous (.fn o) ∧ isPure (.fn o') = isPure (.fn o) := by
  have hI := reachable_inv hE hR
  obtain ⟨hc, hfull, _⟩ := start_full hI.wf hs ho
  have hp := complete_prims (E := E) (b := true) hI.wf i
  rw [hc] at hp
  have hI' := prims_inv hE hI hp
  have hp' := run_prims (E := E) hI'.wf ops
  have : ∀ Q, Prims E true R' Q → ∃ o', Q.objs[i]? = some o' ∧ o'.full = true ∧ o'.strict = o.strict ∧ o'.cls = o.cls := by
    intro Q h
    induction h with
    | refl => exact ⟨o, ho, hfull, rfl, rfl⟩
    | tail h1 h2 ih =>
      obtain ⟨o1, a1, a2, a3, a4⟩ := ih
      obtain ⟨o2, b1, b2, b3, b4⟩ := prim_fixed h2 a1 a2
      exact ⟨o2, b1, b2, b3.trans a3, b4.trans a4⟩
  obtain ⟨o', h1, _, h3, h4⟩ := this _ hp'
  exact ⟨o', h1, by simp [isStrictlyAutonomous, h3], by simp [isLooselyAutonomous, h3], by simp [isPure, h4]⟩

/-- C96: before that, the answer is what the decorator said: a function declared with `@autonomous` or `@pure` that uses no
function of its island is called loosely autonomous until it is run. -/
theorem C96_before_running {R R' : Reg} {d : Decl} {i : Nat} (h : decorate R d = (R', some i))
    (hn : R.at ⟨d.portal, d.island, d.src.name⟩ = none) :
    ∃ o, R'.objs[i]? = some o ∧
      (isStrictlyAutonomous (.fn o) = some true ↔ d.cls = .autonomous ∧ d.strict = true) ∧
      (isPure (.fn o) = some true ↔ d.cls = .pure) := by
  have key : ∀ o : Obj, o.key = ⟨d.portal, d.island, d.src.name⟩ → ∀ R' i, begin R o = (R', some i) →
      R'.objs[i]? = some { o with full := false } := by
    intro o ho R' i hb
    have hat : (addIsland R o.portal o.island).at o.key = R.at o.key := by
      unfold addIsland Reg.at; split <;> rfl
    unfold begin at hb
    dsimp only at hb
    have hk : Obj.key { o with full := false } = o.key := rfl
    rw [hk, hat, ho, hn] at hb
    dsimp only at hb
    split at hb
    · injection hb with h1 h2
      subst h1
      injection h2 with h2
      subst h2
      show (Reg.alloc _ _).1.objs[_]? = _
      rw [getElem?_alloc]
      simp
    · cases hb
  unfold decorate at h
  cases hc : d.cls with
  | autonomous =>
    rw [hc] at h
    exact ⟨_, key _ rfl _ _ h, by simp [isStrictlyAutonomous], by simp [isPure]⟩
  | pure =>
    rw [hc] at h
    dsimp only at h
    cases hg : preprocessGuards R d.portal d.island d.guards with
    | none => rw [hg] at h; cases h
    | some gs =>
      rw [hg] at h
      exact ⟨_, key _ rfl _ _ h, by simp [isStrictlyAutonomous], by simp [isPure]⟩

/-! ### an example -/
namespace Ex

/-- `g` uses `f`; `f` uses a builtin -/
def K : Reg := run E {} [aut (fn "f" ["len"]), aut (fn "g" ["f"]), pur (fn "h" ["print"])]

example : Reachable E K := ⟨_, rfl⟩
/-- before running, all are loosely autonomous -/
example : (K.objs.map fun o => isLooselyAutonomous (.fn o)) = [some true, some true, some true] := by decide +kernel
/-- all of them can be run; then `f` and `h` are strictly autonomous, `g` is not -/
example : (start E K 0).2 = true ∧ (start E (start E K 0).1 1).2 = true ∧
    (start E (start E (start E K 0).1 1).1 2).2 = true := by
  refine ⟨?_, ?_, ?_⟩ <;> decide +kernel
example : ((start E (start E (start E K 0).1 1).1 2).1.objs.map fun o => isStrictlyAutonomous (.fn o)) =
    [some true, some false, some true] := by decide +kernel

end Ex
end Pyth.Registry
