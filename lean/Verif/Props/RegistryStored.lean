import Verif.Proofs.RegistryStored
import Verif.Props.RegistryRestore
/-!
# Stored autonomous functions: C100

A function object can be stored like any value; what is stored is its pickled state.  `pickle E R i` is what is stored for
function object `i`, `restore E R p s` is reading the stored state `s` in a block of portal `p`: the handle of the new
function object, or an exception.
-/
set_option linter.unusedVariables false
namespace Pyth.Registry
open Pyth.Analyzer

/-- C100: storing an autonomous function always works, changes nothing in the session, and the stored state consists of
the island, the source and the mark whether the function is strictly autonomous. -/
theorem C100_stored {E : Env} {R : Reg} {i : Nat} {o : Obj} (ho : R.objs[i]? = some o) (hc : o.cls = .autonomous) :
    pickle E R i = (R, some (.autonomous o.island o.src o.strict)) := by
  simp [pickle, ho, hc]

/-- C100: what was stored for an autonomous function in one session can be read in any other session, in every portal in
which no function of this name is known in the island: this registers the stored source and decorator, and no other
function is affected. -/
theorem C100_loaded {E E' : Env} (hE : E.Ok) (hE' : E'.Ok) {R : Reg} (hR : Reachable E R) {i : Nat} {R1 : Reg}
    {isl : String} {s : Src} {st : Bool} (hpk : pickle E R i = (R1, some (.autonomous isl s st)))
    {R0 : Reg} (hR0 : Reachable E' R0) {p : Nat} (hfree : R0.at ⟨p, isl, s.name⟩ = none) :
    ∃ R3 k o, restore E' R0 p (.autonomous isl s st) = (R3, some k) ∧
      R3.objs[k]? = some o ∧ o.portal = p ∧ o.island = isl ∧ o.src = s ∧ o.strict = st ∧
      R3.at ⟨p, isl, s.name⟩ = some o ∧ o.deco = (if st then .strictly isl else .autonomous isl) ∧
      ∀ k', k' ≠ ⟨p, isl, s.name⟩ → R3.at k' = R0.at k' := by
  have hI := reachable_inv hE hR
  have hI0 := reachable_inv hE' hR0
  have hacc : acceptable s = true := by
    unfold pickle at hpk
    cases ho : R.objs[i]? with
    | none => rw [ho] at hpk; cases hpk
    | some o =>
      rw [ho] at hpk; dsimp only at hpk
      obtain ⟨r, q1, q2, _⟩ := hI.wf.handle i o ho
      obtain ⟨_, _, _, _, _, k5⟩ := hI.wf.of_at q1
      cases hc : o.cls with
      | autonomous =>
        rw [hc] at hpk
        injection hpk with _ h; injection h with h; injection h with _ h _
        rw [← h, ← q2]; exact k5
      | pure =>
        rw [hc] at hpk; dsimp only at hpk
        split at hpk
        · cases hpk
        · split at hpk
          · cases hpk
          · split at hpk
            · cases hpk
            · split at hpk <;> cases hpk
  obtain ⟨R3, k, b1, b2, b3, b4, b5, b6, b7⟩ := begin_free hI0.wf
    { cls := .autonomous, portal := p, island := isl, src := s, strict := st } rfl hacc (.inl hfree)
  obtain ⟨b8, b9⟩ := b7 hfree
  refine ⟨R3, k, _, b1, b8, rfl, rfl, rfl, rfl, ?_, rfl, ?_⟩
  · unfold Reg.at
    exact (congrArg (·.bind fun j => R3.objs[j]?) b9).trans b8
  · intro k' hk'
    cases h : R0.at k' with
    | none =>
      cases h3 : R3.at k' with
      | none => rfl
      | some r =>
        rcases b6 k' r h3 with h' | h'
        · rw [h] at h'; cases h'
        · exact absurd h' hk'
    | some r =>
      obtain ⟨j, h1, h2, _⟩ := hI0.wf.of_at h
      unfold Reg.at
      obtain ⟨t, ht⟩ := b3.known
      rw [← ht, List.lookup_append, h1]
      simp only [Option.some_or, Option.bind_some]
      obtain ⟨u, hu⟩ := b3.objs
      rw [← hu, List.getElem?_append_left (List.getElem?_eq_some_iff.1 h2).1, h2]

/-- C100 (partial): the function read (as in `C100_loaded`) can be executed, after any further functions have been
declared, exactly if every name that it needs is a builtin, a name of the library or its own name, or - unless it was
stored as strictly autonomous - the name of a function that is known in the island by then.  Condition: no function of
the island is named like a builtin or a name of the library.

So the claim without a condition on the names is false: what the function depends on is not stored with it (it is for a
pure function, C51). -/
theorem C100_runs_iff_partial {E E' : Env} (hE : E.Ok) (hE' : E'.Ok) {R : Reg} (hR : Reachable E R) {i : Nat} {R1 : Reg}
    {isl : String} {s : Src} {st : Bool} (hpk : pickle E R i = (R1, some (.autonomous isl s st)))
    {R0 : Reg} (hR0 : Reachable E' R0) {p : Nat} (hfree : R0.at ⟨p, isl, s.name⟩ = none) {R3 : Reg} {k : Nat}
    (hload : restore E' R0 p (.autonomous isl s st) = (R3, some k)) (ds : List Decl) {R4 : Reg}
    (hR4 : R4 = run E' R3 (ds.map .decorate)) (hres : ∀ x r, R4.at ⟨p, isl, x⟩ = some r → ¬ Reserved E' x) :
    (start E' R4 k).2 = true ↔
      ∀ x, NeedsFound s x → Provided E' s x ∨ st = false ∧ ∃ g, R4.at ⟨p, isl, x⟩ = some g := by
  obtain ⟨Q3, k', o, l1, l2, l3, l4, l5, l6, l7, l8, l9⟩ := C100_loaded hE hE' hR hpk hR0 hfree
  rw [hload] at l1; injection l1 with l1 l1'; injection l1' with l1'; subst l1 l1'
  have hReach4 : Reachable E' R4 := by
    obtain ⟨ops, rfl⟩ := hR0
    refine ⟨ops ++ [.restore p (.autonomous isl s st)] ++ ds.map .decorate, ?_⟩
    rw [run_append, run_append, hR4]
    have e : run E' (run E' {} ops) [.restore p (.autonomous isl s st)] = R3 := by
      show (restore E' (run E' {} ops) p (.autonomous isl s st)).1 = R3
      rw [hload]
    rw [e]
  have hI4 := reachable_inv hE' hReach4
  have hg := decorates_grow E' R3 ds
  rw [← hR4] at hg
  -- the new object is unchanged
  have hI0 := reachable_inv hE' hR0
  have hkey : o.key = ⟨p, isl, s.name⟩ := by rw [← l3, ← l4, ← l5]; rfl
  obtain ⟨b8, b9⟩ : R3.objs[k]? = some { cls := .autonomous, portal := p, island := isl, src := s, strict := st } ∧
      R3.known.lookup ⟨p, isl, s.name⟩ = some k := by
    have hacc : acceptable s = true := by
      have hI3 : Inv E' R3 := by
        have := reachable_inv hE' (R := R3) (by
          obtain ⟨ops, rfl⟩ := hR0
          refine ⟨ops ++ [.restore p (.autonomous isl s st)], ?_⟩
          rw [run_append]
          show R3 = (restore E' (run E' {} ops) p (.autonomous isl s st)).1
          rw [hload])
        exact this
      obtain ⟨_, _, _, _, _, k5⟩ := hI3.wf.of_at l7
      rw [← l5]; exact k5
    obtain ⟨Q, n, b1, b2, b3, b4, b5, b6, b7⟩ := begin_free hI0.wf
      { cls := .autonomous, portal := p, island := isl, src := s, strict := st } rfl hacc (.inl hfree)
    have e : begin R0 { cls := .autonomous, portal := p, island := isl, src := s, strict := st } = (R3, some k) := hload
    rw [b1] at e; injection e with e1 e2; injection e2 with e2; subst e1 e2
    exact b7 hfree
  have ho4 : R4.objs[k]? = some { cls := .autonomous, portal := p, island := isl, src := s, strict := st } := by
    obtain ⟨t, ht⟩ := hg.objs
    rw [← ht, List.getElem?_append_left (List.getElem?_eq_some_iff.1 b8).1, b8]
  have hk4 : R4.known.lookup ⟨p, isl, s.name⟩ = some k := by
    obtain ⟨t, ht⟩ := hg.known
    rw [← ht, List.lookup_append, b9]; rfl
  exact start_first_iff hE' hI4 ho4 hk4 rfl rfl hres

/-- C100: a function that was executed in its session and was stored as strictly autonomous can be executed wherever it is
read with the same builtins, in every portal in which no function of this name is known in the island (condition: no
function of the island is named like a builtin or a name of the library). -/
theorem C100_strict_runs_everywhere {E E' : Env} (hE : E.Ok) (hE' : E'.Ok) (hb : E'.builtins = E.builtins)
    {R : Reg} (hR : Reachable E R) {i : Nat} {R1 R2 : Reg} (hrun : start E R i = (R1, true))
    {isl : String} {s : Src} (hpk : pickle E R1 i = (R2, some (.autonomous isl s true)))
    {R0 : Reg} (hR0 : Reachable E' R0) {p : Nat} (hfree : R0.at ⟨p, isl, s.name⟩ = none)
    (hres : ∀ x r, R0.at ⟨p, isl, x⟩ = some r → ¬ Reserved E' x) (hname : ¬ Reserved E' s.name) :
    ∃ R3 k, restore E' R0 p (.autonomous isl s true) = (R3, some k) ∧ (start E' R3 k).2 = true := by
  have hR1 : Reachable E R1 := by
    obtain ⟨ops, rfl⟩ := hR
    refine ⟨ops ++ [.start i], ?_⟩
    rw [run_append]
    show R1 = (start E (run E {} ops) i).1
    rw [hrun]
  obtain ⟨R3, k, o, l1, l2, l3, l4, l5, l6, l7, l8, l9⟩ := C100_loaded hE hE' hR1 hpk hR0 hfree
  refine ⟨R3, k, l1, ?_⟩
  refine (C100_runs_iff_partial hE hE' hR1 hpk hR0 hfree l1 [] rfl ?_).2 ?_
  · intro x r hx
    by_cases e : x = s.name
    · rw [e]; exact hname
    · have hx : R3.at ⟨p, isl, x⟩ = some r := hx
      rw [l9 ⟨p, isl, x⟩ (by simpa using e)] at hx
      exact hres x r hx
  · intro x hx
    left
    -- the function as it was executed
    have hI := reachable_inv hE hR
    obtain ⟨q, hq, hcomp, d', hdep⟩ := start_spec hrun
    have hq2 : q.src = s ∧ q.strict = true := by
      unfold pickle at hpk
      rw [hq] at hpk; dsimp only at hpk
      cases hc : q.cls with
      | autonomous =>
        rw [hc] at hpk
        injection hpk with _ h; injection h with h; injection h with _ h1 h2
        exact ⟨h1, h2⟩
      | pure =>
        rw [hc] at hpk; dsimp only at hpk
        split at hpk
        · cases hpk
        · split at hpk
          · cases hpk
          · split at hpk
            · cases hpk
            · split at hpk <;> cases hpk
    have hI1 := reachable_inv hE hR1
    obtain ⟨rr, d, e1, e2, e3, e4, e5⟩ := dependencies_spec hdep
    have hgood := hI1.reg e1 e2
    obtain ⟨rx, q1, q2, q3, q4⟩ := hI1.wf.handle i q hq
    rw [e1] at q1; injection q1 with q1; subst q1
    obtain ⟨a, ha, hx⟩ := hx
    rw [q2, hq2.1] at hgood
    obtain ⟨y, hy⟩ := List.length_eq_one_iff.1 (e5 hq2.2)
    have hs := hgood.self
    rw [hy] at hs
    simp only [List.mem_singleton] at hs
    have : Provided E s x := by
      rcases hgood.covers a ha x hx with h | h
      · exact mem_available h
      · rw [hy] at h
        simp only [List.mem_singleton] at h
        exact .inr (.inr (.inr (.inl (h.trans hs.symm))))
    unfold Provided at this ⊢
    rwa [hb]

/-- C100: where a function of this name is known in the island already, reading a stored autonomous function works exactly
if the known function is autonomous too, has the same source and the same mark as strictly autonomous (and is not marked
as completed without ever having been compiled, see C48). -/
theorem C100_known_iff {E' : Env} (hE' : E'.Ok) {R0 : Reg} (hR0 : Reachable E' R0) {p : Nat} {isl : String} {s : Src} {st : Bool}
    {r : Obj} (hr : R0.at ⟨p, isl, s.name⟩ = some r) :
    (∃ R3 k, restore E' R0 p (.autonomous isl s st) = (R3, some k)) ↔
      r.src = s ∧ r.cls = .autonomous ∧ r.strict = st ∧ (r.full = true → r.compiled = true) := by
  have hI0 := reachable_inv hE' hR0
  have hisl : r.island = isl := by
    obtain ⟨j, _, _, h, _⟩ := hI0.wf.of_at hr
    simpa [Obj.key] using congrArg Key.island h
  by_cases hs : r.src = s
  swap
  · refine ⟨?_, fun h => absurd h.1 hs⟩
    rintro ⟨R3, k, h⟩
    rw [(C47_different_pickle_rejected hE' hR0 hr (fun e => hs e.symm) st none []).1] at h
    cases h
  cases hc : r.cls with
  | pure =>
    refine ⟨?_, fun h => by cases h.2.1⟩
    rintro ⟨R3, k, h⟩
    exfalso
    have h : begin R0 { cls := .autonomous, portal := p, island := isl, src := s, strict := st } = (R3, some k) := h
    rw [begin_at_some hI0.wf { cls := .autonomous, portal := p, island := isl, src := s, strict := st } hr] at h
    rw [if_neg] at h
    · cases h
    · rintro ⟨_, _, h3⟩
      rw [hc] at h3; cases h3
  | autonomous =>
    have := begin_again_iff hI0.wf (o := { cls := .autonomous, portal := p, island := isl, src := s, strict := st }) hr hs.symm hc.symm
    show (∃ R3 k, begin R0 { cls := .autonomous, portal := p, island := isl, src := s, strict := st } = (R3, some k)) ↔ _
    rw [this]
    have hd : ((({ cls := .autonomous, portal := p, island := isl, src := s, strict := st } : Obj).deco = r.deco) ↔ r.strict = st) := by
      simp only [Obj.deco, hc, hisl]
      cases st <;> cases r.strict <;> simp
    rw [hd]
    exact ⟨fun h => ⟨hs, rfl, h.1, h.2⟩, fun h => ⟨h.2.2.1, h.2.2.2⟩⟩

end Pyth.Registry

namespace Pyth.Registry.Ex
open Pyth.Analyzer

/-- a session with `g`, and `f`, which uses `g` and `len` -/
def ops100 : List Op := [aut (fn "g" ["len"]), aut (fn "f" ["g", "len"]), .start 1]
def stored100 : Pickled := .autonomous "I" (fn "f" ["g", "len"]) false
/-- the function as read in a new session -/
def load100 : Reg := (restore E {} 0 stored100).1
/-- the declaration of `g` in the new session -/
def declG : Decl := { cls := .autonomous, portal := 0, island := "I", src := fn "g" ["len"] }

theorem stored100_eq : pickle E (run E {} ops100) 1 = (run E {} ops100, some stored100) :=
  Prod.ext (by decide +kernel) (by decide +kernel)
theorem load100_eq : (restore E {} 0 stored100).2 = some 0 := by decide +kernel

example := C100_stored (E := E) (R := run E {} ops100) (i := 1)
  (o := { cls := .autonomous, portal := 0, island := "I", src := fn "f" ["g", "len"], strict := false, full := true, compiled := true,
          deps := some ["f", "g"] }) (by decide +kernel) rfl

example := C100_loaded E_ok E_ok (R := run E {} ops100) ⟨_, rfl⟩ stored100_eq (R0 := run E {} [strictly (fn "h" [])]) ⟨_, rfl⟩ (p := 0) (by decide +kernel)

theorem names100 (ds : List Decl) (l : List String) (h : (run E load100 (ds.map .decorate)).known.map (fun e => e.1.name) = l)
    (hl : ∀ x ∈ l, ¬ Reserved E x) (x : String) (r : Obj) (hr : (run E load100 (ds.map .decorate)).at ⟨0, "I", x⟩ = some r) : ¬ Reserved E x := by
  apply hl
  rw [← h]
  simp only [Reg.at, Option.bind_eq_some_iff] at hr
  obtain ⟨j, h1, _⟩ := hr
  exact List.mem_map.2 ⟨_, lookup_mem _ h1, rfl⟩

-- `C100_runs_iff_partial`: read in a new session, `f` can be executed once `g` is declared there, and not before
example := C100_runs_iff_partial E_ok E_ok (R := run E {} ops100) ⟨_, rfl⟩ stored100_eq (R0 := {}) ⟨[], rfl⟩ (p := 0) rfl
  (R3 := load100) (k := 0) (Prod.ext rfl load100_eq) [declG] rfl
  (names100 _ ["f", "g"] (by decide +kernel) (by simp [Reserved, E, allDecorators]))
example : (start E (run E load100 [.decorate declG]) 0).2 = true ∧ (start E load100 0).2 = false := by decide +kernel

-- `C100_strict_runs_everywhere`: `g`, executed and stored, runs in a new session that has a function `f`
example := C100_strict_runs_everywhere E_ok E_ok rfl (R := run E {} [aut (fn "g" ["len"])]) ⟨_, rfl⟩ (i := 0)
  (R1 := (start E (run E {} [aut (fn "g" ["len"])]) 0).1) (R2 := (start E (run E {} [aut (fn "g" ["len"])]) 0).1)
  (Prod.ext rfl (by decide +kernel)) (isl := "I") (s := fn "g" ["len"]) (Prod.ext (by decide +kernel) (by decide +kernel))
  (R0 := load100) ⟨[.restore 0 stored100], rfl⟩ (p := 0) (by decide +kernel)
  (names100 [] ["f"] (by decide +kernel) (by simp [Reserved, E, allDecorators])) (by simp [Reserved, E, allDecorators, fn])

-- `C100_known_iff`: `f` is accepted by a session that knows it, also if it has not been executed there
example : (restore E (run E {} [aut (fn "g" ["len"]), aut (fn "f" ["g", "len"])]) 0 stored100).2 = some 2 := by decide +kernel

/-- C100 is false of the code for functions that use other functions: `f`, which was executed, is stored and read in a new
session, and fails there, because `g` is not stored with it. -/
theorem C100_dependencies_counterexample :
    (start E (run E {} [aut (fn "g" ["len"]), aut (fn "f" ["g", "len"])]) 1).2 = true ∧
    (pickle E (run E {} ops100) 1).2 = some stored100 ∧
    (restore E {} 0 stored100).2 = some 0 ∧ (start E (restore E {} 0 stored100).1 0).2 = false := by
  decide +kernel

/-- C100 is false of the code for functions stored before their first execution: `f` is stored, then executed, and then
what was stored cannot be read any more in this session; and `f` has another stored state (hence another address) before
its first execution than after it. -/
theorem C100_stored_before_execution_counterexample :
    (pickle E (run E {} [aut (fn "f" [])]) 0).2 = some (.autonomous "I" (fn "f" []) false) ∧
    (start E (run E {} [aut (fn "f" [])]) 0).2 = true ∧
    (restore E (run E {} [aut (fn "f" []), .start 0]) 0 (.autonomous "I" (fn "f" []) false)).2 = none ∧
    (pickle E (run E {} [aut (fn "f" []), .start 0]) 0).2 = some (.autonomous "I" (fn "f" []) true) := by
  decide +kernel

end Pyth.Registry.Ex
