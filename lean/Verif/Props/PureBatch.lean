import Verif.Props.PureCalls
import Verif.Proofs.PureNone
import Verif.Model.Grid
import Mathlib.Data.List.Count
import Mathlib.Algebra.BigOperators.Group.List.Basic
/-!
# Batches: C32, C33
-/
set_option linter.unusedSectionVars false
set_option linter.unusedVariables false
namespace Pyth.Pure
open Pyth.World Pyth.Portal
open Pyth.ValueAddr (IsAddr HoldsVal)

variable {U A : Type} [DecidableEq U] [DecidableEq A] {addrOf : Val U A → A}

/-- `rs` are addresses of the calls of `f` with the given argument values, in this order, bound to portal `p` -/
def AddressesInOrder (addrOf : Val U A → A) (s : PWorld U A) (p : PortalId) (f : FnId) (vs : List (List (String × U)))
    (rs : List Nat) : Prop := List.Forall₂ (fun vals r => IsResAddr s r (keyOf addrOf f vals) p) vs rs

/-- What `swarm_list` does to requests and results, from state `s` to `s'`: a call of the batch is requested exactly
if it has no result yet, calls that have no result in any portal are requested, and of all other calls
and portals neither requests nor results are touched. -/
structure ExactlyRequested (addrOf : Val U A → A) (s s' : PWorld U A) (p : PortalId) (f : FnId)
    (vs : List (List (String × U))) : Prop where
  iff : ∀ vals ∈ vs, Requested addrOf s' p f vals ↔ NoResult addrOf s' p f vals
  missing : ∀ vals ∈ vs, NoResultAnywhere addrOf s f vals → Requested addrOf s' p f vals
  others : ∀ q k, ¬ (q = p ∧ ∃ vals ∈ vs, k = keyOf addrOf f vals) →
    s'.ext.requests q k = s.ext.requests q k ∧ (s'.ext.results q).data k = (s.ext.results q).data k

theorem addrFor_key {s : PWorld U A} {f : FnId} {p : PortalId} {kw : Kw U} {vals : List (String × U)} {r : Nat}
    (h : AddrFor addrOf False f p kw vals r s) : IsResAddr s r (keyOf addrOf f vals) p := by
  obtain ⟨ts, _, h2, h3⟩ := h
  obtain rfl := h3.resolve_left id
  exact h2.1

theorem addrsFor_order {s : PWorld U A} {f : FnId} {p : PortalId} {l : List (Kw U)} {vs : List (List (String × U))} {rs : List Nat}
    (hl : l.length = vs.length) (h : AddrsFor addrOf False f p l vs rs s) : AddressesInOrder addrOf s p f vs rs := by
  induction vs generalizing l rs with
  | nil =>
    cases l with
    | nil => cases h; exact .nil
    | cons => cases hl
  | cons v vs ih =>
    cases l with
    | nil => cases hl
    | cons kw l =>
      unfold AddrsFor at h
      rw [List.zip_cons_cons] at h
      cases h with
      | cons h1 h2 => exact .cons (addrFor_key h1) (ih (by simpa using hl) h2)

theorem AddressesInOrder.mem {s : PWorld U A} {f : FnId} {p : PortalId} {vs : List (List (String × U))} {rs : List Nat}
    (h : AddressesInOrder addrOf s p f vs rs) : (∀ vals ∈ vs, ∃ r ∈ rs, IsResAddr s r (keyOf addrOf f vals) p) ∧
      ∀ r ∈ rs, ∃ vals ∈ vs, IsResAddr s r (keyOf addrOf f vals) p := by
  induction h with
  | nil => simp
  | cons h _ ih =>
    refine ⟨fun v hv => ?_, fun r hr => ?_⟩
    · rcases List.mem_cons.1 hv with rfl | hv
      · exact ⟨_, by simp, h⟩
      · obtain ⟨r, hr, h'⟩ := ih.1 v hv
        exact ⟨r, by simp [hr], h'⟩
    · rcases List.mem_cons.1 hr with rfl | hr
      · exact ⟨_, by simp, h⟩
      · obtain ⟨v, hv, h'⟩ := ih.2 r hr
        exact ⟨v, by simp [hv], h'⟩

theorem swarmed_exactly {K : Accept U} {s s' : PWorld U A} {p : PortalId} {f : FnId} {vs : List (List (String × U))} {rs : List Nat}
    (ha : AddressesInOrder addrOf s' p f vs rs) (h : Swarmed p rs s s')
    (hnn : ∀ k, NoneAt k s → NoneAt k s') : ExactlyRequested addrOf s s' p f vs := by
  have hex : ∀ vals ∈ vs, Exact s' p (keyOf addrOf f vals) := by
    intro vals hv
    obtain ⟨r, hr, h1⟩ := ha.mem.1 vals hv
    obtain ⟨k, h2, h3⟩ := h.1 r hr
    rw [(RIs.unique h1 h2).1]; exact h3
  have hiff : ∀ vals ∈ vs, Requested addrOf s' p f vals ↔ NoResult addrOf s' p f vals := by
    intro vals hv
    have := hex vals hv
    unfold Exact at this
    unfold Requested NoResult
    rw [this]
    cases (s'.ext.results p).data (keyOf addrOf f vals) <;> simp
  refine ⟨hiff, fun vals hv hn => (hiff vals hv).2 (hnn _ hn p), fun q k hq => h.2 q k fun hT => hq ⟨hT.1, ?_⟩⟩
  obtain ⟨r, hr, h1⟩ := hT.2
  obtain ⟨vals, hv, h2⟩ := ha.mem.2 r hr
  exact ⟨vals, hv, (RIs.unique h1 h2).1⟩

theorem Hoare.run {P : PWorld U A → Prop} {m : PM U A α} (h : Hoare P m (fun _ => P) P) {s : PWorld U A} (hp : P s) :
    P (m s).2 := by
  rcases he : m s with ⟨r, s'⟩
  cases r with
  | ok a => exact (h s hp).1 a s' he
  | error e => exact (h s hp).2 e s' he

/-- **C32** `swarm_list` returns one address per argument set, in the order of the list, whatever the order in which
the requests are made, and requests exactly the calls of the batch that have no result. -/
theorem C32_swarm_list (hinj : Function.Injective addrOf) (prog : FnId → Fn U) {s : PWorld U A} (hs : Reached addrOf prog s)
    (p : PortalId) (f : FnId) (shuffle : List Nat → List Nat) (hsh : ∀ l, (shuffle l).Perm l) {l : List (Kw U)}
    {vs : List (List (String × U))} (hkw : List.Forall₂ (DenKw addrOf s) l vs) :
    ∃ rs s', swarmList addrOf shuffle p f l s = (.ok rs, s') ∧ AddressesInOrder addrOf s' p f vs rs ∧
      ExactlyRequested addrOf s s' p f vs := by
  obtain ⟨rs, s', e, ⟨h1, h2⟩, hb⟩ := ((sp_swarmList (K := anything U) (c := none) (R := False) hinj p f shuffle hsh l vs hkw.length_eq s).conseq
    (fun _ h => h) (fun _ _ h => h) (fun _ _ h => h)).total (hs.good hinj) ⟨.inr hkw, sameFree.refl s⟩
  have ha := addrsFor_order hkw.length_eq h1
  refine ⟨rs, s', e, ha, swarmed_exactly (K := anything U) ha h2 fun k hk => ?_⟩
  have := Hoare.run (noNew_swarmList (addrOf := addrOf) (k := k) shuffle p f l) hk
  rw [e] at this; exact this

/-- **C32** If `run_list` returns, it returns one address per argument set, in the order of the list, whatever the
order of requests and executions, and every call of the batch has a stored result. -/
theorem C32_run_list (hinj : Function.Injective addrOf) (prog : FnId → Fn U) {s : PWorld U A} (hs : Reached addrOf prog s)
    (p : PortalId) {f : FnId} (hf : (prog f).isPure = true) (sh1 sh2 : List Nat → List Nat) (h1 : ∀ l, (sh1 l).Perm l)
    (h2 : ∀ l, (sh2 l).Perm l) {l : List (Kw U)} {vs : List (List (String × U))} (hkw : List.Forall₂ (DenKw addrOf s) l vs)
    (n : Nat) {rs : List Nat} {s' : PWorld U A} (he : runList addrOf prog n sh1 sh2 p f l s = (.ok rs, s')) :
    AddressesInOrder addrOf s' p f vs rs ∧ ∀ vals ∈ vs, ∃ u, Stored addrOf s' p f vals u := by
  have h := (sp_runList (K := anything U) (c := none) (R := False) hinj (mode_any prog) (fun h => h.elim) p f hf (.inl trivial) n sh1 sh2 h1 h2 l vs hkw.length_eq).at
    (hs.good hinj) (.inr hkw)
  rw [he] at h
  obtain ⟨h3, h4⟩ := h.2.1 rs rfl
  have ha := addrsFor_order hkw.length_eq h3
  refine ⟨ha, fun vals hv => ?_⟩
  obtain ⟨r, hr, h5⟩ := ha.mem.1 vals hv
  obtain ⟨k, h6, h7⟩ := h4 r hr
  rw [(RIs.unique h6 h5).1] at h7
  obtain ⟨u, hu, _⟩ := Stored.of_isSome (h.1.good (hs.good hinj)) h7
  exact ⟨u, hu⟩

/-- **C32** For a deterministic program with pure guards: the stored results are those of the reference semantics; if
`run_list` raises, this is the exception of one of the calls (or that call was cut off at depth `n`). -/
theorem C32_run_list_values (hinj : Function.Injective addrOf) {prog : FnId → Fn U} (hd : DetProg prog) (hg : PureGuards prog)
    {s : PWorld U A} (hs : ReachedDet addrOf prog s)
    (p : PortalId) {f : FnId} (hf : (prog f).isPure = true) (sh1 sh2 : List Nat → List Nat) (h1 : ∀ l, (sh1 l).Perm l)
    (h2 : ∀ l, (sh2 l).Perm l) {l : List (Kw U)} {vs : List (List (String × U))} (hkw : List.Forall₂ (DenKw addrOf s) l vs)
    (n : Nat) : match runList addrOf prog n sh1 sh2 p f l s with
      | (.ok rs, s') => AddressesInOrder addrOf s' p f vs rs ∧ ∀ vals ∈ vs, ∃ u, Stored addrOf s' p f vals u ∧ Den prog f vals (.ok u)
      | (.error e, s') => ∃ vals ∈ vs, (e.kind = diverge ∧ ref prog n f vals = .error diverge) ∨ Den prog f vals (.error e.kind) := by
  have h := (sp_runList (K := correct prog) (E := False) (c := none) (R := False) hinj (mode_det hd) (fun h => h.elim) p f hf (.inr hg) n sh1 sh2 h1 h2 l vs hkw.length_eq).at
    (hs.good hinj hd) (.inr hkw)
  rcases he : runList addrOf prog n sh1 sh2 p f l s with ⟨r, s'⟩
  rw [he] at h
  cases r with
  | ok rs =>
    obtain ⟨h3, h4⟩ := h.2.1 rs rfl
    have ha := addrsFor_order hkw.length_eq h3
    refine ⟨ha, fun vals hv => ?_⟩
    obtain ⟨r, hr, h5⟩ := ha.mem.1 vals hv
    obtain ⟨k, h6, h7⟩ := h4 r hr
    rw [(RIs.unique h6 h5).1] at h7
    obtain ⟨u, hu, hK⟩ := Stored.of_isSome (h.1.good (hs.good hinj hd)) h7
    obtain ⟨a, m, b⟩ := (show Den prog f (sortKw vals) (.ok u) from hK)
    exact ⟨u, hu, a, m, by rw [ref_sort hd] at b; exact b⟩
  | error e =>
    obtain ⟨vals, hv, h⟩ := (h.2.2 e rfl).resolve_left id
    exact ⟨vals, hv, h.imp id fun h => h.2⟩

/-! ### C33 -/

theorem mem_product {γ : Type} (g : List (String × List γ)) (c : List (String × γ)) :
    c ∈ product g ↔ List.Forall₂ (fun x y => y.1 = x.1 ∧ y.2 ∈ x.2) g c := by
  induction g generalizing c with
  | nil => simp [product]
  | cons x g ih =>
    obtain ⟨n, vs⟩ := x
    simp only [product, List.mem_flatMap, List.mem_map]
    constructor
    · rintro ⟨v, hv, c', hc, rfl⟩
      exact .cons ⟨rfl, hv⟩ ((ih c').1 hc)
    · intro h
      cases h with
      | @cons _ y _ c' h1 h2 =>
        obtain ⟨m, v⟩ := y
        exact ⟨v, h1.2, c', (ih c').2 h2, by rw [show m = n from h1.1]⟩

/-- how often the combination `c` can be chosen from the lists: the product of the numbers of occurrences of its
values in the corresponding lists -/
def occurrences {γ : Type} [DecidableEq γ] : List (String × List γ) → List (String × γ) → Nat
  | [], [] => 1
  | (x, vs) :: g, (y, v) :: c => if x = y then vs.count v * occurrences g c else 0
  | _, _ => 0

theorem count_product {γ : Type} [DecidableEq γ] (g : List (String × List γ)) (c : List (String × γ)) :
    (product g).count c = occurrences g c := by
  induction g generalizing c with
  | nil => cases c <;> simp [product, occurrences]
  | cons x g ih =>
    obtain ⟨n, vs⟩ := x
    cases c with
    | nil =>
      simp only [product, occurrences]
      rw [List.count_eq_zero]
      simp
    | cons y c =>
      obtain ⟨m, v⟩ := y
      simp only [product, occurrences]
      rw [← ih c]
      by_cases hn : n = m
      · subst hn
        rw [if_pos rfl]
        induction vs with
        | nil => simp
        | cons w vs ihv =>
          rw [List.flatMap_cons, List.count_append, ihv, List.count_cons]
          by_cases hw : w = v
          · subst hw
            rw [List.count_map_of_injective _ _ (fun a b h => by simpa using h)]
            simp [Nat.add_mul, Nat.add_comm]
          · have : ((product g).map fun c => (n, w) :: c).count ((n, v) :: c) = 0 := by
              rw [List.count_eq_zero]
              simp [hw]
            rw [this]; simp [hw]
      · rw [if_neg hn, List.count_eq_zero]
        simp [hn]

theorem length_product {γ : Type} (g : List (String × List γ)) : (product g).length = (g.map fun x => x.2.length).prod := by
  induction g with
  | nil => rfl
  | cons x g ih =>
    obtain ⟨n, vs⟩ := x
    simp [product, ih]

/-- **C33** The list built from a grid consists of exactly the combinations that give every parameter one of its listed
values, each as often as its values are listed; it has as many elements as the product of the numbers of
listed values; and it does not depend on the order in which the parameters are written. -/
theorem C33_grid_is_product {γ : Type} [DecidableEq γ] (grid : List (String × List γ)) :
    (∀ c, c ∈ gridOf grid ↔ List.Forall₂ (fun x y => y.1 = x.1 ∧ y.2 ∈ x.2) (sortKw grid) c) ∧
    (∀ c, (gridOf grid).count c = occurrences (sortKw grid) c) ∧
    (gridOf grid).length = (grid.map fun x => x.2.length).prod ∧
    ∀ grid' : List (String × List γ), (grid.map Prod.fst).Nodup → grid'.Perm grid → gridOf grid' = gridOf grid := by
  refine ⟨mem_product _, count_product _, ?_, fun grid' hn hp => ?_⟩
  · unfold gridOf
    rw [length_product]
    exact ((sortKw_perm grid).map _).prod_eq
  · unfold gridOf
    rw [sortKw_eq_of_perm hp.symm hn]

theorem sortKw_map {γ δ : Type} (h : γ → δ) (l : List (String × γ)) :
    sortKw (l.map fun x => (x.1, h x.2)) = (sortKw l).map fun x => (x.1, h x.2) := by
  have : List.Forall₂ (fun (x : String × δ) (y : String × γ) => x = (y.1, h y.2)) (l.map fun x => (x.1, h x.2)) l := by
    induction l with
    | nil => exact .nil
    | cons a l ih => exact .cons rfl ih
  have := sortKw_forall₂ (fun a b h => by rw [h]) this
  generalize sortKw (l.map fun x => (x.1, h x.2)) = L at this
  generalize sortKw l = M at this
  induction this with
  | nil => rfl
  | cons hxy hl ih => rw [hxy, ih]; rfl

theorem product_raw (g : List (String × List U)) :
    product (g.map fun x => (x.1, x.2.map Arg.raw)) = (product g).map rawKw := by
  induction g with
  | nil => rfl
  | cons x g ih =>
    obtain ⟨n, vs⟩ := x
    simp only [product, List.map_cons, ih]
    simp [rawKw, List.map_flatMap, List.flatMap_map, Function.comp_def]

theorem gridOf_raw (g : List (String × List U)) :
    gridOf (g.map fun x => (x.1, x.2.map Arg.raw)) = (gridOf g).map rawKw := by
  unfold gridOf
  rw [sortKw_map (fun l : List U => l.map Arg.raw), product_raw]

theorem grid_den (s : PWorld U A) (g : List (String × List U)) :
    List.Forall₂ (DenKw addrOf s) (gridOf (g.map fun x => (x.1, x.2.map Arg.raw))) (gridOf g) := by
  rw [gridOf_raw]
  generalize gridOf g = l
  induction l with
  | nil => exact .nil
  | cons v l ih => exact .cons (denKw_raw s v) ih

/-- **C33** `swarm_grid` returns the addresses of exactly these calls, in this order, and requests those without a
result. -/
theorem C33_swarm_grid (hinj : Function.Injective addrOf) (prog : FnId → Fn U) {s : PWorld U A} (hs : Reached addrOf prog s)
    (p : PortalId) (f : FnId) (shuffle : List Nat → List Nat) (hsh : ∀ l, (shuffle l).Perm l) (grid : List (String × List U)) :
    ∃ rs s', swarmGrid addrOf shuffle p f (grid.map fun x => (x.1, x.2.map Arg.raw)) s = (.ok rs, s') ∧
      AddressesInOrder addrOf s' p f (gridOf grid) rs ∧ ExactlyRequested addrOf s s' p f (gridOf grid) := by
  have hkw := grid_den (addrOf := addrOf) s grid
  have hsp := sp_swarmList (K := anything U) (c := some p) (R := False) hinj p f shuffle hsh
    (gridOf (grid.map fun x => (x.1, x.2.map Arg.raw))) (gridOf grid) hkw.length_eq s
  obtain ⟨rs, s', e, ⟨h1, h2⟩, hb⟩ := (Sp.withP (c := none) (fun _ _ _ _ _ _ h => h) (fun _ _ _ _ _ _ _ h => h) (fun _ => fr_const _) hsp).total
    (hs.good hinj) ⟨.inr hkw, sameFree.refl s⟩
  have ha := addrsFor_order hkw.length_eq h1
  refine ⟨rs, s', e, ha, swarmed_exactly (K := anything U) ha h2 fun k hk => ?_⟩
  have := Hoare.run (noNew_withP p (noNew_swarmList (addrOf := addrOf) (k := k) shuffle p f (gridOf (grid.map fun x => (x.1, x.2.map Arg.raw))))) hk
  rw [e] at this; exact this

/-- **C33** If `run_grid` returns, it returns the addresses of exactly these calls, in this order, and all of them have
a stored result. -/
theorem C33_run_grid (hinj : Function.Injective addrOf) (prog : FnId → Fn U) {s : PWorld U A} (hs : Reached addrOf prog s)
    (p : PortalId) {f : FnId} (hf : (prog f).isPure = true) (sh1 sh2 : List Nat → List Nat) (h1 : ∀ l, (sh1 l).Perm l)
    (h2 : ∀ l, (sh2 l).Perm l) (grid : List (String × List U)) (n : Nat) {rs : List Nat} {s' : PWorld U A}
    (he : runGrid addrOf prog n sh1 sh2 p f (grid.map fun x => (x.1, x.2.map Arg.raw)) s = (.ok rs, s')) :
    AddressesInOrder addrOf s' p f (gridOf grid) rs ∧ ∀ vals ∈ gridOf grid, ∃ u, Stored addrOf s' p f vals u := by
  have hkw := grid_den (addrOf := addrOf) s grid
  have hsp := sp_runList (K := anything U) (c := some p) (R := False) hinj (mode_any prog) (fun h => h.elim) p f hf (.inl trivial) n sh1 sh2 h1 h2
    (gridOf (grid.map fun x => (x.1, x.2.map Arg.raw))) (gridOf grid) hkw.length_eq
  have h := (Sp.withP (c := none) (fun _ _ _ _ _ _ h => h) (fun _ _ _ _ _ _ _ h => h) (fun _ => fr_const _) hsp).at
    (hs.good hinj) (.inr hkw)
  unfold runGrid at he
  rw [he] at h
  obtain ⟨h3, h4⟩ := h.2.1 rs rfl
  have ha := addrsFor_order hkw.length_eq h3
  refine ⟨ha, fun vals hv => ?_⟩
  obtain ⟨r, hr, h5⟩ := ha.mem.1 vals hv
  obtain ⟨k, h6, h7⟩ := h4 r hr
  rw [(RIs.unique h6 h5).1] at h7
  obtain ⟨u, hu, _⟩ := Stored.of_isSome (h.1.good (hs.good hinj)) h7
  exact ⟨u, hu⟩

end Pyth.Pure

namespace Pyth.Pure.Ex
open Pyth.World Pyth.Portal

/-- C32: a batch of three calls of `fib`, requested and run in reverse order; the second and third is the same call.
The addresses are numbered as created, `fib(4)` first. -/
example : (runList addrOf prog 9 List.reverse List.reverse 0 2 [[("n", .raw 4)], [("n", .raw 1)], [("n", .raw 1)]]
      (start none fun _ => 0)).1.toOption = some [0, 1, 2] ∧
    List.Forall₂ (DenKw addrOf (start none fun _ => 0)) [[("n", .raw 4)], [("n", .raw 1)]] [[("n", 4)], [("n", 1)]] :=
  ⟨by decide +kernel, .cons (denKw_raw _ [("n", 4)]) (.cons (denKw_raw _ [("n", 1)]) .nil)⟩

/-- C32: requested but not run -/
example : let s' := (swarmList addrOf List.reverse 0 2 [[("n", .raw 4)], [("n", .raw 1)]] (start none fun _ => 0)).2
    Requested addrOf s' 0 2 [("n", 4)] ∧ Requested addrOf s' 0 2 [("n", 1)] ∧ ¬ Requested addrOf s' 0 2 [("n", 2)] := by
  unfold Requested; decide +kernel

/-- C33 -/
example : gridOf [("y", [1, 2]), ("x", [3, 4])] =
    [[("x", 3), ("y", 1)], [("x", 3), ("y", 2)], [("x", 4), ("y", 1)], [("x", 4), ("y", 2)]] := by decide

end Pyth.Pure.Ex
