import Verif.Proofs.PureBase
/-! The reference semantics: fuel, determinism, order of arguments. -/
set_option linter.unusedSectionVars false
set_option linter.unusedVariables false
set_option linter.unusedSimpArgs false
namespace Pyth.Pure
open Pyth.World Pyth.Portal

variable {U A α β γ δ : Type} [DecidableEq U] [DecidableEq A]

/-! ### sorting keyword arguments -/

theorem sortKw_idem (kw : List (String × γ)) : sortKw (sortKw kw) = sortKw kw :=
  sortKw_of_sorted (sortKw_sorted kw)

theorem orderedInsert_forall₂ {R : String × γ → String × δ → Prop} (hR : ∀ a b, R a b → a.1 = b.1)
    {a : String × γ} {b : String × δ} (hab : R a b) {l : List (String × γ)} {l' : List (String × δ)}
    (h : List.Forall₂ R l l') :
    List.Forall₂ R (l.orderedInsert (fun a b => a.1 ≤ b.1) a) (l'.orderedInsert (fun a b => a.1 ≤ b.1) b) := by
  induction h with
  | nil => exact .cons hab .nil
  | @cons x y l l' hxy hl ih =>
    simp only [List.orderedInsert]
    have e : (a.1 ≤ x.1) = (b.1 ≤ y.1) := by rw [hR a b hab, hR x y hxy]
    by_cases hc : b.1 ≤ y.1
    · rw [if_pos hc, if_pos (e ▸ hc)]
      exact .cons hab (.cons hxy hl)
    · rw [if_neg hc, if_neg (e ▸ hc)]
      exact .cons hxy ih

theorem sortKw_forall₂ {R : String × γ → String × δ → Prop} (hR : ∀ a b, R a b → a.1 = b.1)
    {l : List (String × γ)} {l' : List (String × δ)} (h : List.Forall₂ R l l') :
    List.Forall₂ R (sortKw l) (sortKw l') := by
  unfold sortKw
  induction h with
  | nil => exact .nil
  | cons hxy hl ih => exact orderedInsert_forall₂ hR hxy ih

theorem sorted_forall₂ {R : String × γ → String × δ → Prop} (hR : ∀ a b, R a b → a.1 = b.1)
    {l : List (String × γ)} {l' : List (String × δ)} (h : List.Forall₂ R l l')
    (hs : l.Pairwise (fun a b => a.1 ≤ b.1)) : l'.Pairwise (fun a b => a.1 ≤ b.1) := by
  have e : l'.map Prod.fst = l.map Prod.fst := by
    clear hs
    induction h with
    | nil => rfl
    | cons hxy hl ih => simp [hR _ _ hxy, ih]
  have h1 : (l.map Prod.fst).Pairwise (· ≤ ·) := List.pairwise_map.2 hs
  rw [← e] at h1
  exact List.pairwise_map.1 h1

theorem sortKw_rawKw (vals : List (String × U)) : sortKw (rawKw vals) = rawKw (sortKw vals) := by
  have h : List.Forall₂ (fun (x : String × Arg U) (y : String × U) => x = (y.1, Arg.raw y.2)) (rawKw vals) vals := by
    induction vals with
    | nil => exact .nil
    | cons a l ih => exact .cons rfl ih
  have := sortKw_forall₂ (fun a b h => by rw [h]) h
  generalize sortKw (rawKw vals) = L at this
  generalize sortKw vals = M at this
  induction this with
  | nil => rfl
  | cons hxy hl ih => rw [hxy, ih]; rfl

/-- two arrangements of the same arguments, with different names, are sorted to the same list -/
theorem sortKw_eq_of_perm {l l' : List (String × γ)} (hp : l.Perm l') (hn : (l.map Prod.fst).Nodup) :
    sortKw l = sortKw l' := by
  have hp' : (sortKw l).Perm (sortKw l') := ((sortKw_perm l).trans hp).trans (sortKw_perm l').symm
  have hs : (sortKw l).Pairwise (fun a b => a.1 < b.1) := by
    have hn' : ((sortKw l).map Prod.fst).Nodup := (((sortKw_perm l).map Prod.fst).nodup_iff).2 hn
    have h1 := sortKw_sorted l
    have h2 : (sortKw l).Pairwise (fun a b => a.1 ≠ b.1) := List.pairwise_map.1 hn'
    exact (h1.and h2).imp fun h => lt_of_le_of_ne h.1 h.2
  have hs' : (sortKw l').Pairwise (fun a b => a.1 < b.1) := by
    have hn' : ((sortKw l').map Prod.fst).Nodup :=
      ((((sortKw_perm l').trans hp.symm).map Prod.fst).nodup_iff).2 hn
    have h1 := sortKw_sorted l'
    have h2 : (sortKw l').Pairwise (fun a b => a.1 ≠ b.1) := List.pairwise_map.1 hn'
    exact (h1.and h2).imp fun h => lt_of_le_of_ne h.1 h.2
  exact hp'.eq_of_pairwise (fun a b _ _ h h' => absurd (lt_trans h h') (lt_irrefl _)) hs hs'

/-! ### outcomes of cut-off computations -/

/-- a computation cut off at depth `n` terminates with `r` -/
def Dn (R : Nat → Except Kind α) (r : Except Kind α) : Prop := r ≠ .error diverge ∧ ∃ n, R n = r

/-- more depth does not change an outcome -/
def Cut (R : Nat → Except Kind α) : Prop :=
  ∀ n m, n ≤ m → R n ≠ .error diverge → R m = R n

theorem Dn.unique {R : Nat → Except Kind α} (hR : Cut R) {r r' : Except Kind α} (h : Dn R r) (h' : Dn R r') :
    r = r' := by
  obtain ⟨h1, n, h2⟩ := h
  obtain ⟨h1', m, h2'⟩ := h'
  rcases Nat.le_total n m with hl | hl
  · rw [← h2', hR n m hl (by rw [h2]; exact h1), h2]
  · rw [← h2, hR m n hl (by rw [h2']; exact h1'), h2']

/-- an exception of kind `k` raised with remaining depth `n` -/
def XAg (R : Nat → Except Kind α) (n : Nat) (k : Kind) : Prop :=
  (k = diverge ∧ R n = .error diverge) ∨ (k ≠ diverge ∧ Dn R (.error k))

def seqR (R : Nat → Except Kind α) (S : α → Nat → Except Kind β) : Nat → Except Kind β := fun n =>
  match R n with
  | .ok a => S a n
  | .error e => .error e

theorem Cut.seq {R : Nat → Except Kind α} {S : α → Nat → Except Kind β} (hR : Cut R) (hS : ∀ a, Cut (S a)) :
    Cut (seqR R S) := by
  intro n m hnm h
  unfold seqR at h ⊢
  have := hR n m hnm
  cases e : R n with
  | ok a =>
    rw [e] at h this
    rw [this (by simp)]
    exact hS a n m hnm h
  | error k =>
    rw [e] at h this
    simp only at h
    rw [this (by simpa using h)]

theorem Dn.seq {R : Nat → Except Kind α} {S : α → Nat → Except Kind β} (hR : Cut R) (hS : ∀ a, Cut (S a))
    {a : α} {r : Except Kind β} (h : Dn R (.ok a)) (h' : Dn (S a) r) : Dn (seqR R S) r := by
  obtain ⟨_, n, h2⟩ := h
  obtain ⟨h3, m, h4⟩ := h'
  refine ⟨h3, max n m, ?_⟩
  unfold seqR
  rw [hR n _ (Nat.le_max_left _ _) (by rw [h2]; simp), h2]
  simp only
  rw [hS a m _ (Nat.le_max_right _ _) (by rw [h4]; exact h3), h4]

theorem Dn.seqErr {R : Nat → Except Kind α} {S : α → Nat → Except Kind β} {k : Kind} (h : Dn R (.error k)) :
    Dn (seqR R S) (.error k) := by
  obtain ⟨h1, n, h2⟩ := h
  refine ⟨fun e => h1 (by cases e; rfl), n, ?_⟩
  unfold seqR; rw [h2]

theorem XAg.seqErr {R : Nat → Except Kind α} {S : α → Nat → Except Kind β} {k : Kind} {n : Nat} (h : XAg R n k) :
    XAg (seqR R S) n k := by
  rcases h with ⟨h1, h2⟩ | ⟨h1, h2⟩
  · exact .inl ⟨h1, by unfold seqR; rw [h2]⟩
  · exact .inr ⟨h1, h2.seqErr⟩

theorem XAg.seq {R : Nat → Except Kind α} {S : α → Nat → Except Kind β} (hR : Cut R) (hS : ∀ a, Cut (S a))
    {a : α} {k : Kind} {n : Nat} (h : Dn R (.ok a)) (h' : XAg (S a) n k) : XAg (seqR R S) n k := by
  rcases h' with ⟨h1, h2⟩ | ⟨h1, h2⟩
  · refine .inl ⟨h1, ?_⟩
    unfold seqR
    cases e : R n with
    | ok b =>
      have : Dn R (.ok b) := ⟨by simp, n, e⟩
      have := Dn.unique hR this h
      cases this
      exact h2
    | error k' =>
      simp only
      by_cases hk : k' = diverge
      · rw [hk]
      · have : Dn R (.error k') := ⟨fun e => hk (by cases e; rfl), n, e⟩
        have := Dn.unique hR this h
        cases this
  · exact .inr ⟨h1, h.seq hR hS h2⟩

/-- one step of nesting -/
def stepR (R : Nat → Except Kind α) : Nat → Except Kind α
  | 0 => .error diverge
  | n + 1 => R n

theorem Cut.step {R : Nat → Except Kind α} (h : Cut R) : Cut (stepR R) := by
  intro n m hnm hne
  cases n with
  | zero => exact absurd rfl hne
  | succ n =>
    cases m with
    | zero => omega
    | succ m => exact h n m (by omega) hne

theorem Dn.step {R : Nat → Except Kind α} {r : Except Kind α} (h : Dn R r) : Dn (stepR R) r :=
  ⟨h.1, h.2.choose + 1, h.2.choose_spec⟩

theorem XAg.step {R : Nat → Except Kind α} {n : Nat} {k : Kind} (h : XAg R n k) : XAg (stepR R) (n + 1) k := by
  rcases h with ⟨h1, h2⟩ | ⟨h1, h2⟩
  · exact .inl ⟨h1, h2⟩
  · exact .inr ⟨h1, h2.step⟩

theorem cut_const (r : Except Kind α) : Cut (fun _ => r) := fun _ _ _ _ => rfl

/-- catching exceptions other than the cut-off -/
def catchR (R : Nat → Except Kind α) : Nat → Except Kind (Except Kind α) := fun n =>
  match R n with
  | .ok a => .ok (.ok a)
  | .error e => if e = diverge then .error diverge else .ok (.error e)

theorem Cut.catch {R : Nat → Except Kind α} (h : Cut R) : Cut (catchR R) := by
  intro n m hnm hne
  unfold catchR at hne ⊢
  cases e : R n with
  | ok a => rw [h n m hnm (by rw [e]; simp), e]
  | error k =>
    rw [e] at hne
    by_cases hk : k = diverge
    · simp [hk] at hne
    · rw [h n m hnm (by rw [e]; intro he; cases he; exact hk rfl), e]

theorem dn_catch_ok {R : Nat → Except Kind α} {a : α} (h : Dn R (.ok a)) : Dn (catchR R) (.ok (.ok a)) := by
  obtain ⟨_, n, h2⟩ := h
  exact ⟨by simp, n, by unfold catchR; rw [h2]⟩

theorem dn_catch_err {R : Nat → Except Kind α} {k : Kind} (hk : k ≠ diverge) (h : Dn R (.error k)) :
    Dn (catchR R) (.ok (.error k)) := by
  obtain ⟨_, n, h2⟩ := h
  exact ⟨by simp, n, by unfold catchR; rw [h2]; simp [hk]⟩

theorem xag_catch {R : Nat → Except Kind α} {n : Nat} (h : R n = .error diverge) : XAg (catchR R) n diverge :=
  .inl ⟨rfl, by unfold catchR; rw [h]; simp⟩

/-! ### the reference semantics -/

/-- code, as a family over depth -/
def bodyR (rec : FnId → List (String × U) → Nat → Except Kind U) (b : Body U) : Nat → Except Kind U :=
  fun n => refBody (fun f v => rec f v n) b

theorem bodyR_call (rec : FnId → List (String × U) → Nat → Except Kind U) (g : FnId) (kw : List (String × U))
    (k : U → Body U) : bodyR rec (.call g kw k) = seqR (rec g kw) (fun u => bodyR rec (k u)) := by
  funext n
  unfold bodyR seqR
  simp only [refBody]
  cases rec g kw n <;> rfl

theorem bodyR_tryCall (rec : FnId → List (String × U) → Nat → Except Kind U) (g : FnId) (kw : List (String × U))
    (k : Except Kind U → Body U) :
    bodyR rec (.tryCall g kw k) = seqR (catchR (rec g kw)) (fun r => bodyR rec (k r)) := by
  funext n
  unfold bodyR seqR catchR
  simp only [refBody]
  cases rec g kw n with
  | ok u => rfl
  | error e =>
    simp only
    by_cases he : e = diverge
    · simp [he]
    · simp [he]

theorem cut_body {rec : FnId → List (String × U) → Nat → Except Kind U} (h : ∀ f v, Cut (rec f v)) (b : Body U) :
    Cut (bodyR rec b) := by
  induction b with
  | ret u => exact cut_const _
  | raise n => exact cut_const _
  | call g kw k ih => rw [bodyR_call]; exact (h g kw).seq ih
  | tryCall g kw k ih => rw [bodyR_tryCall]; exact (h g kw).catch.seq ih
  | print t b ih => exact ih
  | draw k ih => exact cut_const _

def guardsR (rec : FnId → List (String × U) → Nat → Except Kind U) (v : List (String × U)) (gs : List FnId) :
    Nat → Except Kind Unit := fun n => refGuards (fun f v => rec f v n) v gs

theorem guardsR_cons (rec : FnId → List (String × U) → Nat → Except Kind U) (v : List (String × U)) (g : FnId)
    (gs : List FnId) : guardsR rec v (g :: gs) = seqR (rec g v) (fun _ => guardsR rec v gs) := by
  funext n; unfold guardsR seqR; simp only [refGuards]; cases rec g v n <;> rfl

theorem cut_guards {rec : FnId → List (String × U) → Nat → Except Kind U} (h : ∀ f v, Cut (rec f v))
    (v : List (String × U)) (gs : List FnId) : Cut (guardsR rec v gs) := by
  induction gs with
  | nil => exact cut_const _
  | cons g gs ih => rw [guardsR_cons]; exact (h g v).seq fun _ => ih

/-- the reference semantics as a family over depth -/
def refR (prog : FnId → Fn U) (f : FnId) (v : List (String × U)) : Nat → Except Kind U := fun n => ref prog n f v

/-- outcome of the code, given the outcome of the guards -/
def gateR (R : Nat → Except Kind U) : Except Kind Unit → Nat → Except Kind U
  | .ok _ => R
  | .error _ => fun _ => .error .assertionError

def pureR (prog : FnId → Fn U) (f : FnId) (v : List (String × U)) : Nat → Except Kind U :=
  seqR (catchR (guardsR (refR prog) v (prog f).guards))
    (gateR (bodyR (refR prog) ((prog f).body (rawKw (sortKw v)))))

theorem ref_pure {prog : FnId → Fn U} {f : FnId} (hf : (prog f).isPure = true) (v : List (String × U)) :
    refR prog f v = stepR (pureR prog f v) := by
  funext n
  cases n with
  | zero => rfl
  | succ n =>
    simp only [refR, ref, hf, if_true, stepR, pureR, seqR, catchR, guardsR]
    cases refGuards (ref prog n) v (prog f).guards with
    | ok a => rfl
    | error e =>
      simp only
      by_cases he : e = diverge
      · simp [he]
      · simp [he, gateR]

theorem ref_aut {prog : FnId → Fn U} {f : FnId} (hf : (prog f).isPure = false) (v : List (String × U)) :
    refR prog f v = stepR (bodyR (refR prog) ((prog f).body (rawKw v))) := by
  funext n
  cases n with
  | zero => rfl
  | succ n => simp [refR, ref, hf, stepR, bodyR]

theorem refBody_mono {r r' : FnId → List (String × U) → Except Kind U}
    (h : ∀ g w, r g w ≠ .error diverge → r' g w = r g w) (b : Body U) :
    refBody r b ≠ .error diverge → refBody r' b = refBody r b := by
  induction b with
  | ret u => exact fun _ => rfl
  | raise n => exact fun _ => rfl
  | call g kw k ih =>
    intro hne
    simp only [refBody] at hne ⊢
    cases e : r g kw with
    | ok u => rw [e] at hne; rw [h g kw (by rw [e]; simp), e]; exact ih u hne
    | error x => rw [e] at hne; rw [h g kw (by rw [e]; exact hne), e]
  | tryCall g kw k ih =>
    intro hne
    simp only [refBody] at hne ⊢
    cases e : r g kw with
    | ok u => rw [e] at hne; rw [h g kw (by rw [e]; simp), e]; exact ih _ hne
    | error x =>
      rw [e] at hne
      by_cases hx : x = diverge
      · simp [hx] at hne
      · rw [h g kw (by rw [e]; intro he; cases he; exact hx rfl), e]
        simp only [hx, if_false] at hne ⊢
        exact ih _ hne
  | print t b ih => exact ih
  | draw k ih => exact fun _ => rfl

theorem refGuards_mono {r r' : FnId → List (String × U) → Except Kind U}
    (h : ∀ g w, r g w ≠ .error diverge → r' g w = r g w) (v : List (String × U)) (gs : List FnId) :
    refGuards r v gs ≠ .error diverge → refGuards r' v gs = refGuards r v gs := by
  induction gs with
  | nil => exact fun _ => rfl
  | cons g gs ih =>
    intro hne
    simp only [refGuards] at hne ⊢
    cases e : r g v with
    | ok u => rw [e] at hne; rw [h g v (by rw [e]; simp), e]; exact ih hne
    | error x =>
      rw [e] at hne
      rw [h g v (by rw [e]; intro he; cases he; exact hne rfl), e]

theorem ref_mono (prog : FnId → Fn U) : ∀ n m, n ≤ m → ∀ f v, ref prog n f v ≠ .error diverge →
    ref prog m f v = ref prog n f v := by
  intro n
  induction n with
  | zero => intro m _ f v h; exact absurd rfl h
  | succ n ih =>
    intro m hm f v hne
    cases m with
    | zero => omega
    | succ m =>
      have ih' := ih m (by omega)
      simp only [ref] at hne ⊢
      by_cases hp : (prog f).isPure = true
      · simp only [hp, if_true] at hne ⊢
        cases e : refGuards (ref prog n) v (prog f).guards with
        | ok a =>
          rw [e] at hne
          rw [refGuards_mono ih' v _ (by rw [e]; simp), e]
          exact refBody_mono ih' _ hne
        | error x =>
          rw [e] at hne
          by_cases hx : x = diverge
          · simp [hx] at hne
          · rw [refGuards_mono ih' v _ (by rw [e]; intro he; cases he; exact hx rfl), e]
      · simp only [hp] at hne ⊢
        exact refBody_mono ih' _ hne

theorem cut_ref (prog : FnId → Fn U) (f : FnId) (v : List (String × U)) : Cut (refR prog f v) :=
  fun n m hnm hne => ref_mono prog n m hnm f v hne

theorem cut_pure (prog : FnId → Fn U) (f : FnId) (v : List (String × U)) : Cut (pureR prog f v) := by
  refine (cut_guards (cut_ref prog) v _).catch.seq fun r => ?_
  cases r with
  | ok _ => exact cut_body (cut_ref prog) _
  | error _ => exact cut_const _

theorem den_iff (prog : FnId → Fn U) (f : FnId) (v : List (String × U)) (r : Except Kind U) :
    Den prog f v r ↔ Dn (refR prog f v) r := Iff.rfl

theorem Den.unique {prog : FnId → Fn U} {f : FnId} {v : List (String × U)} {r r' : Except Kind U}
    (h : Den prog f v r) (h' : Den prog f v r') : r = r' := Dn.unique (cut_ref prog f v) h h'

/-- the order of keyword arguments does not matter -/
theorem ref_sort {prog : FnId → Fn U} (hd : DetProg prog) : ∀ n f v, ref prog n f (sortKw v) = ref prog n f v := by
  intro n
  induction n with
  | zero => intro f v; rfl
  | succ n ih =>
    intro f v
    have hg : ∀ gs, refGuards (ref prog n) (sortKw v) gs = refGuards (ref prog n) v gs := by
      intro gs
      induction gs with
      | nil => rfl
      | cons g gs ihg => simp only [refGuards, ih, ihg]
    simp only [ref, hg, sortKw_idem, hd.order]

theorem refR_sort {prog : FnId → Fn U} (hd : DetProg prog) (f : FnId) (v : List (String × U)) :
    refR prog f (sortKw v) = refR prog f v := by funext n; exact ref_sort hd n f v

end Pyth.Pure
