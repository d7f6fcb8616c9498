import Verif.Spec.Mutable
/-! # Proofs for C108: objects that change -/
set_option linter.unusedSectionVars false
namespace Pyth.Mutable

variable {C A : Type} [DecidableEq A]

/-! ## Relations between states -/

/-- what never goes away -/
structure Later (s s' : St C A) : Prop where
  store : ∀ a c, s.store a = some c → s'.store a = some c
  sigs : ∀ a d, s.sigs a = some d → s'.sigs a = some d
  results : ∀ a r, s.results a = some r → s'.results a = some r
  len : s.objs.length ≤ s'.objs.length
  vas : ∀ (j : Nat) v, s.vas[j]? = some v → ∃ v', s'.vas[j]? = some v' ∧ v'.text = v.text ∧
    ∀ i, v.value = some i → v'.value = some i
  ras : ∀ (r : Nat) o, s.ras[r]? = some o → ∃ o', s'.ras[r]? = some o' ∧ o'.key = o.key ∧
    (∀ f l, o.fn = some f → o.args = some l → o'.fn = some f ∧ o'.args = some l) ∧
    ∀ i, o.result = some i → o'.result = some i

theorem Later.refl (s : St C A) : Later s s :=
  ⟨fun _ _ h => h, fun _ _ h => h, fun _ _ h => h, Nat.le_refl _, fun _ v h => ⟨v, h, rfl, fun _ h => h⟩,
    fun _ o h => ⟨o, h, rfl, fun _ _ h1 h2 => ⟨h1, h2⟩, fun _ h => h⟩⟩

theorem Later.trans {s t u : St C A} (h1 : Later s t) (h2 : Later t u) : Later s u where
  store a c h := h2.store a c (h1.store a c h)
  sigs a c h := h2.sigs a c (h1.sigs a c h)
  results a c h := h2.results a c (h1.results a c h)
  len := Nat.le_trans h1.len h2.len
  vas j v h := by
    obtain ⟨v', a, b, c⟩ := h1.vas j v h
    obtain ⟨v'', a', b', c'⟩ := h2.vas j v' a
    exact ⟨v'', a', b'.trans b, fun i hi => c' i (c i hi)⟩
  ras r o h := by
    obtain ⟨v', a, b, c, d⟩ := h1.ras r o h
    obtain ⟨v'', a', b', c', d'⟩ := h2.ras r v' a
    exact ⟨v'', a', b'.trans b, fun f l hf hl => c' f l (c f l hf hl).1 (c f l hf hl).2, fun i hi => d' i (d i hi)⟩

/-- no object is changed, no address object is touched -/
structure Quiet (s s' : St C A) : Prop where
  store : ∀ a c, s.store a = some c → s'.store a = some c
  sigs : ∀ a d, s.sigs a = some d → s'.sigs a = some d
  results : s'.results = s.results
  objs : ∀ (i : Nat) c, s.objs[i]? = some c → s'.objs[i]? = some c
  vas : ∀ (j : Nat) v, s.vas[j]? = some v → s'.vas[j]? = some v
  ras : ∀ (r : Nat) o, s.ras[r]? = some o → s'.ras[r]? = some o

theorem Quiet.refl (s : St C A) : Quiet s s :=
  ⟨fun _ _ h => h, fun _ _ h => h, rfl, fun _ _ h => h, fun _ _ h => h, fun _ _ h => h⟩

theorem Quiet.trans {s t u : St C A} (h1 : Quiet s t) (h2 : Quiet t u) : Quiet s u where
  store a c h := h2.store a c (h1.store a c h)
  sigs a c h := h2.sigs a c (h1.sigs a c h)
  results := h2.results.trans h1.results
  objs a c h := h2.objs a c (h1.objs a c h)
  vas a c h := h2.vas a c (h1.vas a c h)
  ras a c h := h2.ras a c (h1.ras a c h)

theorem length_le_of_get {α : Type} {l l' : List α} (h : ∀ (i : Nat) c, l[i]? = some c → l'[i]? = some c) :
    l.length ≤ l'.length := by
  rcases Nat.lt_or_ge l'.length l.length with hl | hl
  · have h1 := h l'.length l[l'.length] (List.getElem?_eq_getElem hl)
    rw [List.getElem?_eq_none (Nat.le_refl _)] at h1
    exact absurd h1 (by simp)
  · exact hl

theorem Quiet.later {s s' : St C A} (h : Quiet s s') : Later s s' :=
  ⟨h.store, h.sigs, by intro a r hr; rw [h.results]; exact hr, length_le_of_get h.objs,
    fun j v hv => ⟨v, h.vas j v hv, rfl, fun _ h => h⟩,
    fun r o ho => ⟨o, h.ras r o ho, rfl, fun _ _ h1 h2 => ⟨h1, h2⟩, fun _ h => h⟩⟩

theorem get_append {α : Type} {l m : List α} {i : Nat} {c : α} (h : l[i]? = some c) : (l ++ m)[i]? = some c := by
  have hl : i < l.length := by
    rcases Nat.lt_or_ge i l.length with hl | hl
    · exact hl
    · rw [List.getElem?_eq_none hl] at h; exact absurd h (by simp)
  rw [List.getElem?_append_left hl]; exact h

/-! ## Primitive operations -/

variable (hash : Data C A → A)

theorem newObj_quiet (c : C) (s : St C A) : Quiet s (newObj c s).2 :=
  { Quiet.refl s with objs := fun _ _ h => get_append h }

theorem newVA_quiet (v : VA A) (s : St C A) : Quiet s (newVA v s).2 :=
  { Quiet.refl s with vas := fun _ _ h => get_append h }

theorem newRA_quiet (v : RA A) (s : St C A) : Quiet s (newRA v s).2 :=
  { Quiet.refl s with ras := fun _ _ h => get_append h }

theorem content_state (i : Ref) (s : St C A) : (content i s).2 = s := by
  unfold content; cases s.objs[i]? <;> rfl

theorem readVA_state (i : VIx) (s : St C A) : (readVA i s).2 = s := by
  unfold readVA; cases s.vas[i]? <;> rfl

theorem readRA_state (i : RIx) (s : St C A) : (readRA i s).2 = s := by
  unfold readRA; cases s.ras[i]? <;> rfl

theorem content_ok {i : Ref} {s s' : St C A} {c : C} (h : content i s = (.ok c, s')) : s.objs[i]? = some c ∧ s' = s := by
  unfold content at h
  cases hi : s.objs[i]? with
  | none => rw [hi] at h; simp at h
  | some d => rw [hi] at h; simp at h; exact ⟨by rw [h.1], h.2.symm⟩

theorem readVA_ok {i : VIx} {s s' : St C A} {c : VA A} (h : readVA i s = (.ok c, s')) : s.vas[i]? = some c ∧ s' = s := by
  unfold readVA at h
  cases hi : s.vas[i]? with
  | none => rw [hi] at h; simp at h
  | some d => rw [hi] at h; simp at h; exact ⟨by rw [h.1], h.2.symm⟩

theorem readRA_ok {i : RIx} {s s' : St C A} {c : RA A} (h : readRA i s = (.ok c, s')) : s.ras[i]? = some c ∧ s' = s := by
  unfold readRA at h
  cases hi : s.ras[i]? with
  | none => rw [hi] at h; simp at h
  | some d => rw [hi] at h; simp at h; exact ⟨by rw [h.1], h.2.symm⟩

theorem storeSet_quiet (a : A) (c : C) (s : St C A) : Quiet s (storeSet a c s).2 :=
  { Quiet.refl s with
    store := by
      intro b d h
      show (if b = a ∧ s.store a = none then some c else s.store b) = some d
      by_cases hb : b = a ∧ s.store a = none
      · rw [hb.1] at h; rw [hb.2] at h; exact absurd h (by simp)
      · rw [if_neg hb]; exact h }

theorem sigSet_quiet (a : A) (c : FnId × List (String × A)) (s : St C A) : Quiet s (sigSet a c s).2 :=
  { Quiet.refl s with
    sigs := by
      intro b d h
      show (if b = a ∧ s.sigs a = none then some c else s.sigs b) = some d
      by_cases hb : b = a ∧ s.sigs a = none
      · rw [hb.1] at h; rw [hb.2] at h; exact absurd h (by simp)
      · rw [if_neg hb]; exact h }

theorem quiet_bind {α β : Type} {m : M C A α} {k : α → M C A β} {s : St C A} (hm : Quiet s (m s).2)
    (hk : ∀ a s', m s = (.ok a, s') → Quiet s' (k a s').2) : Quiet s ((m >>= k) s).2 := by
  rw [PyM.run_bind]
  cases h : m s with
  | mk r s' => cases r with
    | error e => rw [h] at hm; exact hm
    | ok a => rw [h] at hm; exact hm.trans (hk a s' h)

theorem later_bind {α β : Type} {m : M C A α} {k : α → M C A β} {s : St C A} (hm : Later s (m s).2)
    (hk : ∀ a s', m s = (.ok a, s') → Later s' (k a s').2) : Later s ((m >>= k) s).2 := by
  rw [PyM.run_bind]
  cases h : m s with
  | mk r s' => cases r with
    | error e => rw [h] at hm; exact hm
    | ok a => rw [h] at hm; exact hm.trans (hk a s' h)

theorem bind_ok {α β : Type} {m : M C A α} {k : α → M C A β} {s s' : St C A} {b : β}
    (h : (m >>= k) s = (.ok b, s')) : ∃ a t, m s = (.ok a, t) ∧ k a t = (.ok b, s') := by
  rw [PyM.run_bind] at h
  cases hm : m s with
  | mk r t => cases r with
    | error e => rw [hm] at h; simp at h
    | ok a => rw [hm] at h; exact ⟨a, t, rfl, h⟩

theorem valueAddr_quiet (i : Ref) (s : St C A) : Quiet s (valueAddr hash i s).2 := by
  unfold valueAddr
  refine quiet_bind (by rw [content_state]; exact Quiet.refl s) fun c s1 _ => ?_
  refine quiet_bind (storeSet_quiet _ _ _) fun _ s2 _ => ?_
  exact newVA_quiet _ _

theorem convert_quiet (j : VIx) (s : St C A) : Quiet s (convert j s).2 := by
  unfold convert
  refine quiet_bind (by rw [readVA_state]; exact Quiet.refl s) fun c s1 _ => ?_
  exact newVA_quiet _ _

theorem packOne_quiet (a : Arg) (s : St C A) : Quiet s (packOne hash a s).2 := by
  cases a with
  | obj i => exact valueAddr_quiet hash i s
  | addr j => exact convert_quiet j s

theorem pack_quiet (l : List (String × Arg)) (s : St C A) : Quiet s (pack hash l s).2 := by
  induction l generalizing s with
  | nil => exact Quiet.refl s
  | cons x l ih =>
    obtain ⟨k, a⟩ := x
    rw [pack]
    refine quiet_bind (packOne_quiet hash a s) fun j s1 _ => ?_
    exact quiet_bind (ih s1) fun _ s2 _ => Quiet.refl s2

theorem state_bind {α β : Type} {m : M C A α} {k : α → M C A β} {s : St C A} (hm : (m s).2 = s)
    (hk : ∀ a, (k a s).2 = s) : ((m >>= k) s).2 = s := by
  rw [PyM.run_bind]
  cases h : m s with
  | mk r s' => rw [h] at hm; subst hm; cases r with
    | error e => rfl
    | ok a => exact hk a

theorem texts_state (l : List (String × VIx)) (s : St C A) : (texts l s).2 = s := by
  induction l with
  | nil => rfl
  | cons x l ih =>
    obtain ⟨k, j⟩ := x
    rw [texts]
    exact state_bind (readVA_state j s) fun v => state_bind ih fun _ => rfl

theorem mkRA_quiet (f : FnId) (l : List (String × Arg)) (s : St C A) : Quiet s (mkRA hash f l s).2 := by
  unfold mkRA
  refine quiet_bind (pack_quiet hash l s) fun p s1 _ => ?_
  refine quiet_bind (by rw [texts_state]; exact Quiet.refl s1) fun ts s2 _ => ?_
  refine quiet_bind (sigSet_quiet _ _ _) fun _ s3 _ => ?_
  exact newRA_quiet _ _

theorem getAddress_quiet (f : FnId) (l : List (String × Arg)) (s : St C A) : Quiet s (getAddress hash f l s).2 := by
  unfold getAddress
  exact quiet_bind (pack_quiet hash l s) fun p s1 _ => mkRA_quiet hash f _ s1

theorem argsFromTexts_quiet (l : List (String × A)) (s : St C A) : Quiet s (argsFromTexts l s).2 := by
  induction l generalizing s with
  | nil => exact Quiet.refl s
  | cons x l ih =>
    obtain ⟨k, a⟩ := x
    rw [argsFromTexts]
    refine quiet_bind (newVA_quiet _ s) fun j s1 _ => ?_
    exact quiet_bind (ih s1) fun _ s2 _ => Quiet.refl s2

/-- `get` changes no object -/
theorem getVA_objs (j : VIx) (s : St C A) (i : Nat) (c : C) (h : s.objs[i]? = some c) :
    (getVA j s).2.objs[i]? = some c := by
  unfold getVA
  cases s.vas[j]? with
  | none => exact h
  | some v => cases hv : v.value with
    | some i' => simp only [hv]; exact h
    | none =>
      simp only [hv]
      cases s.store v.text with
      | none => exact h
      | some d => exact get_append h

/-- the portal and the addresses of results are the same -/
structure Same (s s' : St C A) : Prop where
  store : s'.store = s.store
  sigs : s'.sigs = s.sigs
  results : s'.results = s.results
  ras : s'.ras = s.ras

theorem Same.refl (s : St C A) : Same s s := ⟨rfl, rfl, rfl, rfl⟩

theorem Same.trans {s t u : St C A} (h1 : Same s t) (h2 : Same t u) : Same s u :=
  ⟨h2.store.trans h1.store, h2.sigs.trans h1.sigs, h2.results.trans h1.results, h2.ras.trans h1.ras⟩

theorem same_bind {α β : Type} {m : M C A α} {k : α → M C A β} {s : St C A} (hm : Same s (m s).2)
    (hk : ∀ a s', Same s' (k a s').2) : Same s ((m >>= k) s).2 := by
  rw [PyM.run_bind]
  cases h : m s with
  | mk r s' => cases r with
    | error e => rw [h] at hm; exact hm
    | ok a => rw [h] at hm; exact hm.trans (hk a s')

theorem getVA_same (j : VIx) (s : St C A) : Same s (getVA j s).2 := by
  unfold getVA
  cases s.vas[j]? with
  | none => exact Same.refl s
  | some v => cases hv : v.value with
    | some i' => simp only [hv]; exact Same.refl s
    | none =>
      simp only [hv]
      cases s.store v.text with
      | none => exact Same.refl s
      | some d => exact ⟨rfl, rfl, rfl, rfl⟩

theorem getVA_vas (j : VIx) (s : St C A) (j' : Nat) (v : VA A) (h : s.vas[j']? = some v) :
    (getVA j s).2.vas[j']? = some v ∨
    (j = j' ∧ v.value = none ∧ ∃ c, s.store v.text = some c ∧ (getVA j s).2.vas[j']? = some { v with value := some s.objs.length }
      ∧ (getVA j s).2.objs[s.objs.length]? = some c) := by
  unfold getVA
  cases hw : s.vas[j]? with
  | none => exact .inl h
  | some w => cases hv : w.value with
    | some i' => simp only [hv]; exact .inl h
    | none =>
      simp only [hv]
      cases hs : s.store w.text with
      | none => exact .inl h
      | some d =>
        by_cases hj : j = j'
        · subst hj
          rw [h] at hw; cases hw
          refine .inr ⟨rfl, hv, d, hs, ?_, ?_⟩
          · show (s.vas.set j _)[j]? = _
            rw [List.getElem?_set]
            have hl : j < s.vas.length := by
              rcases Nat.lt_or_ge j s.vas.length with hl | hl
              · exact hl
              · rw [List.getElem?_eq_none hl] at h; exact absurd h (by simp)
            simp [hl]
          · show (s.objs ++ [d])[s.objs.length]? = some d
            simp
        · refine .inl ?_
          show (s.vas.set j _)[j']? = _
          rw [List.getElem?_set_ne hj]; exact h

theorem getVA_later (j : VIx) (s : St C A) : Later s (getVA j s).2 := by
  obtain ⟨h1, h2, h3, h4⟩ := getVA_same j s
  refine ⟨by rw [h1]; exact fun _ _ h => h, by rw [h2]; exact fun _ _ h => h, by rw [h3]; exact fun _ _ h => h,
    length_le_of_get (getVA_objs j s), fun j' v hv => ?_, ?_⟩
  · rcases getVA_vas j s j' v hv with h | ⟨_, hn, c, _, h, _⟩
    · exact ⟨v, h, rfl, fun _ h => h⟩
    · exact ⟨_, h, rfl, fun i hi => by rw [hn] at hi; exact absurd hi (by simp)⟩
  · rw [h4]; exact (Later.refl s).ras

theorem unpackOne_later (a : Arg) (s : St C A) : Later s (unpackOne a s).2 := by
  cases a with
  | obj i => exact Later.refl s
  | addr j => exact getVA_later j s

theorem unpack_later (l : List (String × Arg)) (s : St C A) : Later s (unpack l s).2 := by
  induction l generalizing s with
  | nil => exact Later.refl s
  | cons x l ih =>
    obtain ⟨k, a⟩ := x
    rw [unpack]
    refine later_bind (unpackOne_later a s) fun j s1 _ => ?_
    exact later_bind (ih s1) fun _ s2 _ => Later.refl s2

theorem unpackOne_same (a : Arg) (s : St C A) : Same s (unpackOne a s).2 := by
  cases a with
  | obj i => exact Same.refl s
  | addr j => exact getVA_same j s

theorem unpack_same (l : List (String × Arg)) (s : St C A) : Same s (unpack l s).2 := by
  induction l generalizing s with
  | nil => exact Same.refl s
  | cons x l ih =>
    obtain ⟨k, a⟩ := x
    rw [unpack]
    exact same_bind (unpackOne_same a s) fun _ s1 => same_bind (ih s1) fun _ s2 => Same.refl s2

theorem unpack_objs (l : List (String × Arg)) (s : St C A) (i : Nat) (c : C) (h : s.objs[i]? = some c) :
    (unpack l s).2.objs[i]? = some c := by
  induction l generalizing s with
  | nil => exact h
  | cons x l ih =>
    obtain ⟨k, a⟩ := x
    rw [unpack, PyM.run_bind]
    have h1 : (unpackOne a s).2.objs[i]? = some c := by
      cases a with
      | obj i' => exact h
      | addr j => exact getVA_objs j s i c h
    cases h' : unpackOne a s with
    | mk r s1 => rw [h'] at h1; cases r with
      | error e => exact h1
      | ok v =>
        show ((unpack l >>= _) s1).2.objs[i]? = _
        rw [PyM.run_bind]
        have h2 := ih s1 h1
        cases h'' : unpack l s1 with
        | mk r s2 => rw [h''] at h2; cases r <;> exact h2

/-! ## Running code -/

theorem localVar_ok {loc : List (Option Ref)} {x : Nat} {i : Ref} (h : loc[x]? = some (some i)) (s : St C A) :
    localVar loc x s = (.ok i, s) := by
  unfold localVar; rw [h]; rfl

theorem localVar_error {loc : List (Option Ref)} {x : Nat} (h : ∀ i, loc[x]? ≠ some (some i)) (s : St C A) :
    localVar loc x s = (.error .typeError, s) := by
  unfold localVar
  cases hx : loc[x]? with
  | none => rfl
  | some o => cases o with
    | none => rfl
    | some i => exact absurd hx (h i)

theorem localVar_cases (loc : List (Option Ref)) (x : Nat) :
    (∃ i, loc[x]? = some (some i)) ∨ ∀ i, loc[x]? ≠ some (some i) := by
  by_cases h : ∃ i, loc[x]? = some (some i)
  · exact .inl h
  · exact .inr fun i hi => h ⟨i, hi⟩

theorem run_ok_bind {α β : Type} {m : M C A α} {k : α → M C A β} {s s' : St C A} {a : α} (h : m s = (.ok a, s')) :
    (m >>= k) s = k a s' := by
  rw [PyM.run_bind, h]

theorem run_error_bind {α β : Type} {m : M C A α} {k : α → M C A β} {s s' : St C A} {e : Err} (h : m s = (.error e, s')) :
    (m >>= k) s = (.error e, s') := by
  rw [PyM.run_bind, h]

/-- code changes nothing but objects -/
theorem runBody_frame (b : Body C) (loc : List (Option Ref)) (s : St C A) :
    ∃ objs, (runBody loc b s).2 = { s with objs := objs } ∧ s.objs.length ≤ objs.length := by
  induction b generalizing loc s with
  | ret x =>
    rw [runBody]
    rcases localVar_cases loc x with ⟨i, h⟩ | h
    · rw [localVar_ok h]; exact ⟨s.objs, rfl, Nat.le_refl _⟩
    · rw [localVar_error h]; exact ⟨s.objs, rfl, Nat.le_refl _⟩
  | raise => exact ⟨s.objs, rfl, Nat.le_refl _⟩
  | look x k ih =>
    rw [runBody]
    rcases localVar_cases loc x with ⟨i, h⟩ | h
    · rw [run_ok_bind (localVar_ok h s)]
      cases hc : s.objs[i]? with
      | none => rw [run_error_bind (by unfold content; rw [hc])]; exact ⟨s.objs, rfl, Nat.le_refl _⟩
      | some c => rw [run_ok_bind (by unfold content; rw [hc])]; exact ih c loc s
    · rw [run_error_bind (localVar_error h s)]; exact ⟨s.objs, rfl, Nat.le_refl _⟩
  | change x c k ih =>
    rw [runBody]
    rcases localVar_cases loc x with ⟨i, h⟩ | h
    · rw [run_ok_bind (localVar_ok h s)]
      rw [run_ok_bind (rfl : setObj i c s = (.ok (), { s with objs := s.objs.set i c }))]
      obtain ⟨objs, ho, hl⟩ := ih loc { s with objs := s.objs.set i c }
      refine ⟨objs, ho, ?_⟩
      rw [List.length_set] at hl
      exact hl
    · rw [run_error_bind (localVar_error h s)]; exact ⟨s.objs, rfl, Nat.le_refl _⟩
  | make c k ih =>
    rw [runBody, run_ok_bind (rfl : newObj c s = (.ok s.objs.length, { s with objs := s.objs ++ [c] }))]
    obtain ⟨objs, ho, hl⟩ := ih (loc ++ [some s.objs.length]) { s with objs := s.objs ++ [c] }
    refine ⟨objs, ho, ?_⟩
    simp at hl
    omega

/-- code that changes only what it makes leaves the other objects alone -/
theorem runBody_keeps (n m : Nat) (b : Body C) (loc : List (Option Ref)) (s : St C A)
    (hb : ChangesOnly (fun x => n ≤ x) b) (hn : n ≤ loc.length) (hm : m ≤ s.objs.length)
    (hloc : ∀ x i, n ≤ x → loc[x]? = some (some i) → m ≤ i) :
    ∀ i, i < m → (runBody loc b s).2.objs[i]? = s.objs[i]? := by
  induction b generalizing loc s with
  | ret x =>
    rw [runBody]
    rcases localVar_cases loc x with ⟨i, h⟩ | h
    · rw [localVar_ok h]; exact fun _ _ => rfl
    · rw [localVar_error h]; exact fun _ _ => rfl
  | raise => exact fun _ _ => rfl
  | look x k ih =>
    rw [runBody]
    rcases localVar_cases loc x with ⟨i, h⟩ | h
    · rw [run_ok_bind (localVar_ok h s)]
      cases hc : s.objs[i]? with
      | none => rw [run_error_bind (by unfold content; rw [hc])]; exact fun _ _ => rfl
      | some c => rw [run_ok_bind (by unfold content; rw [hc])]; exact ih c loc s (hb c) hn hm hloc
    · rw [run_error_bind (localVar_error h s)]; exact fun _ _ => rfl
  | change x c k ih =>
    rw [runBody]
    rcases localVar_cases loc x with ⟨i, h⟩ | h
    · rw [run_ok_bind (localVar_ok h s)]
      rw [run_ok_bind (rfl : setObj i c s = (.ok (), { s with objs := s.objs.set i c }))]
      intro i' hi'
      rw [ih loc { s with objs := s.objs.set i c } hb.2 hn (by simp; exact hm) hloc i' hi']
      have := hloc x i hb.1 h
      exact List.getElem?_set_ne (by omega)
    · rw [run_error_bind (localVar_error h s)]; exact fun _ _ => rfl
  | make c k ih =>
    rw [runBody, run_ok_bind (rfl : newObj c s = (.ok s.objs.length, { s with objs := s.objs ++ [c] }))]
    intro i' hi'
    rw [ih (loc ++ [some s.objs.length]) { s with objs := s.objs ++ [c] } hb (by simp; omega) (by simp; omega) ?_ i' hi']
    · exact List.getElem?_append_left (by omega)
    · intro x i hx h
      rcases Nat.lt_or_ge x loc.length with hl | hl
      · rw [List.getElem?_append_left hl] at h; exact hloc x i hx h
      · rw [List.getElem?_append_right hl] at h
        cases hz : x - loc.length with
        | zero => rw [hz] at h; simp at h; omega
        | succ q => rw [hz] at h; simp at h

theorem runFn_frame (f : Fn C) (loc : List (Option Ref)) (s : St C A) :
    ∃ objs, (runFn f loc s).2 = { s with objs := objs } ∧ s.objs.length ≤ objs.length := by
  unfold runFn
  split
  · exact runBody_frame _ _ _
  · exact ⟨s.objs, rfl, Nat.le_refl _⟩

theorem runFn_quiet (f : Fn C) (hf : KeepsArgs f) (loc : List (Option Ref)) (s : St C A) : Quiet s (runFn f loc s).2 := by
  obtain ⟨objs, ho, _⟩ := runFn_frame f loc s
  refine ⟨by rw [ho]; exact fun _ _ h => h, by rw [ho]; exact fun _ _ h => h, by rw [ho], fun i c hc => ?_,
    by rw [ho]; exact fun _ _ h => h, by rw [ho]; exact fun _ _ h => h⟩
  have hi : i < s.objs.length := by
    rcases Nat.lt_or_ge i s.objs.length with hl | hl
    · exact hl
    · rw [List.getElem?_eq_none hl] at hc; exact absurd hc (by simp)
  unfold runFn
  split
  · rename_i hl
    rw [runBody_keeps f.arity s.objs.length f.code loc s hf (by omega) (Nat.le_refl _) ?_ i hi]
    · exact hc
    · intro x i hx h
      rw [← hl] at hx
      rw [List.getElem?_eq_none hx] at h
      exact absurd h (by simp)
  · exact hc

variable (prog : FnId → Fn C)

theorem runGuards_quiet (loc : List (Option Ref)) (gs : List FnId) (hg : ∀ g ∈ gs, KeepsArgs (prog g)) (s : St C A) :
    Quiet s (runGuards prog loc gs s).2 := by
  induction gs generalizing s with
  | nil => exact Quiet.refl s
  | cons g gs ih =>
    rw [runGuards]
    exact quiet_bind (runFn_quiet _ (hg g (by simp)) loc s) fun _ s1 _ => ih (fun g' h => hg g' (by simp [h])) s1

theorem canBeExecuted_quiet (ht : Tame prog) (f : FnId) (loc : List (Option Ref)) (s : St C A) :
    Quiet s (canBeExecuted prog f loc s).2 := by
  have h := runGuards_quiet prog loc (prog f).guards (ht f).2 s
  unfold canBeExecuted
  cases hr : runGuards prog loc (prog f).guards s with
  | mk r s' => rw [hr] at h; cases r <;> exact h

/-- code changes nothing but objects -/
theorem runGuards_frame (loc : List (Option Ref)) (gs : List FnId) (s : St C A) :
    ∃ objs, (runGuards prog loc gs s).2 = { s with objs := objs } ∧ s.objs.length ≤ objs.length := by
  induction gs generalizing s with
  | nil => exact ⟨s.objs, rfl, Nat.le_refl _⟩
  | cons g gs ih =>
    rw [runGuards, PyM.run_bind]
    obtain ⟨objs, ho, hl⟩ := runFn_frame (prog g) loc s
    cases hr : runFn (prog g) loc s with
    | mk r s' => rw [hr] at ho; cases ho; cases r with
      | error e => exact ⟨objs, rfl, hl⟩
      | ok i =>
        obtain ⟨objs', ho', hl'⟩ := ih { s with objs := objs }
        exact ⟨objs', ho', Nat.le_trans hl hl'⟩

theorem canBeExecuted_frame (f : FnId) (loc : List (Option Ref)) (s : St C A) :
    ∃ objs, (canBeExecuted prog f loc s).2 = { s with objs := objs } ∧ s.objs.length ≤ objs.length := by
  have h := runGuards_frame prog loc (prog f).guards s
  unfold canBeExecuted
  cases hr : runGuards prog loc (prog f).guards s with
  | mk r s' => rw [hr] at h; cases r <;> exact h

/-! ## The code computes what the value semantics says -/

/-- the local variables have objects with these contents -/
def Holds (s : St C A) (loc : List (Option Ref)) (vals : List C) : Prop :=
  loc.length = vals.length ∧ ∀ (x : Nat) c, vals[x]? = some c → ∃ i, loc[x]? = some (some i) ∧ s.objs[i]? = some c

theorem lt_of_get {α : Type} {l : List α} {x : Nat} {c : α} (h : l[x]? = some c) : x < l.length := by
  rcases Nat.lt_or_ge x l.length with hl | hl
  · exact hl
  · rw [List.getElem?_eq_none hl] at h; exact absurd h (by simp)

theorem runBody_eval (P : Nat → Prop) (b : Body C) (loc : List (Option Ref)) (vals : List C) (s : St C A)
    (hb : ChangesOnly P b) (hh : Holds s loc vals) (hP : ∀ x, loc.length ≤ x → P x)
    (hsep : ∀ x y i, P x → loc[x]? = some (some i) → loc[y]? = some (some i) → x = y) :
    match eval vals b with
    | some c => ∃ i s', runBody loc b s = (.ok i, s') ∧ s'.objs[i]? = some c
    | none => ∃ e s', runBody loc b s = (.error e, s') := by
  induction b generalizing loc vals s with
  | ret x =>
    rw [runBody, eval]
    cases hx : vals[x]? with
    | some c =>
      obtain ⟨i, h1, h2⟩ := hh.2 x c hx
      exact ⟨i, s, localVar_ok h1 s, h2⟩
    | none =>
      refine ⟨_, s, localVar_error (fun i hi => ?_) s⟩
      have h1 := lt_of_get hi
      rw [hh.1] at h1
      rw [List.getElem?_eq_getElem h1] at hx; exact absurd hx (by simp)
  | raise => exact ⟨_, s, rfl⟩
  | look x k ih =>
    rw [runBody, eval]
    cases hx : vals[x]? with
    | some c =>
      obtain ⟨i, h1, h2⟩ := hh.2 x c hx
      rw [run_ok_bind (localVar_ok h1 s), run_ok_bind (by unfold content; rw [h2])]
      exact ih c loc vals s (hb c) hh hP hsep
    | none =>
      refine ⟨_, s, run_error_bind (localVar_error (fun i hi => ?_) s)⟩
      have h1 := lt_of_get hi
      rw [hh.1] at h1
      rw [List.getElem?_eq_getElem h1] at hx; exact absurd hx (by simp)
  | change x c k ih =>
    rw [runBody, eval]
    by_cases hx : x < vals.length
    · rw [if_pos hx]
      obtain ⟨i, h1, h2⟩ := hh.2 x vals[x] (List.getElem?_eq_getElem hx)
      rw [run_ok_bind (localVar_ok h1 s),
        run_ok_bind (rfl : setObj i c s = (.ok (), { s with objs := s.objs.set i c }))]
      refine ih loc (vals.set x c) { s with objs := s.objs.set i c } hb.2 ⟨by simp; exact hh.1, fun y d hy => ?_⟩ hP hsep
      rw [List.getElem?_set] at hy
      by_cases hxy : x = y
      · subst hxy
        rw [if_pos rfl, if_pos hx] at hy
        cases hy
        refine ⟨i, h1, ?_⟩
        show (s.objs.set i c)[i]? = some c
        rw [List.getElem?_set, if_pos rfl, if_pos (lt_of_get h2)]
      · rw [if_neg hxy] at hy
        obtain ⟨i', h3, h4⟩ := hh.2 y d hy
        refine ⟨i', h3, ?_⟩
        show (s.objs.set i c)[i']? = some d
        rw [List.getElem?_set_ne]
        · exact h4
        · intro he
          subst he
          exact hxy (hsep x y i hb.1 h1 h3)
    · rw [if_neg hx]
      refine ⟨_, s, run_error_bind (localVar_error (fun i hi => ?_) s)⟩
      have h1 := lt_of_get hi
      rw [hh.1] at h1
      exact hx h1
  | make c k ih =>
    rw [runBody, eval, run_ok_bind (rfl : newObj c s = (.ok s.objs.length, { s with objs := s.objs ++ [c] }))]
    have hnew : ∀ x i, (loc ++ [some s.objs.length])[x]? = some (some i) →
        loc[x]? = some (some i) ∨ (x = loc.length ∧ i = s.objs.length) := by
      intro x i hx
      rcases Nat.lt_or_ge x loc.length with hl | hl
      · rw [List.getElem?_append_left hl] at hx; exact .inl hx
      · rw [List.getElem?_append_right hl] at hx
        cases hz : x - loc.length with
        | zero => rw [hz] at hx; simp at hx; exact .inr ⟨by omega, hx.symm⟩
        | succ q => rw [hz] at hx; simp at hx
    have hold : ∀ (x : Nat) i, loc[x]? = some (some i) → i < s.objs.length := by
      intro x i hx
      have h1 := lt_of_get hx
      rw [hh.1] at h1
      obtain ⟨i', h2, h3⟩ := hh.2 x vals[x] (List.getElem?_eq_getElem h1)
      rw [hx] at h2
      cases h2
      exact lt_of_get h3
    refine ih (loc ++ [some s.objs.length]) (vals ++ [c]) { s with objs := s.objs ++ [c] } hb
      ⟨by simp; exact hh.1, fun x d hx => ?_⟩ (fun x hx => hP x (by simp at hx; omega)) (fun x y i hPx hx hy => ?_)
    · rcases Nat.lt_or_ge x vals.length with hl | hl
      · rw [List.getElem?_append_left hl] at hx
        obtain ⟨i, h1, h2⟩ := hh.2 x d hx
        exact ⟨i, get_append h1, get_append h2⟩
      · rw [List.getElem?_append_right hl] at hx
        cases hz : x - vals.length with
        | zero =>
          rw [hz] at hx; simp at hx
          have hxl : x = loc.length := by have := hh.1; omega
          subst hx
          exact ⟨s.objs.length, by rw [hxl]; simp, by simp⟩
        | succ q => rw [hz] at hx; simp at hx
    · rcases hnew x i hx with h1 | ⟨h1, h2⟩
      · rcases hnew y i hy with h3 | ⟨h3, h4⟩
        · exact hsep x y i hPx h1 h3
        · exact absurd (hold x i h1) (by rw [h4]; exact Nat.lt_irrefl _)
      · rcases hnew y i hy with h3 | ⟨h3, h4⟩
        · exact absurd (hold y i h3) (by rw [h2]; exact Nat.lt_irrefl _)
        · omega

end Pyth.Mutable
