import Verif.Proofs.Mutable
/-! # Proofs for C108: what is stored, and what calls return -/
set_option linter.unusedSectionVars false
namespace Pyth.Mutable

variable {C A : Type} [DecidableEq A] (hash : Data C A → A)

/-! ## The store -/

/-- everything stands at its own address -/
structure StoreInv (s : St C A) : Prop where
  store : ∀ a c, s.store a = some c → a = hash (.plain c)
  sigs : ∀ a f ts, s.sigs a = some (f, ts) → a = hash (.call f ts)

theorem StoreInv.same {s s' : St C A} (h : StoreInv hash s) (h1 : s'.store = s.store) (h2 : s'.sigs = s.sigs) :
    StoreInv hash s' := ⟨by rw [h1]; exact h.store, by rw [h2]; exact h.sigs⟩

theorem keep_bind {α β : Type} {I : St C A → Prop} {m : M C A α} {k : α → M C A β} {s : St C A} (hm : I (m s).2)
    (hk : ∀ a s', m s = (.ok a, s') → I s' → I (k a s').2) : I ((m >>= k) s).2 := by
  rw [PyM.run_bind]
  cases h : m s with
  | mk r s' => cases r with
    | error e => rw [h] at hm; exact hm
    | ok a => rw [h] at hm; exact hk a s' h hm

theorem storeSet_inv (c : C) (s : St C A) (h : StoreInv hash s) : StoreInv hash (storeSet (hash (.plain c)) c s).2 := by
  refine ⟨fun a d hd => ?_, h.sigs⟩
  change (if a = _ ∧ _ then some c else s.store a) = some d at hd
  split at hd
  · rename_i h1; cases hd; exact h1.1
  · exact h.store a d hd

theorem sigSet_inv (f : FnId) (ts : List (String × A)) (s : St C A) (h : StoreInv hash s) :
    StoreInv hash (sigSet (hash (.call f ts)) (f, ts) s).2 := by
  refine ⟨h.store, fun a d l hd => ?_⟩
  change (if a = _ ∧ _ then some (f, ts) else s.sigs a) = some (d, l) at hd
  split at hd
  · rename_i h1; cases hd; exact h1.1
  · exact h.sigs a d l hd

theorem valueAddr_inv (i : Ref) (s : St C A) (h : StoreInv hash s) : StoreInv hash (valueAddr hash i s).2 := by
  unfold valueAddr
  refine keep_bind (by rw [content_state]; exact h) fun c s1 _ h1 => ?_
  refine keep_bind (storeSet_inv hash c s1 h1) fun _ s2 _ h2 => ?_
  exact h2.same hash rfl rfl

theorem packOne_inv (a : Arg) (s : St C A) (h : StoreInv hash s) : StoreInv hash (packOne hash a s).2 := by
  cases a with
  | obj i => exact valueAddr_inv hash i s h
  | addr j =>
    unfold packOne convert
    exact keep_bind (by rw [readVA_state]; exact h) fun v s1 _ h1 => h1.same hash rfl rfl

theorem pack_inv (l : List (String × Arg)) (s : St C A) (h : StoreInv hash s) : StoreInv hash (pack hash l s).2 := by
  induction l generalizing s with
  | nil => exact h
  | cons x l ih =>
    obtain ⟨k, a⟩ := x
    rw [pack]
    refine keep_bind (packOne_inv hash a s h) fun j s1 _ h1 => ?_
    exact keep_bind (ih s1 h1) fun _ s2 _ h2 => h2

theorem mkRA_inv (f : FnId) (l : List (String × Arg)) (s : St C A) (h : StoreInv hash s) :
    StoreInv hash (mkRA hash f l s).2 := by
  unfold mkRA
  refine keep_bind (pack_inv hash l s h) fun p s1 _ h1 => ?_
  refine keep_bind (by rw [texts_state]; exact h1) fun ts s2 _ h2 => ?_
  refine keep_bind (sigSet_inv hash f ts s2 h2) fun _ s3 _ h3 => ?_
  exact h3.same hash rfl rfl

/-! ## Packing -/

theorem valueAddr_ras (i : Ref) (s : St C A) : (valueAddr hash i s).2.ras = s.ras := by
  unfold valueAddr
  refine keep_bind (I := fun t => t.ras = s.ras) (by rw [content_state]) fun c s1 _ h1 => ?_
  exact keep_bind (I := fun t => t.ras = s.ras) h1 fun _ s2 _ h2 => h2

theorem pack_ras (l : List (String × Arg)) (s : St C A) : (pack hash l s).2.ras = s.ras := by
  induction l generalizing s with
  | nil => rfl
  | cons x l ih =>
    obtain ⟨k, a⟩ := x
    rw [pack]
    refine keep_bind (I := fun t => t.ras = s.ras) ?_ fun j s1 _ h1 => ?_
    · cases a with
      | obj i => exact valueAddr_ras hash i s
      | addr j =>
        unfold packOne convert
        exact keep_bind (I := fun t => t.ras = s.ras) (by rw [readVA_state]) fun v s1 _ h1 => h1
    · exact keep_bind (I := fun t => t.ras = s.ras) ((ih s1).trans h1) fun _ s2 _ h2 => h2

/-- the text of the address of an argument -/
def ArgText (s : St C A) : Arg → A → Prop
  | .obj i, t => ∃ c, s.objs[i]? = some c ∧ t = hash (.plain c)
  | .addr j, t => ∃ v, s.vas[j]? = some v ∧ v.text = t

def ArgTexts (s : St C A) (l : List (String × Arg)) (ts : List (String × A)) : Prop :=
  List.Forall₂ (fun x t => x.1 = t.1 ∧ ArgText hash s x.2 t.2) l ts

/-- the object of the address has the content of which the address was made -/
def Good (s : St C A) (v : VA A) : Prop := ∀ i, v.value = some i → ∃ c, s.objs[i]? = some c ∧ v.text = hash (.plain c)

def PackedAs (s : St C A) (p : List (String × VIx)) (ts : List (String × A)) : Prop :=
  List.Forall₂ (fun x t => x.1 = t.1 ∧ ∃ v, s.vas[x.2]? = some v ∧ v.text = t.2 ∧ Good hash s v) p ts

variable {hash}

theorem argText_quiet {s s' : St C A} (h : Quiet s s') {a : Arg} {t : A} (ha : ArgText hash s a t) : ArgText hash s' a t := by
  cases a with
  | obj i => obtain ⟨c, h1, h2⟩ := ha; exact ⟨c, h.objs _ _ h1, h2⟩
  | addr j => obtain ⟨v, h1, h2⟩ := ha; exact ⟨v, h.vas _ _ h1, h2⟩

theorem good_quiet {s s' : St C A} (h : Quiet s s') {v : VA A} (hv : Good hash s v) : Good hash s' v := by
  intro i hi
  obtain ⟨c, h1, h2⟩ := hv i hi
  exact ⟨c, h.objs _ _ h1, h2⟩

theorem packedAs_quiet {s s' : St C A} (h : Quiet s s') {p : List (String × VIx)} {ts : List (String × A)}
    (hp : PackedAs hash s p ts) : PackedAs hash s' p ts :=
  hp.imp fun _ _ ⟨h1, v, h2, h3, h4⟩ => ⟨h1, v, h.vas _ _ h2, h3, good_quiet h h4⟩

theorem argText_unique {s : St C A} {a : Arg} {t t' : A} (h : ArgText hash s a t) (h' : ArgText hash s a t') : t = t' := by
  cases a with
  | obj i => obtain ⟨c, h1, h2⟩ := h; obtain ⟨c', h1', h2'⟩ := h'; rw [h1] at h1'; cases h1'; rw [h2, h2']
  | addr j => obtain ⟨c, h1, h2⟩ := h; obtain ⟨c', h1', h2'⟩ := h'; rw [h1] at h1'; cases h1'; rw [← h2, ← h2']

theorem argTexts_unique {s : St C A} {l : List (String × Arg)} {ts ts' : List (String × A)} (h : ArgTexts hash s l ts)
    (h' : ArgTexts hash s l ts') : ts = ts' := by
  induction h generalizing ts' with
  | nil => cases h'; rfl
  | cons h1 _ ih => cases h' with
    | cons h1' h2' =>
      rw [ih h2']
      congr 1
      exact Prod.ext (h1.1.symm.trans h1'.1) (argText_unique h1.2 h1'.2)

theorem packedAs_texts {s : St C A} {p : List (String × VIx)} {ts : List (String × A)} (h : PackedAs hash s p ts) :
    ArgTexts hash s (asArgs p) ts := by
  induction h with
  | nil => exact .nil
  | cons h1 _ ih =>
    obtain ⟨h1, v, h2, h3, _⟩ := h1
    exact .cons ⟨h1, v, h2, h3⟩ ih

variable (hash)

theorem packOne_ok {a : Arg} {s s' : St C A} {j : VIx} (h : packOne hash a s = (.ok j, s')) :
    ∃ t, ArgText hash s a t ∧ ∃ v, s'.vas[j]? = some v ∧ v.text = t ∧ Good hash s' v := by
  cases a with
  | obj i =>
    unfold packOne valueAddr at h
    obtain ⟨c, s1, h1, h2⟩ := bind_ok h
    obtain ⟨h1, rfl⟩ := content_ok h1
    obtain ⟨_, s2, h3, h4⟩ := bind_ok h2
    cases h3; cases h4
    refine ⟨_, ⟨c, h1, rfl⟩, ⟨hash (.plain c), some i⟩, ?_, rfl, fun i' hi' => ?_⟩
    · show (s1.vas ++ [_])[s1.vas.length]? = _
      simp
    · cases hi'; exact ⟨c, h1, rfl⟩
  | addr j0 =>
    unfold packOne convert at h
    obtain ⟨v, s1, h1, h2⟩ := bind_ok h
    obtain ⟨h1, rfl⟩ := readVA_ok h1
    cases h2
    refine ⟨_, ⟨v, h1, rfl⟩, ⟨v.text, none⟩, ?_, rfl, fun i' hi' => absurd hi' (by simp)⟩
    show (s1.vas ++ [_])[s1.vas.length]? = _
    simp

theorem pack_ok {l : List (String × Arg)} {s s' : St C A} {p : List (String × VIx)} (h : pack hash l s = (.ok p, s')) :
    ∃ ts, ArgTexts hash s' l ts ∧ PackedAs hash s' p ts := by
  induction l generalizing s s' p with
  | nil => cases h; exact ⟨[], .nil, .nil⟩
  | cons x l ih =>
    obtain ⟨k, a⟩ := x
    rw [pack] at h
    obtain ⟨j, s1, h1, h2⟩ := bind_ok h
    obtain ⟨q, s2, h3, h4⟩ := bind_ok h2
    cases h4
    obtain ⟨t, ht, v, hv, hvt, hg⟩ := packOne_ok hash h1
    obtain ⟨ts, hts, hps⟩ := ih h3
    have q1 : Quiet s s1 := by have := packOne_quiet hash a s; rw [h1] at this; exact this
    have q2 : Quiet s1 s' := by have := pack_quiet hash l s1; rw [h3] at this; exact this
    exact ⟨(k, t) :: ts, .cons ⟨rfl, argText_quiet (q1.trans q2) ht⟩ hts,
      .cons ⟨rfl, v, q2.vas _ _ hv, hvt, good_quiet q2 hg⟩ hps⟩

theorem texts_ok {p : List (String × VIx)} {s s' : St C A} {ts : List (String × A)} (h : texts p s = (.ok ts, s')) :
    ArgTexts hash s (asArgs p) ts ∧ s' = s := by
  induction p generalizing s s' ts with
  | nil => cases h; exact ⟨.nil, rfl⟩
  | cons x l ih =>
    obtain ⟨k, j⟩ := x
    rw [texts] at h
    obtain ⟨v, s1, h1, h2⟩ := bind_ok h
    obtain ⟨h1, rfl⟩ := readVA_ok h1
    obtain ⟨q, s2, h3, h4⟩ := bind_ok h2
    cases h4
    obtain ⟨h5, rfl⟩ := ih h3
    exact ⟨.cons ⟨rfl, v, h1, rfl⟩ h5, rfl⟩

theorem mkRA_ok {f : FnId} {l : List (String × Arg)} {s s' : St C A} {r : RIx} (h : mkRA hash f l s = (.ok r, s')) :
    ∃ ts, ArgTexts hash s' l ts ∧ r = s.ras.length ∧
      s'.ras = s.ras ++ [{ key := hash (.call f ts), fn := some f, args := some l }] ∧
      (s'.sigs (hash (.call f ts))).isSome := by
  unfold mkRA at h
  obtain ⟨p, s1, h1, h2⟩ := bind_ok h
  obtain ⟨ts, s2, h3, h4⟩ := bind_ok h2
  obtain ⟨_, s3, h5, h6⟩ := bind_ok h4
  obtain ⟨ts', ht1, ht2⟩ := pack_ok hash h1
  obtain ⟨ht3, rfl⟩ := texts_ok hash h3
  have := argTexts_unique (packedAs_texts ht2) ht3
  subst this
  have hr : s2.ras = s.ras := by have := pack_ras hash l s; rw [h1] at this; exact this
  cases h5; cases h6
  refine ⟨ts', ?_, by show s2.ras.length = _; rw [hr], by show s2.ras ++ _ = _; rw [hr], ?_⟩
  · refine ht1.imp fun x t ⟨h1, h2⟩ => ⟨h1, ?_⟩
    cases hx : x.2 with
    | obj i => rw [hx] at h2; exact h2
    | addr j => rw [hx] at h2; exact h2
  · show (if _ ∧ s2.sigs _ = none then some (f, ts') else s2.sigs _).isSome
    cases hs : s2.sigs (hash (.call f ts')) with
    | none => simp
    | some d => simp

/-! ## Unpacking -/

theorem getVA_ok {j : VIx} {s s' : St C A} {i : Ref} {v : VA A} (hs : StoreInv hash s) (h : getVA j s = (.ok i, s'))
    (hv : s.vas[j]? = some v) (hg : Good hash s v) : ∃ c, s'.objs[i]? = some c ∧ v.text = hash (.plain c) := by
  unfold getVA at h
  rw [hv] at h
  cases hval : v.value with
  | some i' =>
    simp only [hval] at h
    cases h
    exact hg i hval
  | none =>
    simp only [hval] at h
    cases hst : s.store v.text with
    | none => rw [hst] at h; cases h
    | some c =>
      rw [hst] at h
      cases h
      exact ⟨c, by simp, hs.store _ _ hst⟩

theorem getVA_good (j : VIx) {s : St C A} (hs : StoreInv hash s) {j' : Nat} {v : VA A} (hv : s.vas[j']? = some v)
    (hg : Good hash s v) : ∃ v', (getVA j s).2.vas[j']? = some v' ∧ v'.text = v.text ∧ Good hash (getVA j s).2 v' := by
  rcases getVA_vas j s j' v hv with h | ⟨_, _, c, h1, h2, h3⟩
  · refine ⟨v, h, rfl, fun i hi => ?_⟩
    obtain ⟨c, h1, h2⟩ := hg i hi
    exact ⟨c, getVA_objs j s i c h1, h2⟩
  · refine ⟨_, h2, rfl, fun i hi => ?_⟩
    cases hi
    exact ⟨c, h3, hs.store _ _ h1⟩

theorem unpack_ok {p : List (String × VIx)} {s s' : St C A} {refs : List Ref} {ts : List (String × A)}
    (hs : StoreInv hash s) (h : unpack (asArgs p) s = (.ok refs, s')) (hp : PackedAs hash s p ts) :
    ∃ vals : List (String × C), ts = vals.map (fun x => (x.1, hash (.plain x.2))) ∧
      List.Forall₂ (fun i x => s'.objs[i]? = some x.2) refs vals := by
  induction p generalizing s s' refs ts with
  | nil => cases h; cases hp; exact ⟨[], rfl, .nil⟩
  | cons x l ih =>
    obtain ⟨k, j⟩ := x
    cases hp with
    | cons hp1 hp2 =>
      rename_i t ts
      obtain ⟨hk, v, hv, hvt, hg⟩ := hp1
      change unpack ((k, Arg.addr j) :: asArgs l) s = _ at h
      rw [unpack] at h
      obtain ⟨i, s1, h1, h2⟩ := bind_ok h
      obtain ⟨q, s2, h3, h4⟩ := bind_ok h2
      cases h4
      change getVA j s = _ at h1
      obtain ⟨c, hc1, hc2⟩ := getVA_ok hash hs h1 hv hg
      have e1 : s1 = (getVA j s).2 := by rw [h1]
      have hs1 : StoreInv hash s1 := by rw [e1]; exact hs.same hash (getVA_same j s).store (getVA_same j s).sigs
      have hp3 : PackedAs hash s1 l ts := by
        refine hp2.imp fun x t ⟨h5, w, h6, h7, h8⟩ => ?_
        obtain ⟨w', h9, h10, h11⟩ := getVA_good hash j hs h6 h8
        rw [← e1] at h9 h11
        exact ⟨h5, w', h9, h10.trans h7, h11⟩
      obtain ⟨vals, hv1, hv2⟩ := ih hs1 h3 hp3
      have hci : s'.objs[i]? = some c := by
        have := unpack_objs (asArgs l) s1 i c hc1
        rw [h3] at this; exact this
      refine ⟨(k, c) :: vals, ?_, .cons hci hv2⟩
      rw [hv1]
      simp only [List.map_cons]
      congr 1
      exact Prod.ext hk.symm (hvt.symm.trans hc2)

/-! ## Running a function -/

theorem changesOnly_true (b : Body C) : ChangesOnly (fun _ => True) b := by
  induction b with
  | ret => trivial
  | raise => trivial
  | look x k ih => exact ih
  | change x c k ih => exact ⟨trivial, ih⟩
  | make c k ih => exact ih

theorem runFn_eval {f : Fn C} (hf : KeepsArgs f ∨ f.arity ≤ 1) {refs : List Ref} {vals : List C} {s : St C A}
    (hh : List.Forall₂ (fun i c => s.objs[i]? = some c) refs vals) :
    match evalFn f vals with
    | some c => ∃ i s', runFn f (refs.map some) s = (.ok i, s') ∧ s'.objs[i]? = some c
    | none => ∃ e s', runFn f (refs.map some) s = (.error e, s') := by
  have hlen : refs.length = vals.length := hh.length_eq
  have hH : Holds s (refs.map some) vals := by
    refine ⟨by simp; exact hlen, fun x c hx => ?_⟩
    have h1 := lt_of_get hx
    have h2 : x < refs.length := by omega
    refine ⟨refs[x], by simp [h2], ?_⟩
    have h3 := hh.get h2 h1
    rw [List.getElem?_eq_getElem h1] at hx
    cases hx
    exact h3
  unfold evalFn runFn
  by_cases ha : vals.length = f.arity
  · rw [if_pos ha, if_pos (by simp; omega)]
    rcases hf with hf | hf
    · refine runBody_eval (fun x => f.arity ≤ x) f.code (refs.map some) vals s hf hH (fun x hx => by simp at hx; omega)
        fun x y i hx h1 h2 => ?_
      have := lt_of_get h1
      simp at this
      omega
    · refine runBody_eval (fun _ => True) f.code (refs.map some) vals s (changesOnly_true _) hH (fun _ _ => trivial)
        fun x y i _ h1 h2 => ?_
      have := lt_of_get h1
      have := lt_of_get h2
      simp at *
      omega
  · rw [if_neg ha, if_neg (by simp; omega)]
    exact ⟨_, _, rfl⟩

variable (prog : FnId → Fn C)

/-- everything stored is right -/
structure Inv (s : St C A) : Prop extends StoreInv hash s where
  results : ∀ k r, s.results k = some r → ∃ f vals c, k = keyOf hash f vals ∧
    evalFn (prog f) (vals.map (·.2)) = some c ∧ r = hash (.plain c) ∧ s.store r = some c

variable {hash prog}

theorem Inv.of_store {s s' : St C A} (h : Inv hash prog s) (h1 : StoreInv hash s')
    (h2 : ∀ a c, s.store a = some c → s'.store a = some c) (h3 : s'.results = s.results) : Inv hash prog s' := by
  refine { h1 with results := fun k r hr => ?_ }
  rw [h3] at hr
  obtain ⟨f, vals, c, a1, a2, a3, a4⟩ := h.results k r hr
  exact ⟨f, vals, c, a1, a2, a3, h2 _ _ a4⟩

theorem Inv.same {s s' : St C A} (h : Inv hash prog s) (h1 : s'.store = s.store) (h2 : s'.sigs = s.sigs)
    (h3 : s'.results = s.results) : Inv hash prog s' :=
  h.of_store (h.toStoreInv.same hash h1 h2) (by rw [h1]; exact fun _ _ h => h) h3

theorem Inv.quiet {s s' : St C A} (h : Inv hash prog s) (h1 : StoreInv hash s') (h2 : Quiet s s') : Inv hash prog s' :=
  h.of_store h1 h2.store h2.results

theorem valueAddr_ok {i : Ref} {s s' : St C A} {j : VIx} (hi : Function.Injective hash) (hs : StoreInv hash s)
    (h : valueAddr hash i s = (.ok j, s')) :
    ∃ c, s.objs[i]? = some c ∧ s'.store (hash (.plain c)) = some c ∧ s'.vas[j]? = some ⟨hash (.plain c), some i⟩ ∧
      s'.objs = s.objs ∧ j = s.vas.length := by
  unfold valueAddr at h
  obtain ⟨c, s1, h1, h2⟩ := bind_ok h
  obtain ⟨h1, rfl⟩ := content_ok h1
  obtain ⟨_, s2, h3, h4⟩ := bind_ok h2
  cases h3; cases h4
  refine ⟨c, h1, ?_, ?_, rfl, rfl⟩
  · show (if _ ∧ s1.store _ = none then some c else s1.store _) = some c
    cases hst : s1.store (hash (.plain c)) with
    | none => simp
    | some d =>
      have := hi (hs.store _ _ hst)
      cases this
      simp
  · show (s1.vas ++ [_])[s1.vas.length]? = _
    simp

theorem evaluate_spec (hi : Function.Injective hash) (ht : Tame prog) {f : FnId} {kw : List (String × Arg)}
    {p : List (String × VIx)} {ts : List (String × A)} {s : St C A} (h : Inv hash prog s) (hp : PackedAs hash s p ts)
    (hn : s.results (hash (.call f ts)) = none) :
    Inv hash prog (evaluate hash prog f kw p (hash (.call f ts)) s).2 ∧
    ∀ i s', evaluate hash prog f kw p (hash (.call f ts)) s = (.ok i, s') →
      ∃ (vals : List (String × C)) (c : C), ts = vals.map (fun x => (x.1, hash (.plain x.2))) ∧ evalFn (prog f) (vals.map (·.2)) = some c ∧
        s'.objs[i]? = some c ∧ s'.results (hash (.call f ts)) = some (hash (.plain c)) := by
  unfold evaluate
  have hq := canBeExecuted_quiet prog ht f (kw.map fun x => asLocal x.2) s
  obtain ⟨objs, ho, _⟩ := canBeExecuted_frame prog f (kw.map fun x => asLocal x.2) s
  cases hc : canBeExecuted prog f (kw.map fun x => asLocal x.2) s with
  | mk r1 s1 =>
    rw [hc] at hq ho
    change s1 = _ at ho
    have i1 : Inv hash prog s1 := by rw [ho]; exact h.same rfl rfl rfl
    have n1 : s1.results (hash (.call f ts)) = none := by rw [ho]; exact hn
    cases r1 with
    | error e => rw [run_error_bind hc]; exact ⟨i1, fun i s' h' => by cases h'⟩
    | ok b =>
      rw [run_ok_bind hc]
      cases b with
      | false => exact ⟨i1, fun i s' h' => by cases h'⟩
      | true =>
        have hp1 := packedAs_quiet hq hp
        rw [if_pos rfl]
        have us := unpack_same (asArgs p) s1
        cases hu : unpack (asArgs p) s1 with
        | mk r2 s2 =>
          rw [hu] at us
          have i2 : Inv hash prog s2 := i1.same us.store us.sigs us.results
          have n2 : s2.results (hash (.call f ts)) = none := by
            have := us.results; change s2.results = _ at this; rw [this]; exact n1
          cases r2 with
          | error e => rw [run_error_bind hu]; exact ⟨i2, fun i s' h' => by cases h'⟩
          | ok refs =>
            rw [run_ok_bind hu]
            obtain ⟨vals, hv1, hv2⟩ := unpack_ok hash i1.toStoreInv hu hp1
            obtain ⟨objs3, ho3, _⟩ := runFn_frame (prog f) (refs.map some) s2
            have he := runFn_eval (ht f).1 (vals := vals.map (·.2)) (s := s2) (refs := refs)
              (by rw [List.forall₂_map_right_iff]; exact hv2)
            cases hr : runFn (prog f) (refs.map some) s2 with
            | mk r3 s3 =>
              rw [hr] at ho3
              change s3 = _ at ho3
              have i3 : Inv hash prog s3 := by rw [ho3]; exact i2.same rfl rfl rfl
              have n3 : s3.results (hash (.call f ts)) = none := by rw [ho3]; exact n2
              cases r3 with
              | error e => rw [run_error_bind hr]; exact ⟨i3, fun i s' h' => by cases h'⟩
              | ok i =>
                rw [run_ok_bind hr]
                cases hev : evalFn (prog f) (vals.map (·.2)) with
                | none =>
                  rw [hev] at he
                  obtain ⟨e, s', h'⟩ := he
                  rw [hr] at h'; cases h'
                | some c =>
                  rw [hev] at he
                  obtain ⟨i', s', h', hci⟩ := he
                  rw [hr] at h'; cases h'
                  have vq := valueAddr_quiet hash i s3
                  have vi := valueAddr_inv hash i s3 i3.toStoreInv
                  cases hva : valueAddr hash i s3 with
                  | mk r4 s4 =>
                    rw [hva] at vq vi
                    have i4 : Inv hash prog s4 := i3.quiet vi vq
                    cases r4 with
                    | error e => rw [run_error_bind hva]; exact ⟨i4, fun i s' h' => by cases h'⟩
                    | ok j =>
                      rw [run_ok_bind hva]
                      obtain ⟨c', hc1, hc2, hc3, hc4, _⟩ := valueAddr_ok hi i3.toStoreInv hva
                      rw [hci] at hc1; cases hc1
                      have n4 : s4.results (hash (.call f ts)) = none := by
                        have := vq.results; change s4.results = _ at this; rw [this]; exact n3
                      rw [run_ok_bind (by unfold readVA; rw [hc3] : readVA j s4 = (.ok ⟨hash (.plain c), some i⟩, s4))]
                      rw [run_ok_bind (rfl : resultSet (hash (.call f ts)) (hash (.plain c)) s4 = (.ok (), _))]
                      have hset : ∀ b, (if b = hash (.call f ts) ∧ s4.results (hash (.call f ts)) = none
                          then some (hash (.plain c)) else s4.results b) =
                          if b = hash (.call f ts) then some (hash (.plain c)) else s4.results b := by
                        intro b; rw [n4]; simp
                      refine ⟨?_, fun i' s' h' => ?_⟩
                      · refine { i4.toStoreInv with results := fun k r hkr => ?_ }
                        change (if k = _ ∧ _ then _ else _) = some r at hkr
                        rw [hset] at hkr
                        by_cases hk : k = hash (.call f ts)
                        · rw [if_pos hk] at hkr
                          cases hkr
                          exact ⟨f, vals, c, by rw [hk, hv1]; rfl, hev, rfl, hc2⟩
                        · rw [if_neg hk] at hkr
                          exact i4.results k r hkr
                      · cases h'
                        refine ⟨vals, c, hv1, hev, ?_, ?_⟩
                        · show s4.objs[i]? = some c
                          rw [hc4]; exact hci
                        · show (if _ ∧ _ then _ else _) = _
                          rw [hset, if_pos rfl]

/-! ## Calls -/

theorem argTexts_quiet {s s' : St C A} (h : Quiet s s') {l : List (String × Arg)} {ts : List (String × A)}
    (ha : ArgTexts hash s l ts) : ArgTexts hash s' l ts :=
  ha.imp fun _ _ ⟨h1, h2⟩ => ⟨h1, argText_quiet h h2⟩

/-- the end of `execute`, after its address was made -/
def finish (hash : Data C A → A) (prog : FnId → Fn C) (f : FnId) (kw : List (String × Arg)) (packed : List (String × VIx))
    (r : RIx) (key : A) : M C A Ref := fun s =>
  if (s.results key).isSome then rGet r s else evaluate hash prog f kw packed key s

theorem execute_steps (f : FnId) (kw : List (String × Arg)) (s : St C A) :
    (∃ e s', Quiet s s' ∧ (StoreInv hash s → StoreInv hash s') ∧ execute hash prog f kw s = (.error e, s')) ∨
    ∃ p r ts s1 s2, Quiet s s1 ∧ Quiet s1 s2 ∧ (StoreInv hash s → StoreInv hash s2) ∧ ArgTexts hash s1 kw ts ∧
      PackedAs hash s1 p ts ∧ r = s.ras.length ∧
      s2.ras = s.ras ++ [{ key := hash (.call f ts), fn := some f, args := some (asArgs p) }] ∧
      execute hash prog f kw s = finish hash prog f kw p r (hash (.call f ts)) s2 := by
  unfold execute
  have q1 := pack_quiet hash kw s
  have v1 := pack_inv hash kw s
  cases h1 : pack hash kw s with
  | mk x s1 =>
    rw [h1] at q1 v1
    cases x with
    | error e => rw [run_error_bind h1]; exact .inl ⟨e, s1, q1, v1, rfl⟩
    | ok p =>
      rw [run_ok_bind h1]
      obtain ⟨ts, ht1, ht2⟩ := pack_ok hash h1
      have q2 := mkRA_quiet hash f (asArgs p) s1
      have v2 := mkRA_inv hash f (asArgs p) s1
      cases h2 : mkRA hash f (asArgs p) s1 with
      | mk x s2 =>
        rw [h2] at q2 v2
        cases x with
        | error e => rw [run_error_bind h2]; exact .inl ⟨e, s2, q1.trans q2, fun h => v2 (v1 h), rfl⟩
        | ok r =>
          rw [run_ok_bind h2]
          obtain ⟨ts', ht3, hr, hra, _⟩ := mkRA_ok hash h2
          have := argTexts_unique (argTexts_quiet q2 (packedAs_texts ht2)) ht3
          subst this
          have hras : s1.ras = s.ras := by have := pack_ras hash kw s; rw [h1] at this; exact this
          rw [hras] at hr hra
          have hget : s2.ras[r]? = some { key := hash (.call f ts), fn := some f, args := some (asArgs p) } := by
            rw [hra, hr]; simp
          rw [run_ok_bind (by unfold readRA; rw [hget] : readRA r s2 = (.ok _, s2)), run_ok_bind (PyM.run_get s2)]
          refine .inr ⟨p, r, ts, s1, s2, q1, q2, fun h => v2 (v1 h), ht1, ht2, hr, hra, ?_⟩
          unfold finish
          split <;> rfl

theorem rGet_ready {r : RIx} {s : St C A} {o : RA A} {a : A} {c : C} (h1 : s.ras[r]? = some o) (h2 : o.result = none)
    (h3 : s.results o.key = some a) (h4 : s.store a = some c) :
    rGet r s = (.ok s.objs.length, { s with
            objs := s.objs ++ [c]
            ras := s.ras.set r { o with result := some s.objs.length } }) := by
  unfold rGet
  simp only [h1, h2, h3, h4]

theorem execute_spec (hi : Function.Injective hash) (ht : Tame prog) {f : FnId} {kw : List (String × Arg)} {s : St C A}
    (h : Inv hash prog s) :
    Inv hash prog (execute hash prog f kw s).2 ∧
    ∀ i s', execute hash prog f kw s = (.ok i, s') →
      ∃ (s1 : St C A) (vals : List (String × C)) (c : C), Quiet s s1 ∧
        ArgTexts hash s1 kw (vals.map fun x => (x.1, hash (.plain x.2))) ∧
        evalFn (prog f) (vals.map (·.2)) = some c ∧ s'.objs[i]? = some c ∧
        s'.results (keyOf hash f vals) = some (hash (.plain c)) ∧
        ((s.results (keyOf hash f vals)).isSome → s.objs.length ≤ i) := by
  rcases execute_steps (hash := hash) (prog := prog) f kw s with ⟨e, s', hq, hv, he⟩ | ⟨p, r, ts, s1, s2, q1, q2, hv, ha, hp, hr, hra, he⟩
  · rw [he]; exact ⟨h.quiet (hv h.toStoreInv) hq, fun i s' h' => by cases h'⟩
  · rw [he]
    have i2 : Inv hash prog s2 := h.quiet (hv h.toStoreInv) (q1.trans q2)
    have hget : s2.ras[r]? = some { key := hash (.call f ts), fn := some f, args := some (asArgs p) } := by
      rw [hra, hr]; simp
    unfold finish
    cases hres : s2.results (hash (.call f ts)) with
    | some a =>
      simp only [Option.isSome_some, if_true]
      obtain ⟨f', vals, c, a1, a2, a3, a4⟩ := i2.results _ _ hres
      rw [rGet_ready hget rfl hres a4]
      refine ⟨i2.same rfl rfl rfl, fun i s' h' => ?_⟩
      have := hi a1
      cases this
      cases h'
      exact ⟨s1, vals, c, q1, ha, a2, by simp, by rw [← a3]; exact hres, fun _ => length_le_of_get (q1.trans q2).objs⟩
    | none =>
      simp only [Option.isSome_none, Bool.false_eq_true, if_false]
      obtain ⟨e1, e2⟩ := evaluate_spec hi ht (kw := kw) i2 (packedAs_quiet q2 hp) hres
      refine ⟨e1, fun i s' h' => ?_⟩
      obtain ⟨vals, c, b1, b2, b3, b4⟩ := e2 i s' h'
      subst b1
      refine ⟨s1, vals, c, q1, ha, b2, b3, b4, fun hs => ?_⟩
      have e3 : s2.results = s.results := (q1.trans q2).results
      rw [e3] at hres
      unfold keyOf at hs
      rw [hres] at hs
      exact absurd hs (by simp)

/-! ## What never goes away -/

theorem frame_later {s s' : St C A} (h : ∃ objs, s' = { s with objs := objs } ∧ s.objs.length ≤ objs.length) :
    Later s s' := by
  obtain ⟨objs, rfl, hl⟩ := h
  exact { Later.refl s with len := hl }

theorem resultSet_later (k a : A) (s : St C A) : Later s (resultSet k a s).2 :=
  { Later.refl s with
    results := by
      intro b d h
      show (if b = k ∧ s.results k = none then some a else s.results b) = some d
      by_cases hb : b = k ∧ s.results k = none
      · rw [hb.1] at h; rw [hb.2] at h; exact absurd h (by simp)
      · rw [if_neg hb]; exact h }

theorem evaluate_later (f : FnId) (kw : List (String × Arg)) (p : List (String × VIx)) (key : A) (s : St C A) :
    Later s (evaluate hash prog f kw p key s).2 := by
  unfold evaluate
  refine later_bind (frame_later (canBeExecuted_frame prog f _ s)) fun b s1 _ => ?_
  cases b with
  | false => exact Later.refl s1
  | true =>
    rw [if_pos rfl]
    refine later_bind (unpack_later _ s1) fun refs s2 _ => ?_
    refine later_bind (frame_later (runFn_frame _ _ s2)) fun i s3 _ => ?_
    refine later_bind (valueAddr_quiet hash i s3).later fun j s4 _ => ?_
    refine later_bind (by rw [readVA_state]; exact Later.refl s4) fun v s5 _ => ?_
    exact later_bind (resultSet_later _ _ s5) fun _ s6 _ => Later.refl s6

theorem evaluate_ras (f : FnId) (kw : List (String × Arg)) (p : List (String × VIx)) (key : A) (s : St C A) :
    (evaluate hash prog f kw p key s).2.ras = s.ras := by
  unfold evaluate
  refine keep_bind (I := fun t => t.ras = s.ras) ?_ fun b s1 _ h1 => ?_
  · obtain ⟨objs, ho, _⟩ := canBeExecuted_frame prog f (kw.map fun x => asLocal x.2) s
    rw [ho]
  cases b with
  | false => exact h1
  | true =>
    rw [if_pos rfl]
    refine keep_bind (I := fun t => t.ras = s.ras) ((unpack_same _ s1).ras.trans h1) fun refs s2 _ h2 => ?_
    refine keep_bind (I := fun t => t.ras = s.ras) ?_ fun i s3 _ h3 => ?_
    · obtain ⟨objs, ho, _⟩ := runFn_frame (prog f) (refs.map some) s2
      rw [ho]; exact h2
    refine keep_bind (I := fun t => t.ras = s.ras) ((valueAddr_ras hash i s3).trans h3) fun j s4 _ h4 => ?_
    refine keep_bind (I := fun t => t.ras = s.ras) (by rw [readVA_state]; exact h4) fun v s5 _ h5 => ?_
    exact keep_bind (I := fun t => t.ras = s.ras) h5 fun _ s6 _ h6 => h6

theorem rGet_shape (r : RIx) (s : St C A) : (rGet r s).2 = s ∨ ∃ o c, s.ras[r]? = some o ∧ o.result = none ∧
    rGet r s = (.ok s.objs.length, { s with
            objs := s.objs ++ [c]
            ras := s.ras.set r { o with result := some s.objs.length } }) := by
  unfold rGet
  cases h1 : s.ras[r]? with
  | none => exact .inl rfl
  | some o => cases h2 : o.result with
    | some i => simp only [h2]; exact .inl trivial
    | none =>
      cases h3 : s.results o.key with
      | none => simp only [h2, h3]; exact .inl trivial
      | some a => cases h4 : s.store a with
        | none => simp only [h2, h3, h4]; exact .inl trivial
        | some c => simp only [h2, h3, h4]; exact .inr ⟨o, c, rfl, h2, rfl⟩

theorem rGet_later (r : RIx) (s : St C A) : Later s (rGet r s).2 := by
  rcases rGet_shape r s with h | ⟨o, c, h1, h2, h3⟩
  · rw [h]; exact Later.refl s
  · rw [h3]
    refine { Later.refl s with len := by simp, ras := fun r' o' h' => ?_ }
    show ∃ o'', (s.ras.set r _)[r']? = _ ∧ _
    by_cases hr : r = r'
    · subst hr
      rw [h1] at h'; cases h'
      refine ⟨{ o with result := some s.objs.length }, by rw [List.getElem?_set, if_pos rfl, if_pos (lt_of_get h1)], rfl,
        fun _ _ a b => ⟨a, b⟩, fun i hi => ?_⟩
      rw [h2] at hi; exact absurd hi (by simp)
    · exact ⟨o', by rw [List.getElem?_set_ne hr]; exact h', rfl, fun _ _ a b => ⟨a, b⟩, fun _ h => h⟩

theorem execute_later (f : FnId) (kw : List (String × Arg)) (s : St C A) : Later s (execute hash prog f kw s).2 := by
  rcases execute_steps (hash := hash) (prog := prog) f kw s with ⟨e, s', hq, _, he⟩ | ⟨p, r, ts, s1, s2, q1, q2, _, _, _, _, _, he⟩
  · rw [he]; exact hq.later
  · rw [he]
    refine (q1.trans q2).later.trans ?_
    unfold finish
    split
    · exact rGet_later r s2
    · exact evaluate_later f kw p _ s2

/-- a call leaves the address objects alone that were there before -/
theorem execute_ras (f : FnId) (kw : List (String × Arg)) (s : St C A) (r : Nat) (o : RA A) (h : s.ras[r]? = some o) :
    (execute hash prog f kw s).2.ras[r]? = some o := by
  rcases execute_steps (hash := hash) (prog := prog) f kw s with ⟨e, s', hq, _, he⟩ | ⟨p, r', ts, s1, s2, q1, q2, _, _, _, hr, hra, he⟩
  · rw [he]; exact hq.ras _ _ h
  · rw [he]
    have h2 := (q1.trans q2).ras _ _ h
    unfold finish
    split
    · rcases rGet_shape r' s2 with h3 | ⟨o', c, _, _, h3⟩
      · rw [h3]; exact h2
      · rw [h3]
        show (s2.ras.set r' _)[r]? = _
        have := lt_of_get h
        rw [List.getElem?_set_ne (by rw [hr]; exact Nat.ne_of_gt this)]
        exact h2
    · rw [evaluate_ras]; exact h2

theorem keptCall_some {o : RA A} {f : FnId} {l : List (String × Arg)} :
    keptCall o = some (f, l) ↔ o.fn = some f ∧ o.args = some l := by
  unfold keptCall
  cases o.fn <;> cases o.args <;> simp

theorem argsFromTexts_total (ts : List (String × A)) (s : St C A) : ∃ l s1, argsFromTexts ts s = (.ok l, s1) := by
  induction ts generalizing s with
  | nil => exact ⟨[], s, rfl⟩
  | cons x ts ih =>
    obtain ⟨k, t⟩ := x
    obtain ⟨l, s1, h⟩ := ih { s with vas := s.vas ++ [{ text := t }] }
    refine ⟨(k, .addr s.vas.length) :: l, s1, ?_⟩
    rw [argsFromTexts, run_ok_bind (rfl : newVA { text := t } s = (.ok s.vas.length, _)), run_ok_bind h]
    rfl

theorem argsFromTexts_same (ts : List (String × A)) (s : St C A) : Same s (argsFromTexts ts s).2 := by
  induction ts generalizing s with
  | nil => exact Same.refl s
  | cons x ts ih =>
    obtain ⟨k, t⟩ := x
    rw [argsFromTexts]
    exact same_bind ⟨rfl, rfl, rfl, rfl⟩ fun _ s1 => same_bind (ih s1) fun _ s2 => Same.refl s2

/-- `rCall`: kept, loaded, or nothing -/
theorem rCall_cases (r : RIx) (s : St C A) :
    (∃ o call, s.ras[r]? = some o ∧ keptCall o = some call ∧ rCall r s = (.ok call, s)) ∨
    (∃ o f ts l s1, s.ras[r]? = some o ∧ keptCall o = none ∧ s.sigs o.key = some (f, ts) ∧
      argsFromTexts ts s = (.ok l, s1) ∧ rCall r s = (.ok (f, l), { s1 with
        ras := s1.ras.modify r fun o => { o with fn := some f, args := some l } })) ∨
    ∃ e, rCall r s = (.error e, s) ∧ ∀ o, s.ras[r]? = some o → keptCall o = none ∧ s.sigs o.key = none := by
  unfold rCall
  cases h1 : s.ras[r]? with
  | none =>
    rw [run_error_bind (by unfold readRA; rw [h1] : readRA r s = (.error .attributeError, s))]
    exact .inr (.inr ⟨_, rfl, fun o ho => by cases ho⟩)
  | some o =>
    rw [run_ok_bind (by unfold readRA; rw [h1] : readRA r s = (.ok o, s))]
    cases h2 : keptCall o with
    | some call => exact .inl ⟨o, call, rfl, h2, rfl⟩
    | none =>
      simp only [Option.map_none, Option.getD_none]
      unfold loadCall
      cases h3 : s.sigs o.key with
      | none => exact .inr (.inr ⟨_, rfl, fun o' ho => by cases ho; exact ⟨h2, h3⟩⟩)
      | some d =>
        obtain ⟨f, ts⟩ := d
        obtain ⟨l, s1, h4⟩ := argsFromTexts_total ts s
        refine .inr (.inl ⟨o, f, ts, l, s1, rfl, h2, h3, h4, ?_⟩)
        show (argsFromTexts ts >>= _) s = _
        rw [run_ok_bind h4]
        rfl

theorem get_modify_eq {α : Type} {l : List α} {r : Nat} {o : α} (g : α → α) (h : l[r]? = some o) :
    (l.modify r g)[r]? = some (g o) := by
  rw [List.getElem?_modify, h]; simp

theorem get_modify_ne {α : Type} {l : List α} {r r' : Nat} (g : α → α) (h : r ≠ r') : (l.modify r g)[r']? = l[r']? := by
  rw [List.getElem?_modify]; simp [h]

theorem rCall_later (r : RIx) (s : St C A) : Later s (rCall r s).2 := by
  rcases rCall_cases r s with ⟨o, call, _, _, h⟩ | ⟨o, f, ts, l, s1, h1, h2, _, h4, h⟩ | ⟨e, h, _⟩
  · rw [h]; exact Later.refl s
  · rw [h]
    have q := argsFromTexts_quiet ts s
    rw [h4] at q
    refine q.later.trans { Later.refl s1 with ras := fun r' o' h' => ?_ }
    by_cases hr : r = r'
    · subst hr
      have := q.ras _ _ h1
      change s1.ras[r]? = _ at this
      rw [this] at h'; cases h'
      refine ⟨_, get_modify_eq _ this, rfl, fun f' l' hf hl => ?_, fun _ h => h⟩
      rw [keptCall_some.2 ⟨hf, hl⟩] at h2
      exact absurd h2 (by simp)
    · exact ⟨o', (get_modify_ne _ hr).trans h', rfl, fun _ _ a b => ⟨a, b⟩, fun _ h => h⟩
  · rw [h]; exact Later.refl s

/-- an address has no result object yet -/
def NoResult (s : St C A) (r : Nat) : Prop := ∃ o, s.ras[r]? = some o ∧ o.result = none

theorem rCall_result (r : RIx) (s : St C A) (r' : Nat) (o : RA A) (h : s.ras[r']? = some o) :
    ∃ o', (rCall r s).2.ras[r']? = some o' ∧ o'.result = o.result := by
  rcases rCall_cases r s with ⟨_, call, _, _, he⟩ | ⟨o1, f, ts, l, s1, h1, h2, _, h4, he⟩ | ⟨e, he, _⟩
  · rw [he]; exact ⟨o, h, rfl⟩
  · rw [he]
    have q := argsFromTexts_quiet ts s
    rw [h4] at q
    have h5 := q.ras _ _ h
    by_cases hr : r = r'
    · subst hr
      exact ⟨_, get_modify_eq _ h5, rfl⟩
    · exact ⟨o, (get_modify_ne _ hr).trans h5, rfl⟩
  · rw [he]; exact ⟨o, h, rfl⟩

theorem executeNow_later (r : RIx) (s : St C A) (hn : NoResult s r) : Later s (executeNow hash prog r s).2 := by
  unfold executeNow
  obtain ⟨o, ho, hor⟩ := hn
  refine later_bind (rCall_later r s) fun call s1 h1 => ?_
  obtain ⟨o1, ho1, hor1⟩ := rCall_result r s r o ho
  rw [h1] at ho1
  refine later_bind (execute_later _ _ s1) fun i s2 h2 => ?_
  have ho2 := execute_ras (hash := hash) (prog := prog) call.1 call.2 s1 r o1 ho1
  rw [h2] at ho2
  change s2.ras[r]? = _ at ho2
  rw [run_ok_bind (PyM.run_modify _ s2)]
  refine { Later.refl s2 with ras := fun r' o' h' => ?_ }
  by_cases hr : r = r'
  · subst hr
    rw [ho2] at h'; cases h'
    refine ⟨_, get_modify_eq _ ho2, rfl, fun f l a b => ⟨a, b⟩, fun i' hi' => ?_⟩
    rw [hor1, hor] at hi'
    exact absurd hi' (by simp)
  · exact ⟨o', (get_modify_ne _ hr).trans h', rfl, fun _ _ a b => ⟨a, b⟩, fun _ h => h⟩

theorem rExecute_cases (r : RIx) (s : St C A) :
    (∃ e, rExecute hash prog r s = (.error e, s) ∧ s.ras[r]? = none) ∨
    (∃ o i, s.ras[r]? = some o ∧ o.result = some i ∧ rExecute hash prog r s = (.ok i, s)) ∨
    (NoResult s r ∧ rExecute hash prog r s = executeNow hash prog r s) := by
  unfold rExecute
  cases h1 : s.ras[r]? with
  | none =>
    rw [run_error_bind (by unfold readRA; rw [h1] : readRA r s = (.error .attributeError, s))]
    exact .inl ⟨_, rfl, rfl⟩
  | some o =>
    rw [run_ok_bind (by unfold readRA; rw [h1] : readRA r s = (.ok o, s))]
    cases h2 : o.result with
    | some i => exact .inr (.inl ⟨o, i, rfl, h2, rfl⟩)
    | none => exact .inr (.inr ⟨⟨o, h1, h2⟩, rfl⟩)

theorem rExecute_later (r : RIx) (s : St C A) : Later s (rExecute hash prog r s).2 := by
  rcases rExecute_cases (hash := hash) (prog := prog) r s with ⟨e, h, _⟩ | ⟨o, i, _, _, h⟩ | ⟨hn, h⟩
  · rw [h]; exact Later.refl s
  · rw [h]; exact Later.refl s
  · rw [h]; exact executeNow_later r s hn

theorem step_later (s : St C A) (op : Op C A) : Later s (step hash prog s op) := by
  cases op with
  | new c => exact (newObj_quiet c s).later
  | change i c => exact { Later.refl s with len := by show _ ≤ (s.objs.set i c).length; simp }
  | valueAddr i => exact (valueAddr_quiet hash i s).later
  | convert j => exact (convert_quiet j s).later
  | fromText a => exact (newVA_quiet _ s).later
  | get j => exact getVA_later j s
  | call f kw => exact execute_later f kw s
  | getAddress f kw => exact (getAddress_quiet hash f kw s).later
  | listAddress f kw => exact (mkRA_quiet hash f kw s).later
  | rFromText k => exact (newRA_quiet _ s).later
  | rExecute r => exact rExecute_later r s
  | rGet r => exact rGet_later r s
  | rKwargs r => exact later_bind (rCall_later r s) fun call s1 _ => unpack_later _ s1

theorem steps_later (ops : List (Op C A)) (s : St C A) : Later s (ops.foldl (step hash prog) s) := by
  induction ops generalizing s with
  | nil => exact Later.refl s
  | cons op ops ih => exact (step_later s op).trans (ih _)

/-! ## The invariant -/

theorem rCall_inv {s : St C A} (r : RIx) (h : Inv hash prog s) : Inv hash prog (rCall r s).2 := by
  rcases rCall_cases r s with ⟨_, call, _, _, he⟩ | ⟨o1, f, ts, l, s1, h1, h2, _, h4, he⟩ | ⟨e, he, _⟩
  · rw [he]; exact h
  · rw [he]
    have q : Same s s1 := by
      have : Same s (argsFromTexts ts s).2 := argsFromTexts_same ts s
      rw [h4] at this; exact this
    exact (h.same q.store q.sigs q.results).same rfl rfl rfl
  · rw [he]; exact h

theorem step_inv (hi : Function.Injective hash) (ht : Tame prog) {s : St C A} (h : Inv hash prog s) (op : Op C A) :
    Inv hash prog (step hash prog s op) := by
  cases op with
  | new c => exact h.same rfl rfl rfl
  | change i c => exact h.same rfl rfl rfl
  | valueAddr i => exact h.quiet (valueAddr_inv hash i s h.toStoreInv) (valueAddr_quiet hash i s)
  | convert j => exact h.quiet (packOne_inv hash (.addr j) s h.toStoreInv) (convert_quiet j s)
  | fromText a => exact h.same rfl rfl rfl
  | get j => exact h.same (getVA_same j s).store (getVA_same j s).sigs (getVA_same j s).results
  | call f kw => exact (execute_spec hi ht h).1
  | getAddress f kw =>
    exact h.quiet (keep_bind (pack_inv hash kw s h.toStoreInv) fun p s1 _ h1 => mkRA_inv hash f _ s1 h1)
      (getAddress_quiet hash f kw s)
  | listAddress f kw => exact h.quiet (mkRA_inv hash f kw s h.toStoreInv) (mkRA_quiet hash f kw s)
  | rFromText k => exact h.same rfl rfl rfl
  | rExecute r =>
    show Inv hash prog (rExecute hash prog r s).2
    rcases rExecute_cases (hash := hash) (prog := prog) r s with ⟨e, he, _⟩ | ⟨o, i, _, _, he⟩ | ⟨_, he⟩
    · rw [he]; exact h
    · rw [he]; exact h
    · rw [he]
      unfold executeNow
      refine keep_bind (rCall_inv r h) fun call s1 _ h1 => ?_
      refine keep_bind (execute_spec hi ht h1).1 fun i s2 _ h2 => ?_
      exact h2.same rfl rfl rfl
  | rGet r =>
    show Inv hash prog (rGet r s).2
    rcases rGet_shape r s with he | ⟨o, c, _, _, he⟩
    · rw [he]; exact h
    · rw [he]; exact h.same rfl rfl rfl
  | rKwargs r =>
    refine keep_bind (rCall_inv r h) fun call s1 _ h1 => ?_
    exact h1.same (unpack_same _ s1).store (unpack_same _ s1).sigs (unpack_same _ s1).results

theorem steps_inv (hi : Function.Injective hash) (ht : Tame prog) (ops : List (Op C A)) {s : St C A}
    (h : Inv hash prog s) : Inv hash prog (ops.foldl (step hash prog) s) := by
  induction ops generalizing s with
  | nil => exact h
  | cons op ops ih => exact ih (step_inv hi ht h op)

theorem init_inv : Inv hash prog ({} : St C A) :=
  { store := fun _ _ h => absurd h (by simp)
    sigs := fun _ _ _ h => absurd h (by simp)
    results := fun _ _ h => absurd h (by simp) }

/-! ## Calls that succeed -/

theorem argIs_quiet {s s' : St C A} (h : Quiet s s') {a : Arg} {c : C} (ha : ArgIs s a c) : ArgIs s' a c := by
  cases a with
  | obj i => exact h.objs _ _ ha
  | addr j => obtain ⟨v, h1, h2⟩ := ha; exact ⟨v, h.vas _ _ h1, h.store _ _ h2⟩

theorem argsAre_quiet {s s' : St C A} (h : Quiet s s') {kw : List (String × Arg)} {vals : List (String × C)}
    (ha : ArgsAre s kw vals) : ArgsAre s' kw vals :=
  ha.imp fun _ _ ⟨h1, h2⟩ => ⟨h1, argIs_quiet h h2⟩

/-- what is meant by an address never changes -/
theorem argsAre_later {s s' : St C A} (h : Later s s') {p : List (String × VIx)} {vals : List (String × C)}
    (ha : ArgsAre s (asArgs p) vals) : ArgsAre s' (asArgs p) vals := by
  unfold ArgsAre asArgs at *
  rw [List.forall₂_map_left_iff] at *
  refine ha.imp fun x y ⟨h1, v, h2, h3⟩ => ⟨h1, ?_⟩
  obtain ⟨v', h4, h5, _⟩ := h.vas _ _ h2
  exact ⟨v', h4, by rw [h5]; exact h.store _ _ h3⟩

theorem argsAre_texts {s : St C A} (hs : StoreInv hash s) {kw : List (String × Arg)} {vals : List (String × C)}
    (ha : ArgsAre s kw vals) : ArgTexts hash s kw (vals.map fun x => (x.1, hash (.plain x.2))) := by
  unfold ArgTexts
  rw [List.forall₂_map_right_iff]
  refine ha.imp fun x y ⟨h1, h2⟩ => ⟨h1, ?_⟩
  cases hx : x.2 with
  | obj i => rw [hx] at h2; exact ⟨_, h2, rfl⟩
  | addr j => rw [hx] at h2; obtain ⟨v, h3, h4⟩ := h2; exact ⟨v, h3, hs.store _ _ h4⟩

theorem map_hash_inj (hi : Function.Injective hash) {vals vals' : List (String × C)}
    (h : vals.map (fun x => (x.1, hash (.plain x.2))) = vals'.map (fun x => (x.1, hash (.plain x.2)))) : vals = vals' := by
  refine List.map_injective_iff.2 (fun x y hxy => ?_) h
  obtain ⟨a, b⟩ := x
  obtain ⟨a', b'⟩ := y
  simp only [Prod.mk.injEq] at hxy
  have := hi hxy.2
  cases this
  rw [hxy.1]

theorem packOne_total (hi : Function.Injective hash) {s : St C A} (hs : StoreInv hash s) {a : Arg} {c : C}
    (h : ArgIs s a c) : ∃ j s', packOne hash a s = (.ok j, s') ∧ ArgIs s' (.addr j) c := by
  cases a with
  | obj i =>
    have h1 : content i s = (.ok c, s) := by unfold content; rw [h]
    have h2 : valueAddr hash i s = (.ok s.vas.length, { (storeSet (hash (.plain c)) c s).2 with
        vas := s.vas ++ [⟨hash (.plain c), some i⟩] }) := by
      unfold valueAddr
      rw [run_ok_bind h1]
      rfl
    refine ⟨_, _, h2, ?_⟩
    obtain ⟨c', b1, b2, b3, _⟩ := valueAddr_ok hi hs h2
    rw [h] at b1; cases b1
    exact ⟨_, b3, b2⟩
  | addr j =>
    obtain ⟨v, h1, h2⟩ := h
    have h3 : packOne hash (.addr j) s = (.ok s.vas.length, { s with vas := s.vas ++ [⟨v.text, none⟩] }) := by
      show convert j s = _
      unfold convert
      rw [run_ok_bind (by unfold readVA; rw [h1] : readVA j s = (.ok v, s))]
      rfl
    exact ⟨_, _, h3, ⟨v.text, none⟩, by simp, h2⟩

theorem pack_total (hi : Function.Injective hash) {s : St C A} (hs : StoreInv hash s) {kw : List (String × Arg)}
    {vals : List (String × C)} (h : ArgsAre s kw vals) :
    ∃ p s', pack hash kw s = (.ok p, s') ∧ ArgsAre s' (asArgs p) vals := by
  induction kw generalizing s vals with
  | nil => cases h; exact ⟨[], s, rfl, .nil⟩
  | cons x l ih =>
    obtain ⟨k, a⟩ := x
    cases h with
    | cons h1 h2 =>
      obtain ⟨j, s1, e1, a1⟩ := packOne_total hi hs h1.2
      have q1 : Quiet s s1 := by have := packOne_quiet hash a s; rw [e1] at this; exact this
      have i1 : StoreInv hash s1 := by have := packOne_inv hash a s hs; rw [e1] at this; exact this
      obtain ⟨p, s2, e2, a2⟩ := ih i1 (argsAre_quiet q1 h2)
      have q2 : Quiet s1 s2 := by have := pack_quiet hash l s1; rw [e2] at this; exact this
      refine ⟨(k, j) :: p, s2, ?_, .cons ⟨h1.1, argIs_quiet q2 a1⟩ a2⟩
      rw [pack, run_ok_bind e1, run_ok_bind e2]
      rfl

theorem texts_total {s : St C A} {p : List (String × VIx)} {vals : List (String × C)} (h : ArgsAre s (asArgs p) vals) :
    ∃ ts, texts p s = (.ok ts, s) := by
  induction p generalizing vals with
  | nil => exact ⟨[], rfl⟩
  | cons x l ih =>
    obtain ⟨k, j⟩ := x
    cases h with
    | cons h1 h2 =>
      obtain ⟨_, v, h3, _⟩ := h1
      obtain ⟨ts, h4⟩ := ih h2
      refine ⟨(k, v.text) :: ts, ?_⟩
      rw [texts, run_ok_bind (by unfold readVA; rw [h3] : readVA j s = (.ok v, s)), run_ok_bind h4]
      rfl

theorem mkRA_total (hi : Function.Injective hash) {s : St C A} (hs : StoreInv hash s) (f : FnId) {l : List (String × Arg)}
    {vals : List (String × C)} (h : ArgsAre s l vals) : ∃ r s', mkRA hash f l s = (.ok r, s') := by
  unfold mkRA
  obtain ⟨p, s1, e1, a1⟩ := pack_total hi hs h
  obtain ⟨ts, e2⟩ := texts_total a1
  rw [run_ok_bind e1, run_ok_bind e2]
  exact ⟨_, _, rfl⟩

theorem unpack_total {s : St C A} {p : List (String × VIx)} {vals : List (String × C)} (h : ArgsAre s (asArgs p) vals) :
    ∃ refs s', unpack (asArgs p) s = (.ok refs, s') := by
  induction p generalizing s vals with
  | nil => exact ⟨[], s, rfl⟩
  | cons x l ih =>
    obtain ⟨k, j⟩ := x
    cases h with
    | cons h1 h2 =>
      obtain ⟨_, v, h3, h4⟩ := h1
      have hg : ∃ i s1, getVA j s = (.ok i, s1) := by
        unfold getVA
        rw [h3]
        cases hv : v.value with
        | some i => simp only [hv]; exact ⟨_, _, rfl⟩
        | none => simp only [hv, h4]; exact ⟨_, _, rfl⟩
      obtain ⟨i, s1, h5⟩ := hg
      have hl : Later s s1 := by have := getVA_later j s; rw [h5] at this; exact this
      obtain ⟨refs, s2, h6⟩ := ih (argsAre_later hl h2)
      refine ⟨i :: refs, s2, ?_⟩
      change unpack ((k, Arg.addr j) :: asArgs l) s = _
      have h5' : unpackOne (.addr j) s = (.ok i, s1) := h5
      rw [unpack, run_ok_bind h5', run_ok_bind h6]
      rfl

theorem rGet_total {r : RIx} {s : St C A} {o : RA A} (h : Inv hash prog s) (ho : s.ras[r]? = some o)
    (hr : (s.results o.key).isSome) : ∃ i s', rGet r s = (.ok i, s') := by
  cases h1 : o.result with
  | some i =>
    refine ⟨i, s, ?_⟩
    unfold rGet
    simp only [ho, h1]
  | none =>
    cases h2 : s.results o.key with
    | none => rw [h2] at hr; exact absurd hr (by simp)
    | some a =>
      obtain ⟨_, _, c, _, _, h3, h4⟩ := h.results _ _ h2
      exact ⟨_, _, rGet_ready ho h1 h2 h4⟩

/-- a call of a function without guards succeeds if the code does -/
theorem execute_total (hi : Function.Injective hash) (ht : Tame prog) {f : FnId} {kw : List (String × Arg)} {s : St C A}
    (h : Inv hash prog s) {vals : List (String × C)} (ha : ArgsAre s kw vals) {c : C}
    (hc : evalFn (prog f) (vals.map (·.2)) = some c) (hg : (prog f).guards = []) :
    ∃ i s', execute hash prog f kw s = (.ok i, s') := by
  obtain ⟨p, s1, e1, a1⟩ := pack_total hi h.toStoreInv ha
  have q1 : Quiet s s1 := by have := pack_quiet hash kw s; rw [e1] at this; exact this
  have v1 : StoreInv hash s1 := by have := pack_inv hash kw s h.toStoreInv; rw [e1] at this; exact this
  obtain ⟨ts, ht1, ht2⟩ := pack_ok hash e1
  have hts := argTexts_unique (argsAre_texts v1 (argsAre_quiet q1 ha)) ht1
  obtain ⟨r, s2, e2⟩ := mkRA_total hi v1 f a1
  have q2 : Quiet s1 s2 := by have := mkRA_quiet hash f (asArgs p) s1; rw [e2] at this; exact this
  have v2 : StoreInv hash s2 := by have := mkRA_inv hash f (asArgs p) s1 v1; rw [e2] at this; exact this
  have i2 : Inv hash prog s2 := h.quiet v2 (q1.trans q2)
  obtain ⟨ts', ht3, hr, hra, _⟩ := mkRA_ok hash e2
  have := argTexts_unique (argTexts_quiet q2 (packedAs_texts ht2)) ht3
  subst this
  have hget : s2.ras[r]? = some { key := hash (.call f ts), fn := some f, args := some (asArgs p) } := by
    rw [hra, hr]; simp
  unfold execute
  rw [run_ok_bind e1, run_ok_bind e2, run_ok_bind (by unfold readRA; rw [hget] : readRA r s2 = (.ok _, s2)),
    run_ok_bind (PyM.run_get s2)]
  split
  · rename_i hs
    exact rGet_total i2 hget hs
  · unfold evaluate
    have hcb : canBeExecuted prog f (kw.map fun x => asLocal x.2) s2 = (.ok true, s2) := by
      unfold canBeExecuted; rw [hg]; rfl
    rw [run_ok_bind hcb, if_pos rfl]
    obtain ⟨refs, s3, e3⟩ := unpack_total (argsAre_quiet q2 a1)
    rw [run_ok_bind e3]
    obtain ⟨vals', hv1, hv2⟩ := unpack_ok hash v2 e3 (packedAs_quiet q2 ht2)
    have hvv : vals = vals' := map_hash_inj hi (hts.trans hv1)
    subst hvv
    have he := runFn_eval (ht f).1 (vals := vals.map (·.2)) (s := s3) (refs := refs)
      (by rw [List.forall₂_map_right_iff]; exact hv2)
    rw [hc] at he
    obtain ⟨i, s4, e4, hci⟩ := he
    rw [run_ok_bind e4]
    have e5 : ∃ j s5 v, valueAddr hash i s4 = (.ok j, s5) ∧ s5.vas[j]? = some v := by
      have e5 : valueAddr hash i s4 = (.ok s4.vas.length, { (storeSet (hash (.plain c)) c s4).2 with
          vas := s4.vas ++ [⟨hash (.plain c), some i⟩] }) := by
        unfold valueAddr
        rw [run_ok_bind (by unfold content; rw [hci] : content i s4 = (.ok c, s4))]
        rfl
      exact ⟨_, _, ⟨hash (.plain c), some i⟩, e5, by simp⟩
    obtain ⟨j, s5, v, e5, e6⟩ := e5
    rw [run_ok_bind e5, run_ok_bind (by unfold readVA; rw [e6] : readVA j s5 = (.ok v, s5))]
    exact ⟨_, _, rfl⟩

theorem run_inv (hi : Function.Injective hash) (ht : Tame prog) (ops : List (Op C A)) : Inv hash prog (run hash prog ops) :=
  steps_inv hi ht ops init_inv

end Pyth.Mutable
