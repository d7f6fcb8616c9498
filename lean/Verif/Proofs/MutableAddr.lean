import Verif.Proofs.MutableExec
/-! # Proofs for C108: addresses of results -/
set_option linter.unusedSectionVars false
namespace Pyth.Mutable

variable {C A : Type} [DecidableEq A] {hash : Data C A → A} {prog : FnId → Fn C}

/-- the contents of the arguments of a call are stored -/
def Stored (hash : Data C A → A) (s : St C A) (vals : List (String × C)) : Prop :=
  ∀ x ∈ vals, s.store (hash (.plain x.2)) = some x.2

theorem Stored.later {s s' : St C A} {vals : List (String × C)} (h : Stored hash s vals) (hl : Later s s') :
    Stored hash s' vals := fun x hx => hl.store _ _ (h x hx)

theorem argsAre_stored {s : St C A} (hs : StoreInv hash s) {p : List (String × VIx)} {vals : List (String × C)}
    (h : ArgsAre s (asArgs p) vals) : Stored hash s vals := by
  induction p generalizing vals with
  | nil => cases h; exact fun x hx => absurd hx (by simp)
  | cons x l ih =>
    cases h with
    | cons h1 h2 =>
      intro y hy
      rcases List.mem_cons.1 hy with rfl | hy
      · obtain ⟨_, v, _, h3⟩ := h1
        rw [← hs.store _ _ h3]; exact h3
      · exact ih h2 y hy

/-- what `mkRA` does for arguments with a meaning -/
theorem mkRA_spec (hi : Function.Injective hash) {s : St C A} (hs : StoreInv hash s) (f : FnId)
    {l : List (String × Arg)} {vals : List (String × C)} (h : ArgsAre s l vals) :
    ∃ s', mkRA hash f l s = (.ok s.ras.length, s') ∧
      s'.ras[s.ras.length]? = some { key := keyOf hash f vals, fn := some f, args := some l } ∧
      s'.sigs (keyOf hash f vals) = some (f, vals.map fun x => (x.1, hash (.plain x.2))) ∧ Stored hash s' vals := by
  obtain ⟨r, s', e⟩ := mkRA_total hi hs f h
  have q : Quiet s s' := by have := mkRA_quiet hash f l s; rw [e] at this; exact this
  have v : StoreInv hash s' := by have := mkRA_inv hash f l s hs; rw [e] at this; exact this
  obtain ⟨ts, h1, h2, h3, h4⟩ := mkRA_ok hash e
  have := argTexts_unique h1 (argsAre_texts v (argsAre_quiet q h))
  subst this
  refine ⟨s', by rw [e, h2], by rw [h3]; simp; rfl, ?_, ?_⟩
  · cases hs' : s'.sigs (hash (.call f (vals.map fun x => (x.1, hash (.plain x.2))))) with
    | none => rw [hs'] at h4; exact absurd h4 (by simp)
    | some d =>
      obtain ⟨f', ts'⟩ := d
      have := hi (v.sigs _ _ _ hs')
      cases this
      exact hs'
  · obtain ⟨p, s1, e1, a1⟩ := pack_total hi hs h
    have v1 : StoreInv hash s1 := by have := pack_inv hash l s hs; rw [e1] at this; exact this
    have hst := argsAre_stored v1 a1
    unfold mkRA at e
    rw [run_ok_bind e1] at e
    obtain ⟨ts2, s2, h5, h6⟩ := bind_ok e
    obtain ⟨_, s3, h7, h8⟩ := bind_ok h6
    have e2 : s2 = s1 := by have := texts_state p s1; rw [h5] at this; exact this
    subst e2
    cases h7; cases h8
    exact hst

theorem getAddress_spec (hi : Function.Injective hash) {s : St C A} (hs : StoreInv hash s) (f : FnId)
    {kw : List (String × Arg)} {vals : List (String × C)} (h : ArgsAre s kw vals) :
    ∃ p s', getAddress hash f kw s = (.ok s.ras.length, s') ∧
      s'.ras[s.ras.length]? = some { key := keyOf hash f vals, fn := some f, args := some (asArgs p) } ∧
      ArgsAre s' (asArgs p) vals ∧
      s'.sigs (keyOf hash f vals) = some (f, vals.map fun x => (x.1, hash (.plain x.2))) ∧ Stored hash s' vals := by
  obtain ⟨p, s1, e1, a1⟩ := pack_total hi hs h
  have v1 : StoreInv hash s1 := by have := pack_inv hash kw s hs; rw [e1] at this; exact this
  have r1 : s1.ras = s.ras := by have := pack_ras hash kw s; rw [e1] at this; exact this
  obtain ⟨s2, e2, b1, b2, b3⟩ := mkRA_spec hi v1 f a1
  have q2 : Quiet s1 s2 := by have := mkRA_quiet hash f (asArgs p) s1; rw [e2] at this; exact this
  rw [r1] at e2 b1
  refine ⟨p, s2, ?_, b1, argsAre_quiet q2 a1, b2, b3⟩
  unfold getAddress
  rw [run_ok_bind e1, e2]

theorem argsFromTexts_are {s : St C A} {vals : List (String × C)} (hs : Stored hash s vals) :
    ∃ p s1, argsFromTexts (vals.map fun x => (x.1, hash (.plain x.2))) s = (.ok (asArgs p), s1) ∧
      ArgsAre s1 (asArgs p) vals := by
  induction vals generalizing s with
  | nil => exact ⟨[], s, rfl, .nil⟩
  | cons x vals ih =>
    obtain ⟨k, c⟩ := x
    have e0 : newVA { text := hash (.plain c) } s =
      (.ok s.vas.length, { s with vas := s.vas ++ [{ text := hash (.plain c) }] }) := rfl
    obtain ⟨p, s1, e1, a1⟩ := ih (s := { s with vas := s.vas ++ [{ text := hash (.plain c) }] })
      (fun y hy => hs y (by simp [hy]))
    have q := argsFromTexts_quiet (vals.map fun x => (x.1, hash (.plain x.2)))
      { s with vas := s.vas ++ [{ text := hash (.plain c) }] }
    rw [e1] at q
    refine ⟨(k, s.vas.length) :: p, s1, ?_, .cons ⟨rfl, { text := hash (.plain c) }, ?_, ?_⟩ a1⟩
    · rw [List.map_cons, argsFromTexts, run_ok_bind e0, run_ok_bind e1]; rfl
    · exact q.vas _ _ (by simp)
    · exact q.store _ _ (hs (k, c) (by simp))

theorem argsFromTexts_objs {ts : List (String × A)} {s s1 : St C A} {l : List (String × Arg)}
    (h : argsFromTexts ts s = (.ok l, s1)) : s1.objs = s.objs := by
  induction ts generalizing s s1 l with
  | nil => cases h; rfl
  | cons x ts ih =>
    obtain ⟨k, t⟩ := x
    rw [argsFromTexts] at h
    obtain ⟨j, s2, h1, h2⟩ := bind_ok h
    obtain ⟨q, s3, h3, h4⟩ := bind_ok h2
    cases h4
    rw [ih h3]
    cases h1; rfl

/-! ## Addresses that have no result yet -/

theorem executeNow_result (r : RIx) (s : St C A) (r' : Nat) (o : RA A) (hr : r ≠ r') (h : s.ras[r']? = some o) :
    ∃ o', (executeNow hash prog r s).2.ras[r']? = some o' ∧ o'.result = o.result := by
  unfold executeNow
  refine keep_bind (I := fun t => ∃ o', t.ras[r']? = some o' ∧ o'.result = o.result) (rCall_result r s r' o h)
    fun call s1 _ h1 => ?_
  obtain ⟨o1, h1, h2⟩ := h1
  refine keep_bind (I := fun t => ∃ o', t.ras[r']? = some o' ∧ o'.result = o.result)
    ⟨o1, execute_ras call.1 call.2 s1 r' o1 h1, h2⟩ fun i s2 _ h3 => ?_
  obtain ⟨o2, h3, h4⟩ := h3
  exact ⟨o2, (get_modify_ne _ hr).trans h3, h4⟩

/-- only `execute` and `get` of an address give it a result -/
theorem step_noResult (s : St C A) (op : Op C A) (r : Nat) (h : NoResult s r) (h1 : op ≠ .rExecute r) (h2 : op ≠ .rGet r) :
    NoResult (step hash prog s op) r := by
  obtain ⟨o, ho, hn⟩ := h
  have quiet : ∀ {s' : St C A}, Quiet s s' → NoResult s' r := fun q => ⟨o, q.ras _ _ ho, hn⟩
  cases op with
  | new c => exact quiet (newObj_quiet c s)
  | change i c => exact ⟨o, ho, hn⟩
  | valueAddr i => exact quiet (valueAddr_quiet hash i s)
  | convert j => exact quiet (convert_quiet j s)
  | fromText a => exact quiet (newVA_quiet _ s)
  | get j => exact ⟨o, by show (getVA j s).2.ras[r]? = _; rw [(getVA_same j s).ras]; exact ho, hn⟩
  | call f kw => exact ⟨o, execute_ras f kw s r o ho, hn⟩
  | getAddress f kw => exact quiet (getAddress_quiet hash f kw s)
  | listAddress f kw => exact quiet (mkRA_quiet hash f kw s)
  | rFromText k => exact quiet (newRA_quiet _ s)
  | rExecute r' =>
    have hr : r' ≠ r := fun h => h1 (by rw [h])
    show NoResult (rExecute hash prog r' s).2 r
    rcases rExecute_cases (hash := hash) (prog := prog) r' s with ⟨e, he, _⟩ | ⟨_, i, _, _, he⟩ | ⟨_, he⟩
    · rw [he]; exact ⟨o, ho, hn⟩
    · rw [he]; exact ⟨o, ho, hn⟩
    · rw [he]
      obtain ⟨o', a, b⟩ := executeNow_result (hash := hash) (prog := prog) r' s r o hr ho
      exact ⟨o', a, b.trans hn⟩
  | rGet r' =>
    have hr : r' ≠ r := fun h => h2 (by rw [h])
    show NoResult (rGet r' s).2 r
    rcases rGet_shape r' s with he | ⟨_, c, _, _, he⟩
    · rw [he]; exact ⟨o, ho, hn⟩
    · rw [he]; exact ⟨o, (List.getElem?_set_ne hr).trans ho, hn⟩
  | rKwargs r' =>
    refine keep_bind (I := fun t => NoResult t r) ?_ fun call s1 _ h3 => ?_
    · obtain ⟨o', a, b⟩ := rCall_result r' s r o ho
      exact ⟨o', a, b.trans hn⟩
    · obtain ⟨o', a, b⟩ := h3
      exact ⟨o', by rw [(unpack_same _ s1).ras]; exact a, b⟩

theorem steps_noResult (ops : List (Op C A)) (s : St C A) (r : Nat) (h : NoResult s r)
    (h1 : ∀ op ∈ ops, op ≠ .rExecute r ∧ op ≠ .rGet r) : NoResult (ops.foldl (step hash prog) s) r := by
  induction ops generalizing s with
  | nil => exact h
  | cons op ops ih =>
    exact ih _ (step_noResult s op r h (h1 op (by simp)).1 (h1 op (by simp)).2) fun o ho => h1 o (by simp [ho])

/-! ## Executing an address -/

theorem execute_means (hi : Function.Injective hash) (ht : Tame prog) {f : FnId} {kw : List (String × Arg)} {s s' : St C A}
    {i : Ref} (h : Inv hash prog s) {vals : List (String × C)} (ha : ArgsAre s kw vals)
    (he : execute hash prog f kw s = (.ok i, s')) :
    ∃ c, evalFn (prog f) (vals.map (·.2)) = some c ∧ s'.objs[i]? = some c ∧
      s'.results (keyOf hash f vals) = some (hash (.plain c)) ∧
      ((s.results (keyOf hash f vals)).isSome → s.objs.length ≤ i) := by
  obtain ⟨s1, vals', c, q, a, b1, b2, b3, b4⟩ := (execute_spec hi ht h).2 i s' he
  have hts : ArgTexts hash s1 kw (vals.map fun x => (x.1, hash (.plain x.2))) :=
    argTexts_quiet q (argsAre_texts h.toStoreInv ha)
  have := map_hash_inj hi (argTexts_unique hts a)
  subst this
  exact ⟨c, b1, b2, b3, b4⟩

/-- the address knows what it is for -/
def IsFor (hash : Data C A → A) (s : St C A) (r : Nat) (f : FnId) (vals : List (String × C)) : Prop :=
  ∃ o, s.ras[r]? = some o ∧ o.key = keyOf hash f vals ∧
    s.sigs (keyOf hash f vals) = some (f, vals.map fun x => (x.1, hash (.plain x.2))) ∧ Stored hash s vals ∧
    ∀ f' l, keptCall o = some (f', l) → f' = f ∧ ∃ p, l = asArgs p ∧ ArgsAre s (asArgs p) vals

theorem isFor_call {s : St C A} {r : RIx} {f : FnId} {vals : List (String × C)} (h : IsFor hash s r f vals) :
    ∃ p s1, rCall r s = (.ok (f, asArgs p), s1) ∧ ArgsAre s1 (asArgs p) vals ∧ s1.results = s.results ∧
      s1.objs = s.objs := by
  obtain ⟨o, h1, h2, h3, h4, h5⟩ := h
  rcases rCall_cases r s with ⟨o', call, a1, a2, a3⟩ | ⟨o', f', ts, l, s1, a1, a2, a3, a4, a5⟩ | ⟨e, a1, a2⟩
  · rw [h1] at a1; cases a1
    obtain ⟨rfl, p, h6, h7⟩ := h5 call.1 call.2 a2
    exact ⟨p, s, by rw [a3, ← h6], h7, rfl, rfl⟩
  · rw [h1] at a1; cases a1
    rw [h2, h3] at a3; cases a3
    obtain ⟨p, s1', e1, a6⟩ := argsFromTexts_are h4
    rw [e1] at a4; cases a4
    refine ⟨p, _, a5, ?_, ?_, ?_⟩
    · refine a6.imp fun x y ⟨b1, b2⟩ => ⟨b1, ?_⟩
      cases hx : x.2 with
      | obj i => rw [hx] at b2; exact b2
      | addr j => rw [hx] at b2; exact b2
    · have := (argsFromTexts_same (vals.map fun x => (x.1, hash (.plain x.2))) s).results
      rw [e1] at this; exact this
    · show s1.objs = s.objs
      exact argsFromTexts_objs e1
  · have := (a2 o h1).2
    rw [h2, h3] at this; cases this

theorem rExecute_means (hi : Function.Injective hash) (ht : Tame prog) {s s' : St C A} {r : RIx} {i : Ref} {f : FnId}
    {vals : List (String × C)} (h : Inv hash prog s) (hf : IsFor hash s r f vals) (hn : NoResult s r)
    (he : rExecute hash prog r s = (.ok i, s')) :
    ∃ c, evalFn (prog f) (vals.map (·.2)) = some c ∧ s'.objs[i]? = some c := by
  rcases rExecute_cases (hash := hash) (prog := prog) r s with ⟨e, he', _⟩ | ⟨o, i', h1, h2, _⟩ | ⟨_, he'⟩
  · rw [he'] at he; cases he
  · obtain ⟨o', h3, h4⟩ := hn
    rw [h1] at h3; cases h3
    rw [h4] at h2; cases h2
  · rw [he'] at he
    obtain ⟨p, s1, a1, a2, _, _⟩ := isFor_call hf
    unfold executeNow at he
    rw [run_ok_bind a1] at he
    obtain ⟨i', s2, b1, b2⟩ := bind_ok he
    have i1 : Inv hash prog s1 := by have := rCall_inv r h; rw [a1] at this; exact this
    obtain ⟨c, c1, c2, _⟩ := execute_means hi ht i1 a2 b1
    rw [run_ok_bind (PyM.run_modify _ s2)] at b2
    cases b2
    exact ⟨c, c1, c2⟩

theorem rExecute_total (hi : Function.Injective hash) (ht : Tame prog) {s : St C A} {r : RIx} {f : FnId}
    {vals : List (String × C)} (h : Inv hash prog s) (hf : IsFor hash s r f vals) {c : C}
    (hc : evalFn (prog f) (vals.map (·.2)) = some c) (hg : (prog f).guards = []) :
    ∃ i s', rExecute hash prog r s = (.ok i, s') := by
  rcases rExecute_cases (hash := hash) (prog := prog) r s with ⟨e, _, h1⟩ | ⟨o, i', _, _, h1⟩ | ⟨_, he'⟩
  · obtain ⟨o, h2, _⟩ := hf
    rw [h1] at h2; cases h2
  · exact ⟨_, _, h1⟩
  · rw [he']
    obtain ⟨p, s1, a1, a2, _, _⟩ := isFor_call hf
    have i1 : Inv hash prog s1 := by have := rCall_inv r h; rw [a1] at this; exact this
    obtain ⟨i, s2, b1⟩ := execute_total hi ht i1 a2 hc hg
    unfold executeNow
    rw [run_ok_bind a1, run_ok_bind b1]
    exact ⟨_, _, rfl⟩

theorem run_append (ops more : List (Op C A)) :
    run hash prog (ops ++ more) = more.foldl (step hash prog) (run hash prog ops) := List.foldl_append

/-! ## Without conditions on the functions -/

theorem evaluate_storeInv {s : St C A} (f : FnId) (kw : List (String × Arg)) (p : List (String × VIx)) (key : A)
    (h : StoreInv hash s) : StoreInv hash (evaluate hash prog f kw p key s).2 := by
  unfold evaluate
  refine keep_bind ?_ fun b s1 _ h1 => ?_
  · obtain ⟨objs, ho, _⟩ := canBeExecuted_frame prog f (kw.map fun x => asLocal x.2) s
    rw [ho]; exact h.same hash rfl rfl
  cases b with
  | false => exact h1
  | true =>
    rw [if_pos rfl]
    refine keep_bind (h1.same hash (unpack_same _ s1).store (unpack_same _ s1).sigs) fun refs s2 _ h2 => ?_
    refine keep_bind ?_ fun i s3 _ h3 => ?_
    · obtain ⟨objs, ho, _⟩ := runFn_frame (prog f) (refs.map some) s2
      rw [ho]; exact h2.same hash rfl rfl
    refine keep_bind (valueAddr_inv hash i s3 h3) fun j s4 _ h4 => ?_
    refine keep_bind (by rw [readVA_state]; exact h4) fun v s5 _ h5 => ?_
    exact keep_bind (h5.same hash rfl rfl) fun _ s6 _ h6 => h6

theorem rGet_storeInv {s : St C A} (r : RIx) (h : StoreInv hash s) : StoreInv hash (rGet r s).2 := by
  rcases rGet_shape r s with he | ⟨o, c, _, _, he⟩
  · rw [he]; exact h
  · rw [he]; exact h.same hash rfl rfl

theorem execute_storeInv {s : St C A} (f : FnId) (kw : List (String × Arg)) (h : StoreInv hash s) :
    StoreInv hash (execute hash prog f kw s).2 := by
  rcases execute_steps (hash := hash) (prog := prog) f kw s with ⟨e, s', _, hv, he⟩ | ⟨p, r, ts, s1, s2, _, _, hv, _, _, _, _, he⟩
  · rw [he]; exact hv h
  · rw [he]
    unfold finish
    split
    · exact rGet_storeInv r (hv h)
    · exact evaluate_storeInv f kw p _ (hv h)

theorem rCall_storeInv {s : St C A} (r : RIx) (h : StoreInv hash s) : StoreInv hash (rCall r s).2 := by
  rcases rCall_cases r s with ⟨_, call, _, _, he⟩ | ⟨o1, f, ts, l, s1, h1, h2, _, h4, he⟩ | ⟨e, he, _⟩
  · rw [he]; exact h
  · rw [he]
    have q : Same s s1 := by
      have : Same s (argsFromTexts ts s).2 := argsFromTexts_same ts s
      rw [h4] at this; exact this
    exact h.same hash q.store q.sigs
  · rw [he]; exact h

theorem step_storeInv {s : St C A} (h : StoreInv hash s) (op : Op C A) : StoreInv hash (step hash prog s op) := by
  cases op with
  | new c => exact h.same hash rfl rfl
  | change i c => exact h.same hash rfl rfl
  | valueAddr i => exact valueAddr_inv hash i s h
  | convert j => exact packOne_inv hash (.addr j) s h
  | fromText a => exact h.same hash rfl rfl
  | get j => exact h.same hash (getVA_same j s).store (getVA_same j s).sigs
  | call f kw => exact execute_storeInv f kw h
  | getAddress f kw => exact keep_bind (pack_inv hash kw s h) fun p s1 _ h1 => mkRA_inv hash f _ s1 h1
  | listAddress f kw => exact mkRA_inv hash f kw s h
  | rFromText k => exact h.same hash rfl rfl
  | rExecute r =>
    show StoreInv hash (rExecute hash prog r s).2
    rcases rExecute_cases (hash := hash) (prog := prog) r s with ⟨e, he, _⟩ | ⟨o, i, _, _, he⟩ | ⟨_, he⟩
    · rw [he]; exact h
    · rw [he]; exact h
    · rw [he]
      unfold executeNow
      refine keep_bind (rCall_storeInv r h) fun call s1 _ h1 => ?_
      refine keep_bind (execute_storeInv _ _ h1) fun i s2 _ h2 => ?_
      exact h2.same hash rfl rfl
  | rGet r => exact rGet_storeInv r h
  | rKwargs r =>
    refine keep_bind (rCall_storeInv r h) fun call s1 _ h1 => ?_
    exact h1.same hash (unpack_same _ s1).store (unpack_same _ s1).sigs

theorem run_storeInv (ops : List (Op C A)) : StoreInv hash (run hash prog ops) := by
  have : ∀ s : St C A, StoreInv hash s → StoreInv hash (ops.foldl (step hash prog) s) := by
    induction ops with
    | nil => exact fun _ h => h
    | cons op ops ih => exact fun s h => ih _ (step_storeInv h op)
  exact this {} (init_inv (prog := prog)).toStoreInv

/-! ## Calls of functions that change no arguments -/

theorem execute_objs {f : FnId} (hf : KeepsArgs (prog f)) (hg : ∀ g ∈ (prog f).guards, KeepsArgs (prog g))
    (kw : List (String × Arg)) (s : St C A) (i : Nat) (c : C) (h : s.objs[i]? = some c) :
    (execute hash prog f kw s).2.objs[i]? = some c := by
  rcases execute_steps (hash := hash) (prog := prog) f kw s with ⟨e, s', q, _, he⟩ | ⟨p, r, ts, s1, s2, q1, q2, _, _, _, _, _, he⟩
  · rw [he]; exact q.objs _ _ h
  · rw [he]
    have h2 := (q1.trans q2).objs _ _ h
    unfold finish
    split
    · rcases rGet_shape r s2 with he | ⟨o, c, _, _, he⟩
      · rw [he]; exact h2
      · rw [he]; exact get_append h2
    · unfold evaluate
      refine keep_bind (I := fun t => t.objs[i]? = some c) ?_ fun b s3 _ h3 => ?_
      · have hq := runGuards_quiet prog (kw.map fun x => asLocal x.2) (prog f).guards hg s2
        have h3 := hq.objs _ _ h2
        unfold canBeExecuted
        cases hr : runGuards prog (kw.map fun x => asLocal x.2) (prog f).guards s2 with
        | mk x s' => rw [hr] at h3; cases x <;> exact h3
      cases b with
      | false => exact h3
      | true =>
        rw [if_pos rfl]
        refine keep_bind (I := fun t => t.objs[i]? = some c) (unpack_objs _ s3 i c h3) fun refs s4 _ h4 => ?_
        refine keep_bind (I := fun t => t.objs[i]? = some c) ((runFn_quiet _ hf _ s4).objs _ _ h4) fun i' s5 _ h5 => ?_
        refine keep_bind (I := fun t => t.objs[i]? = some c) ((valueAddr_quiet hash i' s5).objs _ _ h5) fun j s6 _ h6 => ?_
        refine keep_bind (I := fun t => t.objs[i]? = some c) (by rw [readVA_state]; exact h6) fun v s7 _ h7 => ?_
        exact keep_bind (I := fun t => t.objs[i]? = some c) h7 fun _ s8 _ h8 => h8

/-! ## The object of a result stays the same -/

theorem rGet_gives {r : RIx} {s s' : St C A} {i : Ref} (h : rGet r s = (.ok i, s')) :
    ∃ o, s'.ras[r]? = some o ∧ o.result = some i := by
  unfold rGet at h
  cases h1 : s.ras[r]? with
  | none => rw [h1] at h; cases h
  | some o =>
    cases h2 : o.result with
    | some i' =>
      simp only [h1, h2] at h; cases h
      exact ⟨o, h1, h2⟩
    | none =>
      cases h3 : s.results o.key with
      | none => simp only [h1, h2, h3] at h; cases h
      | some a => cases h4 : s.store a with
        | none => simp only [h1, h2, h3, h4] at h; cases h
        | some c =>
          simp only [h1, h2, h3, h4] at h; cases h
          refine ⟨{ o with result := some s.objs.length }, ?_, rfl⟩
          show (s.ras.set r _)[r]? = _
          rw [List.getElem?_set, if_pos rfl, if_pos (lt_of_get h1)]

theorem rExecute_gives {r : RIx} {s s' : St C A} {i : Ref} (h : rExecute hash prog r s = (.ok i, s')) :
    ∃ o, s'.ras[r]? = some o ∧ o.result = some i := by
  rcases rExecute_cases (hash := hash) (prog := prog) r s with ⟨e, he, _⟩ | ⟨o, i', h1, h2, he⟩ | ⟨⟨o, h1, _⟩, he⟩
  · rw [he] at h; cases h
  · rw [he] at h; cases h; exact ⟨o, h1, h2⟩
  · rw [he] at h
    unfold executeNow at h
    obtain ⟨call, s1, a1, a2⟩ := bind_ok h
    obtain ⟨i', s2, a3, a4⟩ := bind_ok a2
    rw [run_ok_bind (PyM.run_modify _ s2)] at a4
    cases a4
    obtain ⟨o1, b1, _⟩ := rCall_result r s r o h1
    rw [a1] at b1
    have b2 := execute_ras (hash := hash) (prog := prog) call.1 call.2 s1 r o1 b1
    rw [a3] at b2
    exact ⟨_, get_modify_eq _ b2, rfl⟩

theorem result_stays {r : RIx} {s s' : St C A} {i : Ref} (hl : Later s s') (h : ∃ o, s.ras[r]? = some o ∧ o.result = some i) :
    rGet r s' = (.ok i, s') ∧ rExecute hash prog r s' = (.ok i, s') := by
  obtain ⟨o, h1, h2⟩ := h
  obtain ⟨o', h3, _, _, h4⟩ := hl.ras r o h1
  have h5 := h4 i h2
  refine ⟨by unfold rGet; simp only [h3, h5], ?_⟩
  unfold rExecute
  rw [run_ok_bind (by unfold readRA; rw [h3] : readRA r s' = (.ok o', s')), h5]
  rfl

end Pyth.Mutable
