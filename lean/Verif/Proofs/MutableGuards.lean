import Verif.Proofs.MutableExec
/-! # Guards of pure functions, with objects that change (for C108) -/
set_option linter.unusedSectionVars false
namespace Pyth.Mutable

variable {C A : Type} [DecidableEq A] {hash : Data C A → A} {prog : FnId → Fn C}

theorem runGuards_eval {refs : List Ref} {vals : List C} (gs : List FnId) (hk : ∀ g ∈ gs, KeepsArgs (prog g)) :
    ∀ {s : St C A}, List.Forall₂ (fun i c => s.objs[i]? = some c) refs vals →
    ((∀ g ∈ gs, (evalFn (prog g) vals).isSome) → ∃ s', runGuards prog (refs.map some) gs s = (.ok (), s')) ∧
    ((∃ g ∈ gs, evalFn (prog g) vals = none) → ∃ e s', runGuards prog (refs.map some) gs s = (.error e, s')) := by
  induction gs with
  | nil => exact fun _ => ⟨fun _ => ⟨_, rfl⟩, fun ⟨_, h, _⟩ => (nomatch h)⟩
  | cons g gs ih =>
    intro s hh
    have he := runFn_eval (f := prog g) (.inl (hk g (by simp))) hh
    cases hv : evalFn (prog g) vals with
    | none =>
      rw [hv] at he
      obtain ⟨e, s', h1⟩ := he
      refine ⟨fun h => ?_, fun _ => ⟨e, s', ?_⟩⟩
      · have := h g (by simp); rw [hv] at this; cases this
      · rw [runGuards]; exact run_error_bind h1
    | some c =>
      rw [hv] at he
      obtain ⟨i, s', h1, _⟩ := he
      have q : Quiet s s' := by
        have := runFn_quiet (prog g) (hk g (by simp)) (refs.map some) s; rw [h1] at this; exact this
      obtain ⟨a, b⟩ := ih (fun g' h => hk g' (by simp [h])) (s := s') (hh.imp fun i c h => q.objs i c h)
      refine ⟨fun h => ?_, fun ⟨g', hg', hn⟩ => ?_⟩
      · rw [runGuards, run_ok_bind h1]; exact a fun g' h' => h g' (by simp [h'])
      · rw [runGuards, run_ok_bind h1]
        refine b ⟨g', ?_, hn⟩
        rcases List.mem_cons.1 hg' with rfl | h'
        · rw [hv] at hn; cases hn
        · exact h'

theorem locals_of {s : St C A} {kw : List (String × Arg)} {vals : List (String × C)} (ha : ArgsAre s kw vals)
    (ho : ∀ x ∈ kw, ∃ i, x.2 = Arg.obj i) :
    ∃ refs : List Ref, kw.map (fun x => asLocal x.2) = refs.map some ∧
      List.Forall₂ (fun i c => s.objs[i]? = some c) refs (vals.map (·.2)) := by
  induction ha with
  | nil => exact ⟨[], rfl, .nil⟩
  | @cons x y l l' h _ ih =>
    obtain ⟨refs, h1, h2⟩ := ih fun x hx => ho x (by simp [hx])
    obtain ⟨i, hi⟩ := ho x (by simp)
    refine ⟨i :: refs, ?_, ?_⟩
    · rw [List.map_cons, List.map_cons, h1, hi]; rfl
    · have := h.2; rw [hi] at this
      exact .cons this h2

/-- The first steps of `execute`: arguments are packed, the address object is made. -/
theorem execute_starts (hi : Function.Injective hash) {f : FnId} {kw : List (String × Arg)} {s : St C A}
    (h : Inv hash prog s) {vals : List (String × C)} (ha : ArgsAre s kw vals) :
    ∃ p s2 r, Quiet s s2 ∧ StoreInv hash s2 ∧ ArgsAre s2 (asArgs p) vals ∧
      PackedAs hash s2 p (vals.map fun x => (x.1, hash (.plain x.2))) ∧
      s2.ras[r]? = some { key := keyOf hash f vals, fn := some f, args := some (asArgs p) } ∧
      execute hash prog f kw s =
        if (s2.results (keyOf hash f vals)).isSome then rGet r s2 else evaluate hash prog f kw p (keyOf hash f vals) s2 := by
  obtain ⟨p, s1, e1, a1⟩ := pack_total hi h.toStoreInv ha
  have q1 : Quiet s s1 := by have := pack_quiet hash kw s; rw [e1] at this; exact this
  have v1 : StoreInv hash s1 := by have := pack_inv hash kw s h.toStoreInv; rw [e1] at this; exact this
  obtain ⟨ts, ht1, ht2⟩ := pack_ok hash e1
  have hts := argTexts_unique (argsAre_texts v1 (argsAre_quiet q1 ha)) ht1
  obtain ⟨r, s2, e2⟩ := mkRA_total hi v1 f a1
  have q2 : Quiet s1 s2 := by have := mkRA_quiet hash f (asArgs p) s1; rw [e2] at this; exact this
  have v2 : StoreInv hash s2 := by have := mkRA_inv hash f (asArgs p) s1 v1; rw [e2] at this; exact this
  obtain ⟨ts', ht3, hr, hra, _⟩ := mkRA_ok hash e2
  have := argTexts_unique (argTexts_quiet q2 (packedAs_texts ht2)) ht3
  subst this
  have hget : s2.ras[r]? = some { key := hash (.call f ts), fn := some f, args := some (asArgs p) } := by
    rw [hra, hr]; simp
  have hkey : hash (.call f ts) = keyOf hash f vals := by rw [keyOf, hts]
  rw [hkey] at hget
  refine ⟨p, s2, r, q1.trans q2, v2, argsAre_quiet q2 a1, ?_, hget, ?_⟩
  · rw [hts]; exact packedAs_quiet q2 ht2
  · unfold execute
    rw [run_ok_bind e1, run_ok_bind e2, run_ok_bind (by unfold readRA; rw [hget] : readRA r s2 = (.ok _, s2)),
      run_ok_bind (PyM.run_get s2)]
    split <;> rfl

theorem execute_refused (hi : Function.Injective hash) {f : FnId} {kw : List (String × Arg)} {s : St C A}
    (h : Inv hash prog s) (hk : ∀ g ∈ (prog f).guards, KeepsArgs (prog g)) {vals : List (String × C)} (ha : ArgsAre s kw vals)
    (ho : ∀ x ∈ kw, ∃ i, x.2 = Arg.obj i) (hn : s.results (keyOf hash f vals) = none)
    (hg : ∃ g ∈ (prog f).guards, evalFn (prog g) (vals.map (·.2)) = none) :
    ∃ s', execute hash prog f kw s = (.error .assertionError, s') ∧ s'.results = s.results ∧
      ∀ (i : Nat) c, s.objs[i]? = some c → s'.objs[i]? = some c := by
  obtain ⟨p, s2, r, q, v2, a2, pk, hget, he⟩ := execute_starts (prog := prog) (f := f) hi h ha
  rw [q.results, hn] at he
  obtain ⟨refs, hl, hf⟩ := locals_of (argsAre_quiet q ha) ho
  obtain ⟨e, s3, h3⟩ := (runGuards_eval (prog := prog) (prog f).guards hk hf).2 hg
  have q3 := runGuards_quiet prog (refs.map some) (prog f).guards hk s2
  rw [h3] at q3
  have hcb : canBeExecuted prog f (kw.map fun x => asLocal x.2) s2 = (.ok false, s3) := by
    unfold canBeExecuted; rw [hl, h3]
  refine ⟨s3, ?_, by rw [q3.results, q.results], fun i c hc => q3.objs i c (q.objs i c hc)⟩
  rw [he]
  show evaluate hash prog f kw p (keyOf hash f vals) s2 = _
  unfold evaluate
  rw [run_ok_bind hcb]
  rfl

theorem execute_admitted (hi : Function.Injective hash) (ht : Tame prog) {f : FnId} {kw : List (String × Arg)} {s : St C A}
    (h : Inv hash prog s) {vals : List (String × C)} (ha : ArgsAre s kw vals)
    (ho : ∀ x ∈ kw, ∃ i, x.2 = Arg.obj i) {c : C} (hc : evalFn (prog f) (vals.map (·.2)) = some c)
    (hg : ∀ g ∈ (prog f).guards, (evalFn (prog g) (vals.map (·.2))).isSome) :
    ∃ i s', execute hash prog f kw s = (.ok i, s') := by
  obtain ⟨p, s2, r, q, v2, a2, pk, hget, he⟩ := execute_starts (prog := prog) (f := f) hi h ha
  have i2 : Inv hash prog s2 := h.quiet v2 q
  rw [he]
  split
  · rename_i hs
    exact rGet_total i2 hget hs
  · unfold evaluate
    obtain ⟨refs, hl, hf⟩ := locals_of (argsAre_quiet q ha) ho
    obtain ⟨s3, h3⟩ := (runGuards_eval (prog := prog) (prog f).guards (ht f).2 hf).1 hg
    have q3 := runGuards_quiet prog (refs.map some) (prog f).guards (ht f).2 s2
    rw [h3] at q3
    have hcb : canBeExecuted prog f (kw.map fun x => asLocal x.2) s2 = (.ok true, s3) := by
      unfold canBeExecuted; rw [hl, h3]
    have v3 : StoreInv hash s3 := by
      obtain ⟨objs, ho, hl⟩ := runGuards_frame prog (refs.map some) (prog f).guards s2
      rw [h3] at ho
      have ho' : s3 = { s2 with objs := objs } := ho
      exact StoreInv.same hash v2 (by rw [ho']) (by rw [ho'])
    rw [run_ok_bind hcb, if_pos rfl]
    obtain ⟨refs', s4, e4⟩ := unpack_total (argsAre_quiet q3 a2)
    rw [run_ok_bind e4]
    obtain ⟨vals', hv1, hv2⟩ := unpack_ok hash v3 e4 (packedAs_quiet q3 pk)
    have hvv : vals = vals' := map_hash_inj hi hv1
    subst hvv
    have he := runFn_eval (ht f).1 (vals := vals.map (·.2)) (s := s4) (refs := refs')
      (by rw [List.forall₂_map_right_iff]; exact hv2)
    rw [hc] at he
    obtain ⟨i, s5, e5, hci⟩ := he
    rw [run_ok_bind e5]
    have e6 : ∃ j s6 v, valueAddr hash i s5 = (.ok j, s6) ∧ s6.vas[j]? = some v := by
      have e6 : valueAddr hash i s5 = (.ok s5.vas.length, { (storeSet (hash (.plain c)) c s5).2 with
          vas := s5.vas ++ [⟨hash (.plain c), some i⟩] }) := by
        unfold valueAddr
        rw [run_ok_bind (by unfold content; rw [hci] : content i s5 = (.ok c, s5))]
        rfl
      exact ⟨_, _, ⟨hash (.plain c), some i⟩, e6, by simp⟩
    obtain ⟨j, s6, v, e6, e7⟩ := e6
    rw [run_ok_bind e6, run_ok_bind (by unfold readVA; rw [e7] : readVA j s6 = (.ok v, s6))]
    exact ⟨_, _, rfl⟩

end Pyth.Mutable
