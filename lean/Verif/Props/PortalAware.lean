import Verif.Proofs.PortalAware
import Verif.Props.PortalStack
import Mathlib.Data.List.Induction
import Mathlib.Tactic.ByContra
import Mathlib.Tactic.Tauto
/-! # C69: portal-aware objects rebind when unpickled; C101: copies; C102: what is stored -/
namespace Pyth.Aware
open Pyth.Portal

/-- in a block of portal `p`, also after other properly bracketed blocks in it, `p` is the current portal -/
theorem block_current (h : List Call) (p : PortalId) (q : Prog) :
    ∃ s1, enter p (reach h) = .ok s1 ∧ (q.run s1).2.stack.head? = some p := by
  obtain ⟨s1, h1, h2, h3⟩ := C02_current_is_innermost h p q (fun _ => 0) 0 (Nat.le_refl _)
  refine ⟨s1, h1, ?_⟩
  unfold mostRecentlyEntered at h3
  split at h3
  · cases h3
  · rename_i x xs hx
    rw [if_pos (Nat.zero_le _)] at h3
    rw [hx]
    exact Except.ok.inj h3

theorem ne_nil_of_head {s : Sys} {p : PortalId} (h : s.stack.head? = some p) : s.stack ≠ [] := by
  intro e; rw [e] at h; cases h

/-- **C69**: in any context, inside a block of portal `p` (also after other properly bracketed
blocks in it), an object without portals and ordinary functions in it can be pickled, and unpickling gives an object with the
same data that is bound to `p`, together with everything inside it; an address equals the original. -/
theorem C69_rebinds (h : List Call) (p : PortalId) (q : Prog) (o : Obj) (ho : ∀ x, Inside x o → ¬ x.Unstorable) :
    ∃ s1, enter p (reach h) = .ok s1 ∧ ∃ d o', pickle o = .ok d ∧ unpickle (q.run s1).2 d = .ok o' ∧
      Rebound (some p) o o' ∧ addrEq o o' = true := by
  obtain ⟨s1, h1, hst⟩ := block_current h p q
  obtain ⟨d, hd⟩ := (pickle_refused o).1 ho
  obtain ⟨o', hu, hr⟩ := unpickle_pickle (q.run s1).2 (ne_nil_of_head hst) o d hd
  rw [hst] at hr
  refine ⟨s1, h1, d, o', hd, hu, hr, ?_⟩
  cases hr
  simp [addrEq]

/-- **C69**: pickled data does not depend on portals: two objects have the same pickled data iff
they differ at most in the portals they are bound to. -/
theorem C69_no_portal_in_pickle (o o' : Obj) (d d' : Data) (h : pickle o = .ok d) (h' : pickle o' = .ok d') :
    d = d' ↔ SameData o o' :=
  pickle_eq_iff o o' d d' h h'

/-- **C69**: outside all portal blocks, exactly the objects without autonomous or pure functions in them can be unpickled
(a function has to be registered in a portal at once, and there is none). -/
theorem C69_outside_iff (s : Sys) (hs : s.stack = []) (o : Obj) (d : Data) (h : pickle o = .ok d) :
    (∃ o', unpickle s d = .ok o') ↔ ∀ x, Inside x o → x.kind ≠ .function :=
  (unpickle_outside s hs o d h).symm

/-- **C69**: a result address or call signature that was unpickled outside all portal blocks is
bound on first use, to the portal current at that moment, and stays bound to it. -/
theorem C69_outside (o o' : Obj) (d : Data) (s s2 s3 : Sys) (p : PortalId) (hs : s.stack = []) (hd : pickle o = .ok d)
    (hu : unpickle s d = .ok o') (hp : s2.stack.head? = some p) (hk : o.kind = .resultAddr ∨ o.kind = .callSignature) :
    (portalOf s2 o').1 = some p ∧ portalOf s3 (portalOf s2 o').2 = (some p, (portalOf s2 o').2) := by
  have hr := unpickle_rebound s o d o' hd hu
  rw [hs] at hr
  cases hr with
  | mk k ss q hcs =>
    have hk : k = .resultAddr ∨ k = .callSignature := hk
    rcases hk with rfl | rfl <;> simp [portalOf, hp, Kind.aware]

/-- **C69**: a value address unpickled outside all portal blocks never gets a portal. -/
theorem C69_value_addr_outside (o o' : Obj) (d : Data) (s s2 : Sys) (hs : s.stack = []) (hd : pickle o = .ok d)
    (hu : unpickle s d = .ok o') (hk : o.kind = .valueAddr) : portalOf s2 o' = (none, o') := by
  have hr := unpickle_rebound s o d o' hd hu
  rw [hs] at hr
  cases hr with
  | mk k ss q hcs =>
    have hk : k = .valueAddr := hk
    subst hk
    simp [portalOf, Kind.aware]

/-- **C69**: two addresses are equal iff they are of the same class and have the same strings; the portals they are
bound to do not matter; and they are different iff they are not equal. -/
theorem C69_address_equality (k k' : Kind) (ss ss' : List String) (cs cs' : List Obj) (q q' : Option PortalId) :
    (addrEq (.mk k ss cs q) (.mk k' ss' cs' q') = true ↔ k = k' ∧ ss = ss') ∧
    (addrNe (.mk k ss cs q) (.mk k' ss' cs' q') = true ↔ ¬ (k = k' ∧ ss = ss')) := by
  simp [addrEq, addrNe]
  tauto

/-! ## C101 -/

/-- **C101**: a copy (`copy.copy`) of a value address equals it and is bound to the same portal, wherever it is made; making it
changes nothing. -/
theorem C101_value_address (level : PortalId → Nat) (dflt : Sys → PortalId × Sys) (s : Sys) (ss : List String) (cs : List Obj)
    (p : PortalId) :
    copy level dflt s (.mk .valueAddr ss cs (some p)) = (.ok (.mk .valueAddr ss cs (some p)), s) := by
  simp [copy, bestPortal]

/-- **C101** (partial): in any context, inside a block of portal `p`, a copy of a result address, call signature, or
(autonomous or pure) function has the same data and the same parts (not copies of them), and is bound to `p`; making it does
not change the context.  So it is bound like the original iff the original is bound to `p`; the claim that every copy is bound
like the original is false (`C101_other_portal_counterexample`). -/
theorem C101_follows_context_partial (level : PortalId → Nat) (dflt : Sys → PortalId × Sys) (h : List Call) (p : PortalId) (q : Prog)
    (k : Kind) (hk : k = .resultAddr ∨ k = .callSignature ∨ k = .function) (ss : List String) (cs : List Obj) (r : Option PortalId) :
    ∃ s1, enter p (reach h) = .ok s1 ∧
      copy level dflt (q.run s1).2 (.mk k ss cs r) = (.ok (.mk k ss cs (some p)), (q.run s1).2) := by
  obtain ⟨s1, h1, hst⟩ := block_current h p q
  refine ⟨s1, h1, ?_⟩
  have hne := ne_nil_of_head hst
  rcases hk with rfl | rfl | rfl <;> simp [copy, setState, Kind.refusal, Kind.aware, hst, hne]

/-- **C101** is false of the code for result addresses: in a block of another portal `p`, a copy is bound to `p` and no longer
to the portal `r` of the original, although the copy of a value address is (`C101_value_address`). -/
theorem C101_other_portal_counterexample (level : PortalId → Nat) (dflt : Sys → PortalId × Sys) (h : List Call) (p r : PortalId)
    (hpr : p ≠ r) (ss : List String) :
    ∃ s1 o', enter p (reach h) = .ok s1 ∧ (copy level dflt s1 (.mk .resultAddr ss [] (some r))).1 = .ok o' ∧
      addrEq (.mk .resultAddr ss [] (some r)) o' = true ∧ (portalOf s1 o').1 ≠ some r ∧
      (portalOf s1 (.mk .resultAddr ss [] (some r))).1 = some r := by
  obtain ⟨s1, h1, h2⟩ := C101_follows_context_partial level dflt h p .skip .resultAddr (.inl rfl) ss [] (some r)
  have h2 : copy level dflt s1 (.mk .resultAddr ss [] (some r)) = (.ok (.mk .resultAddr ss [] (some p)), s1) := h2
  refine ⟨s1, .mk .resultAddr ss [] (some p), h1, by rw [h2], by simp [addrEq], ?_, rfl⟩
  simpa [portalOf] using hpr

/-- **C101**: in any context, inside a block of portal `p`, exactly the objects without portals and ordinary functions in them
can be copied with `copy.deepcopy`; the copy has the same data, and it and everything inside it is bound to `p`. -/
theorem C101_deep_copy (h : List Call) (p : PortalId) (q : Prog) (o : Obj) :
    ∃ s1, enter p (reach h) = .ok s1 ∧
      ((∃ o', deepcopy (q.run s1).2 o = .ok o') ↔ ∀ x, Inside x o → ¬ x.Unstorable) ∧
      ∀ o', deepcopy (q.run s1).2 o = .ok o' → Rebound (some p) o o' := by
  obtain ⟨s1, h1, hst⟩ := block_current h p q
  refine ⟨s1, h1, ⟨?_, ?_⟩, ?_⟩
  · rintro ⟨o', ho'⟩
    unfold deepcopy at ho'
    cases hd : pickle o with
    | error e => rw [hd] at ho'; cases ho'
    | ok d => exact (pickle_refused o).2 ⟨d, hd⟩
  · intro ho
    obtain ⟨d, hd⟩ := (pickle_refused o).1 ho
    obtain ⟨o', hu, _⟩ := unpickle_pickle (q.run s1).2 (ne_nil_of_head hst) o d hd
    exact ⟨o', by unfold deepcopy; rw [hd]; exact hu⟩
  · intro o' ho'
    unfold deepcopy at ho'
    cases hd : pickle o with
    | error e => rw [hd] at ho'; cases ho'
    | ok d =>
      rw [hd] at ho'
      have := unpickle_rebound _ o d o' hd ho'
      rwa [hst] at this

/-- **C101**: neither portals nor ordinary functions can be copied. -/
theorem C101_refused (level : PortalId → Nat) (dflt : Sys → PortalId × Sys) (s : Sys) (o : Obj) (ho : o.Unstorable) :
    (∃ e, (copy level dflt s o).1 = .error e) ∧ ∃ e, deepcopy s o = .error e := by
  obtain ⟨k, ss, cs, q⟩ := o
  have ho : k = .portal ∨ k = .ordinaryFn := ho
  rcases ho with rfl | rfl <;> simp [copy, deepcopy, setState, pickle, Kind.refusal]

/-- **C101** is false of the code for deep copies of value addresses outside all blocks: the copy has no portal and never gets
one (and `get` on it raises), although the original has one. -/
theorem C101_deep_copy_outside_counterexample (s s2 : Sys) (hs : s.stack = []) (ss : List String) (p : PortalId) :
    ∃ o', deepcopy s (.mk .valueAddr ss [] (some p)) = .ok o' ∧ addrEq (.mk .valueAddr ss [] (some p)) o' = true ∧
      portalOf s2 o' = (none, o') := by
  refine ⟨.mk .valueAddr ss [] none, ?_, by simp [addrEq], rfl⟩
  simp [deepcopy, pickle, pickleL, unpickle, unpickleL, setState, Kind.refusal, Kind.aware, hs]

/-! ## C102 -/

section
variable {A : Type} [DecidableEq A] (hash : Data → A)

/-- **C102**: storing an object is refused iff there is a portal or an ordinary function in it; a refused object changes
nothing in any store. -/
theorem C102_refused_iff (p : PortalId) (o : Obj) (m : Stores A) :
    ((∃ e, (put hash p o m).1 = .error e) ↔ ∃ x, Inside x o ∧ x.Unstorable) ∧
    ((∃ e, (put hash p o m).1 = .error e) → (put hash p o m).2 = m) := by
  unfold put
  cases hd : pickle o with
  | error e =>
    refine ⟨⟨fun _ => ?_, fun _ => ⟨e, rfl⟩⟩, fun _ => rfl⟩
    by_contra hn
    have : ∃ d, pickle o = .ok d := (pickle_refused o).1 fun x hx hu => hn ⟨x, hx, hu⟩
    obtain ⟨d, h⟩ := this
    rw [hd] at h; cases h
  | ok d =>
    have h := (pickle_refused o).2 ⟨d, hd⟩
    refine ⟨⟨?_, fun ⟨x, hx, hu⟩ => absurd hu (h x hx)⟩, ?_⟩
    · rintro ⟨e, he⟩; cases he
    · rintro ⟨e, he⟩; cases he

theorem getElsewhere_stores (s : Sys) (p : PortalId) (a : A) (m : Stores A) : ∀ (qs : List PortalId) (p' : PortalId) (a' : A) (d : Data),
    (getElsewhere s p a m qs).2 p' a' = some d → m p' a' = some d ∨ a' = a ∧ ∃ q, m q a = some d
  | [], p', a', d, h => .inl h
  | q :: qs, p', a', d, h => by
    rw [getElsewhere] at h
    cases hm : m q a with
    | none => simp only [hm] at h; exact getElsewhere_stores s p a m qs p' a' d h
    | some d0 =>
      simp only [hm] at h
      cases hu : unpickle (within q s) d0 with
      | error e => simp only [hu] at h; exact getElsewhere_stores s p a m qs p' a' d h
      | ok o =>
        simp only [hu, pickle_unpickle _ _ _ hu] at h
        split at h
        · rename_i e
          injection h with h; subst h
          exact .inr ⟨e.2, q, hm⟩
        · exact .inl h

theorem getElsewhere_keeps (s : Sys) (p : PortalId) (a : A) (m : Stores A) (hw : ∀ q a' d, m q a' = some d → ∃ o, pickle o = .ok d ∧ a' = hash d)
    (hinj : Function.Injective hash) : ∀ (qs : List PortalId) (p' : PortalId) (a' : A) (d : Data),
    m p' a' = some d → (getElsewhere s p a m qs).2 p' a' = some d
  | [], p', a', d, h => h
  | q :: qs, p', a', d, h => by
    rw [getElsewhere]
    cases hm : m q a with
    | none => simp only []; exact getElsewhere_keeps s p a m hw hinj qs p' a' d h
    | some d0 =>
      simp only []
      cases hu : unpickle (within q s) d0 with
      | error e => simp only []; exact getElsewhere_keeps s p a m hw hinj qs p' a' d h
      | ok o =>
        simp only [pickle_unpickle _ _ _ hu]
        split
        · rename_i e
          obtain ⟨_, _, e1⟩ := hw _ _ _ hm
          obtain ⟨_, _, e2⟩ := hw _ _ _ h
          rw [hinj (e1.symm.trans (e.2.symm.trans e2))]
        · exact h

theorem get_stores (s : Sys) (p : PortalId) (a : A) (m : Stores A) (p' : PortalId) (a' : A) (d : Data)
    (h : (get p a s m).2 p' a' = some d) : m p' a' = some d ∨ a' = a ∧ ∃ q, m q a = some d := by
  unfold get at h
  cases hm : m p a with
  | none => simp only [hm] at h; exact getElsewhere_stores s p a m _ p' a' d h
  | some d0 =>
    simp only [hm] at h
    cases hu : unpickle (within p s) d0 with
    | error e => simp only [hu] at h; exact getElsewhere_stores s p a m _ p' a' d h
    | ok o => simp only [hu] at h; exact .inl h

theorem get_keeps (s : Sys) (p : PortalId) (a : A) (m : Stores A) (hw : ∀ q a' d, m q a' = some d → ∃ o, pickle o = .ok d ∧ a' = hash d)
    (hinj : Function.Injective hash) (p' : PortalId) (a' : A) (d : Data) (h : m p' a' = some d) : (get p a s m).2 p' a' = some d := by
  unfold get
  cases hm : m p a with
  | none => simp only []; exact getElsewhere_keeps hash s p a m hw hinj _ p' a' d h
  | some d0 =>
    simp only []
    cases hu : unpickle (within p s) d0 with
    | error e => simp only []; exact getElsewhere_keeps hash s p a m hw hinj _ p' a' d h
    | ok o => exact h

/-- **C102**: whatever a program does, everything in a store is the pickled form of an object that the program stored, under
its own hash; so no portal and no ordinary function is in it. -/
theorem C102_stored_only (h : List (Op A)) (p : PortalId) (a : A) (d : Data) (hd : (history hash h).2 p a = some d) :
    ∃ q o, Op.put q o ∈ h ∧ pickle o = .ok d ∧ a = hash d ∧ ∀ x, Inside x o → ¬ x.Unstorable := by
  suffices ∃ q o, Op.put q o ∈ h ∧ pickle o = .ok d ∧ a = hash d by
    obtain ⟨q, o, h1, h2, h3⟩ := this
    exact ⟨q, o, h1, h2, h3, (pickle_refused o).2 ⟨d, h2⟩⟩
  unfold history at hd
  induction h using List.reverseRecOn generalizing p a d with
  | nil => cases hd
  | append_singleton h op ih =>
    rw [List.foldl_append] at hd
    simp only [List.foldl_cons, List.foldl_nil] at hd
    have up : (∃ q o, Op.put q o ∈ h ∧ pickle o = .ok d ∧ a = hash d) → ∃ q o, Op.put q o ∈ h ++ [op] ∧ pickle o = .ok d ∧ a = hash d := by
      rintro ⟨q, o, h1, h2⟩; exact ⟨q, o, by simp [h1], h2⟩
    cases op with
    | context c => exact up (ih p a d hd)
    | put q o =>
      simp only [step, put] at hd
      cases hp : pickle o with
      | error e => simp only [hp] at hd; exact up (ih p a d hd)
      | ok d0 =>
        simp only [hp] at hd
        split at hd
        · rename_i e
          injection hd with hd; subst hd
          exact ⟨q, o, by simp, hp, e.2⟩
        · exact up (ih p a d hd)
    | get q b =>
      simp only [step] at hd
      rcases get_stores _ _ _ _ _ _ _ hd with h1 | ⟨rfl, r, h1⟩
      · exact up (ih p a d h1)
      · exact up (ih r a d h1)

theorem history_sys (h : List (Op A)) : ∃ cs, (history hash h).1 = reach cs := by
  unfold history
  induction h using List.reverseRecOn with
  | nil => exact ⟨[], rfl⟩
  | append_singleton h op ih =>
    obtain ⟨cs, hc⟩ := ih
    rw [List.foldl_append]
    simp only [List.foldl_cons, List.foldl_nil]
    cases op with
    | context c =>
      refine ⟨cs ++ [c], ?_⟩
      simp only [step, hc]
      unfold reach
      rw [List.foldl_append]; rfl
    | put q o => exact ⟨cs, hc⟩
    | get q b => exact ⟨cs, hc⟩

theorem within_current (h : List (Op A)) (p : PortalId) : (within p (history hash h).1).stack.head? = some p := by
  obtain ⟨cs, hc⟩ := history_sys hash h
  obtain ⟨s1, h1, h2⟩ := block_current cs p .skip
  unfold within
  rw [hc, h1]
  exact h2

theorem history_append (h h' : List (Op A)) : history hash (h ++ h') = h'.foldl (step hash) (history hash h) := by
  unfold history; rw [List.foldl_append]

/-- stored objects stay -/
theorem history_keeps (hinj : Function.Injective hash) (h h' : List (Op A)) (p : PortalId) (a : A) (d : Data)
    (hd : (history hash h).2 p a = some d) : (history hash (h ++ h')).2 p a = some d := by
  induction h' using List.reverseRecOn with
  | nil => simpa using hd
  | append_singleton h' op ih =>
    rw [← List.append_assoc, history_append hash (h ++ h') [op]]
    simp only [List.foldl_cons, List.foldl_nil]
    have hw : ∀ q a' d, (history hash (h ++ h')).2 q a' = some d → ∃ o, pickle o = .ok d ∧ a' = hash d := by
      intro q a' d hx
      obtain ⟨_, o, _, h2, h3, _⟩ := C102_stored_only hash _ _ _ _ hx
      exact ⟨o, h2, h3⟩
    cases op with
    | context c => exact ih
    | put q o =>
      simp only [step, put]
      cases hp : pickle o with
      | error e => exact ih
      | ok d0 =>
        simp only []
        split
        · rename_i e
          obtain ⟨_, _, e2⟩ := hw _ _ _ ih
          rw [hinj (e.2.symm.trans e2)]
        · exact ih
    | get q b => exact get_keeps hash _ _ _ _ hw hinj _ _ _ ih

/-- **C102**: an object that was stored in portal `p` can be read from an address of portal `p` at any later time, in any context:
this gives an object with the same data, and everything inside it is bound to `p`. (Hashes of different data are different.) -/
theorem C102_read_back (hinj : Function.Injective hash) (h h' : List (Op A)) (p : PortalId) (o : Obj) (a : A)
    (hput : (put hash p o (history hash h).2).1 = .ok a) :
    ∃ o', (get p a (history hash (h ++ [.put p o] ++ h')).1 (history hash (h ++ [.put p o] ++ h')).2).1 = .ok o' ∧
      Rebound (some p) o o' := by
  unfold put at hput
  cases hd : pickle o with
  | error e => rw [hd] at hput; cases hput
  | ok d =>
    rw [hd] at hput; injection hput with hput; subst hput
    have h1 : (history hash (h ++ [.put p o])).2 p (hash d) = some d := by
      rw [history_append]
      simp [step, put, hd]
    have h2 := history_keeps hash hinj _ h' p (hash d) d h1
    have hst := within_current hash (h ++ [.put p o] ++ h') p
    obtain ⟨o', hu, hr⟩ := unpickle_pickle _ (ne_nil_of_head hst) o d hd
    rw [hst] at hr
    refine ⟨o', ?_, hr⟩
    unfold get
    simp only [h2, hu]

/-- the existing portals in the order of their creation, without the current one -/
def NotCurrent (s : Sys) : List PortalId := s.all.filter fun q => decide (some q ≠ s.stack.head?)

theorem others_eq (s : Sys) : others s = NotCurrent s := by
  unfold others NotCurrent noncurrent
  cases s.stack with
  | nil => simpa [Except.toOption] using (List.filter_eq_self.2 (by simp)).symm
  | cons c l =>
    simp only [Nat.zero_le, decide_true, List.all_eq_true, implies_true, ↓reduceIte, Except.toOption, Option.getD_some,
      List.head?_cons]
    refine List.filter_congr fun q _ => ?_
    by_cases e : q = c <;> simp [e]

/-- **C102**: an address of a portal `p` that does not have the object reads it from the first other portal `q` (in the order of
their creation, without the current portal) that has it; what it gives is bound to `q` and not to `p`.  From then on, `p` has the
object too; nothing else changes. -/
theorem C102_read_elsewhere (h : List (Op A)) (p : PortalId) (a : A) (hp : (history hash h).2 p a = none)
    (pre post : List PortalId) (q : PortalId) (hq : NotCurrent (history hash h).1 = pre ++ q :: post)
    (hpre : ∀ r ∈ pre, (history hash h).2 r a = none) (d : Data) (hd : (history hash h).2 q a = some d) :
    (∃ r o o', Op.put r o ∈ h ∧ pickle o = .ok d ∧ (get p a (history hash h).1 (history hash h).2).1 = .ok o' ∧
      Rebound (some q) o o') ∧
    (get p a (history hash h).1 (history hash h).2).2 p a = some d ∧
    ∀ p' a', (p', a') ≠ (p, a) → (get p a (history hash h).1 (history hash h).2).2 p' a' = (history hash h).2 p' a' := by
  obtain ⟨r, o, h1, h2, _, _⟩ := C102_stored_only hash h q a d hd
  have hst := within_current hash h q
  obtain ⟨o', hu, hr⟩ := unpickle_pickle _ (ne_nil_of_head hst) o d h2
  rw [hst] at hr
  have key : get p a (history hash h).1 (history hash h).2 =
      (.ok o', fun q' a' => if q' = p ∧ a' = a then some d else (history hash h).2 q' a') := by
    unfold get
    simp only [hp, others_eq, hq]
    clear hq hp
    induction pre with
    | nil =>
      simp only [List.nil_append, getElsewhere, hd, hu, pickle_unpickle _ _ _ hu]
      rfl
    | cons x xs ih =>
      have hx : (history hash h).2 x a = none := hpre x (by simp)
      simp only [List.cons_append, getElsewhere, hx]
      exact ih fun r hr => hpre r (by simp [hr])
  rw [key]
  refine ⟨⟨r, o, o', h1, h2, rfl, hr⟩, by simp, fun p' a' hne => ?_⟩
  have : ¬ (p' = p ∧ a' = a) := fun e => hne (by rw [e.1, e.2])
  simp [this]

/-- **C102**: reading from an address of portal `p` succeeds exactly if `p` or any other existing portal that is not the current
one has the object; else a `KeyError` is raised, and nothing changes. -/
theorem C102_read_iff (h : List (Op A)) (p : PortalId) (a : A) :
    ((∃ o, (get p a (history hash h).1 (history hash h).2).1 = .ok o) ↔
      ∃ q d, (q = p ∨ q ∈ NotCurrent (history hash h).1) ∧ (history hash h).2 q a = some d) ∧
    ((¬ ∃ q d, (q = p ∨ q ∈ NotCurrent (history hash h).1) ∧ (history hash h).2 q a = some d) →
      get p a (history hash h).1 (history hash h).2 = (.error .keyError, (history hash h).2)) := by
  have ok : ∀ q d, (history hash h).2 q a = some d → ∃ o, unpickle (within q (history hash h).1) d = .ok o := by
    intro q d hd
    obtain ⟨r, o, h1, h2, _, _⟩ := C102_stored_only hash h q a d hd
    have hst := within_current hash h q
    obtain ⟨o', hu, _⟩ := unpickle_pickle _ (ne_nil_of_head hst) o d h2
    exact ⟨o', hu⟩
  have els : ∀ l : List PortalId, (∀ q ∈ l, (history hash h).2 q a = none) →
      getElsewhere (history hash h).1 p a (history hash h).2 l = (.error .keyError, (history hash h).2) := by
    intro l hl
    induction l with
    | nil => rfl
    | cons q l ih =>
      simp only [getElsewhere, hl q (by simp)]
      exact ih fun r hr => hl r (by simp [hr])
  have none : (¬ ∃ q d, (q = p ∨ q ∈ NotCurrent (history hash h).1) ∧ (history hash h).2 q a = some d) →
      get p a (history hash h).1 (history hash h).2 = (.error .keyError, (history hash h).2) := by
    intro hn
    have hall : ∀ q, (q = p ∨ q ∈ NotCurrent (history hash h).1) → (history hash h).2 q a = .none := by
      intro q hq
      cases e : (history hash h).2 q a with
      | none => rfl
      | some d => exact absurd ⟨q, d, hq, e⟩ hn
    unfold get
    simp only [hall p (.inl rfl), others_eq]
    exact els _ fun q hq => hall q (.inr hq)
  refine ⟨⟨fun ⟨o, ho⟩ => ?_, fun ⟨q, d, hq, hd⟩ => ?_⟩, none⟩
  · by_contra hn
    rw [none hn] at ho
    cases ho
  · cases hp : (history hash h).2 p a with
    | some d' =>
      obtain ⟨o, ho⟩ := ok p d' hp
      exact ⟨o, by unfold get; simp only [hp, ho]⟩
    | none =>
      have hq' : q ∈ NotCurrent (history hash h).1 := by
        rcases hq with rfl | hq
        · rw [hp] at hd; cases hd
        · exact hq
      unfold get
      simp only [hp, others_eq]
      generalize NotCurrent (history hash h).1 = l at hq'
      induction l with
      | nil => cases hq'
      | cons x l ih =>
        cases hx : (history hash h).2 x a with
        | some dx =>
          obtain ⟨o, ho⟩ := ok x dx hx
          simp only [getElsewhere, hx, ho, pickle_unpickle _ _ _ ho]
          exact ⟨o, rfl⟩
        | none =>
          simp only [getElsewhere, hx]
          rcases List.mem_cons.1 hq' with rfl | hq'
          · rw [hx] at hd; cases hd
          · exact ih (by assumption)

/-- **C102**: storing an object in portal `p` gives the hash of its pickled form as address, and puts the pickled form there; no
other entry and no other portal is affected. -/
theorem C102_put (p : PortalId) (o : Obj) (m : Stores A) (a : A) (h : (put hash p o m).1 = .ok a) :
    (∃ d, pickle o = .ok d ∧ a = hash d ∧ (put hash p o m).2 p a = some d) ∧
    ∀ p' a', (p', a') ≠ (p, a) → (put hash p o m).2 p' a' = m p' a' := by
  unfold put at h ⊢
  cases hd : pickle o with
  | error e => rw [hd] at h; cases h
  | ok d =>
    rw [hd] at h; injection h with h; subst h
    refine ⟨⟨d, rfl, rfl, by simp⟩, fun p' a' hne => ?_⟩
    have : ¬ (p' = p ∧ a' = hash d) := fun e => hne (by rw [e.1, e.2])
    simp [this]

end

namespace Ex

/-- a call signature bound to portal 3 with the addresses of its function and arguments -/
def sig : Obj := .mk .callSignature ["f", "Samos"]
  [.mk .valueAddr ["purefn", "abc"] [] (some 3), .mk .valueAddr ["kwargs", "def"] [] (some 4)] (some 3)

/-- a list of a call signature and a number -/
def lst : Obj := .mk .data ["list"] [sig, .mk .data ["5"] [] none] none

/-- a list with a portal in it -/
def bad : Obj := .mk .data ["list"] [sig, .mk .portal ["7"] [] none] none

theorem sig_ok : ∀ x, Inside x sig → ¬ x.Unstorable :=
  (pickle_refused sig).2 ⟨.mk .callSignature ["f", "Samos"] [.mk .valueAddr ["purefn", "abc"] [], .mk .valueAddr ["kwargs", "def"] []],
    by simp [sig, pickle, pickleL, Kind.refusal]⟩

example : ∃ x, Inside x bad ∧ x.Unstorable :=
  ⟨.mk .portal ["7"] [] none, .part _ _ _ _ (by simp) (.refl _), .inl rfl⟩

example := C69_rebinds [.new 3, .enter 3] 9 (.withP 4 .skip) sig sig_ok
example := C69_outside_iff {} rfl sig (.mk .callSignature ["f", "Samos"] [.mk .valueAddr ["purefn", "abc"] [], .mk .valueAddr ["kwargs", "def"] []])
  (by simp [sig, pickle, pickleL, Kind.refusal])
example := C69_outside sig
  (.mk .callSignature ["f", "Samos"] [.mk .valueAddr ["purefn", "abc"] [] none, .mk .valueAddr ["kwargs", "def"] [] none] none)
  (.mk .callSignature ["f", "Samos"] [.mk .valueAddr ["purefn", "abc"] [], .mk .valueAddr ["kwargs", "def"] []])
  {} (reach [.new 8, .enter 8]) {} 8 rfl (by simp [sig, pickle, pickleL, Kind.refusal])
  (by simp [unpickle, unpickleL, setState, Kind.refusal, Kind.aware]) rfl (.inr rfl)

-- in a block of portal 9, everything is bound to portal 9
example : ∃ s1, enter 9 (reach [.new 3, .enter 3]) = .ok s1 ∧
    deepcopy s1 lst = .ok (.mk .data ["list"] [.mk .callSignature ["f", "Samos"]
      [.mk .valueAddr ["purefn", "abc"] [] (some 9), .mk .valueAddr ["kwargs", "def"] [] (some 9)]
      (some 9), .mk .data ["5"] [] none] none) := by
  refine ⟨_, rfl, ?_⟩
  simp [sig, lst, deepcopy, pickle, pickleL, unpickle, unpickleL, setState, Kind.refusal, Kind.aware]

-- a function cannot be unpickled outside all blocks
example : unpickle {} (.mk .function ["f"] []) = .error .attributeError := by
  simp [unpickle, unpickleL, setState, Kind.refusal]

/-- the pickled form of `lst` -/
def dlst : Data := .mk .data ["list"] [.mk .callSignature ["f", "Samos"]
  [.mk .valueAddr ["purefn", "abc"] [], .mk .valueAddr ["kwargs", "def"] []], .mk .data ["5"] []]

theorem lst_pickled : pickle lst = .ok dlst := by simp [lst, sig, dlst, pickle, pickleL, Kind.refusal]

theorem bad_refused : pickle bad = .error .notAllowed := by simp [bad, sig, pickle, pickleL, Kind.refusal]

/-- portals 3 and 4 exist; in a block of portal 4, `lst` is stored in portal 3, and a list with a portal in it is refused -/
def hist {A : Type} : List (Op A) := [.context (.new 3), .context (.new 4), .context (.enter 4), .put 3 lst, .put 3 bad]

section
variable {A : Type} [DecidableEq A] (hash : Data → A)

theorem hist_stores (p : PortalId) (a : A) :
    (history hash hist).2 p a = if p = 3 ∧ a = hash dlst then some dlst else none := by
  simp [history, hist, step, put, lst_pickled, bad_refused]

theorem hist_others : others (history hash hist).1 = [3] := by
  simp [history, hist, step, others]
  decide +kernel

example (m : Stores A) := C102_put hash 3 lst m (hash dlst) (by simp [put, lst_pickled])
example := C102_stored_only hash hist 3 (hash dlst) dlst (by simp [hist_stores])

-- reading from portal 3: bound to portal 3, whatever happens in between
example (hinj : Function.Injective hash) (h' : List (Op A)) :=
  C102_read_back hash hinj [.context (.new 3), .context (.new 4), .context (.enter 4)] (.put 3 bad :: h') 3 lst (hash dlst)
    (by simp [put, lst_pickled])

-- reading from portal 4, which does not have it, gives an object bound to portal 3
example :=
  C102_read_elsewhere hash hist 4 (hash dlst) (by simp [hist_stores]) [] [] 3 ((others_eq _).symm.trans (hist_others hash)) (by simp) dlst
    (by simp [hist_stores])

-- it can be read from an address of portal 4; nothing else can
example : ∃ o, (get 4 (hash dlst) (history hash hist).1 (history hash hist).2).1 = .ok o :=
  (C102_read_iff hash hist 4 (hash dlst)).1.2 ⟨3, dlst, .inr (by rw [← others_eq, hist_others]; simp), by simp [hist_stores]⟩
example (a : A) (ha : a ≠ hash dlst) : get 4 a (history hash hist).1 (history hash hist).2 = (.error .keyError, (history hash hist).2) :=
  (C102_read_iff hash hist 4 a).2 (by rintro ⟨q, d, _, hd⟩; rw [hist_stores] at hd; simp [ha] at hd)

end

end Ex

end Pyth.Aware
