import Verif.Model.Events
import Mathlib.Data.Finset.Card
import Mathlib.Data.Finset.Image
import Mathlib.Data.Nat.Digits.Defs
import Mathlib.Order.Interval.Finset.Nat
/-!
# Events: C59, C63; exception hooks: C60
-/
set_option linter.unusedSectionVars false
set_option linter.unusedVariables false
namespace Pyth.Events
open Pyth.Portal (PortalId Sys)

variable {V : Type}

/-! ### C63: unique names -/

/-- the names the helper may choose -/
def IsCandidate (desired name : String) : Prop := name = desired ∨ ∃ k : Nat, name = desired ++ "_" ++ toString k

theorem uniqueLoop_spec (desired : String) (existing : List String) (draws : Nat → Nat) (n i : Nat) (c : String)
    (hc : IsCandidate desired c) {name : String} {j : Nat} (h : uniqueLoop desired existing draws n i c = some (name, j)) :
    name ∉ existing ∧ IsCandidate desired name ∧ i ≤ j ∧ (name = c ∧ j = i ∨ c ∈ existing ∧ ∃ t, i ≤ t ∧ t < j ∧ name = desired ++ "_" ++ toString (draws t)) := by
  induction n generalizing i c with
  | zero => cases h
  | succ n ih =>
    unfold uniqueLoop at h
    split at h
    · rename_i hm
      have := ih (i + 1) _ (.inr ⟨draws i, rfl⟩) h
      refine ⟨this.1, this.2.1, by omega, .inr ⟨hm, ?_⟩⟩
      rcases this.2.2.2 with ⟨h1, h2⟩ | ⟨_, t, h1, h2, h3⟩
      · exact ⟨i, Nat.le_refl _, by omega, h1⟩
      · exact ⟨t, by omega, h2, h3⟩
    · rename_i hm
      injection h with h
      injection h with h1 h2
      subst h1 h2
      exact ⟨hm, hc, Nat.le_refl _, .inl ⟨rfl, rfl⟩⟩

/-- C63: the returned name is free. -/
theorem C63_name_is_free (desired : String) (existing : List String) (draws : Nat → Nat) (fuel i : Nat) {name : String} {j : Nat}
    (h : makeUniqueName desired existing draws fuel i = some (name, j)) : name ∉ existing :=
  (uniqueLoop_spec _ _ _ _ _ _ (.inl rfl) h).1

/-- C63: a free name is returned unchanged, at once and without drawing random numbers. -/
theorem C63_free_name_kept (desired : String) (existing : List String) (draws : Nat → Nat) (fuel i : Nat) (h : desired ∉ existing) :
    makeUniqueName desired existing draws (fuel + 1) i = some (desired, i) := by
  unfold makeUniqueName uniqueLoop
  rw [if_neg h]

/-- C63: a taken name gets a numeric suffix, one of the numbers drawn. -/
theorem C63_taken_name_suffixed (desired : String) (existing : List String) (draws : Nat → Nat) (fuel i : Nat) {name : String} {j : Nat}
    (hd : desired ∈ existing) (h : makeUniqueName desired existing draws fuel i = some (name, j)) :
    ∃ t, i ≤ t ∧ t < j ∧ name = desired ++ "_" ++ toString (draws t) := by
  have := uniqueLoop_spec _ _ _ _ _ _ (.inl rfl) h
  rcases this.2.2.2 with ⟨h1, h2⟩ | ⟨_, h3⟩
  · rw [h1] at this; exact absurd hd this.1
  · exact h3

theorem uniqueLoop_ends (desired : String) (existing : List String) (draws : Nat → Nat) (i t : Nat) (hit : i ≤ t)
    (hf : desired ++ "_" ++ toString (draws t) ∉ existing) (c : String) :
    ∃ r, uniqueLoop desired existing draws (t - i + 2) i c = some r := by
  induction hn : t - i generalizing i c with
  | zero =>
    have : i = t := by omega
    subst this
    unfold uniqueLoop
    split
    · unfold uniqueLoop
      rw [if_neg hf]
      exact ⟨_, rfl⟩
    · exact ⟨_, rfl⟩
  | succ n ih =>
    unfold uniqueLoop
    split
    · exact ih (i + 1) (by omega) _ (by omega)
    · exact ⟨_, rfl⟩

/-- C63: the search ends as soon as one of the numbers drawn gives a free name. -/
theorem C63_search_ends (desired : String) (existing : List String) (draws : Nat → Nat) (i t : Nat) (hit : i ≤ t)
    (hf : desired ++ "_" ++ toString (draws t) ∉ existing) :
    ∃ fuel r, makeUniqueName desired existing draws fuel i = some r :=
  let ⟨r, h⟩ := uniqueLoop_ends desired existing draws i t hit hf desired
  ⟨_, r, h⟩

theorem suffix_inj (desired : String) (a b : Nat) (h : desired ++ "_" ++ toString a = desired ++ "_" ++ toString b) : a = b := by
  have h1 : (toString a : String) = toString b := by
    have := congrArg String.toList h
    simp only [String.toList_append] at this
    exact String.toList_inj.1 (List.append_cancel_left this)
  have h2 : Nat.toDigits 10 a = Nat.toDigits 10 b := by
    have := congrArg String.toList h1
    rwa [Nat.toString_eq_repr, Nat.toString_eq_repr, Nat.toList_repr, Nat.toList_repr] at this
  rw [← Nat.ofDigitChars_toDigits (b := 10) (n := a) (by decide) (by decide), h2, Nat.ofDigitChars_toDigits (by decide) (by decide)]

/-- C63: unless all ten thousand million suffixes are taken, there is a number whose suffix is free. -/
theorem C63_some_suffix_is_free (desired : String) (existing : List String) (h : existing.length < 10000000000) :
    ∃ k, 1 ≤ k ∧ k ≤ 10000000000 ∧ desired ++ "_" ++ toString k ∉ existing := by
  by_contra hn
  have hall : ∀ k ∈ Finset.Icc 1 10000000000, desired ++ "_" ++ toString k ∈ existing.toFinset := by
    intro k hk
    rw [List.mem_toFinset]
    by_contra hk'
    exact hn ⟨k, (Finset.mem_Icc.1 hk).1, (Finset.mem_Icc.1 hk).2, hk'⟩
  have hc := Finset.card_le_card_of_injOn (s := Finset.Icc 1 10000000000) (fun k => desired ++ "_" ++ toString k) hall
    (fun a _ b _ hab => suffix_inj desired a b hab)
  rw [Nat.card_Icc] at hc
  have := existing.toFinset_card_le
  omega

/-! ### C59: events -/

/-- the portals whose `with` block is open -/
def Entered (s : St V) (q : PortalId) : Prop := q ∈ s.sys.stack

/-- the record holds every given keyword argument unchanged, a summary of the environment, the messages
if there are any, and nothing else; no name occurs twice -/
structure GoodRecord (args : List V) (kwargs : List (String × V)) (r : Record V) : Prop where
  given : ∀ k v, (k, EVal.given v) ∈ r ↔ (k, v) ∈ kwargs
  environment : ∃ k, k ∉ kwargs.map (·.1) ∧ (k, EVal.environment) ∈ r
  messages : ∀ l, (∃ k, (k, EVal.messages l) ∈ r) ↔ args ≠ [] ∧ l = args
  names : (kwargs.map (·.1)).Nodup → (r.map (·.1)).Nodup

theorem addSummary_spec (fuel : Nat) (args : List V) (kwargs : List (String × V)) (s s' : St V) {r : Record V}
    (h : addSummary fuel args kwargs s = (.ok r, s')) :
    GoodRecord args kwargs r ∧ s'.log = s.log ∧ s'.sys = s.sys ∧ s'.today = s.today ∧ s'.ids = s.ids ∧ s'.nid = s.nid := by
  unfold addSummary at h
  simp only at h
  have hkw : (kwargs.map fun x => (x.1, EVal.given x.2)).map (·.1) = kwargs.map (·.1) := by
    rw [List.map_map]; rfl
  have hgiven : ∀ k v, (k, EVal.given v) ∈ (kwargs.map fun x => (x.1, EVal.given x.2)) ↔ (k, v) ∈ kwargs := by
    intro k v
    simp
  split at h
  · cases h
  · rename_i n1 i h1
    have f1 := C63_name_is_free _ _ _ _ _ h1
    rw [hkw] at f1
    split at h
    · rename_i h0
      have hargs : args = [] := List.length_eq_zero_iff.1 h0
      injection h with ha hb
      injection ha with ha
      subst ha hb
      refine ⟨⟨?_, ?_, ?_, ?_⟩, rfl, rfl, rfl, rfl, rfl⟩
      · intro k v
        rw [List.mem_append, hgiven]; simp
      · exact ⟨n1, f1, by simp⟩
      · intro l
        simp [hargs]
      · intro hn
        rw [List.map_append, hkw]
        simp only [List.map_cons, List.map_nil]
        refine List.nodup_append.2 ⟨hn, by simp, ?_⟩
        intro a ha b hb
        simp at hb
        subst hb
        exact fun e => f1 (e ▸ ha)
    · rename_i h0
      split at h
      · cases h
      · rename_i n2 j h2
        have f2 := C63_name_is_free _ _ _ _ _ h2
        rw [List.map_append, hkw] at f2
        simp only [List.map_cons, List.map_nil, List.mem_append, List.mem_singleton, not_or] at f2
        injection h with ha hb
        injection ha with ha
        subst ha hb
        refine ⟨⟨?_, ?_, ?_, ?_⟩, rfl, rfl, rfl, rfl, rfl⟩
        · intro k v
          rw [List.mem_append, List.mem_append, hgiven]; simp
        · exact ⟨n1, f1, by simp⟩
        · intro l
          have : args ≠ [] := fun h => h0 (by rw [h]; rfl)
          simp [this]
        · intro hn
          rw [List.map_append, List.map_append, hkw]
          simp only [List.map_cons, List.map_nil]
          refine List.nodup_append.2 ⟨List.nodup_append.2 ⟨hn, by simp, ?_⟩, by simp, ?_⟩
          · intro a ha b hb
            simp at hb
            subst hb
            exact fun e => f1 (e ▸ ha)
          · intro a ha b hb
            simp at hb
            subst hb
            intro e
            subst e
            simp at ha
            rcases ha with ⟨x, hx⟩ | ha
            · exact f2.1 (List.mem_map.2 ⟨_, hx, rfl⟩)
            · exact f2.2 ha

theorem mem_dictInsert_fold (q : PortalId) (l d : List PortalId) : q ∈ l.foldl Portal.dictInsert d ↔ q ∈ d ∨ q ∈ l := by
  induction l generalizing d with
  | nil => simp
  | cons a l ih =>
    rw [List.foldl_cons, ih]
    unfold Portal.dictInsert
    by_cases h : a ∈ d
    · simp only [h, if_true, List.mem_cons]
      constructor
      · rintro (x | x)
        · exact .inl x
        · exact .inr (.inr x)
      · rintro (x | x | x)
        · exact .inl x
        · subst x; exact .inl h
        · exact .inr x
    · simp only [h, if_false, List.mem_append, List.mem_cons, List.not_mem_nil, or_false]
      exact or_assoc

theorem nodup_dictInsert_fold (l d : List PortalId) (hd : d.Nodup) : (l.foldl Portal.dictInsert d).Nodup := by
  induction l generalizing d with
  | nil => exact hd
  | cons a l ih =>
    rw [List.foldl_cons]
    refine ih _ ?_
    unfold Portal.dictInsert
    split
    · exact hd
    · rename_i h
      exact List.nodup_append.2 ⟨hd, by simp, fun x hx y hy e => by simp at hy; subst hy; exact h (e ▸ hx)⟩

/-- what the writing loop does when it succeeds -/
theorem writeLoop_ok (k : String × String) (r : Record V) (l : List PortalId) (s s' : St V)
    (h : PyM.forEach l (writeEvent k r) s = (.ok (), s')) :
    (∀ q, q ∈ l → s'.log q k = some r ∧ s.log q k = none) ∧ (∀ q x, ¬ (q ∈ l ∧ x = k) → s'.log q x = s.log q x) ∧ s'.sys = s.sys := by
  induction l generalizing s with
  | nil => cases h; exact ⟨fun q hq => (by cases hq), fun _ _ _ => rfl, rfl⟩
  | cons p l ih =>
    unfold PyM.forEach at h
    rw [PyM.run_bind'] at h
    unfold writeEvent at h
    cases hp : s.log p k with
    | some y => rw [hp] at h; cases h
    | none =>
      rw [hp] at h
      simp only at h
      obtain ⟨h1, h2, h3⟩ := ih _ h
      refine ⟨?_, ?_, h3⟩
      · intro q hq
        rcases List.mem_cons.1 hq with e | e
        · subst e
          by_cases hq' : q ∈ l
          · have := (h1 q hq').2
            simp at this
          · refine ⟨?_, hp⟩
            rw [h2 q k (fun x => hq' x.1)]
            simp
        · obtain ⟨h4, h5⟩ := h1 q e
          refine ⟨h4, ?_⟩
          simp only at h5
          split at h5
          · cases h5
          · exact h5
      · intro q x hq
        rw [h2 q x (fun y => hq ⟨List.mem_cons_of_mem _ y.1, y.2⟩)]
        show (if q = p ∧ x = k then some r else s.log q x) = s.log q x
        rw [if_neg]
        rintro ⟨rfl, rfl⟩
        exact hq ⟨List.mem_cons_self .., rfl⟩

theorem writeLoop_runs (k : String × String) (r : Record V) (l : List PortalId) (hl : l.Nodup) (s : St V)
    (h : ∀ q ∈ l, s.log q k = none) : ∃ s', PyM.forEach l (writeEvent k r) s = (.ok (), s') := by
  induction l generalizing s with
  | nil => exact ⟨s, rfl⟩
  | cons p l ih =>
    unfold PyM.forEach
    rw [PyM.run_bind']
    unfold writeEvent
    rw [h p (List.mem_cons_self ..)]
    simp only
    refine ih (List.nodup_cons.1 hl).2 _ fun q hq => ?_
    show (if q = p ∧ k = k then some r else s.log q k) = none
    rw [if_neg]
    · exact h q (List.mem_cons_of_mem _ hq)
    · rintro ⟨rfl, _⟩
      exact (List.nodup_cons.1 hl).1 hq

/-- nothing that is already in an event log changes, even when the loop fails -/
theorem writeLoop_keeps (k : String × String) (r : Record V) (l : List PortalId) (s : St V) (q : PortalId) (x : String × String)
    (y : Record V) (hy : s.log q x = some y) : (PyM.forEach l (writeEvent k r) s).2.log q x = some y := by
  induction l generalizing s with
  | nil => exact hy
  | cons p l ih =>
    unfold PyM.forEach
    rw [PyM.run_bind']
    unfold writeEvent
    cases hp : s.log p k with
    | some z => exact hy
    | none =>
      simp only
      refine ih _ ?_
      show (if q = p ∧ x = k then some r else s.log q x) = some y
      rw [if_neg]
      · exact hy
      · rintro ⟨rfl, rfl⟩
        rw [hp] at hy; cases hy

theorem addSummary_frame (fuel : Nat) (args : List V) (kwargs : List (String × V)) (s : St V) :
    (addSummary fuel args kwargs s).2.log = s.log ∧ (addSummary fuel args kwargs s).2.sys = s.sys := by
  unfold addSummary
  simp only
  split
  · exact ⟨rfl, rfl⟩
  · split
    · exact ⟨rfl, rfl⟩
    · split <;> exact ⟨rfl, rfl⟩

/-- the id under which an event is logged: the given one, or a random one -/
def idOf (s : St V) (eventId : Option String) : String := eventId.getD (s.ids s.nid)

theorem logEvent_eq (fuel : Nat) (eventId : Option String) (args : List V) (kwargs : List (String × V)) (s : St V) :
    ∃ n, logEvent fuel eventId args kwargs s = (PyM.bind (addSummary fuel args kwargs) fun r =>
      PyM.forEach (s.sys.stack.foldl Portal.dictInsert []) (writeEvent (s.today, idOf s eventId) r)) { s with nid := n } := by
  cases eventId with
  | some i => exact ⟨s.nid, rfl⟩
  | none => exact ⟨s.nid + 1, rfl⟩

/-- C59: when logging an event succeeds, exactly the entered portals got a new record under today's date
and the event id, which holds all keyword arguments unchanged; nothing else changed in any event log. -/
theorem C59_event_logged_partial (fuel : Nat) (eventId : Option String) (args : List V) (kwargs : List (String × V)) {s s' : St V}
    (h : logEvent fuel eventId args kwargs s = (.ok (), s')) :
    ∃ r, GoodRecord args kwargs r ∧
      (∀ q, Entered s q → s.log q (s.today, idOf s eventId) = none ∧ s'.log q (s.today, idOf s eventId) = some r) ∧
      (∀ q x, ¬ (Entered s q ∧ x = (s.today, idOf s eventId)) → s'.log q x = s.log q x) := by
  obtain ⟨n, e⟩ := logEvent_eq fuel eventId args kwargs s
  rw [e] at h
  rw [PyM.run_bind'] at h
  cases ha : addSummary fuel args kwargs { s with nid := n } with
  | mk o t =>
    rw [ha] at h
    cases o with
    | error e => cases h
    | ok r =>
      simp only at h
      obtain ⟨h1, h2, h3, _⟩ := addSummary_spec _ _ _ _ _ ha
      obtain ⟨g1, g2, g3⟩ := writeLoop_ok _ _ _ _ _ h
      have hlog : t.log = s.log := h2
      have hmem : ∀ q, q ∈ s.sys.stack.foldl Portal.dictInsert [] ↔ Entered s q := fun q => by
        rw [mem_dictInsert_fold]; simp [Entered]
      refine ⟨r, h1, fun q hq => ?_, fun q x hq => ?_⟩
      · have := g1 q ((hmem q).2 hq)
        rw [hlog] at this
        exact ⟨this.2, this.1⟩
      · rw [g2 q x (fun y => hq ⟨(hmem q).1 y.1, y.2⟩), hlog]

/-- C59: logging succeeds when no entered portal has an event with this id today (and the search for
unique names ends, see `C63_search_ends`). -/
theorem C59_new_event_succeeds_partial (fuel : Nat) (eventId : Option String) (args : List V) (kwargs : List (String × V)) {s : St V}
    (hnew : ∀ q, Entered s q → s.log q (s.today, idOf s eventId) = none)
    (hn : (logEvent fuel eventId args kwargs s).1 ≠ .error .looping) :
    ∃ s', logEvent fuel eventId args kwargs s = (.ok (), s') := by
  obtain ⟨n, e⟩ := logEvent_eq fuel eventId args kwargs s
  rw [e] at hn ⊢
  rw [PyM.run_bind'] at hn ⊢
  cases ha : addSummary fuel args kwargs { s with nid := n } with
  | mk o t =>
    rw [ha] at hn
    cases o with
    | error e =>
      have : e = .looping := by
        unfold addSummary at ha
        simp only at ha
        split at ha
        · cases ha; rfl
        · split at ha
          · cases ha
          · split at ha <;> cases ha; rfl
      subst this
      exact absurd rfl hn
    | ok r =>
      obtain ⟨h1, h2, h3, _⟩ := addSummary_spec _ _ _ _ _ ha
      have hlog : t.log = s.log := h2
      refine writeLoop_runs _ _ _ (nodup_dictInsert_fold _ _ List.nodup_nil) _ fun q hq => ?_
      rw [hlog]
      rw [mem_dictInsert_fold] at hq
      exact hnew q (hq.resolve_left (by simp))

/-- C59: with ordinary keyword names the search for unique names ends at once. -/
theorem C59_ordinary_names_partial (fuel : Nat) (eventId : Option String) (args : List V) (kwargs : List (String × V)) (s : St V)
    (h1 : "execution_environment_summary" ∉ kwargs.map (·.1)) (h2 : "message_list" ∉ kwargs.map (·.1)) :
    (logEvent (fuel + 1) eventId args kwargs s).1 ≠ .error .looping := by
  obtain ⟨n, e⟩ := logEvent_eq (fuel + 1) eventId args kwargs s
  rw [e, PyM.run_bind']
  have hkw : (kwargs.map fun x => (x.1, EVal.given x.2)).map (·.1) = kwargs.map (·.1) := by
    rw [List.map_map]; rfl
  have hw : ∀ (k) (r : Record V) (l) (t : St V), (PyM.forEach l (writeEvent k r) t).1 ≠ .error .looping := by
    intro k r l
    induction l with
    | nil => intro t h; cases h
    | cons p l ih =>
      intro t
      unfold PyM.forEach
      rw [PyM.run_bind']
      unfold writeEvent
      cases t.log p k with
      | some y => intro h; cases h
      | none => exact ih _
  have hs : ∃ r t, addSummary (fuel + 1) args kwargs { s with nid := n } = (.ok r, t) := by
    unfold addSummary
    simp only
    rw [C63_free_name_kept _ _ _ _ _ (by rw [hkw]; exact h1)]
    simp only
    split
    · exact ⟨_, _, rfl⟩
    · rw [C63_free_name_kept _ _ _ _ _ (by
        rw [List.map_append, hkw]
        simp only [List.map_cons, List.map_nil, List.mem_append, List.mem_singleton, not_or]
        exact ⟨h2, by decide⟩)]
      exact ⟨_, _, rfl⟩
  obtain ⟨r, t, hs⟩ := hs
  rw [hs]
  exact hw _ _ _ _

/-- C59: an event that is in a log stays there unchanged, also when a later event has the same id. -/
theorem C59_events_are_kept (fuel : Nat) (eventId : Option String) (args : List V) (kwargs : List (String × V)) (s : St V)
    (q : PortalId) (x : String × String) (y : Record V) (hy : s.log q x = some y) :
    (logEvent fuel eventId args kwargs s).2.log q x = some y := by
  obtain ⟨n, e⟩ := logEvent_eq fuel eventId args kwargs s
  rw [e, PyM.run_bind']
  have hf := addSummary_frame fuel args kwargs { s with nid := n }
  cases ha : addSummary fuel args kwargs { s with nid := n } with
  | mk o t =>
    rw [ha] at hf
    have ht : t.log q x = some y := by rw [hf.1]; exact hy
    cases o with
    | error e => exact ht
    | ok r => exact writeLoop_keeps _ _ _ _ _ _ _ ht

/-- the event id that a program asked for: the keyword argument `event_id`, if there is one and it is not `None` -/
def askedId (asId : V → Option String) (kwargs : List (String × V)) : Option String :=
  (lookup "event_id" kwargs).bind asId

theorem logEventTop_eq (asId : V → Option String) (fuel : Nat) (args : List V) (kwargs : List (String × V)) :
    logEventTop asId fuel args kwargs =
      logEvent fuel (askedId asId kwargs) args (kwargs.filter fun x => x.1 != "event_id") := by
  unfold logEventTop askedId
  cases hv : lookup "event_id" kwargs with
  | some v => rfl
  | none =>
    have hf : kwargs.filter (fun x => x.1 != "event_id") = kwargs := by
      rw [List.filter_eq_self]
      intro x hx
      unfold lookup at hv
      rw [Option.map_eq_none_iff, List.find?_eq_none] at hv
      have := hv x hx
      simpa using this
    simp only [Option.bind_none, hf]

/-- C59: the module-level function `log_event` stores one record in every entered portal, under today's date and the
id asked for (or a random one), and nothing else; the record has all keyword arguments except `event_id`. -/
theorem C59_top_level (asId : V → Option String) (fuel : Nat) (args : List V) (kwargs : List (String × V)) {s s' : St V}
    (h : logEventTop asId fuel args kwargs s = (.ok (), s')) :
    ∃ r, GoodRecord args (kwargs.filter fun x => x.1 != "event_id") r ∧
      (∀ q, Entered s q → s.log q (s.today, idOf s (askedId asId kwargs)) = none ∧
        s'.log q (s.today, idOf s (askedId asId kwargs)) = some r) ∧
      (∀ q x, ¬ (Entered s q ∧ x = (s.today, idOf s (askedId asId kwargs))) → s'.log q x = s.log q x) := by
  rw [logEventTop_eq] at h
  exact C59_event_logged_partial fuel _ args _ h

namespace Ex

/-- portals 0 and 1 are entered -/
def s0 : St Nat := { sys := { all := [0, 1, 2], stack := [1, 0], counters := [1, 1] }, log := fun _ _ => none, today := "2024_12Dec_22_utc", ints := fun i => i + 1, ids := fun i => "r" ++ toString i }

def after (eid : Option String) (kw : List (String × Nat)) (s : St Nat) := logEvent 5 eid [7] kw s

/-- through the module-level function: with an id, and with `event_id=None` (here: 0), which is a random id -/
example : (logEventTop (fun n => if n = 0 then none else some "a") 5 [7] [("event_id", 1), ("x", 3)] s0).2.log 1 ("2024_12Dec_22_utc", "a") =
      some [("x", .given 3), ("execution_environment_summary", .environment), ("message_list", .messages [7])] ∧
    (logEventTop (fun n => if n = 0 then none else some "a") 5 [7] [("event_id", 0), ("x", 3)] s0).2.log 0 ("2024_12Dec_22_utc", "r0") =
      some [("x", .given 3), ("execution_environment_summary", .environment), ("message_list", .messages [7])] ∧
    (logEventTop (fun n => if n = 0 then none else some "a") 5 [7] [("event_id", 0), ("x", 3)] s0).1 = .ok () := by
  refine ⟨?_, ?_, ?_⟩ <;> decide +kernel

/-- a concrete event: written to both entered portals and not to the third; a keyword argument that has
the name of the summary is kept, and the summary gets another name -/
example : (after (some "a") [("execution_environment_summary", 3)] s0).1 = .ok () ∧
    (after (some "a") [("execution_environment_summary", 3)] s0).2.log 1 ("2024_12Dec_22_utc", "a") =
      some [("execution_environment_summary", .given 3), ("execution_environment_summary_1", .environment), ("message_list", .messages [7])] ∧
    (after (some "a") [("execution_environment_summary", 3)] s0).2.log 2 ("2024_12Dec_22_utc", "a") = none := by decide +kernel

end Ex

/-- C59 fails when an event id is used again on the same day: portal 1 is entered and its log is free, but
logging fails, because portal 0 has the id already; portal 1 got the record, portal 0 did not. -/
theorem C59_repeated_id_counterexample :
    let s1 := (logEvent 5 (some "a") [] [("x", 1)] { Ex.s0 with sys := { Ex.s0.sys with stack := [0], counters := [1] } }).2
    let s2 := { s1 with sys := Ex.s0.sys }
    let t := logEvent 5 (some "a") [] [("x", 2)] s2
    t.1 = .error .immutable ∧ Entered s2 0 ∧ Entered s2 1 ∧
      t.2.log 1 ("2024_12Dec_22_utc", "a") = some [("x", .given 2), ("execution_environment_summary", .environment)] ∧
      t.2.log 0 ("2024_12Dec_22_utc", "a") = some [("x", .given 1), ("execution_environment_summary", .environment)] := by
  refine ⟨?_, ?_, ?_, ?_, ?_⟩
  · decide +kernel
  · exact List.mem_cons_of_mem _ (List.mem_cons_self ..)
  · exact List.mem_cons_self ..
  · decide +kernel
  · decide +kernel

/-! ### C60: hooks -/

/-- the hook the program itself has chosen last -/
def chosen (h : Hook) : List HookOp → Hook
  | [] => h
  | .setHook h' :: l => chosen h' l
  | _ :: l => chosen h l

/-- a fresh interpreter with hook `h` -/
def hookStart (e : Env) (h : Hook) : HookSt := { env := e, hook := h }

theorem hooks_notebook (l : List HookOp) (s : HookSt) (he : s.env = .notebook) (hs : s.saved = none) (hr : s.custom = s.registered) :
    (l.foldl HookOp.step s).hook = chosen s.hook l ∧ (l.foldl HookOp.step s).custom = (l.foldl HookOp.step s).registered := by
  induction l generalizing s with
  | nil => exact ⟨rfl, hr⟩
  | cons o l ih =>
    rw [List.foldl_cons]
    cases o with
    | createPortal =>
      have : HookOp.step s .createPortal = { s with registered := true, custom := true } := by
        unfold HookOp.step
        by_cases h : s.registered = true
        · rw [h] at hr
          simp only [h, if_true]
          rw [← hr]
        · simp only [h, if_false, Events.register, he]
          rfl
      rw [this]
      exact ih _ he hs rfl
    | clearAll =>
      have : HookOp.step s .clearAll = { s with registered := false, custom := false } := by
        unfold HookOp.step
        by_cases h : s.registered = true
        · simp only [h, if_true, unregister, hs, he]
        · have h : s.registered = false := by simpa using h
          rw [h] at hr
          simp only [h, Bool.false_eq_true, if_false]
          rw [← hr]
      rw [this]
      exact ih _ he hs rfl
    | setHook h => exact ih _ he hs hr

/-- C60 (what holds): in a notebook, `sys.excepthook` is never touched — it is always what the program
itself has chosen last — and the custom handler is installed exactly while portals exist. -/
theorem C60_notebook_partial (h : Hook) (l : List HookOp) :
    (l.foldl HookOp.step (hookStart .notebook h)).hook = chosen h l ∧
    (l.foldl HookOp.step (hookStart .notebook h)).custom = (l.foldl HookOp.step (hookStart .notebook h)).registered :=
  hooks_notebook l _ rfl rfl rfl

/-- C60 (what holds): only the first portal after a start or a clear-all installs the handler: a hook that
the program sets afterwards survives further portals. -/
theorem C60_installed_once_partial (s : HookSt) (hr : s.registered = true) : (HookOp.step s .createPortal) = s := by
  unfold HookOp.step
  simp only [hr, if_true]
  cases s; cases hr; rfl

/-- uncaught exceptions reach Pythagoras: its hook is in place, or its handler is installed in the notebook -/
def Handled (s : HookSt) : Prop := s.hook = .pth ∨ s.custom = true

/-- C60 (what holds): wherever the program runs — script, notebook, notebook whose integration fails — as long as the program does
not replace the hook itself, uncaught exceptions reach Pythagoras from the creation of a portal until everything is cleared,
however many portals are created and however often everything is cleared before. -/
theorem C60_handled_while_registered_partial (e : Env) (h : Hook) (l : List HookOp) (hl : ∀ h', .setHook h' ∉ l) :
    (l.foldl HookOp.step (hookStart e h)).registered = true → Handled (l.foldl HookOp.step (hookStart e h)) := by
  suffices ∀ s : HookSt, s.saved = none → (s.registered = true → Handled s) →
      ((l.foldl HookOp.step s).registered = true → Handled (l.foldl HookOp.step s)) from
    this _ rfl (fun h => by cases h)
  induction l with
  | nil => exact fun s _ hs => hs
  | cons o l ih =>
    intro s h0 hs
    rw [List.foldl_cons]
    refine ih (fun h' hm => hl h' (List.mem_cons_of_mem _ hm)) _ ?_ ?_
    · cases o with
      | setHook h' => exact h0
      | createPortal =>
        simp only [HookOp.step, Events.register]
        split <;> [skip; split] <;> exact h0
      | clearAll =>
        simp only [HookOp.step, unregister, h0]
        split <;> [split; skip] <;> first | exact h0 | rfl
    · cases o with
      | setHook h' => exact absurd (List.mem_cons_self ..) (hl h')
      | createPortal =>
        intro _
        simp only [HookOp.step, Events.register]
        split
        · rename_i hr; exact hs hr
        · split
          · exact .inl rfl
          · exact .inr rfl
          · exact .inl rfl
      | clearAll => intro h; cases h

/-- C60 (what holds): creating a portal registers. -/
theorem C60_portal_registers_partial (s : HookSt) : (HookOp.step s .createPortal).registered = true := rfl

/-- C60 fails: in a script, after creating a portal and clearing everything the hook is not the one that
was there before, whatever that was. -/
theorem C60_hook_lost_counterexample (n : Nat) :
    ([HookOp.createPortal, .clearAll].foldl HookOp.step (hookStart .script (.other n))).hook = .pth ∧
    ([HookOp.createPortal, .clearAll].foldl HookOp.step (hookStart .script (.other n))).hook ≠ .other n := by
  constructor
  · rfl
  · intro h; cases h

/-- C60 fails also in general: after any history in which clearing is the last operation and at least one
portal was created after the program's last own choice, in a script the hook is Pythagoras's. -/
theorem C60_hook_never_restored_counterexample (s : HookSt) (he : s.env = .script) (hs : s.saved = none) (hr : s.registered = false)
    (m : Nat) : ((List.replicate (m + 1) HookOp.createPortal ++ [HookOp.clearAll]).foldl HookOp.step s).hook = .pth := by
  rw [List.foldl_append, List.replicate_succ, List.foldl_cons (l := List.replicate m _)]
  have h1 : HookOp.step s .createPortal = { s with hook := .pth, registered := true } := by
    unfold HookOp.step Events.register
    simp [hr, he]
  have h2 : ∀ m (t : HookSt), t.registered = true → (List.replicate m HookOp.createPortal).foldl HookOp.step t = t := by
    intro m
    induction m with
    | zero => intro t _; rfl
    | succ m ih => intro t ht; rw [List.replicate_succ, List.foldl_cons, C60_installed_once_partial t ht, ih t ht]
  rw [h1, h2 m _ rfl]
  simp [HookOp.step, unregister, hs, he]

end Pyth.Events
