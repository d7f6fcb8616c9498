import Verif.Spec.RunRecords
import Verif.Props.Base32
import Mathlib.Tactic
/-!
# C73: execution records read back exactly what their execution recorded
-/
namespace Pyth.RunRecords
open Pyth.Base32
set_option linter.unusedSimpArgs false

variable {C V E : Type}

/-! ### texts -/

theorem infix_sep {α : Type} {s a b : List α} {x : α} (hx : x ∉ s) (h : s <:+: a ++ x :: b) : s <:+: a ∨ s <:+: b := by
  obtain ⟨p, q, e⟩ := h
  rw [List.append_assoc] at e
  rcases List.append_eq_append_iff.mp e with ⟨as, h1, h2⟩ | ⟨bs, h1, h2⟩
  · -- p is a prefix of a
    rcases List.append_eq_append_iff.mp h2 with ⟨cs, h3, h4⟩ | ⟨cs, h3, h4⟩
    · left
      exact ⟨p, cs, by rw [List.append_assoc, ← h3, ← h1]⟩
    · cases cs with
      | nil => left; simp at h3; exact ⟨p, [], by rw [h1, h3]; simp⟩
      | cons c cs =>
        simp only [List.cons_append, List.cons.injEq] at h4
        exact absurd (by rw [h3, ← h4.1]; simp : x ∈ s) hx
  · right
    cases bs with
    | nil =>
      cases s with
      | nil => exact List.nil_infix
      | cons c s =>
        simp only [List.nil_append, List.cons_append, List.cons.injEq] at h2
        exact absurd (by simp [h2.1]) hx
    | cons c bs =>
      simp only [List.cons_append, List.cons.injEq] at h2
      exact ⟨bs, q, by rw [h2.2, List.append_assoc]⟩

theorem IsSid.props {s : List Char} (h : IsSid s) : s.length = 25 ∧ '_' ∉ s ∧ 'r' ∈ s := by
  obtain ⟨n, hn, rfl⟩ := h
  have hl := C11_length n
  have h22 : 22 ≤ (convertIntToBase32 n).length := by
    by_contra hlt
    have : n < 32 ^ 21 := Nat.lt_of_lt_of_le hl.1 (Nat.pow_le_pow_right (by decide) (by omega))
    omega
  refine ⟨?_, ?_, ?_⟩
  · simp only [sessionId, List.length_append, List.length_take]
    have : "run".toList.length = 3 := by decide
    omega
  · intro hm
    simp only [sessionId, List.mem_append] at hm
    rcases hm with hm | hm
    · exact absurd hm (by decide)
    · have := (C11_random_signature_form n).2 '_' hm
      exact absurd this (by decide)
  · simp [sessionId]

theorem IsSid.eq_of_infix {s s' : List Char} (h : IsSid s) (h' : IsSid s') (hi : s <:+: s') : s = s' :=
  hi.eq_of_length (by rw [h.props.1, h'.props.1])

theorem infix_suffix {s s' t : List Char} (h : IsSid s) (h' : IsSid s') (ht : 'r' ∉ t) :
    s <:+: s' ++ '_' :: t ↔ s = s' := by
  constructor
  · intro hi
    rcases infix_sep h.props.2.1 hi with hi | hi
    · exact h.eq_of_infix h' hi
    · exact absurd (hi.subset h.props.2.2) ht
  · rintro rfl
    exact ⟨[], '_' :: t, rfl⟩

/-- characters of decimal numbers -/
theorem str_chars (n : Nat) : ∀ c ∈ str n, c ∈ "0123456789".toList := by
  intro c hc
  unfold str at hc
  split at hc
  · simp at hc; subst hc; decide
  · simp only [decimal, List.mem_map, List.mem_reverse] at hc
    obtain ⟨d, hd, rfl⟩ := hc
    have : d < 10 := Nat.digits_lt_base (by decide) hd
    interval_cases d <;> decide

theorem str_inj {m n : Nat} (h : str m = str n) : m = n := by
  have key : ∀ n, n ≠ 0 → (str n).map (fun c => c.toNat - 48) = (Nat.digits 10 n).reverse := by
    intro n hn
    unfold str decimal
    rw [if_neg hn, List.map_map]
    conv_rhs => rw [← List.map_id (Nat.digits 10 n).reverse]
    apply List.map_congr_left
    intro d hd
    have : d < 10 := Nat.digits_lt_base (by decide) (List.mem_reverse.mp hd)
    interval_cases d <;> decide
  have nz : ∀ n, n ≠ 0 → str n ≠ ['0'] := by
    intro n hn he
    have := key n hn
    rw [he] at this
    have h2 : Nat.digits 10 n = [0] := by
      have := congrArg List.reverse this
      simpa using this.symm
    have h3 := congrArg (Nat.ofDigits 10) h2
    rw [Nat.ofDigits_digits] at h3
    simp at h3
    exact hn h3
  by_cases hm : m = 0
  · by_cases hn : n = 0
    · rw [hm, hn]
    · subst hm; exact absurd h.symm (nz n hn)
  · by_cases hn : n = 0
    · subst hn; exact absurd h (nz m hm)
    · have := key m hm
      rw [h, key n hn] at this
      exact Nat.digits_inj_iff.mp (List.reverse_injective this.symm)

theorem sep_inj {α : Type} {a b a' b' : List α} {x : α} (hb : x ∉ b) (hb' : x ∉ b') (h : a ++ x :: b = a' ++ x :: b') :
    a = a' ∧ b = b' := by
  rcases List.append_eq_append_iff.mp h with ⟨cs, h1, h2⟩ | ⟨cs, h1, h2⟩
  · cases cs with
    | nil => simp at h1 h2; exact ⟨h1.symm, h2⟩
    | cons c cs =>
      simp only [List.cons_append, List.cons.injEq] at h2
      exact absurd (by rw [h2.2]; simp) hb
  · cases cs with
    | nil => simp at h1 h2; exact ⟨h1, h2.symm⟩
    | cons c cs =>
      simp only [List.cons_append, List.cons.injEq] at h2
      exact absurd (by rw [h2.2]; simp) hb'

theorem str_no_sep (n : Nat) : '_' ∉ str n := fun h => absurd (str_chars n _ h) (by decide)

theorem exceptionId_inj {b b' s s' : List Char} {n n' : Nat} (hs : '_' ∉ s) (hs' : '_' ∉ s')
    (h : exceptionId b s n = exceptionId b' s' n') : b = b' ∧ s = s' ∧ n = n' := by
  unfold exceptionId at h
  have e : ∀ (b s : List Char) (n : Nat), b ++ '_' :: (s ++ '_' :: str n) = (b ++ '_' :: s) ++ '_' :: str n := by
    intro b s n; simp
  rw [e, e] at h
  obtain ⟨h1, h2⟩ := sep_inj (str_no_sep _) (str_no_sep _) h
  obtain ⟨h3, h4⟩ := sep_inj hs hs' h1
  exact ⟨h3, h4, str_inj h2⟩

/-! ### the dictionaries -/

def attemptItems (evs : List (Ev C V E)) : Dict C :=
  evs.filterMap fun | .attempt s c => some (s ++ "_a".toList, c) | _ => none
def outputItems (evs : List (Ev C V E)) : Dict (List Char) :=
  evs.filterMap fun | .output s o => some (s ++ "_output".toList, o) | _ => none
def resultItems (evs : List (Ev C V E)) : Dict V :=
  evs.filterMap fun | .result s v => some (s, v) | _ => none

theorem history_snoc (evs : List (Ev C V E)) (e : Ev C V E) : history (evs ++ [e]) = step (history evs) e := by
  simp [history]

theorem history_attempts (evs : List (Ev C V E)) : (history evs).attempts = attemptItems evs := by
  induction evs using List.reverseRecOn with
  | nil => rfl
  | append_singleton evs e ih =>
    rw [history_snoc]
    cases e <;> simp only [step, Hist.attempt, Hist.result, Hist.output, Hist.crash, ih, attemptItems, List.filterMap_append,
      List.filterMap_cons, List.filterMap_nil, List.append_nil]

theorem history_outputs (evs : List (Ev C V E)) : (history evs).outputs = outputItems evs := by
  induction evs using List.reverseRecOn with
  | nil => rfl
  | append_singleton evs e ih =>
    rw [history_snoc]
    cases e <;> simp only [step, Hist.attempt, Hist.result, Hist.output, Hist.crash, ih, outputItems, List.filterMap_append,
      List.filterMap_cons, List.filterMap_nil, List.append_nil]

theorem history_results (evs : List (Ev C V E)) : (history evs).results = resultItems evs := by
  induction evs using List.reverseRecOn with
  | nil => rfl
  | append_singleton evs e ih =>
    rw [history_snoc]
    cases e <;> simp only [step, Hist.attempt, Hist.result, Hist.output, Hist.crash, ih, resultItems, List.filterMap_append,
      List.filterMap_cons, List.filterMap_nil, List.append_nil]

/-- number of crashes of a session -/
theorem history_counter (evs : List (Ev C V E)) (s : List Char) :
    (history evs).counter s = (crashesOf s evs).length := by
  induction evs using List.reverseRecOn with
  | nil => rfl
  | append_singleton evs e ih =>
    rw [history_snoc]
    cases e with
    | crash s' b d =>
      simp only [step, Hist.crash, crashesOf, List.filterMap_append] at ih ⊢
      by_cases hs : s = s'
      · subst hs; simp [ih]
      · rw [if_neg hs, ih]; simp [Ne.symm hs]
    | _ => simpa [step, Hist.attempt, Hist.result, Hist.output, crashesOf] using ih

/-- every crash item belongs to an event, and its number is smaller than the counter -/
theorem crash_item {evs : List (Ev C V E)} {x : List Char × E} (hx : x ∈ (history evs).crashes) :
    ∃ s b n, x.1 = exceptionId b s n ∧ n < (history evs).counter s ∧ Ev.crash s b x.2 ∈ evs := by
  induction evs using List.reverseRecOn with
  | nil => simp [history] at hx
  | append_singleton evs e ih =>
    rw [history_snoc] at hx ⊢
    cases e with
    | crash s' b d =>
      simp only [step, Hist.crash, List.mem_append, List.mem_singleton] at hx
      rcases hx with hx | rfl
      · obtain ⟨s, b', n, h1, h2, h3⟩ := ih hx
        refine ⟨s, b', n, h1, ?_, by simp [h3]⟩
        simp only [step, Hist.crash]
        split
        · subst_vars; omega
        · exact h2
      · exact ⟨s', b, _, rfl, by simp [step, Hist.crash], by simp⟩
    | _ =>
      obtain ⟨s, b', n, h1, h2, h3⟩ := ih hx
      exact ⟨s, b', n, h1, h2, by simp [h3]⟩

/-! ### reading -/

theorem find_unique {α : Type} {d d' : Dict α} {p : List Char × α → Bool} (hp : d.Perm d')
    (hu : ∀ x ∈ d', ∀ y ∈ d', p x = true → p y = true → x = y) (v : α) :
    (d.find? p).map (·.2) = some v ↔ ∃ x ∈ d', p x = true ∧ x.2 = v := by
  constructor
  · intro h
    cases hf : d.find? p with
    | none => rw [hf] at h; cases h
    | some x =>
      rw [hf] at h
      exact ⟨x, hp.subset (List.mem_of_find?_eq_some hf), List.find?_some hf, by simpa using h⟩
  · rintro ⟨x, hx, h1, rfl⟩
    cases hf : d.find? p with
    | none =>
      rw [List.find?_eq_none] at hf
      exact absurd h1 (hf x (hp.symm.subset hx))
    | some y =>
      have := hu y (hp.subset (List.mem_of_find?_eq_some hf)) x hx (List.find?_some hf) h1
      rw [this]; rfl

theorem mem_attemptItems {evs : List (Ev C V E)} {x : List Char × C} :
    x ∈ attemptItems evs ↔ ∃ s, x.1 = s ++ "_a".toList ∧ Ev.attempt s x.2 ∈ evs := by
  unfold attemptItems
  rw [List.mem_filterMap]
  constructor
  · rintro ⟨e, he, h⟩
    cases e with
    | attempt s c => injection h with h; subst h; exact ⟨s, rfl, he⟩
    | _ => cases h
  · rintro ⟨s, h, he⟩
    exact ⟨_, he, by obtain ⟨k, c⟩ := x; simp only at h ⊢; rw [h]⟩

theorem mem_outputItems {evs : List (Ev C V E)} {x : List Char × List Char} :
    x ∈ outputItems evs ↔ ∃ s, x.1 = s ++ "_output".toList ∧ Ev.output s x.2 ∈ evs := by
  unfold outputItems
  rw [List.mem_filterMap]
  constructor
  · rintro ⟨e, he, h⟩
    cases e with
    | output s c => injection h with h; subst h; exact ⟨s, rfl, he⟩
    | _ => cases h
  · rintro ⟨s, h, he⟩
    exact ⟨_, he, by obtain ⟨k, c⟩ := x; simp only at h ⊢; rw [h]⟩

theorem mem_resultItems {evs : List (Ev C V E)} {x : List Char × V} :
    x ∈ resultItems evs ↔ Ev.result x.1 x.2 ∈ evs := by
  unfold resultItems
  rw [List.mem_filterMap]
  constructor
  · rintro ⟨e, he, h⟩
    cases e with
    | result s c => injection h with h; subst h; exact he
    | _ => cases h
  · intro he
    exact ⟨_, he, rfl⟩

/-- if a selection of events has no repeated sessions, the event of a session is unique -/
theorem unique_ev {α β : Type} (f : α → Option β) : ∀ {l : List α}, (l.filterMap f).Nodup →
    ∀ x ∈ l, ∀ y ∈ l, f x = f y → (f x).isSome → x = y
  | [], _, _, hx, _, _, _, _ => by cases hx
  | a :: l, h, x, hx, y, hy, he, hs => by
    obtain ⟨b, hb⟩ := Option.isSome_iff_exists.mp hs
    have tail : (l.filterMap f).Nodup := by
      rw [List.filterMap_cons] at h
      split at h
      · exact h
      · exact (List.nodup_cons.mp h).2
    have head : ∀ z ∈ l, f a = some b → f z ≠ some b := by
      intro z hz ha hz'
      rw [List.filterMap_cons, ha] at h
      exact (List.nodup_cons.mp h).1 (List.mem_filterMap.mpr ⟨z, hz, hz'⟩)
    rcases List.mem_cons.mp hx with ex | hx1 <;> rcases List.mem_cons.mp hy with ey | hy1
    · exact ex.trans ey.symm
    · exact absurd (he ▸ hb) (head y hy1 (ex ▸ hb))
    · exact absurd hb (head x hx1 (ey ▸ he ▸ hb))
    · exact unique_ev f tail x hx1 y hy1 he hs

/-! ### C73 -/

/-- **C73**: whatever order the dictionary is read in, the records of a call are those of exactly the executions that
began. -/
theorem C73_records (evs : List (Ev C V E)) (d : Dict C) (hd : d.Perm (history evs).attempts) :
    (recordIds d).Perm (begun evs) := by
  refine (hd.map _).trans ?_
  rw [history_attempts]
  have : (attemptItems evs).map (fun k => k.1.take (k.1.length - 2)) = begun evs := by
    unfold attemptItems begun
    rw [List.map_filterMap]
    apply List.filterMap_congr
    intro e _
    cases e with
    | attempt s c =>
      have : "_a".toList.length = 2 := by decide
      simp only [Option.map_some, List.length_append, this, Nat.add_sub_cancel, List.take_left']
    | _ => rfl
  rw [this]

/-- **C73**: the context a record shows is the one of its own execution. -/
theorem C73_own_context (evs : List (Ev C V E)) (hp : Proper evs) (d : Dict C)
    (hd : d.Perm (history evs).attempts) (s : List Char) (hs : IsSid s) (c : C) :
    readFirst d s = some c ↔ Ev.attempt s c ∈ evs := by
  unfold readFirst
  have key : ∀ x : List Char × C, x ∈ attemptItems evs → inKey s x.1 = true → Ev.attempt s x.2 ∈ evs ∧ x.1 = s ++ "_a".toList := by
    intro x hx hk
    obtain ⟨s', h1, h2⟩ := mem_attemptItems.mp hx
    unfold inKey at hk
    rw [decide_eq_true_eq, h1] at hk
    have := (infix_suffix (t := ['a']) hs (hp.ids _ h2) (by decide)).mp hk
    subst this; exact ⟨h2, h1⟩
  rw [find_unique (d' := attemptItems evs) (by rw [← history_attempts]; exact hd)]
  · constructor
    · rintro ⟨x, hx, h1, rfl⟩
      exact (key x hx h1).1
    · intro h
      refine ⟨(s ++ "_a".toList, c), mem_attemptItems.mpr ⟨s, rfl, h⟩, ?_, rfl⟩
      simp only [inKey, decide_eq_true_eq]
      exact ⟨[], "_a".toList, rfl⟩
  · intro x hx y hy h1 h2
    obtain ⟨k1, k2⟩ := key x hx h1
    obtain ⟨k3, k4⟩ := key y hy h2
    have := unique_ev _ hp.once _ k1 _ k3 rfl rfl
    injection this with _ h5
    exact Prod.ext (k2.trans k4.symm) h5

/-- **C73**: the printed output a record shows is that of its own execution; there is none iff the execution did not get
as far as storing it. -/
theorem C73_own_output (evs : List (Ev C V E)) (hp : Proper evs) (d : Dict (List Char))
    (hd : d.Perm (history evs).outputs) (s : List Char) (hs : IsSid s) (o : List Char) :
    readFirst d s = some o ↔ Ev.output s o ∈ evs := by
  unfold readFirst
  have key : ∀ x : List Char × List Char, x ∈ outputItems evs → inKey s x.1 = true →
      Ev.output s x.2 ∈ evs ∧ x.1 = s ++ "_output".toList := by
    intro x hx hk
    obtain ⟨s', h1, h2⟩ := mem_outputItems.mp hx
    unfold inKey at hk
    rw [decide_eq_true_eq, h1] at hk
    have := (infix_suffix (t := ['o', 'u', 't', 'p', 'u', 't']) hs (hp.ids _ h2) (by decide)).mp hk
    subst this; exact ⟨h2, h1⟩
  rw [find_unique (d' := outputItems evs) (by rw [← history_outputs]; exact hd)]
  · constructor
    · rintro ⟨x, hx, h1, rfl⟩
      exact (key x hx h1).1
    · intro h
      refine ⟨(s ++ "_output".toList, o), mem_outputItems.mpr ⟨s, rfl, h⟩, ?_, rfl⟩
      simp only [inKey, decide_eq_true_eq]
      exact ⟨[], "_output".toList, rfl⟩
  · intro x hx y hy h1 h2
    obtain ⟨k1, k2⟩ := key x hx h1
    obtain ⟨k3, k4⟩ := key y hy h2
    have := unique_ev _ hp.output _ k1 _ k3 rfl rfl
    injection this with _ h5
    exact Prod.ext (k2.trans k4.symm) h5

/-- **C73**: the result a record shows is that of its own execution; asking for it fails (`none`, an AssertionError) iff
the execution stored none. -/
theorem C73_own_result (evs : List (Ev C V E)) (hp : Proper evs) (d : Dict V)
    (hd : d.Perm (history evs).results) (s : List Char) (hs : IsSid s) (v : V) :
    readFirst d s = some v ↔ Ev.result s v ∈ evs := by
  unfold readFirst
  have key : ∀ x : List Char × V, x ∈ resultItems evs → inKey s x.1 = true → Ev.result s x.2 ∈ evs ∧ x.1 = s := by
    intro x hx hk
    have h2 := mem_resultItems.mp hx
    unfold inKey at hk
    rw [decide_eq_true_eq] at hk
    have := hs.eq_of_infix (hp.ids _ h2) hk
    change s = x.1 at this
    exact ⟨by rw [this]; exact h2, this.symm⟩
  rw [find_unique (d' := resultItems evs) (by rw [← history_results]; exact hd)]
  · constructor
    · rintro ⟨x, hx, h1, rfl⟩
      exact (key x hx h1).1
    · intro h
      exact ⟨(s, v), mem_resultItems.mpr h, by simp [inKey], rfl⟩
  · intro x hx y hy h1 h2
    obtain ⟨k1, k2⟩ := key x hx h1
    obtain ⟨k3, k4⟩ := key y hy h2
    have := unique_ev _ hp.result _ k1 _ k3 rfl rfl
    injection this with _ h5
    exact Prod.ext (k2.trans k4.symm) h5

theorem crash_key {s s' b : List Char} {n : Nat} (hs : IsSid s) (hs' : IsSid s') (hb : ¬ s <:+: b) :
    inKey s (exceptionId b s' n) = true ↔ s' = s := by
  unfold inKey exceptionId
  rw [decide_eq_true_eq]
  constructor
  · intro h
    rcases infix_sep hs.props.2.1 h with h | h
    · exact absurd h hb
    · exact ((infix_suffix hs hs' (fun h => absurd (str_chars n _ h) (by decide))).mp h).symm
  · rintro rfl
    exact ⟨b ++ ['_'], '_' :: str n, by simp⟩

/-- **C73**: the crashes a record shows are exactly those of its own execution, each once. -/
theorem C73_own_crashes (evs : List (Ev C V E)) (hp : Proper evs) (d : Dict E)
    (hd : d.Perm (history evs).crashes) (s : List Char) (hs : IsSid s) (hu : Unrelated s evs) :
    (readAll d s).Perm (crashesOf s evs) := by
  refine ((hd.filter _).map _).trans ?_
  have : ((history evs).crashes.filter fun k => inKey s k.1).map (·.2) = crashesOf s evs := by
    clear hd
    have hids := hp.ids
    clear hp
    induction evs using List.reverseRecOn with
    | nil => rfl
    | append_singleton evs e ih =>
      have ih := ih (fun s' b e h => hu s' b e (by simp [h])) (fun e h => hids e (by simp [h]))
      rw [history_snoc]
      cases e with
      | crash s' b d =>
        simp only [step, Hist.crash, List.filter_append, List.map_append, ih, crashesOf, List.filterMap_append]
        congr 1
        have hk := crash_key (n := (history evs).counter s') hs (hids (.crash s' b d) (by simp)) (hu s' b d (by simp))
        by_cases hss : s' = s
        · simp only [List.filterMap_cons, if_pos hss, List.filterMap_nil]
          rw [List.filter_cons_of_pos (by exact hk.mpr hss)]
          rfl
        · simp only [List.filterMap_cons, if_neg hss, List.filterMap_nil]
          rw [List.filter_cons_of_neg (by intro h; exact hss (hk.mp h))]
          rfl
      | _ =>
        simp only [step, Hist.attempt, Hist.result, Hist.output, crashesOf, List.filterMap_append] at ih ⊢
        rw [ih]; simp
  rw [this]

/-- **C73**: nothing that is recorded overwrites another record: the keys in each of the four dictionaries are
different. -/
theorem C73_nothing_overwritten (evs : List (Ev C V E)) (hp : Proper evs) :
    ((history evs).attempts.map (·.1)).Nodup ∧ ((history evs).outputs.map (·.1)).Nodup ∧
    ((history evs).results.map (·.1)).Nodup ∧ ((history evs).crashes.map (·.1)).Nodup := by
  refine ⟨?_, ?_, ?_, ?_⟩
  · rw [history_attempts]
    have : (attemptItems evs).map (·.1) = (begun evs).map (· ++ "_a".toList) := by
      unfold attemptItems begun
      rw [List.map_filterMap, List.map_filterMap]
      apply List.filterMap_congr
      intro e _
      cases e <;> rfl
    rw [this]
    exact hp.once.map fun _ _ h => List.append_cancel_right h
  · rw [history_outputs]
    have : (outputItems evs).map (·.1) = (printed evs).map (· ++ "_output".toList) := by
      unfold outputItems printed
      rw [List.map_filterMap, List.map_filterMap]
      apply List.filterMap_congr
      intro e _
      cases e <;> rfl
    rw [this]
    exact hp.output.map fun _ _ h => List.append_cancel_right h
  · rw [history_results]
    have : (resultItems evs).map (·.1) = returned evs := by
      unfold resultItems returned
      rw [List.map_filterMap]
      apply List.filterMap_congr
      intro e _
      cases e <;> rfl
    rw [this]
    exact hp.result
  · have hids := hp.ids
    clear hp
    induction evs using List.reverseRecOn with
    | nil => simp [history]
    | append_singleton evs e ih =>
      have ih := ih (fun e h => hids e (by simp [h]))
      rw [history_snoc]
      cases e with
      | crash s b d =>
        simp only [step, Hist.crash, List.map_append, List.map_cons, List.map_nil]
        rw [List.nodup_append]
        refine ⟨ih, by simp, ?_⟩
        intro a ha b' hb'
        simp only [List.mem_singleton] at hb'
        subst hb'
        rintro rfl
        obtain ⟨x, hx, hxe⟩ := List.mem_map.mp ha
        obtain ⟨s2, b2, n2, h1, h2, h3⟩ := crash_item hx
        have hs1 : IsSid s := hids (.crash s b d) (by simp)
        have hs2 : IsSid s2 := hids (.crash s2 b2 x.2) (by simp [h3])
        rw [h1] at hxe
        obtain ⟨-, rfl, rfl⟩ := exceptionId_inj hs2.props.2.1 hs1.props.2.1 hxe
        omega
      | _ => exact ih

/-- Why session ids are long: with short random numbers the record of one execution shows the output of another one.
Here executions with the ids `run1` and `run12` are recorded, and the record of `run1`, which has printed nothing yet,
shows what `run12` printed. -/
theorem C73_length_needed :
    sessionId 1 = "run1".toList ∧ sessionId 34 = "run12".toList ∧
    readFirst (history (C := Unit) (V := Unit) (E := Unit)
      [.attempt (sessionId 1) (), .attempt (sessionId 34) (), .output (sessionId 34) "hello".toList]).outputs
      (sessionId 1) = some "hello".toList := by
  decide +kernel

namespace Ex

def s1 : List Char := sessionId (2 ^ 127 + 5)
def s2 : List Char := sessionId (2 ^ 126 + 7)
theorem sid1 : IsSid s1 := ⟨_, by decide, rfl⟩
theorem sid2 : IsSid s2 := ⟨_, by decide, rfl⟩

/-- two executions at the same time: the first one crashes twice, the second one returns 42 -/
def evs : List (Ev String Nat String) :=
  [.attempt s1 "A", .attempt s2 "B", .crash s1 "ValueError_f_Samos".toList "e1", .output s2 "hi".toList,
   .crash s1 "KeyError_f_Samos".toList "e2", .result s2 42]

theorem evs_proper : Proper evs where
  ids := by
    intro e he
    simp only [evs, List.mem_cons, List.not_mem_nil, or_false] at he
    rcases he with rfl | rfl | rfl | rfl | rfl | rfl <;> first | exact sid1 | exact sid2
  once := by decide +kernel
  output := by decide +kernel
  result := by decide +kernel

theorem evs_unrelated : Unrelated s1 evs := by
  intro s' b e he
  simp only [evs, List.mem_cons, List.not_mem_nil, or_false, reduceCtorEq, false_or, Ev.crash.injEq] at he
  rcases he with ⟨_, rfl, _⟩ | ⟨_, rfl, _⟩ <;>
  · intro h
    exact absurd (h.length_le) (by rw [sid1.props.1]; decide)

theorem evs_crashes : crashesOf s1 evs = ["e1", "e2"] := by decide +kernel
example : (readAll (history evs).crashes s1).Perm ["e1", "e2"] :=
  evs_crashes ▸ C73_own_crashes evs evs_proper _ (.refl _) s1 sid1 evs_unrelated
example : readFirst (history evs).results s2 = some 42 :=
  (C73_own_result evs evs_proper _ (.refl _) s2 sid2 42).mpr (by simp [evs])
example : readFirst (history evs).outputs.reverse s2 = some "hi".toList :=
  (C73_own_output evs evs_proper _ (List.reverse_perm _) s2 sid2 _).mpr (by simp [evs])
example : (recordIds (history evs).attempts).Perm [s1, s2] := C73_records evs _ (.refl _)
example : readFirst (history evs).attempts s2 = some "B" :=
  (C73_own_context evs evs_proper _ (.refl _) s2 sid2 "B").mpr (by simp [evs])

end Ex

end Pyth.RunRecords
