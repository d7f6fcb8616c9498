import Verif.Model.CrashPath
import Verif.Props.RunRecords
/-!
# C77: crash records of functions

"Every exception that leaves a function is recorded once under the path of this function and once among all exceptions
of the day, and reaches the caller; records under the path of a function belong to this function."
-/
namespace Pyth.CrashPath
open Pyth.HashAddr (safeChars)
open Pyth.RunRecords (str sep_inj str_no_sep str_chars str_inj)

/-! ### specification -/

def Safe (s : List Char) : Prop := ∀ c ∈ s, c ∈ safeChars

/-- names made of safe characters only -/
structure Clean (c : Crash) : Prop where
  name : Safe c.fn.name
  named : c.fn.name ≠ []
  island : Safe c.fn.island
  excClass : Safe c.excClass
  date : Safe c.date
  dated : c.date ≠ []

/-- signatures are non-empty, safe and without separator; a random signature is not a decimal number -/
structure TailOk (t : Tail) : Prop where
  random : ∀ s, t = .random s → Safe s ∧ '_' ∉ s ∧ ∃ c ∈ s, c ∉ "0123456789".toList
  frame : ∀ s n, t = .frame s n → Safe s ∧ '_' ∉ s

/-! ### proof support -/

theorem suffix_cancel {a b s t : List Char} (h : a ++ s = b ++ t) (hl : s.length = t.length) : a = b ∧ s = t := by
  have h1 : a.length = b.length := by
    have := congrArg List.length h
    simp only [List.length_append] at this
    omega
  exact List.append_inj h h1

theorem excId_tail {c d : Crash} (hc : TailOk c.tail) (hd : TailOk d.tail) (h : excId c = excId d) : c.tail = d.tail := by
  unfold excId at h
  cases hct : c.tail with
  | random s =>
    have h1 := hc.random s hct
    cases hdt : d.tail with
    | random s' =>
      rw [hct, hdt] at h
      have := (sep_inj h1.2.1 (hd.random s' hdt).2.1 h).2
      rw [this]
    | frame s' n =>
      rw [hct, hdt] at h
      simp only at h
      have e : idBase d ++ '_' :: (s' ++ '_' :: str n) = (idBase d ++ '_' :: s') ++ '_' :: str n := by simp
      rw [e] at h
      have := (sep_inj h1.2.1 (str_no_sep n) h).2
      obtain ⟨x, hx, hx'⟩ := h1.2.2
      rw [this] at hx
      exact absurd (str_chars n x hx) hx'
  | frame s n =>
    have e : ∀ (d : Crash) s n, idBase d ++ '_' :: (s ++ '_' :: str n) = (idBase d ++ '_' :: s) ++ '_' :: str n := by intros; simp
    cases hdt : d.tail with
    | random s' =>
      rw [hct, hdt] at h
      have h1 := hd.random s' hdt
      simp only at h
      rw [e] at h
      have := (sep_inj (str_no_sep n) h1.2.1 h).2
      obtain ⟨x, hx, hx'⟩ := h1.2.2
      rw [← this] at hx
      exact absurd (str_chars n x hx) hx'
    | frame s' n' =>
      rw [hct, hdt] at h
      simp only at h
      rw [e, e] at h
      obtain ⟨h1, h2⟩ := sep_inj (str_no_sep n) (str_no_sep n') h
      have h3 := (sep_inj (hc.frame s n hct).2 (hd.frame s' n' hdt).2 h1).2
      rw [h3, str_inj h2]

theorem Safe.append {s t : List Char} (hs : Safe s) (ht : Safe t) : Safe (s ++ t) := fun c hc => by
  rcases List.mem_append.1 hc with h | h
  · exact hs c h
  · exact ht c h

theorem Safe.cons {c : Char} {s : List Char} (hc : c ∈ safeChars) (hs : Safe s) : Safe (c :: s) := fun x hx => by
  rcases List.mem_cons.1 hx with h | h
  · rw [h]; exact hc
  · exact hs x h

theorem sep_safe : '_' ∈ safeChars := by decide

theorem str_safe (n : Nat) : Safe (str n) := fun c hc => by
  have := str_chars n c hc
  revert this
  have : ∀ c ∈ "0123456789".toList, c ∈ safeChars := by decide +kernel
  exact this c

theorem fnPrefix_safe {c : Crash} (h : Clean c) : Safe (fnPrefix c.fn) := by
  have h1 : Safe "_ORD".toList := by unfold Safe; decide
  have h2 : Safe "_AUTON".toList := by unfold Safe; decide
  have h3 : Safe "_PURE".toList := by unfold Safe; decide
  unfold fnPrefix
  cases c.fn.cls with
  | ordinary => exact h.name.append h1
  | autonomous => exact (h.name.append (Safe.cons sep_safe h.island)).append h2
  | pure => exact (h.name.append (Safe.cons sep_safe h.island)).append h3

theorem idBase_safe {c : Crash} (h : Clean c) : Safe (idBase c) := by
  unfold idBase
  cases c.fn.cls with
  | ordinary => exact h.excClass.append (Safe.cons sep_safe h.name)
  | autonomous => exact (h.excClass.append (Safe.cons sep_safe h.name)).append (Safe.cons sep_safe h.island)
  | pure => exact (h.excClass.append (Safe.cons sep_safe h.name)).append (Safe.cons sep_safe h.island)

theorem excId_safe {c : Crash} (h : Clean c) (ht : TailOk c.tail) : Safe (excId c) := by
  unfold excId
  cases hc : c.tail with
  | random s => exact (idBase_safe h).append (Safe.cons sep_safe (ht.random s hc).1)
  | frame s n => exact (idBase_safe h).append (Safe.cons sep_safe ((ht.frame s n hc).1.append (Safe.cons sep_safe (str_safe n))))

theorem excId_ne (c : Crash) : excId c ≠ [] := by
  unfold excId; cases c.tail <;> simp

theorem fnPrefix_ne (f : FnRef) : fnPrefix f ≠ [] := by
  unfold fnPrefix; cases f.cls <;> simp

theorem safePath_iff (p : Path) : safePath p = true ↔ ∀ s ∈ p, s ≠ [] ∧ Safe s := by
  unfold safePath Safe
  simp [List.all_eq_true]

theorem paths_safe {c : Crash} (h : Clean c) (ht : TailOk c.tail) : ∀ p ∈ paths c, safePath p = true := by
  intro p hp
  have hca : Safe catchAll := by unfold Safe catchAll; decide
  rcases List.mem_cons.1 hp with rfl | hp
  · refine (safePath_iff _).2 fun s hs => ?_
    rcases List.mem_cons.1 hs with rfl | hs
    · exact ⟨fnPrefix_ne _, fnPrefix_safe h⟩
    · rw [List.mem_singleton.1 hs]; exact ⟨excId_ne c, excId_safe h ht⟩
  · rw [List.mem_singleton.1 hp]
    refine (safePath_iff _).2 fun s hs => ?_
    rcases List.mem_cons.1 hs with rfl | hs
    · exact ⟨by unfold catchAll; decide, hca⟩
    · rcases List.mem_cons.1 hs with rfl | hs
      · exact ⟨h.dated, h.date⟩
      · rw [List.mem_singleton.1 hs]; exact ⟨excId_ne c, excId_safe h ht⟩

theorem lookup_none_iff {h : Hist} {p : Path} : h.lookup p = none ↔ ∀ c, (p, c) ∉ h := by
  induction h with
  | nil => simp
  | cons x h ih =>
    obtain ⟨q, d⟩ := x
    rw [List.lookup_cons]
    by_cases e : p = q
    · subst e; simp
      exact ⟨d, fun h => absurd rfl h⟩
    · have : (p == q) = false := by simpa using e
      rw [this]
      simp only [ih]
      constructor
      · intro hh c hc
        rcases List.mem_cons.1 hc with h1 | h1
        · injection h1 with h1; exact e h1
        · exact hh c h1
      · intro hh c hc; exact hh c (List.mem_cons_of_mem _ hc)

theorem paths_tail {c d : Crash} (hc : TailOk c.tail) (hd : TailOk d.tail) {p : Path} (h1 : p ∈ paths c) (h2 : p ∈ paths d) :
    c.tail = d.tail := by
  have last : ∀ (c : Crash) (p : Path), p ∈ paths c → p.getLast? = some (excId c) := by
    intro c p hp
    rcases List.mem_cons.1 hp with rfl | hp
    · rfl
    · rw [List.mem_singleton.1 hp]; rfl
  have e := (last c p h1).symm.trans (last d p h2)
  injection e with e
  exact excId_tail hc hd e

theorem crash_ok {h : Hist} {c : Crash} (hc : Clean c) (ht : TailOk c.tail) (hn : ∀ p ∈ paths c, h.lookup p = none) :
    crash h c = (h ++ (paths c).map (·, c), .original c.exc) := by
  have hs := paths_safe hc ht
  have e : paths c = [[fnPrefix c.fn, excId c], [catchAll, c.date, excId c]] := rfl
  have m1 : [fnPrefix c.fn, excId c] ∈ paths c := by rw [e]; simp
  have m2 : [catchAll, c.date, excId c] ∈ paths c := by rw [e]; simp
  have h1 : put h [fnPrefix c.fn, excId c] c = some (h ++ [([fnPrefix c.fn, excId c], c)]) := by
    unfold put; rw [hs _ m1, hn _ m1]; rfl
  have h2 : put (h ++ [([fnPrefix c.fn, excId c], c)]) [catchAll, c.date, excId c] c =
      some ((h ++ [([fnPrefix c.fn, excId c], c)]) ++ [([catchAll, c.date, excId c], c)]) := by
    have : (h ++ [([fnPrefix c.fn, excId c], c)]).lookup [catchAll, c.date, excId c] = none := by
      rw [lookup_none_iff]
      intro d hd
      rcases List.mem_append.1 hd with hd | hd
      · exact lookup_none_iff.1 (hn _ m2) d hd
      · have := List.mem_singleton.1 hd
        injection this with this _
        have := congrArg List.length this
        simp at this
    unfold put; rw [hs _ m2, this]; rfl
  unfold crash
  rw [e]
  simp only [putAll, h1, h2, List.map_cons, List.map_nil, List.append_assoc, List.singleton_append]

/-! ### C77 -/

/-- C77 (functions and islands with safe names): for every sequence of crashes with different random parts, each exception
reaches its caller, each crash has exactly its two records, and earlier records stay.
Missing: names with other characters, see the counterexample. -/
theorem C77_recorded_partial (l : List Crash) (hc : ∀ c ∈ l, Clean c) (ht : ∀ c ∈ l, TailOk c.tail)
    (hd : (l.map (·.tail)).Nodup) (h : Hist) (hn : ∀ c ∈ l, ∀ p ∈ paths c, ∀ d, (p, d) ∉ h) :
    crashes h l = (h ++ l.flatMap (fun c => (paths c).map (·, c)), l.map fun c => .original c.exc) := by
  induction l generalizing h with
  | nil => simp [crashes]
  | cons c l ih =>
    have hm := List.mem_cons_self (a := c) (l := l)
    unfold crashes
    rw [crash_ok (hc c hm) (ht c hm) (fun p hp => lookup_none_iff.2 (hn c hm p hp))]
    simp only
    rw [List.map_cons, List.nodup_cons] at hd
    rw [ih (fun d hd => hc d (List.mem_cons_of_mem _ hd)) (fun d hd => ht d (List.mem_cons_of_mem _ hd)) hd.2]
    · simp
    · intro d hdl p hp x hx
      rcases List.mem_append.1 hx with hx | hx
      · exact hn d (List.mem_cons_of_mem _ hdl) p hp x hx
      · obtain ⟨q, hq, e⟩ := List.mem_map.1 hx
        injection e with e _
        subst e
        have := paths_tail (ht c hm) (ht d (List.mem_cons_of_mem _ hdl)) hq hp
        exact hd.1 (by rw [this]; exact List.mem_map_of_mem hdl)

/-- C77: exactly when two functions have the same path: same class, and the same text of names. -/
theorem C77_same_path_iff (f g : FnRef) :
    fnPrefix f = fnPrefix g ↔ f.cls = g.cls ∧
      (if f.cls = .ordinary then f.name = g.name else f.name ++ '_' :: f.island = g.name ++ '_' :: g.island) := by
  have hs : ∀ (a b s t : List Char), '_' ∉ s → '_' ∉ t → a ++ '_' :: s = b ++ '_' :: t → a = b ∧ s = t :=
    fun a b s t h1 h2 h => sep_inj h1 h2 h
  have ho : ∀ a : List Char, a ++ "_ORD".toList = a ++ '_' :: "ORD".toList := fun _ => rfl
  have ha : ∀ a : List Char, a ++ "_AUTON".toList = a ++ '_' :: "AUTON".toList := fun _ => rfl
  have hp : ∀ a : List Char, a ++ "_PURE".toList = a ++ '_' :: "PURE".toList := fun _ => rfl
  have n1 : '_' ∉ "ORD".toList := by decide
  have n2 : '_' ∉ "AUTON".toList := by decide
  have n3 : '_' ∉ "PURE".toList := by decide
  unfold fnPrefix
  cases hf : f.cls <;> cases hg : g.cls <;> simp only [ho, ha, hp, reduceCtorEq, if_true, if_false, true_and, false_and, iff_false]
  · exact ⟨fun h => (hs _ _ _ _ n1 n1 h).1, fun h => by rw [h]⟩
  · exact fun h => absurd (hs _ _ _ _ n1 n2 h).2 (by decide)
  · exact fun h => absurd (hs _ _ _ _ n1 n3 h).2 (by decide)
  · exact fun h => absurd (hs _ _ _ _ n2 n1 h).2 (by decide)
  · exact ⟨fun h => (hs _ _ _ _ n2 n2 h).1, fun h => by rw [h]⟩
  · exact fun h => absurd (hs _ _ _ _ n2 n3 h).2 (by decide)
  · exact fun h => absurd (hs _ _ _ _ n3 n1 h).2 (by decide)
  · exact fun h => absurd (hs _ _ _ _ n3 n2 h).2 (by decide)
  · exact ⟨fun h => (hs _ _ _ _ n3 n3 h).1, fun h => by rw [h]⟩

/-- C77 (islands without underscores): the path of a function belongs to no other function, and is not the one of all
exceptions.  Missing: islands with underscores, see the counterexample. -/
theorem C77_own_path_partial (f g : FnRef) (hf : '_' ∉ f.island) (hg : '_' ∉ g.island) (h : fnPrefix f = fnPrefix g) :
    f.cls = g.cls ∧ f.name = g.name ∧ (f.cls ≠ .ordinary → f.island = g.island) := by
  obtain ⟨h1, h2⟩ := (C77_same_path_iff f g).1 h
  by_cases ho : f.cls = .ordinary
  · rw [if_pos ho] at h2; exact ⟨h1, h2, fun h => absurd ho h⟩
  · rw [if_neg ho] at h2
    obtain ⟨h3, h4⟩ := sep_inj hf hg h2
    exact ⟨h1, h3, fun _ => h4⟩

theorem C77_not_catch_all (f : FnRef) : fnPrefix f ≠ catchAll := by
  intro h
  have e : catchAll = "__CATCH_ALL_".toList ++ ['_'] := by decide
  have key : ∀ (a t : List Char) (x : Char), x ≠ '_' → a ++ (t ++ [x]) ≠ catchAll := by
    intro a t x hx h
    rw [e, ← List.append_assoc] at h
    have := (suffix_cancel h rfl).2
    injection this with this
    exact hx this
  unfold fnPrefix at h
  cases hf : f.cls <;> rw [hf] at h
  · exact key _ "_OR".toList 'D' (by decide) h
  · exact key _ "_AUTO".toList 'N' (by decide) h
  · exact key _ "_PUR".toList 'E' (by decide) h

/-- C77 is false of the code: two different pure functions share their path, so that the records of one appear among the
records of the other. -/
theorem C77_shared_path_counterexample : ∃ f g : FnRef, f.cls = .pure ∧ g.cls = .pure ∧ f.name ≠ g.name ∧ f.island ≠ g.island ∧
    fnPrefix f = fnPrefix g :=
  ⟨⟨.pure, "load_data".toList, "main".toList⟩, ⟨.pure, "load".toList, "data_main".toList⟩, rfl, rfl, by decide, by decide, by decide⟩

/-- C77 is false of the code: whatever the history, if the island of an autonomous or pure function (or the name of any
function) has a character that is not safe, for example a space, then no exception leaving the function is recorded, and
callers get an exception of the storage instead of the original one. -/
theorem C77_unsafe_name_counterexample (h : Hist) (c : Crash)
    (hu : ¬ Safe c.fn.name ∨ c.fn.cls ≠ .ordinary ∧ ¬ Safe c.fn.island) : crash h c = (h, .storage) := by
  have hn : ¬ Safe (fnPrefix c.fn) := by
    intro hs
    have hname : Safe c.fn.name := fun x hx => hs x (by unfold fnPrefix; cases c.fn.cls <;> simp [hx])
    rcases hu with hu | ⟨h1, h2⟩
    · exact hu hname
    · refine h2 fun x hx => hs x ?_
      unfold fnPrefix
      cases hc : c.fn.cls with
      | ordinary => exact absurd hc h1
      | autonomous => simp [hx]
      | pure => simp [hx]
  have hp : safePath [fnPrefix c.fn, excId c] = false := by
    rw [Bool.eq_false_iff]
    intro hs
    exact hn ((safePath_iff _).1 hs _ (List.mem_cons_self ..)).2
  unfold crash paths putAll put
  rw [hp]
  rfl

/-! ### concrete cases -/

def sig1 : List Char := "3k2v9sq1aqd0n8r5tmcb4e".toList
def c1 : Crash := ⟨⟨.pure, "load_data".toList, "main".toList⟩, 1, "KeyError".toList, "2025_04_11_apr_utc".toList, .frame ("run".toList ++ sig1) 0⟩
def c2 : Crash := ⟨⟨.autonomous, "load".toList, "data_main".toList⟩, 2, "ValueError".toList, "2025_04_11_apr_utc".toList, .random sig1⟩

theorem c1_clean : Clean c1 := by
  constructor <;> first | (unfold Safe; decide +kernel) | decide
theorem c2_clean : Clean c2 := by
  constructor <;> first | (unfold Safe; decide +kernel) | decide
theorem c1_tail : TailOk c1.tail := by
  refine ⟨fun s h => ?_, fun s n h => ?_⟩
  · cases h
  · injection h with h; subst h
    exact ⟨by unfold Safe; decide +kernel, by decide +kernel⟩
theorem c2_tail : TailOk c2.tail := by
  refine ⟨fun s h => ?_, fun s n h => ?_⟩
  · injection h with h; subst h
    exact ⟨by unfold Safe; decide +kernel, by decide +kernel, 'k', by decide +kernel, by decide⟩
  · cases h

example : (crashes [] [c1, c2]).2 = [.original 1, .original 2] ∧ (crashes [] [c1, c2]).1.length = 4 := by
  rw [C77_recorded_partial [c1, c2]]
  · decide +kernel
  · intro c hc
    rcases List.mem_cons.1 hc with rfl | hc
    · exact c1_clean
    · rw [List.mem_singleton.1 hc]; exact c2_clean
  · intro c hc
    rcases List.mem_cons.1 hc with rfl | hc
    · exact c1_tail
    · rw [List.mem_singleton.1 hc]; exact c2_tail
  · decide +kernel
  · intro _ _ _ _ _ h; cases h

example : ¬ Safe "my island".toList := by unfold Safe; decide +kernel
example : crash [] { c1 with fn := ⟨.pure, "f".toList, "my island".toList⟩ } = ([], .storage) :=
  C77_unsafe_name_counterexample _ _ (.inr ⟨by decide, by unfold Safe; decide +kernel⟩)

end Pyth.CrashPath
