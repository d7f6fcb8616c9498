import Verif.Spec.Describe
import Mathlib.Data.List.Nodup
import Mathlib.Data.List.Perm.Basic
/-!
# Proofs about descriptions of portals
-/
namespace Pyth.Describe
open Pyth.CrashPath (Path FnRef fnPrefix catchAll)
open Pyth.Construct (Kind)

/-! ### files -/

theorem mem_put (D : Disk) (d e : Dir) (f g : Sub × Path) : g ∈ D.put d f e ↔ g ∈ D e ∨ (e = d ∧ g = f) := by
  unfold Disk.put
  by_cases he : e = d
  · subst he
    by_cases hf : f ∈ D e
    · simp only [hf, not_true_eq_false, and_false, if_false, true_and]
      exact ⟨Or.inl, fun h => h.elim id fun h => h ▸ hf⟩
    · simp [hf]
  · simp [he]

theorem nodup_put {D : Disk} (h : ∀ e, (D e).Nodup) (d : Dir) (f : Sub × Path) (e : Dir) : (D.put d f e).Nodup := by
  unfold Disk.put
  by_cases hc : e = d ∧ f ∉ D d
  · rw [if_pos hc]
    refine List.Nodup.append (h d) (by simp) ?_
    intro x hx hx'
    rw [List.mem_singleton] at hx'
    exact hc.2 (hx' ▸ hx)
  · rw [if_neg hc]; exact h e

theorem mem_del (D : Disk) (d e : Dir) (f g : Sub × Path) : g ∈ D.del d f e ↔ g ∈ D e ∧ ¬(e = d ∧ g = f) := by
  unfold Disk.del
  by_cases he : e = d
  · subst he; simp
  · simp [he]

theorem nodup_del {D : Disk} (h : ∀ e, (D e).Nodup) (d : Dir) (f : Sub × Path) (e : Dir) : (D.del d f e).Nodup := by
  unfold Disk.del
  by_cases he : e = d
  · rw [if_pos he]; exact (h d).filter _
  · rw [if_neg he]; exact h e

theorem nodup_putCrash (d : Dir) : ∀ (ps : List Path) (D : Disk), (∀ e, (D e).Nodup) → ∀ e, (putCrash D d ps e).Nodup
  | [], _, h => h
  | p :: ps, D, h => by
    intro e
    unfold putCrash
    by_cases hc : (Sub.crashHistory, p) ∈ D d
    · rw [if_pos hc]; exact h e
    · rw [if_neg hc]; exact nodup_putCrash d ps _ (nodup_put h d _) e

/-- other subdirectories are not touched -/
theorem mem_putCrash_other (d e : Dir) {s : Sub} (hs : s ≠ .crashHistory) (k : Path) :
    ∀ (ps : List Path) (D : Disk), (s, k) ∈ putCrash D d ps e ↔ (s, k) ∈ D e
  | [], _ => Iff.rfl
  | p :: ps, D => by
    unfold putCrash
    by_cases hc : (Sub.crashHistory, p) ∈ D d
    · rw [if_pos hc]
    · rw [if_neg hc, mem_putCrash_other d e hs k ps, mem_put]
      constructor
      · rintro (h | ⟨_, h⟩)
        · exact h
        · exact absurd (Prod.mk.inj h).1 hs
      · exact Or.inl

/-- if none of the files exists, all are written -/
theorem mem_putCrash_new (d e : Dir) (g : Sub × Path) :
    ∀ (ps : List Path) (D : Disk), ps.Nodup → (∀ p ∈ ps, (Sub.crashHistory, p) ∉ D d) →
      (g ∈ putCrash D d ps e ↔ g ∈ D e ∨ (e = d ∧ ∃ p ∈ ps, g = (.crashHistory, p)))
  | [], _, _, _ => by simp [putCrash]
  | p :: ps, D, hn, h => by
    have hc : (Sub.crashHistory, p) ∉ D d := h p List.mem_cons_self
    rw [List.nodup_cons] at hn
    unfold putCrash
    rw [if_neg hc, mem_putCrash_new d e g ps _ hn.2, mem_put]
    · constructor
      · rintro ((h | ⟨h1, h2⟩) | ⟨h1, q, h2, h3⟩)
        · exact Or.inl h
        · exact Or.inr ⟨h1, p, List.mem_cons_self, h2⟩
        · exact Or.inr ⟨h1, q, List.mem_cons_of_mem _ h2, h3⟩
      · rintro (h | ⟨h1, q, h2, h3⟩)
        · exact Or.inl (Or.inl h)
        · rcases List.mem_cons.1 h2 with rfl | h2
          · exact Or.inl (Or.inr ⟨h1, h3⟩)
          · exact Or.inr ⟨h1, q, h2, h3⟩
    · intro q hq hm
      rw [mem_put] at hm
      rcases hm with hm | ⟨_, hm⟩
      · exact h q (List.mem_cons_of_mem _ hq) hm
      · exact hn.1 ((Prod.mk.inj hm).2 ▸ hq)

/-! ### histories -/

theorem history_snoc (date : List Char) (ops : List Op) (o : Op) :
    history date (ops ++ [o]) = Op.step (history date ops) o := by
  unfold history; rw [List.foldl_append]; rfl

theorem nodup_step {w : World} (h : ∀ e, (w.disk e).Nodup) (o : Op) : ∀ e, ((Op.step w o).disk e).Nodup := by
  cases o with
  | create q => exact h
  | register i a b => exact h
  | day x => exact h
  | restart => exact h
  | write d x =>
    cases x with
    | drop k => exact nodup_del h _ _
    | crash fn id => exact nodup_putCrash _ _ _ h
    | _ => exact nodup_put h _ _

theorem nodup_history (date : List Char) (ops : List Op) : ∀ e, ((history date ops).disk e).Nodup := by
  induction ops using List.reverseRecOn with
  | nil => intro e; exact List.nodup_nil
  | append_singleton ops o ih => rw [history_snoc]; exact nodup_step ih o

/-- the value store holds the values written -/
theorem values_history (date : List Char) (ops : List Op) (d : Dir) (k : Path) :
    (Sub.valueStore, k) ∈ (history date ops).disk d ↔ .write d (.value k) ∈ ops := by
  induction ops using List.reverseRecOn with
  | nil => simp [history]
  | append_singleton ops o ih =>
    rw [history_snoc, List.mem_append, List.mem_singleton]
    cases o with
    | write e x =>
      cases x with
      | drop k' =>
        show _ ∈ Disk.del _ _ _ _ ↔ _
        rw [mem_del, ih]; simp
      | crash fn id =>
        show _ ∈ putCrash _ _ _ _ ↔ _
        rw [mem_putCrash_other _ _ (by decide), ih]; simp
      | _ =>
        show _ ∈ Disk.put _ _ _ _ ↔ _
        rw [mem_put, ih]; simp
    | _ =>
      show _ ∈ (history date ops).disk d ↔ _
      rw [ih]; simp

theorem results_history (date : List Char) (ops : List Op) (d : Dir) (k : Path) :
    (Sub.results, k) ∈ (history date ops).disk d ↔ .write d (.result k) ∈ ops := by
  induction ops using List.reverseRecOn with
  | nil => simp [history]
  | append_singleton ops o ih =>
    rw [history_snoc, List.mem_append, List.mem_singleton]
    cases o with
    | write e x =>
      cases x with
      | drop k' =>
        show _ ∈ Disk.del _ _ _ _ ↔ _
        rw [mem_del, ih]; simp
      | crash fn id =>
        show _ ∈ putCrash _ _ _ _ ↔ _
        rw [mem_putCrash_other _ _ (by decide), ih]; simp
      | _ =>
        show _ ∈ Disk.put _ _ _ _ ↔ _
        rw [mem_put, ih]; simp
    | _ =>
      show _ ∈ (history date ops).disk d ↔ _
      rw [ih]; simp

theorem pending_snoc (ops : List Op) (o : Op) (d : Dir) (k : Path) :
    Pending (ops ++ [o]) d k ↔ o = .write d (.request k) ∨ (Pending ops d k ∧ o ≠ .write d (.drop k)) := by
  constructor
  · rintro ⟨b, a, h, hd⟩
    rcases List.eq_nil_or_concat a with rfl | ⟨a', x, rfl⟩
    · left
      have := List.append_inj' h rfl
      exact (List.cons.inj this.2).1
    · right
      have h' : ops ++ [o] = (b ++ .write d (.request k) :: a') ++ [x] := by rw [h]; simp
      have h2 := List.append_inj' h' rfl
      have hx : o = x := (List.cons.inj h2.2).1
      subst hx
      simp only [List.concat_eq_append, List.mem_append, List.mem_singleton, not_or] at hd
      exact ⟨⟨b, a', h2.1, hd.1⟩, fun e => hd.2 e.symm⟩
  · rintro (rfl | ⟨⟨b, a, rfl, hd⟩, hn⟩)
    · exact ⟨ops, [], by simp, by simp⟩
    · exact ⟨b, a ++ [o], by simp, by
        simp only [List.mem_append, List.mem_singleton, not_or]; exact ⟨hd, fun e => hn e.symm⟩⟩

theorem requests_history (date : List Char) (ops : List Op) (d : Dir) (k : Path) :
    (Sub.requests, k) ∈ (history date ops).disk d ↔ Pending ops d k := by
  induction ops using List.reverseRecOn with
  | nil =>
    constructor
    · intro h; exact absurd h (by simp [history])
    · rintro ⟨b, a, h, _⟩; simp at h
  | append_singleton ops o ih =>
    rw [history_snoc, pending_snoc]
    cases o with
    | write e x =>
      cases x with
      | drop k' =>
        show _ ∈ Disk.del _ _ _ _ ↔ _
        rw [mem_del, ih]
        simp only [Prod.mk.injEq, true_and, Op.write.injEq, Write.drop.injEq, ne_eq, reduceCtorEq, and_false, false_or]
        constructor
        · rintro ⟨h, hn⟩; exact ⟨h, fun e => hn ⟨e.1.symm, e.2.symm⟩⟩
        · rintro ⟨h, hn⟩; exact ⟨h, fun e => hn ⟨e.1.symm, e.2.symm⟩⟩
      | crash fn id =>
        show _ ∈ putCrash _ _ _ _ ↔ _
        rw [mem_putCrash_other _ _ (by decide), ih]; simp
      | request k' =>
        show _ ∈ Disk.put _ _ _ _ ↔ _
        rw [mem_put, ih]
        simp only [Prod.mk.injEq, true_and, Op.write.injEq, Write.request.injEq, ne_eq, reduceCtorEq, and_false, not_false_eq_true, and_true]
        constructor
        · rintro (h | ⟨h, h'⟩)
          · exact Or.inr h
          · exact Or.inl ⟨h.symm, h'.symm⟩
        · rintro (⟨h, h'⟩ | h)
          · exact Or.inr ⟨h.symm, h'.symm⟩
          · exact Or.inl h
      | _ =>
        show _ ∈ Disk.put _ _ _ _ ↔ _
        rw [mem_put, ih]; simp
    | _ =>
      show _ ∈ (history date ops).disk d ↔ _
      rw [ih]; simp

/-! ### exceptions -/

/-- the day after a history -/
def lastDay : List Char → List Op → List Char
  | date, [] => date
  | _, .day x :: ops => lastDay x ops
  | date, _ :: ops => lastDay date ops

theorem lastDay_snoc (o : Op) : ∀ (ops : List Op) (date : List Char),
    lastDay date (ops ++ [o]) = match o with | .day x => x | _ => lastDay date ops
  | [], date => by cases o <;> rfl
  | p :: ops, date => by
    cases p <;> exact lastDay_snoc o ops _

theorem today_history (date : List Char) (ops : List Op) : (history date ops).today = lastDay date ops := by
  induction ops using List.reverseRecOn with
  | nil => rfl
  | append_singleton ops o ih =>
    rw [history_snoc, lastDay_snoc]
    cases o with
    | write d x => cases x <;> exact ih
    | day x => rfl
    | _ => exact ih

theorem recorded_snoc (d : Dir) (o : Op) : ∀ (ops : List Op) (date : List Char),
    recorded d date (ops ++ [o]) = recorded d date ops ++ recorded d (lastDay date ops) [o]
  | [], date => by simp [lastDay, recorded]
  | p :: ops, date => by
    cases p with
    | day x => exact recorded_snoc d o ops x
    | write e x =>
      cases x with
      | crash fn id =>
        simp only [List.cons_append, recorded, lastDay, recorded_snoc d o ops date]
        by_cases he : e = d
        · simp [he]
        · simp [he]
      | _ => exact recorded_snoc d o ops date
    | _ => exact recorded_snoc d o ops date

theorem getLast_suffix (a b : List Char) (c : Char) (h : b.getLast? = some c) : (a ++ b).getLast? = some c := by
  rw [List.getLast?_append, h]; rfl

theorem fnPrefix_ne (f : FnRef) : fnPrefix f ≠ catchAll := by
  have hc : catchAll.getLast? = some '_' := by decide
  intro h
  have h' := congrArg List.getLast? h
  rw [hc] at h'
  unfold fnPrefix at h'
  cases e : f.cls with
  | ordinary =>
    rw [e] at h'
    have := (getLast_suffix f.name "_ORD".toList 'D' (by decide)).symm.trans h'
    exact absurd this (by decide)
  | autonomous =>
    rw [e] at h'
    have := (getLast_suffix (f.name ++ '_' :: f.island) "_AUTON".toList 'N' (by decide)).symm.trans h'
    exact absurd this (by decide)
  | pure =>
    rw [e] at h'
    have := (getLast_suffix (f.name ++ '_' :: f.island) "_PURE".toList 'E' (by decide)).symm.trans h'
    exact absurd this (by decide)

/-- what a crash history contains when all ids differ -/
structure CrashInv (w : World) (d : Dir) (rec : List (List Char × List Char)) : Prop where
  ids : ∀ p, (Sub.crashHistory, p) ∈ w.disk d → ∃ q i, p = q ++ [i] ∧ i ∈ rec.map (·.2)
  catch_ : ∀ p, ((Sub.crashHistory, p) ∈ w.disk d ∧ [catchAll] <+: p) ↔ ∃ x ∈ rec, p = [catchAll, x.1, x.2]

theorem CrashInv.congr {w w' : World} {d : Dir} {rec rec' : List (List Char × List Char)} (h : CrashInv w d rec)
    (hd : ∀ p, (Sub.crashHistory, p) ∈ w'.disk d ↔ (Sub.crashHistory, p) ∈ w.disk d) (hr : rec' = rec) :
    CrashInv w' d rec' := by
  subst hr
  exact ⟨fun p hp => h.ids p ((hd p).1 hp), fun p => by rw [hd p]; exact h.catch_ p⟩

theorem crashPaths_nodup (fn : Option FnRef) (date id : List Char) : (crashPaths fn date id).Nodup := by
  cases fn with
  | none => simp [crashPaths]
  | some f => simp [crashPaths]

theorem crashPaths_mem {fn : Option FnRef} {date id : List Char} {p : Path} (h : p ∈ crashPaths fn date id) :
    (∃ q, p = q ++ [id]) ∧ ([catchAll] <+: p ↔ p = [catchAll, date, id]) := by
  have key : ∀ f : FnRef, ¬ ([catchAll] <+: [fnPrefix f, id]) := by
    intro f hf
    obtain ⟨t, ht⟩ := hf
    exact fnPrefix_ne f (List.cons.inj ht).1.symm
  cases fn with
  | none =>
    simp only [crashPaths, List.nil_append, List.mem_singleton] at h
    subst h
    exact ⟨⟨[catchAll, date], rfl⟩, by simp⟩
  | some f =>
    simp only [crashPaths, List.cons_append, List.nil_append, List.mem_cons, List.not_mem_nil, or_false] at h
    rcases h with rfl | rfl
    · exact ⟨⟨[fnPrefix f], rfl⟩, ⟨fun h => absurd h (key f), fun h => by simp at h⟩⟩
    · exact ⟨⟨[catchAll, date], rfl⟩, by simp⟩

theorem catch_mem (fn : Option FnRef) (date id : List Char) : [catchAll, date, id] ∈ crashPaths fn date id := by
  cases fn <;> simp [crashPaths]

theorem crash_step {w : World} {d : Dir} {rec : List (List Char × List Char)} (h : CrashInv w d rec) (fn : Option FnRef)
    (id : List Char) (hid : id ∉ rec.map (·.2)) :
    CrashInv (w.write d (.crash fn id)) d (rec ++ [(w.today, id)]) := by
  have hnew : ∀ p ∈ crashPaths fn w.today id, (Sub.crashHistory, p) ∉ w.disk d := by
    intro p hp hm
    obtain ⟨⟨q, rfl⟩, _⟩ := crashPaths_mem hp
    obtain ⟨q', i, e, hi⟩ := h.ids _ hm
    have := List.append_inj' e rfl
    exact hid ((List.cons.inj this.2).1 ▸ hi)
  have hmem : ∀ p, (Sub.crashHistory, p) ∈ (w.write d (.crash fn id)).disk d ↔
      (Sub.crashHistory, p) ∈ w.disk d ∨ p ∈ crashPaths fn w.today id := by
    intro p
    show _ ∈ putCrash _ _ _ _ ↔ _
    rw [mem_putCrash_new d d _ _ _ (crashPaths_nodup ..) hnew]
    simp
  refine ⟨fun p hp => ?_, fun p => ?_⟩
  · rcases (hmem p).1 hp with hp | hp
    · obtain ⟨q, i, e, hi⟩ := h.ids p hp
      exact ⟨q, i, e, by rw [List.map_append]; exact List.mem_append_left _ hi⟩
    · obtain ⟨⟨q, rfl⟩, _⟩ := crashPaths_mem hp
      exact ⟨q, id, rfl, by simp⟩
  · rw [hmem p]
    constructor
    · rintro ⟨hp | hp, hc⟩
      · obtain ⟨x, hx, e⟩ := (h.catch_ p).1 ⟨hp, hc⟩
        exact ⟨x, List.mem_append_left _ hx, e⟩
      · exact ⟨(w.today, id), by simp, (crashPaths_mem hp).2.1 hc⟩
    · rintro ⟨x, hx, e⟩
      rcases List.mem_append.1 hx with hx | hx
      · obtain ⟨h1, h2⟩ := (h.catch_ p).2 ⟨x, hx, e⟩
        exact ⟨Or.inl h1, h2⟩
      · rw [List.mem_singleton] at hx
        subst hx
        subst e
        exact ⟨Or.inr (catch_mem ..), by simp⟩

theorem crash_history (date : List Char) (ops : List Op) (d : Dir) (hn : ((recorded d date ops).map (·.2)).Nodup) :
    CrashInv (history date ops) d (recorded d date ops) := by
  induction ops using List.reverseRecOn with
  | nil => exact ⟨fun p hp => absurd hp (by simp [history]), fun p => by simp [history, recorded]⟩
  | append_singleton ops o ih =>
    rw [recorded_snoc] at hn ⊢
    rw [history_snoc]
    have hn' : ((recorded d date ops).map (·.2)).Nodup := by
      rw [List.map_append] at hn
      exact (List.nodup_append.1 hn).1
    have ih := ih hn'
    cases o with
    | write e x =>
      cases x with
      | crash fn id =>
        by_cases he : e = d
        · subst he
          have := crash_step ih fn id (by
            rw [List.map_append, List.nodup_append] at hn
            intro hc
            exact hn.2.2 _ hc id (by simp [recorded]) rfl)
          rw [today_history] at this
          show CrashInv ((history date ops).write e (.crash fn id)) e _
          simpa [recorded] using this
        · refine ih.congr (fun p => ?_) (by simp [recorded, he])
          show _ ∈ putCrash _ _ _ _ ↔ _
          clear ih hn hn'
          generalize crashPaths fn (history date ops).today id = ps
          generalize (history date ops).disk = D
          induction ps generalizing D with
          | nil => rfl
          | cons a ps ih =>
            unfold putCrash
            by_cases hc : (Sub.crashHistory, a) ∈ D e
            · rw [if_pos hc]
            · rw [if_neg hc, ih, mem_put]
              simp [Ne.symm he]
      | drop k =>
        refine ih.congr (fun p => ?_) (by simp [recorded])
        show _ ∈ Disk.del _ _ _ _ ↔ _
        rw [mem_del]; simp
      | _ =>
        refine ih.congr (fun p => ?_) (by simp [recorded])
        show _ ∈ Disk.put _ _ _ _ ↔ _
        rw [mem_put]; simp
    | _ => exact ih.congr (fun p => Iff.rfl) (by simp [recorded])

/-! ### numbers -/

theorem len_counts {D : Disk} (h : ∀ e, (D e).Nodup) (d : Dir) (s : Sub) (pre : Path) :
    Counts (D.len d s pre) fun k => (s, k) ∈ D d ∧ pre <+: k ∧ pre.length < k.length := by
  refine ⟨((D d).filter fun f => decide (f.1 = s ∧ pre <+: f.2 ∧ pre.length < f.2.length)).map (·.2), ?_, ?_, ?_⟩
  · refine List.Nodup.map_on ?_ ((h d).filter _)
    intro x hx y hy e
    rw [List.mem_filter] at hx hy
    have hx := of_decide_eq_true hx.2
    have hy := of_decide_eq_true hy.2
    exact Prod.ext (hx.1.trans hy.1.symm) e
  · intro k
    rw [List.mem_map]
    constructor
    · rintro ⟨⟨s', k'⟩, hx, rfl⟩
      rw [List.mem_filter] at hx
      have h2 := of_decide_eq_true hx.2
      have h1 := hx.1
      simp only at h2
      obtain ⟨rfl, h3⟩ := h2
      exact ⟨h1, h3⟩
    · rintro ⟨h1, h2⟩
      exact ⟨(s, k), by rw [List.mem_filter]; exact ⟨h1, decide_eq_true ⟨rfl, h2⟩⟩, rfl⟩
  · rw [List.length_map]; rfl

theorem Counts.congr {α : Type} {n : Nat} {P Q : α → Prop} (h : Counts n P) (e : ∀ x, P x ↔ Q x) : Counts n Q := by
  obtain ⟨l, h1, h2, h3⟩ := h
  exact ⟨l, h1, fun x => (h2 x).trans (e x), h3⟩

theorem Counts.unique {α : Type} {n m : Nat} {P : α → Prop} (h : Counts n P) (h' : Counts m P) : n = m := by
  obtain ⟨l, h1, h2, h3⟩ := h
  obtain ⟨l', h1', h2', h3'⟩ := h'
  rw [← h3, ← h3']
  exact ((List.perm_ext_iff_of_nodup h1 h1').2 fun x => (h2 x).trans (h2' x).symm).length_eq

end Pyth.Describe
