import Verif.Model.MultiDict
/-! # C65: typed views are isolated -/
namespace Pyth.Multi

variable {V : Type}

/-- file types are names without dots -/
def DotFree (e : Txt) : Prop := '.' ∉ e

instance (e : Txt) : Decidable (DotFree e) := inferInstanceAs (Decidable (¬ _))

theorem append_dot_inj : ∀ (a b e e' : Txt), DotFree e → DotFree e' →
    a ++ '.' :: e = b ++ '.' :: e' → a = b ∧ e = e'
  | [], [], e, e', _, _, h => by simpa using h
  | [], c :: b, e, e', he, _, h => by
    exfalso
    simp only [List.nil_append, List.cons_append, List.cons.injEq] at h
    exact he (by rw [h.2]; simp)
  | c :: a, [], e, e', _, he', h => by
    exfalso
    simp only [List.nil_append, List.cons_append, List.cons.injEq] at h
    exact he' (by rw [← h.2]; simp)
  | c :: a, d :: b, e, e', he, he', h => by
    simp only [List.cons_append, List.cons.injEq] at h
    obtain ⟨rfl, h⟩ := h
    obtain ⟨rfl, rfl⟩ := append_dot_inj a b e e' he he' h
    exact ⟨rfl, rfl⟩

/-- A file belongs to one key of one view only. -/
theorem path_inj (e e' : Txt) (k k' : Key) (he : DotFree e) (he' : DotFree e')
    (h : path e k = path e' k') : e = e' ∧ k = k' := by
  unfold path at h
  have h1 := List.append_inj_right' h rfl
  have h2 := List.append_inj_left' h rfl
  simp only [List.cons.injEq, and_true] at h1
  obtain ⟨h3, h4⟩ := append_dot_inj _ _ _ _ he he' h1
  cases k; cases k'
  simp only at h2 h3
  subst h2 h3
  exact ⟨h4, rfl⟩

/-- What a single, separate dictionary returns for a key after operations on it. -/
def lastWrite (k : Key) (init : Option V) (ops : List (Op V)) : Option V :=
  ops.foldl (fun v op => match op with
    | .set _ k' x => if k = k' then some x else v
    | .del _ k' => if k = k' then none else v) init

/-- **C65**: after any history of writes and deletions through all views, what is read through a
view is what a separate dictionary would return that saw only the operations of that view. -/
theorem C65_views_isolated (fs : Files V) (ops : List (Op V)) (ext : Txt) (k : Key)
    (he : DotFree ext) (hops : ∀ op ∈ ops, DotFree op.ext) :
    get (applyAll fs ops) ext k
      = lastWrite k (get fs ext k) (ops.filter fun op => op.ext = ext) := by
  induction ops generalizing fs with
  | nil => rfl
  | cons op ops ih =>
    have ih' := ih (apply fs op) (fun o ho => hops o (by simp [ho]))
    have hd : DotFree op.ext := hops op (by simp)
    unfold applyAll at ih' ⊢
    rw [List.foldl_cons, ih']
    cases op with
    | set e k' v =>
      have hd : DotFree e := hd
      by_cases hee : e = ext
      · subst hee
        rw [List.filter_cons_of_pos (by simp [Op.ext])]
        have : get (apply fs (.set e k' v)) e k = if k = k' then some v else get fs e k := by
          simp only [get, apply]
          by_cases hk : k = k'
          · simp [hk]
          · rw [if_neg hk, if_neg]
            intro hp; exact hk (path_inj _ _ _ _ he hd hp).2
        rw [this]; rfl
      · rw [List.filter_cons_of_neg (by simp [Op.ext, hee])]
        have : get (apply fs (.set e k' v)) ext k = get fs ext k := by
          simp only [get, apply]
          rw [if_neg]
          intro hp; exact hee (path_inj _ _ _ _ he hd hp).1.symm
        rw [this]
    | del e k' =>
      have hd : DotFree e := hd
      by_cases hee : e = ext
      · subst hee
        rw [List.filter_cons_of_pos (by simp [Op.ext])]
        have : get (apply fs (.del e k')) e k = if k = k' then none else get fs e k := by
          simp only [get, apply]
          by_cases hk : k = k'
          · simp [hk]
          · rw [if_neg hk, if_neg]
            intro hp; exact hk (path_inj _ _ _ _ he hd hp).2
        rw [this]; rfl
      · rw [List.filter_cons_of_neg (by simp [Op.ext, hee])]
        have : get (apply fs (.del e k')) ext k = get fs ext k := by
          simp only [get, apply]
          rw [if_neg]
          intro hp; exact hee (path_inj _ _ _ _ he hd hp).1.symm
        rw [this]

/-- **C65**: operations through other views never change what is read through a view. -/
theorem C65_others_invisible (fs : Files V) (ops : List (Op V)) (ext : Txt) (k : Key)
    (he : DotFree ext) (hops : ∀ op ∈ ops, DotFree op.ext ∧ op.ext ≠ ext) :
    get (applyAll fs ops) ext k = get fs ext k := by
  rw [C65_views_isolated fs ops ext k he (fun o ho => (hops o ho).1)]
  have : ops.filter (fun op => decide (op.ext = ext)) = [] := by
    rw [List.filter_eq_nil_iff]; intro o ho; simp [(hops o ho).2]
  rw [this]; rfl

/-- **C65** (iteration): iterating over a view reports a file as key `k` iff it is the file of `k`
in that view: files of other views are never reported. -/
theorem C65_iteration (ext : Txt) (k : Key) (p : List Txt) :
    keyOf ext p = some k ↔ p = path ext k := by
  unfold keyOf path
  constructor
  · intro h
    split at h
    · cases h
    · rename_i f hf
      simp only [] at h
      split at h
      · rename_i hs
        obtain ⟨r, hr⟩ := List.isSuffixOf_iff_suffix.mp hs
        have e := (Option.some.inj h)
        subst e
        subst hr
        have : p ≠ [] := by intro h; subst h; cases hf
        have h2 := List.dropLast_concat_getLast this
        rw [List.getLast?_eq_some_getLast this] at hf
        rw [Option.some.inj hf] at h2
        simp only [List.length_append, Nat.add_sub_cancel, List.take_left']
        exact h2.symm
      · cases h
  · rintro rfl
    simp only [List.getLast?_append, List.getLast?_singleton, Option.some_or]
    rw [if_pos (List.isSuffixOf_iff_suffix.mpr ⟨k.last, rfl⟩)]
    simp only [List.length_append, Nat.add_sub_cancel, List.dropLast_concat]
    rw [List.take_left' rfl]

/-- **C65** (construction): whatever the shared and individual parameters say, the file type of a
view is its name: views of different names have different file types. -/
theorem C65_file_type (shared individual : Params) (name : String) :
    (subdictParams shared individual name).get "file_type" = some name := by
  unfold subdictParams Params.set Params.get
  rw [List.find?_append]
  have : (List.filter (fun p => decide (p.1 ≠ "file_type")) (Params.merge shared individual)).find?
      (fun p => decide (p.1 = "file_type")) = none := by
    rw [List.find?_eq_none]
    intro x hx
    have := (List.mem_filter.mp hx).2
    simpa using this
  rw [this]; simp

theorem get_set_ne (d : Params) (k k' v : String) (h : k' ≠ k) :
    (Params.set d k v).get k' = d.get k' := by
  unfold Params.set Params.get
  rw [List.find?_append]
  have h1 : [(k, v)].find? (fun p => decide (p.1 = k')) = none := by
    simp [Ne.symm h]
  rw [h1, Option.or_none]
  congr 1
  induction d with
  | nil => rfl
  | cons p d ih =>
    by_cases hp : p.1 = k
    · rw [List.filter_cons_of_neg (by simp [hp]), ih, List.find?_cons_of_neg]
      simp [hp, Ne.symm h]
    · rw [List.filter_cons_of_pos (by simp [hp])]
      by_cases hp' : p.1 = k'
      · rw [List.find?_cons_of_pos (by simp [hp']), List.find?_cons_of_pos (by simp [hp'])]
      · rw [List.find?_cons_of_neg (by simp [hp']), List.find?_cons_of_neg (by simp [hp']), ih]

/-- **C65** (construction): the views share the directory unless an individual parameter overrides
it: parameters other than the file type that no individual parameter names are the shared ones. -/
theorem C65_shared_parameters (shared individual : Params) (name key : String)
    (hk : key ≠ "file_type") (hi : ∀ p ∈ individual, p.1 ≠ key) :
    (subdictParams shared individual name).get key = shared.get key := by
  unfold subdictParams
  rw [get_set_ne _ _ _ _ hk]
  unfold Params.merge
  induction individual generalizing shared with
  | nil => rfl
  | cons p ps ih =>
    rw [List.foldl_cons, ih _ (fun q hq => hi q (by simp [hq])),
      get_set_ne _ _ _ _ (Ne.symm (hi p (by simp)))]

namespace Ex

def k : Key := ⟨["node".toList], "report".toList⟩
def ops : List (Op Nat) := [.set "json".toList k 1, .set "pkl".toList k 2, .del "json".toList k]

example : ∀ op ∈ ops, DotFree op.ext := by decide +kernel
example : DotFree "pkl".toList := by decide +kernel

example : get (applyAll (fun _ => none) ops) "pkl".toList k = some 2 ∧
    get (applyAll (fun _ => none) ops) "json".toList k = none := by decide +kernel

-- why file types must not contain dots: key "a" of type "b.c" and key "a.b" of type "c" share a file
example : path "b.c".toList ⟨[], "a".toList⟩ = path "c".toList ⟨[], "a.b".toList⟩ := by
  decide +kernel

end Ex

end Pyth.Multi
