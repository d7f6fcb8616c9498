import Verif.Proofs.MutableGuards
import Verif.Proofs.MutableAddr
import Verif.Examples.Pure
/-!
# C108: objects that are changed by the program

Data given to Pythagoras or obtained from it are ordinary Python objects: the program may change them at any time, and
address objects refer to the same objects.  What is stored is never affected; what calls return is the value of the
function for the contents that the arguments have at the time of the call, provided that functions do not change arguments
that can have another name.

Specification: `Verif.Spec.Mutable` (`eval`, `evalFn`: functions as maps from contents to contents; `ArgsAre`: the contents
that are meant by arguments; `Tame`).
-/
namespace Pyth.Mutable

/-! ## A concrete program -/
namespace Ex
open Pyth.Pure.Ex

/-- addresses for examples: trees that mirror what is stored -/
def h : Data Nat T → T
  | .plain c => .user c
  | .call f l => .sig f (.args (toTL l)) (.fn 0)

theorem h_inj : Function.Injective h := by
  intro a b hab
  cases a <;> cases b <;> simp [h] at hab ⊢
  · exact hab
  · exact ⟨hab.1, toTL_inj _ _ hab.2⟩

/-- 0: makes an object.  1: adds one.  2: changes its first argument, returns a copy of the second.  3: copies its argument,
with guard 4, which changes the argument.  5: changes its argument and returns it. -/
def prog : FnId → Fn Nat
  | 0 => { arity := 0, code := .make 5 (.ret 0) }
  | 1 => { arity := 1, code := .look 0 fun c => .make 0 (.change 1 (c + 1) (.ret 1)) }
  | 2 => { arity := 2, code := .look 0 fun c => .change 0 (c + 1) (.look 1 fun d => .make d (.ret 2)) }
  | 3 => { arity := 1, code := .look 0 fun c => .make c (.ret 1), guards := [4] }
  | 4 => { arity := 1, code := .look 0 fun c => .change 0 (c + 1) (.ret 0) }
  | _ => { arity := 1, code := .look 0 fun c => .change 0 (c + 1) (.ret 0) }

/-- the functions 0, 1, 5 only -/
def tame : FnId → Fn Nat
  | 0 => prog 0
  | 1 => prog 1
  | _ => prog 5

theorem tame_ok : Tame tame := by
  intro f
  refine ⟨?_, ?_⟩
  · match f with
    | 0 => exact .inr (by decide)
    | 1 => exact .inr (by decide)
    | _ + 2 => exact .inr (Nat.le_refl 1)
  · match f with
    | 0 => exact fun g hg => absurd hg (by simp [tame, prog])
    | 1 => exact fun g hg => absurd hg (by simp [tame, prog])
    | _ + 2 => exact fun g hg => absurd hg (by simp [tame, prog])

/-- the content of the object that was returned -/
def got {A : Type} (x : Except Err Ref × St Nat A) : Option Nat :=
  match x.1 with
  | .ok i => x.2.objs[i]?
  | .error _ => none

end Ex

variable {C A : Type} [DecidableEq A] {hash : Data C A → A} {prog : FnId → Fn C}

/-! ## What is stored -/

/-- **C108** (1). Whatever the program and its functions do to objects: what is stored stays, and it is at the address that
was made from it. -/
theorem C108_stored_never_change (ops more : List (Op C A)) :
    (∀ a c, (run hash prog ops).store a = some c → (run hash prog (ops ++ more)).store a = some c ∧ a = hash (.plain c)) ∧
    ∀ k r, (run hash prog ops).results k = some r → (run hash prog (ops ++ more)).results k = some r := by
  have hl : Later (run hash prog ops) (run hash prog (ops ++ more)) := by rw [run_append]; exact steps_later _ _
  exact ⟨fun a c h => ⟨hl.store a c h, (run_storeInv ops).store a c h⟩, hl.results⟩

example : (run Ex.h Ex.prog [.new 1, .valueAddr 0, .change 0 2]).store (Ex.h (.plain 1)) = some 1 := by decide +kernel

/-- **C108** (2). `ValueAddr(data)` stores the content that the object has now; the text of the address stays, and so does
what is stored there.  But `get()` of this address object returns the object itself, with the content that it has then. -/
theorem C108_value_address (hi : Function.Injective hash) (ops more : List (Op C A)) (i : Ref) (c : C)
    (h : (run hash prog ops).objs[i]? = some c) :
    let j := (run hash prog ops).vas.length
    let s := run hash prog (ops ++ .valueAddr i :: more)
    s.vas[j]? = some ⟨hash (.plain c), some i⟩ ∧ s.store (hash (.plain c)) = some c ∧ getVA j s = (.ok i, s) := by
  intro j s
  have hs : s = more.foldl (step hash prog) (step hash prog (run hash prog ops) (.valueAddr i)) := by
    show run hash prog (ops ++ .valueAddr i :: more) = _
    rw [run_append]; rfl
  obtain ⟨j', s1, e1, a1⟩ := packOne_total hi (run_storeInv (prog := prog) ops) (a := .obj i) (c := c) h
  change valueAddr hash i (run hash prog ops) = _ at e1
  obtain ⟨c', b1, b2, b3, b4, b5⟩ := valueAddr_ok hi (run_storeInv (prog := prog) ops) e1
  rw [h] at b1; cases b1
  have hl : Later s1 s := by
    rw [hs]
    show Later s1 (more.foldl (step hash prog) (valueAddr hash i (run hash prog ops)).2)
    rw [e1]; exact steps_later _ _
  rw [b5] at b3
  obtain ⟨v, h1, h2, h3⟩ := hl.vas _ _ b3
  have h4 := h3 i rfl
  obtain ⟨t, val⟩ := v
  change t = _ at h2; change val = _ at h4
  subst h2 h4
  refine ⟨h1, hl.store _ _ b2, ?_⟩
  unfold getVA
  change (match s.vas[j]? with | none => _ | some v => _) = _
  rw [h1]

/-- `get()` of the address of a list `[1]` that was changed to `[2]` meanwhile gives `[2]`: an address that "should"
identify a constant value does not. -/
theorem C108_changed_value_counterexample :
    Ex.got (getVA 0 (run Ex.h Ex.prog [.new 1, .valueAddr 0, .change 0 2])) = some 2 ∧
    ((run Ex.h Ex.prog [.new 1, .valueAddr 0, .change 0 2]).vas[0]?).map (·.text) = some (Ex.h (.plain 1)) := by
  decide +kernel

/-- **C108** (3). An address object without a reference (made from its text, unpickled, or made from another address) gives
a new object with the content that was stored, whatever happened to other objects. -/
theorem C108_fresh_read (ops : List (Op C A)) (c : C) (h : (run hash prog ops).store (hash (.plain c)) = some c) :
    let s := run hash prog (ops ++ [.fromText (hash (.plain c))])
    ∃ s', getVA (run hash prog ops).vas.length s = (.ok s.objs.length, s') ∧ s'.objs[s.objs.length]? = some c := by
  intro s
  have hs : s = { run hash prog ops with vas := (run hash prog ops).vas ++ [{ text := hash (.plain c) }] } := by
    show run hash prog (ops ++ [.fromText (hash (.plain c))]) = _
    rw [run_append]; rfl
  have hv : s.vas[(run hash prog ops).vas.length]? = some { text := hash (.plain c) } := by rw [hs]; simp
  have hst : s.store (hash (.plain c)) = some c := by rw [hs]; exact h
  refine ⟨{ s with
          objs := s.objs ++ [c]
          vas := s.vas.set (run hash prog ops).vas.length { text := hash (.plain c), value := some s.objs.length } }, ?_,
    by simp⟩
  unfold getVA
  rw [hv]
  simp only [hst]

example : Ex.got (getVA 1 (run Ex.h Ex.prog [.new 1, .valueAddr 0, .change 0 2, .fromText (Ex.h (.plain 1))])) = some 1 := by
  decide +kernel

/-! ## What calls return -/

/-- **C108** (4). If no function changes arguments that can have another name: every stored result is the value of its
function for the contents of its arguments, whatever the program does to its objects, before, between and after calls.
Missing: functions that change their arguments (see below). -/
theorem C108_results_right_partial (hi : Function.Injective hash) (ht : Tame prog) (ops : List (Op C A)) (k r : A)
    (h : (run hash prog ops).results k = some r) :
    ∃ f vals c, k = keyOf hash f vals ∧ evalFn (prog f) (vals.map (·.2)) = some c ∧ r = hash (.plain c) ∧
      (run hash prog ops).store r = some c :=
  (run_inv hi ht ops).results k r h

/-- the program of the examples: an object is changed before and after a call -/
def Ex.ops1 : List (Op Nat Pyth.Pure.Ex.T) :=
  [.new 1, .call 1 [("x", .obj 0)], .change 0 4, .call 1 [("x", .obj 0)], .change 2 9]

example : (run Ex.h Ex.tame Ex.ops1).results (keyOf Ex.h 1 [("x", 1)]) = some (Ex.h (.plain 2)) ∧
    (run Ex.h Ex.tame Ex.ops1).results (keyOf Ex.h 1 [("x", 4)]) = some (Ex.h (.plain 5)) := by decide +kernel

/-- **C108** (5). What `f(**kw)` returns has the value of `f` for the contents that the arguments have at the time of the
call; for an argument that is an address, the content that is stored there.  If the result was stored before, the returned
object is new: nothing else refers to it.  The call succeeds if the function has a value and no guards. -/
theorem C108_call_partial (hi : Function.Injective hash) (ht : Tame prog) (ops : List (Op C A)) (f : FnId)
    (kw : List (String × Arg)) (vals : List (String × C)) (ha : ArgsAre (run hash prog ops) kw vals) :
    (∀ i s', execute hash prog f kw (run hash prog ops) = (.ok i, s') →
      ∃ c, evalFn (prog f) (vals.map (·.2)) = some c ∧ s'.objs[i]? = some c ∧
        s'.results (keyOf hash f vals) = some (hash (.plain c)) ∧
        (((run hash prog ops).results (keyOf hash f vals)).isSome → (run hash prog ops).objs.length ≤ i)) ∧
    ∀ c, evalFn (prog f) (vals.map (·.2)) = some c → (prog f).guards = [] →
      ∃ i s', execute hash prog f kw (run hash prog ops) = (.ok i, s') :=
  ⟨fun _ _ he => execute_means hi ht (run_inv hi ht ops) ha he,
    fun _ hc hg => execute_total hi ht (run_inv hi ht ops) ha hc hg⟩

example : ArgsAre (run Ex.h Ex.tame Ex.ops1) [("x", .obj 0)] [("x", 4)] :=
  .cons ⟨rfl, (by decide +kernel : (run Ex.h Ex.tame Ex.ops1).objs[0]? = some 4)⟩ .nil
example : Ex.got (execute Ex.h Ex.tame 1 [("x", .obj 0)] (run Ex.h Ex.tame Ex.ops1)) = some 5 := by decide +kernel

/-- **C108** (5b). A call whose result is not stored, with objects as arguments, is refused with AssertionError if one of
the guards has no value (raises) for the contents of the arguments; nothing is stored as a result and no object changes.
If all guards have values, the guards do not matter: the call succeeds if the function has a value. -/
theorem C108_guards (hi : Function.Injective hash) (ht : Tame prog) (ops : List (Op C A)) (f : FnId)
    (kw : List (String × Arg)) (vals : List (String × C)) (ha : ArgsAre (run hash prog ops) kw vals)
    (ho : ∀ x ∈ kw, ∃ i, x.2 = Arg.obj i) :
    ((run hash prog ops).results (keyOf hash f vals) = none →
      (∃ g ∈ (prog f).guards, evalFn (prog g) (vals.map (·.2)) = none) →
      ∃ s', execute hash prog f kw (run hash prog ops) = (.error .assertionError, s') ∧
        s'.results = (run hash prog ops).results ∧
        ∀ (i : Nat) c, (run hash prog ops).objs[i]? = some c → s'.objs[i]? = some c) ∧
    ∀ c, evalFn (prog f) (vals.map (·.2)) = some c →
      (∀ g ∈ (prog f).guards, (evalFn (prog g) (vals.map (·.2))).isSome) →
      ∃ i s', execute hash prog f kw (run hash prog ops) = (.ok i, s') :=
  ⟨fun hn hg => execute_refused hi (run_inv hi ht ops) (ht f).2 ha ho hn hg,
    fun _ hc hg => execute_admitted hi ht (run_inv hi ht ops) ha ho hc hg⟩

/-- 6: copies its argument, with guard 7, which raises unless the argument is even -/
def Ex.guarded : FnId → Fn Nat
  | 6 => { arity := 1, code := .look 0 fun c => .make c (.ret 1), guards := [7] }
  | 7 => { arity := 1, code := .look 0 fun c => if c % 2 = 0 then .ret 0 else .raise }
  | _ => { arity := 0, code := .make 5 (.ret 0) }

theorem Ex.guarded_tame : Tame Ex.guarded := by
  have k7 : KeepsArgs (Ex.guarded 7) := by
    show ChangesOnly _ (Body.look 0 fun c => if c % 2 = 0 then .ret 0 else .raise)
    intro c
    show ChangesOnly _ (if c % 2 = 0 then .ret 0 else .raise)
    split <;> trivial
  intro f
  constructor
  · refine .inr ?_
    unfold Ex.guarded
    split <;> decide
  · intro g hg
    match f, hg with
    | 6, hg =>
      have : g = 7 := by simpa [Ex.guarded] using hg
      subst this; exact k7
    | 0, hg | 1, hg | 2, hg | 3, hg | 4, hg | 5, hg | 7, hg => cases hg
    | _ + 8, hg => cases hg

/-- the hypotheses are met: 3 is refused, 4 is admitted -/
example : (∃ s', execute Ex.h Ex.guarded 6 [("x", .obj 0)] (run Ex.h Ex.guarded [.new 3]) = (.error .assertionError, s')) ∧
    ∃ i s', execute Ex.h Ex.guarded 6 [("x", .obj 0)] (run Ex.h Ex.guarded [.new 4]) = (.ok i, s') := by
  have a3 : ArgsAre (run Ex.h Ex.guarded [.new 3]) [("x", .obj 0)] [("x", 3)] := .cons ⟨rfl, rfl⟩ .nil
  have a4 : ArgsAre (run Ex.h Ex.guarded [.new 4]) [("x", .obj 0)] [("x", 4)] := .cons ⟨rfl, rfl⟩ .nil
  have ho : ∀ x ∈ [("x", Arg.obj 0)], ∃ i, x.2 = Arg.obj i := by simp
  obtain ⟨s', h1, _⟩ := (C108_guards Ex.h_inj Ex.guarded_tame _ 6 _ _ a3 ho).1 rfl ⟨7, by simp [Ex.guarded], by decide⟩
  exact ⟨⟨s', h1⟩, (C108_guards Ex.h_inj Ex.guarded_tame _ 6 _ _ a4 ho).2 4 (by decide) (by
    intro g hg
    have : g = 7 := by simpa [Ex.guarded] using hg
    subst this; decide)⟩

/-- **C108** (6). A call changes no object that existed before, if the function and its guards change only what they make
themselves. -/
theorem C108_call_changes_nothing (f : FnId) (hf : KeepsArgs (prog f)) (hg : ∀ g ∈ (prog f).guards, KeepsArgs (prog g))
    (kw : List (String × Arg)) (s : St C A) (i : Ref) (c : C) (h : s.objs[i]? = some c) :
    (execute hash prog f kw s).2.objs[i]? = some c :=
  execute_objs hf hg kw s i c h

example : KeepsArgs (Ex.prog 1) := fun _ => ⟨by decide, trivial⟩

/-- Two arguments that are the same object: the function 2 changes its first argument and returns a copy of the second.
Called with one list `[1]` for both it returns a copy of `[2]`; with two lists `[1]`, or from the stored arguments, it
returns a copy of `[1]`.  The wrong result is stored. -/
theorem C108_same_object_twice_counterexample :
    Ex.got (execute Ex.h Ex.prog 2 [("x", .obj 0), ("y", .obj 0)] (run Ex.h Ex.prog [.new 1])) = some 2 ∧
    Ex.got (execute Ex.h Ex.prog 2 [("x", .obj 0), ("y", .obj 1)] (run Ex.h Ex.prog [.new 1, .new 1])) = some 1 ∧
    evalFn (Ex.prog 2) [1, 1] = some 1 ∧
    (run Ex.h Ex.prog [.new 1, .call 2 [("x", .obj 0), ("y", .obj 0)]]).results (keyOf Ex.h 2 [("x", 1), ("y", 1)]) =
      some (Ex.h (.plain 2)) := by decide +kernel

/-- A guard that changes its argument: the code gets the changed object, the result is stored for the original content. -/
theorem C108_guard_changes_counterexample :
    evalFn (Ex.prog 3) [1] = some 1 ∧
    (run Ex.h Ex.prog [.new 1, .call 3 [("x", .obj 0)]]).results (keyOf Ex.h 3 [("x", 1)]) = some (Ex.h (.plain 2)) := by
  decide +kernel

/-! ## Addresses of results -/

/-- **C108** (7). `get_address(**kw)` (also `swarm` and `run`) fixes the contents of the arguments: whatever is changed
later, `execute()` of the address gives the value of the function for the contents at that time, as long as `execute` and
`get` of this address object were not used before. -/
theorem C108_address_partial (hi : Function.Injective hash) (ht : Tame prog) (ops more : List (Op C A)) (f : FnId)
    (kw : List (String × Arg)) (vals : List (String × C)) (ha : ArgsAre (run hash prog ops) kw vals) :
    let r := (run hash prog ops).ras.length
    let s := run hash prog (ops ++ .getAddress f kw :: more)
    (∀ op ∈ more, op ≠ .rExecute r ∧ op ≠ .rGet r) →
    (∀ i s', rExecute hash prog r s = (.ok i, s') →
      ∃ c, evalFn (prog f) (vals.map (·.2)) = some c ∧ s'.objs[i]? = some c) ∧
    ∀ c, evalFn (prog f) (vals.map (·.2)) = some c → (prog f).guards = [] → ∃ i s', rExecute hash prog r s = (.ok i, s') := by
  intro r s hm
  have hs : s = more.foldl (step hash prog) (step hash prog (run hash prog ops) (.getAddress f kw)) := by
    show run hash prog (ops ++ .getAddress f kw :: more) = _
    rw [run_append]; rfl
  obtain ⟨p, s1, e1, b1, b2, b3, b4⟩ := getAddress_spec hi (run_storeInv (prog := prog) ops) f ha
  have h1 : step hash prog (run hash prog ops) (.getAddress f kw) = s1 := by
    show (getAddress hash f kw _).2 = s1
    rw [e1]
  rw [h1] at hs
  have hl : Later s1 s := by rw [hs]; exact steps_later _ _
  have hn : NoResult s r := by rw [hs]; exact steps_noResult more s1 r ⟨_, b1, rfl⟩ hm
  have hf : IsFor hash s r f vals := by
    obtain ⟨o, c1, c2, c3, _⟩ := hl.ras _ _ b1
    obtain ⟨d1, d2⟩ := c3 f (asArgs p) rfl rfl
    refine ⟨o, c1, c2, hl.sigs _ _ b3, b4.later hl, fun f' l hk => ?_⟩
    rw [keptCall_some.2 ⟨d1, d2⟩] at hk
    cases hk
    exact ⟨rfl, p, rfl, argsAre_later hl b2⟩
  exact ⟨fun i s' he => rExecute_means hi ht (run_inv hi ht _) hf hn he,
    fun c hc hg => rExecute_total hi ht (run_inv hi ht _) hf hc hg⟩

example : Ex.got (rExecute Ex.h Ex.tame 0 (run Ex.h Ex.tame [.new 1, .getAddress 1 [("x", .obj 0)], .change 0 7])) = some 2 := by
  decide +kernel

/-- **C108** (8). The same for another process, which has the text of the address only (a background worker): what it
computes is the value of the function for the contents of the arguments at the time when the request was made, by `swarm`
or by `swarm_list`. -/
theorem C108_background_partial (hi : Function.Injective hash) (ht : Tame prog) (ops more : List (Op C A)) (f : FnId)
    (kw : List (String × Arg)) (vals : List (String × C)) (ha : ArgsAre (run hash prog ops) kw vals) (op : Op C A)
    (ho : op = .getAddress f kw ∨ op = .listAddress f kw) :
    let s := run hash prog (ops ++ op :: more)
    let t := step hash prog s (.rFromText (keyOf hash f vals))
    (∀ i s', rExecute hash prog s.ras.length t = (.ok i, s') →
      ∃ c, evalFn (prog f) (vals.map (·.2)) = some c ∧ s'.objs[i]? = some c) ∧
    ∀ c, evalFn (prog f) (vals.map (·.2)) = some c → (prog f).guards = [] →
      ∃ i s', rExecute hash prog s.ras.length t = (.ok i, s') := by
  intro s t
  have hs : s = more.foldl (step hash prog) (step hash prog (run hash prog ops) op) := by
    show run hash prog (ops ++ op :: more) = _
    rw [run_append]; rfl
  have h1 : (step hash prog (run hash prog ops) op).sigs (keyOf hash f vals) =
      some (f, vals.map fun x => (x.1, hash (.plain x.2))) ∧ Stored hash (step hash prog (run hash prog ops) op) vals := by
    rcases ho with rfl | rfl
    · obtain ⟨p, s1, e1, _, _, b3, b4⟩ := getAddress_spec hi (run_storeInv (prog := prog) ops) f ha
      have h1 : step hash prog (run hash prog ops) (.getAddress f kw) = s1 := by
        show (getAddress hash f kw _).2 = s1
        rw [e1]
      rw [h1]; exact ⟨b3, b4⟩
    · obtain ⟨s1, e1, _, b3, b4⟩ := mkRA_spec hi (run_storeInv (prog := prog) ops) f ha
      have h1 : step hash prog (run hash prog ops) (.listAddress f kw) = s1 := by
        show (mkRA hash f kw _).2 = s1
        rw [e1]
      rw [h1]; exact ⟨b3, b4⟩
  have hl : Later (step hash prog (run hash prog ops) op) s := by rw [hs]; exact steps_later _ _
  have ht' : t = { s with ras := s.ras ++ [{ key := keyOf hash f vals }] } := rfl
  have hg : t.ras[s.ras.length]? = some { key := keyOf hash f vals } := by rw [ht']; simp
  have hi' : Inv hash prog t := (run_inv hi ht (ops ++ op :: more)).same rfl rfl rfl
  have hf : IsFor hash t s.ras.length f vals :=
    ⟨_, hg, rfl, hl.sigs _ _ h1.1, fun x hx => (h1.2.later hl) x hx, fun f' l hk => absurd hk (by simp [keptCall])⟩
  exact ⟨fun i s' he => rExecute_means hi ht hi' hf ⟨_, hg, rfl⟩ he, fun c hc hg' => rExecute_total hi ht hi' hf hc hg'⟩

example : Ex.got (rExecute Ex.h Ex.tame 1 (run Ex.h Ex.tame
    [.new 1, .listAddress 1 [("x", .obj 0)], .change 0 7, .rFromText (keyOf Ex.h 1 [("x", 1)])])) = some 2 := by decide +kernel

/-- The address objects that `swarm_list` returns keep the arguments as they are, not their addresses.  If the program
changes the list that it gave before it calls `execute()` there, the function is computed for the changed list; the result
for the original arguments, for which the address stands, is never stored. -/
theorem C108_swarm_list_counterexample :
    let s := run Ex.h Ex.tame [.new 1, .listAddress 1 [("x", .obj 0)], .change 0 7]
    Ex.got (rExecute Ex.h Ex.tame 0 s) = some 8 ∧ evalFn (Ex.tame 1) [1] = some 2 ∧
    (s.ras[0]?).map (·.key) = some (keyOf Ex.h 1 [("x", 1)]) ∧
    (rExecute Ex.h Ex.tame 0 s).2.results (keyOf Ex.h 1 [("x", 1)]) = none := by decide +kernel

/-- `addr.kwargs` gives the object of the caller, with the content that it has now. -/
theorem C108_kwargs_counterexample :
    let s := run Ex.h Ex.tame [.new 1, .listAddress 1 [("x", .obj 0)], .change 0 7]
    (match rKwargs 0 s with
      | (.ok [i], t) => t.objs[i]?
      | _ => none) = some 7 ∧
    (s.ras[0]?).map (·.key) = some (keyOf Ex.h 1 [("x", 1)]) := by decide +kernel

/-- **C108** (9). Once an address has given a result object, by `execute()` or `get()`, it gives the same object again, at
any later time; so a change of this object is seen by everybody who asks the same address object. -/
theorem C108_same_result_object (ops more : List (Op C A)) (r : RIx) (i : Ref) :
    ((rExecute hash prog r (run hash prog ops)).1 = .ok i →
      let s := run hash prog (ops ++ .rExecute r :: more)
      rGet r s = (.ok i, s) ∧ rExecute hash prog r s = (.ok i, s)) ∧
    ((rGet r (run hash prog ops)).1 = .ok i →
      let s := run hash prog (ops ++ .rGet r :: more)
      rGet r s = (.ok i, s) ∧ rExecute hash prog r s = (.ok i, s)) := by
  refine ⟨fun hx => ?_, fun hx => ?_⟩
  · cases he : rExecute hash prog r (run hash prog ops) with
    | mk x s1 =>
      rw [he] at hx
      change x = _ at hx
      subst hx
      have hst : step hash prog (run hash prog ops) (.rExecute r) = s1 := by
        show (rExecute hash prog r _).2 = s1
        rw [he]
      have hl : Later s1 (run hash prog (ops ++ .rExecute r :: more)) := by
        rw [run_append, List.foldl_cons, hst]; exact steps_later _ _
      exact result_stays hl (rExecute_gives he)
  · cases he : rGet r (run hash prog ops) with
    | mk x s1 =>
      rw [he] at hx
      change x = _ at hx
      subst hx
      have hst : step hash prog (run hash prog ops) (.rGet r) = s1 := by
        show (rGet r _).2 = s1
        rw [he]
      have hl : Later s1 (run hash prog (ops ++ .rGet r :: more)) := by
        rw [run_append, List.foldl_cons, hst]; exact steps_later _ _
      exact result_stays hl (rGet_gives he)

/-- The list that a function returned is changed by the program: the address object gives the changed list, other address
objects of the same result give the original. -/
theorem C108_changed_result_counterexample :
    let s := run Ex.h Ex.tame [.getAddress 0 [], .rExecute 0, .change 0 9, .rFromText (keyOf Ex.h 0 [])]
    Ex.got (rGet 0 s) = some 9 ∧ (s.ras[1]?).map (·.key) = some (keyOf Ex.h 0 []) ∧
    (∃ r, r < 4 ∧ (s.ras[r]?).map (·.key) = some (keyOf Ex.h 0 []) ∧ Ex.got (rGet r s) = some 5) := by decide +kernel

end Pyth.Mutable
