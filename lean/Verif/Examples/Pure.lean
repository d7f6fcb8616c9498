import Verif.Spec.PureHistory
/-!
# A concrete session, used to show that the hypotheses of the theorems are met

Addresses are trees that mirror the stored values, so different values have different addresses.
-/
namespace Pyth.Pure.Ex
open Pyth.World Pyth.Portal Pyth.Pure

mutual
/-- address texts -/
inductive T
  | user (u : Nat)
  | fn (f : Nat)
  | args (l : TL)
  | sig (f : Nat) (a b : T)
/-- lists of named address texts -/
inductive TL
  | nil
  | cons (k : String) (t : T) (l : TL)
end

mutual
def T.beq : T → T → Bool
  | .user u, .user v => u == v
  | .fn f, .fn g => f == g
  | .args l, .args m => l.beq m
  | .sig f a b, .sig g c d => f == g && (a.beq c && b.beq d)
  | _, _ => false
def TL.beq : TL → TL → Bool
  | .nil, .nil => true
  | .cons k t l, .cons k' t' l' => k == k' && (t.beq t' && l.beq l')
  | _, _ => false
end

mutual
theorem T.beq_iff : ∀ a b : T, a.beq b = true ↔ a = b := by
  intro a b
  cases a with
  | user u => cases b <;> simp [T.beq]
  | fn u => cases b <;> simp [T.beq]
  | args l =>
    cases b <;> simp [T.beq]
    exact TL.beq_iff l _
  | sig f x y =>
    cases b <;> simp [T.beq]
    rename_i g c d
    rw [T.beq_iff x c, T.beq_iff y d]
    intro _; rfl
theorem TL.beq_iff : ∀ a b : TL, a.beq b = true ↔ a = b := by
  intro a b
  cases a with
  | nil => cases b <;> simp [TL.beq]
  | cons k t l =>
    cases b <;> simp [TL.beq]
    rename_i k' t' l'
    rw [T.beq_iff t t', TL.beq_iff l l']
    intro _; rfl
end

instance : DecidableEq T := fun a b => decidable_of_iff _ (T.beq_iff a b)

def toTL : List (String × T) → TL
  | [] => .nil
  | (k, t) :: l => .cons k t (toTL l)

theorem toTL_inj : ∀ l m : List (String × T), toTL l = toTL m → l = m
  | [], [], _ => rfl
  | (k, t) :: l, (k', t') :: m, h => by
    simp only [toTL, TL.cons.injEq] at h
    rw [h.1, h.2.1, toTL_inj l m h.2.2]

/-- address of a value -/
def addrOf : Val Nat T → T
  | .user u => .user u
  | .fn f => .fn f
  | .args l => .args (toTL l)
  | .sig f a b => .sig f a b

theorem addrOf_inj : Function.Injective addrOf := by
  intro a b h
  cases a <;> cases b <;> simp [addrOf] at h ⊢ <;> first | exact h | exact toTL_inj _ _ h

/-- value of a plain argument -/
def argOf (x : String) (kw : Kw Nat) : Nat :=
  match kw.find? (fun a => a.1 == x) with
  | some (_, .raw u) => u
  | _ => 0

/-- A small program.  1: `x + 10*y`; 2: Fibonacci numbers, by recursive calls; 3: an autonomous
function used as guard, raises if `x` is 0; 4: a pure function with guard 3, prints and returns `x + 1`;
5: raises; 6: a pure guard, raises if `x` is 0; 7: `x + 2`, guarded by 6. -/
def prog : FnId → Fn Nat
  | 1 => ⟨true, [], fun kw => .ret (argOf "x" kw + 10 * argOf "y" kw)⟩
  | 2 => ⟨true, [], fun kw => match argOf "n" kw with
      | 0 => .ret 0
      | 1 => .ret 1
      | n + 2 => .call 2 [("n", n + 1)] fun a => .call 2 [("n", n)] fun b => .ret (a + b)⟩
  | 3 => ⟨false, [], fun kw => if argOf "x" kw = 0 then .raise 7 else .ret 1⟩
  | 4 => ⟨true, [3], fun kw => .print "go" (.ret (argOf "x" kw + 1))⟩
  | 5 => ⟨true, [], fun _ => .print "bad" (.raise 5)⟩
  | 6 => ⟨true, [], fun kw => if argOf "x" kw = 0 then .raise 7 else .ret 1⟩
  | 7 => ⟨true, [6], fun kw => .ret (argOf "x" kw + 2)⟩
  | 8 => ⟨true, [], fun _ => .draw fun q => if q < 1/2 then .ret 0 else .ret 1⟩
  | _ => ⟨true, [], fun _ => .ret 0⟩

theorem find_orderedInsert {γ : Type} (x : String) (a : String × γ) (l : List (String × γ)) :
    (l.orderedInsert (fun a b => a.1 ≤ b.1) a).find? (fun b => b.1 == x) = (a :: l).find? (fun b => b.1 == x) := by
  induction l with
  | nil => rfl
  | cons b l ih =>
    rw [List.orderedInsert_cons]
    split
    · rfl
    · rename_i hab
      by_cases hb : b.1 = x
      · have ha : ¬ a.1 = x := fun h => hab (le_of_eq (h.trans hb.symm))
        simp [hb, ha]
      · have e1 : (b.1 == x) = false := by simp [hb]
        rw [List.find?_cons_of_neg (by simp [hb]), ih]
        by_cases ha : a.1 = x
        · simp [ha]
        · rw [List.find?_cons_of_neg (by simp [ha]), List.find?_cons_of_neg (by simp [ha]), List.find?_cons_of_neg (by simp [hb])]

theorem find_sortKw {γ : Type} (x : String) (l : List (String × γ)) :
    (sortKw l).find? (fun b => b.1 == x) = l.find? (fun b => b.1 == x) := by
  unfold sortKw
  induction l with
  | nil => rfl
  | cons a l ih =>
    rw [List.insertionSort_cons, find_orderedInsert, List.find?_cons, ih, List.find?_cons]

theorem argOf_sort (x : String) (vals : List (String × Nat)) : argOf x (rawKw (sortKw vals)) = argOf x (rawKw vals) := by
  unfold argOf rawKw
  rw [List.find?_map, List.find?_map]
  have : ∀ l : List (String × Nat), List.find? ((fun a : String × Arg Nat => a.1 == x) ∘ fun y => (y.1, Arg.raw y.2)) l =
    List.find? (fun b => b.1 == x) l := fun l => rfl
  rw [this, this, find_sortKw]

/-- the program without its nondeterministic function -/
def detProg : FnId → Fn Nat := fun f => if f = 8 then prog 1 else prog f

theorem detProg_det : DetProg detProg where
  det f vals := by
    unfold detProg prog
    split
    · trivial
    · split <;> try trivial
      · simp only
        split <;> try trivial
        exact fun _ _ => trivial
      all_goals
        simp only
        split <;> trivial
  order f vals := by
    unfold detProg prog
    split
    · simp only [argOf_sort]
    · split <;> simp only [argOf_sort]

/-- the same with pure guards only -/
def guardedProg : FnId → Fn Nat := fun f => if f = 4 then detProg 7 else detProg f

theorem guardedProg_det : DetProg guardedProg where
  det f vals := by unfold guardedProg; split <;> exact detProg_det.det _ _
  order f vals := by unfold guardedProg; split <;> exact detProg_det.order _ _

theorem guardedProg_guards : PureGuards guardedProg := by
  intro f g hg
  unfold guardedProg detProg prog at hg
  split at hg
  · simp only [show (7:Nat) = 8 ↔ False by decide, if_false] at hg
    simp at hg; subst hg; rfl
  · split at hg
    · simp at hg
    · split at hg <;> simp at hg
      · rename_i h _; exact absurd rfl h
      · subst hg; rfl

/-- a fresh session with no stored data; consistency checks are configured by `c`, random numbers are
given by `d` -/
def start (c : Option Rat) (d : Nat → Rat) : PWorld Nat T where
  store := fun _ => { data := fun _ => none, pCheck := none }
  crashes := fun _ => []
  draws := d
  ext := {
    results := fun _ => { data := fun _ => none, pCheck := c }
    requests := fun _ _ => false
    attempts := fun _ _ => []
    outputs := fun _ _ => []
    resultRecs := fun _ _ => []
    crashRecs := fun _ _ => []
    frames := fun _ _ => []
    caps := []
    screen := []
    nextRun := 0
    raddrs := []
    pCfg := fun _ => c
    trace := [] }

theorem start_ok (K : Accept Nat) (c : Option Rat) (d : Nat → Rat) : PStart addrOf K (start c d) where
  base := ⟨rfl, rfl, rfl, fun _ _ _ h => by cases h⟩
  results _ _ _ h := by cases h
  requests _ _ h := by cases h
  check _ := rfl
  objects := rfl
  trace := rfl

/-- outcome of a call as a value or the kind of the exception -/
def out {α : Type} (r : Except Exc α × PWorld Nat T) : Except Kind α := r.1.mapError Exc.kind

example : out (exec addrOf prog 0 9 2 [("n", .raw 6)] (start none fun _ => 0)) = .ok 8 := by decide +kernel

end Pyth.Pure.Ex
