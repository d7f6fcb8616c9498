import Verif.Spec.SwarmKeep
import Verif.Proofs.SwarmParts
/-!
# Requests and results that stay
-/
namespace Pyth.Parts
open Pyth.Pure (Val FnId sortKw)

variable {U A P : Type} {N : P → A → Prop}

/-- no result disappears, and no request for a call in `N` disappears without a result -/
structure LeN (N : P → A → Prop) (s t : Shared U A P) : Prop where
  results : ∀ p a, (s.results p a).isSome = true → (t.results p a).isSome = true
  asked : ∀ p a, N p a → Asked s p a → Asked t p a

theorem LeN.refl (s : Shared U A P) : LeN N s s := ⟨fun _ _ x => x, fun _ _ _ x => x⟩

theorem LeN.trans {s t u : Shared U A P} (x : LeN N s t) (y : LeN N t u) : LeN N s u :=
  ⟨fun p a z => y.results p a (x.results p a z), fun p a n z => y.asked p a n (x.asked p a n z)⟩

variable [DecidableEq P] [DecidableEq A] {h : Val U A → A}

theorem leN_put (s : Shared U A P) (p : P) (a : A) (v : Val U A) : LeN N s (s.put p a v) :=
  ⟨fun _ _ x => x, fun _ _ _ x => x⟩

theorem setResult_isSome {s : Shared U A P} {p q : P} {a b r : A} (x : (s.results q b).isSome = true) :
    ((s.setResult p a r).results q b).isSome = true := by
  unfold Shared.setResult
  by_cases e : q = p
  · subst e
    by_cases e' : b = a
    · subst e'; simp
    · simpa [e'] using x
  · simpa [e] using x

theorem setResult_self (s : Shared U A P) (p : P) (a r : A) : ((s.setResult p a r).results p a).isSome = true := by
  simp [Shared.setResult]

theorem leN_setResult (s : Shared U A P) (p : P) (a r : A) : LeN N s (s.setResult p a r) :=
  ⟨fun _ _ x => setResult_isSome x, fun _ _ _ x => x.imp id setResult_isSome⟩

theorem setRequest_self (s : Shared U A P) (p : P) (a : A) (b : Bool) : (s.setRequest p a b).requests p a = b := by
  simp [Shared.setRequest]

theorem setRequest_other {s : Shared U A P} {p q : P} {a c : A} {b : Bool} (x : ¬ (q = p ∧ c = a)) :
    (s.setRequest p a b).requests q c = s.requests q c := by
  unfold Shared.setRequest
  by_cases e : q = p
  · subst e
    by_cases e' : c = a
    · exact absurd ⟨rfl, e'⟩ x
    · simp [e']
  · simp [e]

theorem leN_request (s : Shared U A P) (p : P) (a : A) : LeN N s (s.setRequest p a true) := by
  refine ⟨fun _ _ x => x, fun q c _ x => ?_⟩
  by_cases e : q = p ∧ c = a
  · obtain ⟨rfl, rfl⟩ := e
    exact .inl (setRequest_self ..)
  · exact x.imp (fun y => (setRequest_other e).trans y) id

theorem leN_drop {s : Shared U A P} {p : P} {a : A} (hr : N p a → (s.results p a).isSome = true) :
    LeN N s (s.setRequest p a false) := by
  refine ⟨fun _ _ x => x, fun q c n x => ?_⟩
  by_cases e : q = p ∧ c = a
  · obtain ⟨rfl, rfl⟩ := e
    exact .inr (hr n)
  · exact x.imp (fun y => (setRequest_other e).trans y) id

/-- program `x`, from `s` on, drops no request without a result, and answers what `Q` allows -/
def Safe (N : P → A → Prop) (Q : Reply U A P → Shared U A P → Prop) : Io U A P → Shared U A P → Prop
  | .done r, s => ∀ t, LeN N s t → Q r t
  | .put p a v k, s => ∀ t, LeN N s t → Safe N Q k (t.put p a v)
  | .load _ _ k, s => ∀ t, LeN N s t → ∀ r, Safe N Q (k r) t
  | .result p a k, s => ∀ t, LeN N s t → Safe N Q (k (t.results p a)) t
  | .setResult p a r k, s => ∀ t, LeN N s t → Safe N Q k (t.setResult p a r)
  | .request p a k, s => ∀ t, LeN N s t → Safe N Q k (t.setRequest p a true)
  | .drop p a k, s => ∀ t, LeN N s t → (t.results p a).isSome = true ∧ Safe N Q k (t.setRequest p a false)
  | .body _ _ _ k, s => ∀ t, LeN N s t → ∀ r, BodyReply r → Safe N Q (k r) t
  | .wait p _ a, s => (N p a → Asked s p a) ∧ (∀ t, Q .missing t) ∧ (∀ t, Q .clash t) ∧ ∀ v (t : Shared U A P), (t.results p a).isSome = true → Q (.got a v) t
  | .toss k, s => ∀ b, Safe N Q (k b) s

variable {Q : Reply U A P → Shared U A P → Prop}

theorem Safe.mono {s t : Shared U A P} (l : LeN N s t) {x : Io U A P} (o : Safe N Q x s) : Safe N Q x t := by
  induction x with
  | done r => exact fun u lu => o u (l.trans lu)
  | put p a v k _ => exact fun u hu => o u (l.trans hu)
  | load p a k _ => exact fun u hu => o u (l.trans hu)
  | result p a k _ => exact fun u hu => o u (l.trans hu)
  | setResult p a r k _ => exact fun u hu => o u (l.trans hu)
  | request p a k _ => exact fun u hu => o u (l.trans hu)
  | drop p a k _ => exact fun u hu => o u (l.trans hu)
  | body a f kw k _ => exact fun u hu => o u (l.trans hu)
  | wait p os a => exact ⟨fun n => l.asked p a n (o.1 n), o.2⟩
  | toss k ih => exact fun b => ih b (o b)

/-- continuation `k` is fine from `s` on for all arguments that satisfy `R` -/
def KSafe (N : P → A → Prop) (Q : Reply U A P → Shared U A P → Prop) (s : Shared U A P) {γ : Type} (k : γ → Io U A P)
    (R : γ → Shared U A P → Prop) : Prop := ∀ t, LeN N s t → ∀ r, R r t → Safe N Q (k r) t

theorem KSafe.mono {s t : Shared U A P} (l : LeN N s t) {γ : Type} {k : γ → Io U A P} {R : γ → Shared U A P → Prop}
    (x : KSafe N Q s k R) : KSafe N Q t k R := fun u lu => x u (l.trans lu)

theorem safe_put {s : Shared U A P} {p : P} {a : A} {v : Val U A} {k : Io U A P}
    (hk : ∀ t, LeN N s t → Safe N Q k t) : Safe N Q (.put p a v k) s :=
  fun _ l => hk _ (l.trans (leN_put ..))

theorem valueGetOthers_safe {p : P} {a : A} {k : Option (Val U A) → Io U A P} (os : List P) :
    ∀ {s : Shared U A P}, KSafe N Q s k (fun _ _ => True) → Safe N Q (valueGetOthers p a k os) s := by
  induction os with
  | nil => exact fun {s} hk => hk s (.refl s) _ trivial
  | cons q os ih =>
    intro s hk t l r
    cases r with
    | some v => exact safe_put fun u lu => hk u (l.trans lu) _ trivial
    | none => exact ih (hk.mono l)

theorem valueGet_safe {p : P} {os : List P} {a : A} {k : Option (Val U A) → Io U A P} {s : Shared U A P}
    (hk : KSafe N Q s k (fun _ _ => True)) : Safe N Q (valueGet p os a k) s := by
  intro t l r
  cases r with
  | some v => exact hk t l _ trivial
  | none => exact valueGetOthers_safe os (hk.mono l)

theorem packOne_safe {p : P} {os : List P} {k : Option A → Io U A P} {s : Shared U A P} (x : Arg U A P)
    (hk : KSafe N Q s k fun r _ => ∀ u, x = .raw u → r = some (h (.user u))) : Safe N Q (packOne h p os k x) s := by
  cases x with
  | raw u => exact safe_put fun t l => hk t l _ fun v e => by cases e; rfl
  | addr home a =>
    have no : ∀ (r : Option A) (u : U), (Arg.addr home a : Arg U A P) = .raw u → r = some (h (.user u)) :=
      fun _ _ e => (nomatch e)
    change Safe N Q (if home = p then _ else _) s
    by_cases e : home = p
    · rw [if_pos e]; exact hk s (.refl s) _ (no _)
    · rw [if_neg e]
      intro t l r
      cases r with
      | some v => exact hk t l _ (no _)
      | none =>
        refine valueGet_safe fun u lu r _ => ?_
        cases r with
        | none => exact hk u (l.trans lu) _ (no _)
        | some v => exact safe_put fun w lw => hk w (l.trans (lu.trans lw)) _ (no _)

theorem packAll_safe {p : P} {os : List P} (kw : List (String × Arg U A P)) :
    ∀ {k : Option (List (String × A)) → Io U A P} {s : Shared U A P},
    (KSafe N Q s k fun r _ => ∀ us, kw = raws us → r = some (us.map fun x => (x.1, h (.user x.2)))) →
    Safe N Q (packAll h p os kw k) s := by
  induction kw with
  | nil =>
    intro k s hk
    refine hk s (.refl s) _ fun us e => ?_
    cases us with
    | nil => rfl
    | cons x us => cases e
  | cons y kw ih =>
    obtain ⟨n, x⟩ := y
    intro k s hk
    refine packOne_safe x fun t l r hr => ?_
    cases r with
    | none =>
      refine hk t l _ fun us e => ?_
      cases us with
      | nil => cases e
      | cons y us =>
        injection e with e1 e2
        injection e1 with e1 e3
        cases hr y.2 e3
    | some a =>
      refine ih fun u lu r' hr' => ?_
      have key : ∀ us, ((n, x) :: kw : List (String × Arg U A P)) = raws us → ∃ y us', us = y :: us' ∧ n = y.1 ∧
          a = h (.user y.2) ∧ r' = some (us'.map fun x => (x.1, h (.user x.2))) := by
        intro us e
        cases us with
        | nil => cases e
        | cons y us =>
          injection e with e1 e2
          injection e1 with e1 e3
          have := hr y.2 e3
          injection this with this
          exact ⟨y, us, rfl, e1, this, hr' us e2⟩
      cases r' with
      | none =>
        refine hk u (l.trans lu) _ fun us e => ?_
        obtain ⟨_, _, _, _, _, e'⟩ := key us e
        cases e'
      | some m =>
        refine hk u (l.trans lu) _ fun us e => ?_
        obtain ⟨y, us', rfl, e1, e2, e3⟩ := key us e
        injection e3 with e3
        rw [e1, e2, e3]; rfl

theorem callOf_vals (f : FnId) (us : List (String × U)) :
    callOf h f (vals us) = callAddr h f ((sortKw us).map fun x => (x.1, h (.user x.2))) := by
  simp only [callOf, vals, List.map_map]
  rfl

theorem mkAddr_safe {p : P} {os : List P} {f : FnId} {kw : List (String × Arg U A P)} {k : Option A → Io U A P}
    {s : Shared U A P}
    (hk : KSafe N Q s k fun r _ => (∀ m, kw = asArgs p m → SortedNames m → r = some (callAddr h f m)) ∧
      ∀ us, kw = raws us → r = some (callOf h f (vals us))) :
    Safe N Q (mkAddr h p os f kw k) s := by
  refine safe_put fun t l => ?_
  by_cases e : ∃ m, kw = asArgs p m ∧ SortedNames m
  · obtain ⟨m, rfl, so⟩ := e
    have e : sortKw (asArgs p m : List (String × Arg U A P)) = asArgs p m :=
      Pure.sortKw_of_sorted (sorted_of_names (by simp [asArgs]) so)
    rw [e, packAll_asArgs]
    refine safe_put fun u lu => safe_put fun v lv => hk v (l.trans (lu.trans lv)) _ ⟨fun m' e' _ => ?_, fun us e' => ?_⟩
    · have : m = m' := by
        have := congrArg (List.map fun x : String × Arg U A P => match x with
          | (n, .addr _ a) => (n, some a)
          | (n, .raw _) => (n, none)) e'
        simp only [asArgs, List.map_map] at this
        refine List.map_injective_iff.2 ?_ this
        intro x y hxy
        simp only [Function.comp_apply, Prod.mk.injEq, Option.some.injEq] at hxy
        exact Prod.ext hxy.1 hxy.2
      rw [this]
    · cases us with
      | nil =>
        cases m with
        | nil => rfl
        | cons x m => cases e'
      | cons y us =>
        cases m with
        | nil => cases e'
        | cons x m =>
          injection e' with e1 e2
          injection e1 with _ e1
          cases e1
  · refine packAll_safe _ fun u lu r hr => ?_
    have key : ∀ us, kw = raws us → r = some ((sortKw us).map fun x => (x.1, h (.user x.2))) := by
      rintro us rfl
      exact hr _ (sortKw_raws us)
    cases r with
    | none =>
      refine hk u (l.trans lu) _ ⟨fun m e1 e2 => absurd ⟨m, e1, e2⟩ e, fun us e' => ?_⟩
      cases key us e'
    | some m =>
      refine safe_put fun v lv => safe_put fun w lw => hk w (l.trans (lu.trans (lv.trans lw))) _
        ⟨fun m e1 e2 => absurd ⟨m, e1, e2⟩ e, fun us e' => ?_⟩
      have := key us e'
      injection this with this
      rw [this, callOf_vals]

theorem getAddress_safe {p : P} {os : List P} {f : FnId} {kw : List (String × Arg U A P)}
    {k : Option (A × List (String × A)) → Io U A P} {s : Shared U A P}
    (hk : KSafe N Q s k fun r _ => ∀ us, kw = raws us → ∃ l, r = some (callOf h f (vals us), l)) :
    Safe N Q (getAddress h p os f kw k) s := by
  refine packAll_safe _ fun u lu r hr => ?_
  have key : ∀ us, kw = raws us → r = some ((sortKw us).map fun x => (x.1, h (.user x.2))) := by
    rintro us rfl
    exact hr _ (sortKw_raws us)
  cases r with
  | none =>
    refine hk u lu _ fun us e' => ?_
    cases key us e'
  | some m =>
    refine mkAddr_safe fun v lv r hr' => ?_
    have key2 : ∀ us, kw = raws us → r = some (callOf h f (vals us)) := by
      intro us e
      have := key us e
      injection this with this
      have so : SortedNames m := by
        subst this
        exact sorted_of_names (kw := sortKw us) (by simp) (Pure.sortKw_sorted us)
      rw [hr'.1 m rfl so, this, callOf_vals]
    cases r with
    | none => exact hk v (lu.trans lv) _ fun us e => (by cases key2 us e)
    | some a => exact hk v (lu.trans lv) _ fun us e => ⟨m, by have := key2 us e; injection this with this; rw [this]⟩

theorem unpackAll_safe {p : P} {os : List P} (l : List (String × A)) :
    ∀ {k : Option (List (String × Val U A)) → Io U A P} {s : Shared U A P}, KSafe N Q s k (fun _ _ => True) →
    Safe N Q (unpackAll p os l k) s := by
  induction l with
  | nil => exact fun {k s} hk => hk s (.refl s) _ trivial
  | cons y l ih =>
    obtain ⟨n, a⟩ := y
    intro k s hk
    refine valueGet_safe fun t lt r _ => ?_
    cases r with
    | none => exact hk t lt _ trivial
    | some v =>
      refine ih fun u lu r _ => ?_
      cases r with
      | none => exact hk u (lt.trans lu) _ trivial
      | some m => exact hk u (lt.trans lu) _ trivial

theorem getFunction_safe {p : P} {os : List P} {a : A} {k : Option FnId → Io U A P} {s : Shared U A P}
    (hk : KSafe N Q s k (fun _ _ => True)) : Safe N Q (getFunction p os a k) s := by
  refine valueGet_safe fun t lt r _ => ?_
  match r with
  | some (.sig _ fa _) =>
    refine valueGet_safe fun u lu r _ => ?_
    match r with
    | some (.fn f) => exact hk u (lt.trans lu) _ trivial
    | none => exact hk u (lt.trans lu) _ trivial
    | some (.user _) => exact hk u (lt.trans lu) _ trivial
    | some (.args _) => exact hk u (lt.trans lu) _ trivial
    | some (.sig _ _ _) => exact hk u (lt.trans lu) _ trivial
  | none => exact hk t lt _ trivial
  | some (.fn _) => exact hk t lt _ trivial
  | some (.user _) => exact hk t lt _ trivial
  | some (.args _) => exact hk t lt _ trivial

theorem getArguments_safe {p : P} {os : List P} {a : A} {k : Option (List (String × A)) → Io U A P} {s : Shared U A P}
    (hk : KSafe N Q s k (fun _ _ => True)) : Safe N Q (getArguments p os a k) s := by
  refine valueGet_safe fun t lt r _ => ?_
  match r with
  | some (.sig _ _ aa) =>
    refine valueGet_safe fun u lu r _ => ?_
    match r with
    | some (.args l) => exact hk u (lt.trans lu) _ trivial
    | none => exact hk u (lt.trans lu) _ trivial
    | some (.user _) => exact hk u (lt.trans lu) _ trivial
    | some (.fn _) => exact hk u (lt.trans lu) _ trivial
    | some (.sig _ _ _) => exact hk u (lt.trans lu) _ trivial
  | none => exact hk t lt _ trivial
  | some (.fn _) => exact hk t lt _ trivial
  | some (.user _) => exact hk t lt _ trivial
  | some (.args _) => exact hk t lt _ trivial

theorem getKwargs_safe {p : P} {os : List P} {a : A} {k : Option (List (String × Val U A)) → Io U A P} {s : Shared U A P}
    (hk : KSafe N Q s k (fun _ _ => True)) : Safe N Q (getKwargs p os a k) s := by
  refine getArguments_safe fun t lt r _ => ?_
  cases r with
  | none => exact hk t lt _ trivial
  | some l => exact unpackAll_safe l (hk.mono lt)

theorem compare_safe {p : P} {a new : A} {k : Io U A P} {check : Bool} {s : Shared U A P} (hs : (s.results p a).isSome = true)
    (hx : ∀ t, Q .clash t) (hk : Safe N Q k s) : Safe N Q (compare p a check new k) s := by
  unfold compare
  cases check with
  | false => exact hk
  | true =>
    intro t lt
    have ht := lt.results p a hs
    cases e : t.results p a with
    | none => rw [e] at ht; cases ht
    | some old =>
      show Safe N Q (if old = new then k else .done .clash) t
      split
      · exact hk.mono lt
      · exact fun t _ => hx t

theorem readyOthers_safe {p : P} {all : List P} {a : A} {k : Option Bool → Io U A P} (hx : ∀ t, Q .clash t) (os : List P) :
    ∀ {s : Shared U A P}, (KSafe N Q s k fun r t => r = some true → (t.results p a).isSome = true) →
    Safe N Q (readyOthers h p all a k os) s := by
  induction os with
  | nil => exact fun {s} hk => hk s (.refl s) _ fun e => (nomatch e)
  | cons q os ih =>
    intro s hk t lt
    have rest : ∀ w, LeN N t w → (w.results p a).isSome = true → Safe N Q (readyOthers.rest p all a k) w := by
      intro w lw hw
      refine getFunction_safe fun x lx r _ => ?_
      cases r with
      | none => exact hk x (lt.trans (lw.trans lx)) _ fun e => (nomatch e)
      | some f =>
        refine getKwargs_safe fun y ly r _ => ?_
        cases r with
        | none => exact hk y (lt.trans (lw.trans (lx.trans ly))) _ fun e => (nomatch e)
        | some m => exact hk y (lt.trans (lw.trans (lx.trans ly))) _ fun _ => (lx.trans ly).results p a hw
    cases e : t.results q a with
    | none => exact ih (hk.mono lt)
    | some r =>
      intro u lu r
      cases r with
      | none => exact hk u (lt.trans lu) _ fun e => (nomatch e)
      | some v =>
        refine safe_put fun w lw => ?_
        intro x lx
        cases e2 : x.results p a with
        | some r2 => exact fun _ => compare_safe (by rw [e2]; rfl) hx (rest x (lu.trans (lw.trans lx)) (by rw [e2]; rfl))
        | none =>
          intro y ly
          exact rest _ (lu.trans (lw.trans (lx.trans (ly.trans (leN_setResult ..))))) (setResult_self ..)

theorem ready_safe {p : P} {os : List P} {a : A} {k : Option Bool → Io U A P} {s : Shared U A P} (hx : ∀ t, Q .clash t)
    (hk : KSafe N Q s k fun r t => r = some true → (t.results p a).isSome = true) : Safe N Q (ready h p os a k) s := by
  intro t lt
  cases e : t.results p a with
  | some r => exact hk t lt _ fun _ => by rw [e]; rfl
  | none => exact readyOthers_safe hx os (hk.mono lt)

theorem requestExec_safe {p : P} {os : List P} {a : A} {k : Bool → Io U A P} {s : Shared U A P} (hx : ∀ t, Q .clash t)
    (hk : KSafe N Q s k fun r t => r = true → Asked t p a) : Safe N Q (requestExec h p os a k) s := by
  refine ready_safe hx fun t lt r hr => ?_
  match r with
  | none => exact hk t lt _ fun e => (nomatch e)
  | some true =>
    intro u lu
    have := lu.results p a (hr rfl)
    exact ⟨this, hk _ (lt.trans (lu.trans (leN_drop fun _ => this))) _ fun _ => .inr this⟩
  | some false =>
    intro u lu
    exact hk _ (lt.trans (lu.trans (leN_request ..))) _ fun _ => .inl (setRequest_self ..)

theorem readResult_safe {p : P} {a : A} {k : Option (Val U A) → Io U A P} {s : Shared U A P}
    (hk : KSafe N Q s k fun _ _ => True) : Safe N Q (readResult p a k) s := by
  intro t lt
  cases e : t.results p a with
  | none => exact hk t lt _ trivial
  | some r => exact fun u lu _ => hk u (lt.trans lu) _ trivial

theorem register_safe {p : P} {a : A} {v : Val U A} {sure : Bool} {s : Shared U A P} (hx : ∀ t, Q .clash t)
    (hq : ∀ v (t : Shared U A P), (t.results p a).isSome = true → Q (.got a v) t) :
    Safe N Q (register h p a v sure) s := by
  refine safe_put fun y ly => ?_
  intro z lz
  cases e : z.results p a with
  | some old =>
    have hk : Safe N Q (.drop p a (.done (.got a v))) z := by
      intro z2 lz2
      have h2 : (z2.results p a).isSome = true := lz2.results p a (by rw [e]; rfl)
      exact ⟨h2, fun t lt => hq v t (lt.results p a h2)⟩
    cases sure with
    | true => exact compare_safe (check := true) (new := h v) (by rw [e]; rfl) hx hk
    | false => exact fun _ => compare_safe (by rw [e]; rfl) hx hk
  | none =>
    intro z1 lz1 z2 lz2
    have h2 : (z2.results p a).isSome = true := lz2.results p a (setResult_self ..)
    exact ⟨h2, fun t lt => hq v t (lt.results p a h2)⟩

theorem runAt_safe {p : P} {os : List P} {f : FnId} {a : A} {l : List (String × A)} {sure : Bool} {s : Shared U A P}
    (hm : ∀ t, Q .missing t) (hx : ∀ t, Q .clash t) (hr : ∀ t, Q .raised t)
    (hq : ∀ v (t : Shared U A P), (t.results p a).isSome = true → Q (.got a v) t) :
    Safe N Q (runAt h p os f a l sure) s := by
  refine requestExec_safe hx fun u lu r _ => ?_
  match r with
  | false => exact fun u _ => hm u
  | true =>
    refine unpackAll_safe l fun v lv r _ => ?_
    cases r with
    | none => exact fun u _ => hm u
    | some vals =>
      intro w lw r hr'
      rcases hr' with ⟨x, rfl⟩ | rfl
      · exact register_safe hx hq
      · exact fun t _ => hr t

theorem executeAt_safe {p : P} {os : List P} {f : FnId} {a : A} {l : List (String × A)} {s : Shared U A P}
    (hm : ∀ t, Q .missing t) (hx : ∀ t, Q .clash t) (hr : ∀ t, Q .raised t)
    (hq : ∀ v (t : Shared U A P), (t.results p a).isSome = true → Q (.got a v) t) :
    Safe N Q (executeAt h p os f a l) s := by
  refine ready_safe hx fun t lt r g => ?_
  match r with
  | none => exact fun u _ => hm u
  | some true =>
    intro b
    cases b with
    | false =>
      refine readResult_safe fun u lu r _ => ?_
      cases r with
      | none => exact fun u _ => hm u
      | some v => exact fun w lw => hq v w ((lu.trans lw).results p a (g rfl))
    | true => exact runAt_safe hm hx hr hq
  | some false => exact runAt_safe hm hx hr hq

theorem execute_safe {p : P} {os : List P} {f : FnId} {kw : List (String × Arg U A P)} {s : Shared U A P}
    (hm : ∀ t, Q .missing t) (hx : ∀ t, Q .clash t) (hr : ∀ t, Q .raised t)
    (hq : ∀ a v (t : Shared U A P), (t.results p a).isSome = true → (∀ us, kw = raws us → a = callOf h f (vals us)) →
      Q (.got a v) t) : Safe N Q (execute h p os f kw) s := by
  refine getAddress_safe fun t lt r hr' => ?_
  match r with
  | none => exact fun u _ => hm u
  | some (a, l) =>
    refine executeAt_safe hm hx hr fun v t ht => hq a v t ht fun us e => ?_
    obtain ⟨l', e'⟩ := hr' us e
    injection e' with e'
    injection e'

theorem executeAddr_safe {p : P} {os : List P} {a : A} {s : Shared U A P} (hm : ∀ t, Q .missing t) (hx : ∀ t, Q .clash t) (hr : ∀ t, Q .raised t)
    (hq : ∀ b v (t : Shared U A P), (t.results p b).isSome = true → Q (.got b v) t) : Safe N Q (executeAddr h p os a) s := by
  refine getFunction_safe fun t lt r _ => ?_
  cases r with
  | none => exact fun u _ => hm u
  | some f =>
    refine getArguments_safe fun u lu r _ => ?_
    cases r with
    | none => exact fun u _ => hm u
    | some l => exact execute_safe hm hx hr fun b v t ht _ => hq b v t ht

theorem work_safe {p : P} {os : List P} {a : A} {s : Shared U A P} : Safe N (fun _ _ => True) (work h p os a) s := by
  refine ready_safe (fun _ => trivial) fun t lt r _ => ?_
  match r with
  | none => exact fun _ _ => trivial
  | some true => exact fun _ _ => trivial
  | some false =>
    refine getFunction_safe fun t lt r _ => ?_
    cases r with
    | none => exact fun _ _ => trivial
    | some f =>
      refine getKwargs_safe fun t lt r _ => ?_
      cases r with
      | none => exact fun _ _ => trivial
      | some l => exact executeAddr_safe (fun _ => trivial) (fun _ => trivial) (fun _ => trivial) fun _ _ _ _ => trivial

theorem round_safe {p : P} {os : List P} {a : A} {again : Io U A P} (hm : ∀ t, Q .missing t) (hx : ∀ t, Q .clash t)
    (hq : ∀ v (t : Shared U A P), (t.results p a).isSome = true → Q (.got a v) t) {s : Shared U A P}
    (hg : ∀ t, LeN N s t → Safe N Q again t) : Safe N Q (round h p os a again) s := by
  refine ready_safe hx fun t lt r g => ?_
  match r with
  | none => exact fun u _ => hm u
  | some true =>
    refine readResult_safe fun u lu r _ => ?_
    cases r with
    | none => exact fun u _ => hm u
    | some v =>
      intro w lw
      have := (lu.trans lw).results p a (g rfl)
      exact ⟨this, fun x lx => hq v x (lx.results p a this)⟩
  | some false => exact hg t lt

theorem poll_safe {p : P} {os : List P} {a : A} (hm : ∀ t, Q .missing t) (hx : ∀ t, Q .clash t) (ht : ∀ t, Q .timeout t)
    (hq : ∀ v (t : Shared U A P), (t.results p a).isSome = true → Q (.got a v) t) (n : Nat) :
    ∀ {s : Shared U A P}, Safe N Q (poll h p os a n) s := by
  induction n with
  | zero => exact fun t _ => ht t
  | succ n ih => exact round_safe hm hx hq fun t _ => ih

theorem pollLoop_safe {p : P} {os : List P} {a : A} (hm : ∀ t, Q .missing t) (hx : ∀ t, Q .clash t) (ht : ∀ t, Q .timeout t)
    (hq : ∀ v (t : Shared U A P), (t.results p a).isSome = true → Q (.got a v) t) (rounds : Option Nat) {s : Shared U A P}
    (ha : N p a → Asked s p a) : Safe N Q (pollLoop h p os a rounds) s := by
  cases rounds with
  | none => exact ⟨ha, hm, hx, hq⟩
  | some n => exact poll_safe hm hx ht hq n

theorem mkAddrs_safe {p : P} {os : List P} {f : FnId} (kws : List (List (String × Arg U A P))) :
    ∀ {k : Option (List A) → Io U A P} {s : Shared U A P},
    (KSafe N Q s k fun r _ => ∀ uss : List (List (String × U)), kws = uss.map raws → r = some (uss.map fun us => callOf h f (vals us))) →
    Safe N Q (mkAddrs h p os f kws k) s := by
  induction kws with
  | nil =>
    intro k s hk
    refine hk s (.refl s) _ fun uss e => ?_
    cases uss with
    | nil => rfl
    | cons x us => cases e
  | cons kw kws ih =>
    intro k s hk
    refine mkAddr_safe fun t lt r hr => ?_
    cases r with
    | none =>
      refine hk t lt _ fun uss e => ?_
      cases uss with
      | nil => cases e
      | cons us uss => injection e with e1 e2; cases hr.2 us e1
    | some a =>
      refine ih fun u lu r' hr' => ?_
      cases r' with
      | none =>
        refine hk u (lt.trans lu) _ fun uss e => ?_
        cases uss with
        | nil => cases e
        | cons us uss => injection e with e1 e2; cases hr' uss e2
      | some m =>
        refine hk u (lt.trans lu) _ fun uss e => ?_
        cases uss with
        | nil => cases e
        | cons us uss =>
          injection e with e1 e2
          have h1 := hr.2 us e1
          have h2 := hr' uss e2
          injection h1 with h1
          injection h2 with h2
          rw [h1, h2]; rfl

theorem requestAll_safe {p : P} {os : List P} (hx : ∀ t, Q .clash t) (l : List A) : ∀ {k : Bool → Io U A P} {s : Shared U A P},
    (KSafe N Q s k fun r t => r = true → ∀ a ∈ l, N p a → Asked t p a) → Safe N Q (requestAll h p os k l) s := by
  induction l with
  | nil => exact fun {k s} hk => hk s (.refl s) _ fun _ a ha => (nomatch ha)
  | cons a l ih =>
    intro k s hk
    refine requestExec_safe hx fun t lt r g => ?_
    cases r with
    | false => exact hk t lt _ fun e => (nomatch e)
    | true =>
      refine ih fun u lu r g' => ?_
      refine hk u (lt.trans lu) _ fun e b hb n => ?_
      rcases List.mem_cons.1 hb with rfl | hb
      · exact lu.asked p b n (g rfl)
      · exact g' e b hb n

/-- what is known when operation `c` ends with a reply -/
def After (h : Val U A → A) (N : P → A → Prop) : Cmd U A P → Reply U A P → Shared U A P → Prop
  | .swarm p _ f kw, r, t => ∀ q a, r = .call q a → q = p ∧ (∀ us, kw = raws us → a = callOf h f (vals us)) ∧
      (N p a → Asked t p a)
  | .swarmList p _ f kws _, r, t => ∀ q l, r = .calls q l → q = p ∧
      (∀ uss : List (List (String × U)), kws = uss.map raws → l = uss.map fun us => callOf h f (vals us)) ∧ ∀ a ∈ l, N p a → Asked t p a
  | .requestAddr p _ a, r, t => r = .unit → N p a → Asked t p a
  | .execute p _ f kw, r, t => ∀ a v, r = .got a v → (∀ us, kw = raws us → a = callOf h f (vals us)) ∧
      (t.results p a).isSome = true
  | .executeAddr p _ _, r, t => ∀ b v, r = .got b v → (t.results p b).isSome = true
  | .getResult p _ a _, r, t => ∀ b v, r = .got b v → b = a ∧ (t.results p a).isSome = true
  | .isReady p _ a, r, t => r = .flag true → (t.results p a).isSome = true
  | _, _, _ => True

theorem prog_safe (c : Cmd U A P) (hd : ∀ p a, c ≠ .dropAddr p a)
    (hp : ∀ p os f kws sh, c = .swarmList p os f kws sh → ∀ l, (sh l).Perm l) {s : Shared U A P} :
    Safe N (After h N c) (prog h c) s := by
  have hx : ∀ t, After h N c .clash t := by
    intro t
    cases c <;> first | exact trivial | exact fun _ _ e => (nomatch e) | exact fun e => (nomatch e)
  cases c with
  | store p v => exact safe_put fun t _ _ _ => trivial
  | fetch p os a =>
    unfold prog
    refine valueGet_safe fun t _ r _ => ?_
    cases r <;> exact fun _ _ => trivial
  | getAddress p os f kw =>
    unfold prog
    refine getAddress_safe fun t _ r _ => ?_
    match r with
    | none => exact fun _ _ => trivial
    | some (a, l) => exact fun _ _ => trivial
  | swarm p os f kw =>
    unfold prog
    refine getAddress_safe fun t lt r hr => ?_
    match r with
    | none => exact fun _ _ _ _ e => (nomatch e)
    | some (a, l) =>
      refine requestExec_safe hx fun u lu r g => ?_
      cases r with
      | false => exact fun _ _ _ _ e => (nomatch e)
      | true =>
        intro w lw q b e
        cases e
        refine ⟨rfl, fun us e => ?_, fun n => lw.asked p a n (g rfl)⟩
        obtain ⟨l', e'⟩ := hr us e
        injection e' with e'
        injection e'
  | swarmList p os f kws sh =>
    unfold prog
    refine mkAddrs_safe kws fun t lt r hr => ?_
    cases r with
    | none => exact fun _ _ _ _ e => (nomatch e)
    | some l =>
      refine requestAll_safe hx _ fun u lu r g => ?_
      cases r with
      | false => exact fun _ _ _ _ e => (nomatch e)
      | true =>
        intro w lw q b e
        cases e
        refine ⟨rfl, fun uss e => ?_, fun a ha n => lw.asked p a n (g rfl a ((hp _ _ _ _ _ rfl l).mem_iff.2 ha) n)⟩
        have := hr uss e
        injection this
  | execute p os f kw =>
    refine execute_safe (fun _ _ _ e => (nomatch e)) hx (fun _ _ _ e => (nomatch e)) fun a v t ht hu b w e => ?_
    cases e
    exact ⟨hu, ht⟩
  | executeAddr p os a =>
    refine executeAddr_safe (fun _ _ _ e => (nomatch e)) hx (fun _ _ _ e => (nomatch e)) fun b v t ht c w e => ?_
    cases e
    exact ht
  | requestAddr p os a =>
    unfold prog
    refine requestExec_safe hx fun u lu r g => ?_
    cases r with
    | false => exact fun _ _ e => (nomatch e)
    | true => exact fun w lw _ n => lw.asked p a n (g rfl)
  | dropAddr p a => exact absurd rfl (hd p a)
  | isReady p os a =>
    unfold prog
    refine ready_safe hx fun t lt r g => ?_
    cases r with
    | none => exact fun _ _ e => (nomatch e)
    | some b => exact fun u lu e => lu.results p a (g (by cases e; rfl))
  | getResult p os a n =>
    unfold prog
    refine ready_safe hx fun t lt r g => ?_
    match r with
    | none => exact fun _ _ _ _ e => (nomatch e)
    | some true =>
      refine readResult_safe fun u lu r _ => ?_
      cases r with
      | none => exact fun _ _ _ _ e => (nomatch e)
      | some v => exact fun w lw b x e => by cases e; exact ⟨rfl, (lu.trans lw).results p a (g rfl)⟩
    | some false =>
      refine requestExec_safe hx fun u lu r g => ?_
      cases r with
      | false => exact fun _ _ _ _ e => (nomatch e)
      | true =>
        exact pollLoop_safe (fun _ _ _ e => (nomatch e)) hx (fun _ _ _ e => (nomatch e))
          (fun v t ht b x e => by cases e; exact ⟨rfl, ht⟩) n (fun _ => g rfl)
  | lookAt p os a =>
    unfold prog
    refine getFunction_safe fun t lt r _ => ?_
    cases r with
    | none => exact fun _ _ => trivial
    | some f =>
      refine getKwargs_safe fun t lt r _ => ?_
      cases r with
      | none => exact fun _ _ => trivial
      | some l => exact fun _ _ => trivial

/-! ### processes -/

/-- what the activity on top of a stack may answer -/
def topQ (h : Val U A → A) (N : P → A → Prop) : List (Frame U A P) → Reply U A P → Shared U A P → Prop
  | .inCode c _ :: _ => After h N c
  | _ => fun _ _ => True

/-- the operations that wait will be fine -/
def StackSafe (h : Val U A → A) (N : P → A → Prop) (s : Shared U A P) : List (Frame U A P) → Prop
  | [] => True
  | .inOp k :: st => (∀ t, LeN N s t → ∀ r, BodyReply r → Safe N (topQ h N st) (k r) t) ∧ StackSafe h N s st
  | .inCode _ _ :: st => StackSafe h N s st

/-- this is the operation `addr.drop_execution_request()` -/
def Dropping (N : P → A → Prop) (st : List (Frame U A P)) (y : Io U A P) : Prop :=
  ∃ p a next st', y = .drop p a (.done .unit) ∧ st = .inCode (.dropAddr p a) next :: st' ∧ ¬ N p a

/-- a process does no harm, or is asked to drop a request -/
def ProcSafe (h : Val U A → A) (N : P → A → Prop) (s : Shared U A P) (x : Proc U A P) : Prop :=
  (∀ y, x.mode = .io y → Safe N (topQ h N x.stack) y s ∨ Dropping N x.stack y) ∧ StackSafe h N s x.stack

theorem StackSafe.mono {s t : Shared U A P} (l : LeN N s t) {st : List (Frame U A P)} (x : StackSafe h N s st) :
    StackSafe h N t st := by
  induction st with
  | nil => trivial
  | cons f st ih =>
    cases f with
    | inOp k => exact ⟨fun u lu => x.1 u (l.trans lu), ih x.2⟩
    | inCode c n => exact ih x

theorem ProcSafe.mono {s t : Shared U A P} (l : LeN N s t) {x : Proc U A P} (o : ProcSafe h N s x) : ProcSafe h N t x :=
  ⟨fun y e => (o.1 y e).imp (fun z => z.mono l) id, o.2.mono l⟩

variable {code : FnId → List (String × Val U A) → Code U A P} {T : Prop} {knows : P → List P → Prop}

/-- one step -/
theorem step_safe {i : Nat} {s t : State U A P} (o : ∀ j, ProcSafe h N s.sh (s.procs j)) (x : Step h code T knows i s t)
    (calm : (∀ p a next, N p a → (s.procs i).mode ≠ .code (.op (.dropAddr p a) next)) ∨ t = s.setProc i {}) :
    LeN N s.sh t.sh ∧ ∀ j, ProcSafe h N t.sh (t.procs j) := by
  have idle : ∀ sh : Shared U A P, ProcSafe h N sh ({} : Proc U A P) := fun sh => ⟨fun y e => (nomatch e), trivial⟩
  have upd : ∀ {sh : Shared U A P} {y : Proc U A P}, LeN N s.sh sh → ProcSafe h N sh y →
      ∀ j, ProcSafe h N sh (Function.update s.procs i y j) := by
    intro sh y l hy j
    by_cases e : j = i
    · subst e; rw [Function.update_self]; exact hy
    · rw [Function.update_of_ne e]; exact (o j).mono l
  cases x with
  | crash => exact ⟨.refl _, upd (.refl _) (idle _)⟩
  | act _ x =>
    have oi := o i
    have safe : ∀ {y : Io U A P}, (s.procs i).mode = .io y → (∀ p a k, y ≠ .drop p a k) →
        Safe N (topQ h N (s.procs i).stack) y s.sh := by
      intro y e no
      rcases oi.1 y e with z | ⟨_, _, _, _, e, _, _⟩
      · exact z
      · exact absurd e (no _ _ _)
    cases x with
    | script c hm => exact ⟨.refl _, upd (.refl _) ⟨fun y e => (nomatch e), trivial⟩⟩
    | found p os a hm hk hr =>
      exact ⟨.refl _, upd (.refl _) ⟨fun y e => by cases e; exact .inl work_safe, trivial⟩⟩
    | op c next p os hm hl =>
      rcases calm with calm | calm
      · refine ⟨.refl _, upd (.refl _) ⟨fun y e => ?_, oi.2⟩⟩
        cases e
        by_cases e : ∃ q a, c = .dropAddr q a
        · obtain ⟨q, a, rfl⟩ := e
          exact .inr ⟨q, a, next, _, rfl, rfl, fun n => calm _ _ _ n hm⟩
        · refine .inl (prog_safe _ (fun q a e' => e ?_) (fun q os' f kws sh e => ?_))
          · cases c <;> simp [Cmd.at] at e'
            obtain ⟨rfl, rfl⟩ := e'
            exact ⟨_, _, rfl⟩
          · rw [e] at hl; exact hl.2.2
      · have := congrArg (fun u : State U A P => (u.procs i).mode) calm
        simp [State.setProc] at this
    | done r c next st job hm =>
      rw [hm] at oi
      exact ⟨.refl _, upd (.refl _) ⟨fun y e => (nomatch e), oi.2⟩⟩
    | workDone r job hm => exact ⟨.refl _, upd (.refl _) (idle _)⟩
    | put p a v k hm =>
      have l : LeN N s.sh (s.sh.put p a v) := leN_put ..
      exact ⟨l, upd l ⟨fun y e => by cases e; exact .inl (safe hm nofun _ (.refl _)), oi.2.mono l⟩⟩
    | load p a k hm =>
      exact ⟨.refl _, upd (.refl _) ⟨fun y e => by cases e; exact .inl (safe hm nofun _ (.refl _) _), oi.2⟩⟩
    | result p a k hm =>
      exact ⟨.refl _, upd (.refl _) ⟨fun y e => by cases e; exact .inl (safe hm nofun _ (.refl _)), oi.2⟩⟩
    | setResult p a r k hm =>
      have l : LeN N s.sh (s.sh.setResult p a r) := leN_setResult ..
      exact ⟨l, upd l ⟨fun y e => by cases e; exact .inl (safe hm nofun _ (.refl _)), oi.2.mono l⟩⟩
    | request p a k hm =>
      have l : LeN N s.sh (s.sh.setRequest p a true) := leN_request ..
      exact ⟨l, upd l ⟨fun y e => by cases e; exact .inl (safe hm nofun _ (.refl _)), oi.2.mono l⟩⟩
    | drop p a k hm =>
      rcases oi.1 _ hm with o' | ⟨q, b, next, st, e, e', n⟩
      · obtain ⟨h1, h2⟩ := o' _ (.refl _)
        have l : LeN N s.sh (s.sh.setRequest p a false) := leN_drop fun _ => h1
        exact ⟨l, upd l ⟨fun y e => by cases e; exact .inl h2, oi.2.mono l⟩⟩
      · injection e with e1 e2 e3
        subst e1 e2 e3
        have l : LeN N s.sh (s.sh.setRequest p a false) := leN_drop fun n' => absurd n' n
        refine ⟨l, upd l ⟨fun y e => ?_, oi.2.mono l⟩⟩
        cases e
        refine .inl ?_
        change Safe N (topQ h N (s.procs i).stack) _ _
        rw [e']
        exact fun _ _ => trivial
    | wait p os a hm =>
      have w := safe hm nofun
      exact ⟨.refl _, upd (.refl _) ⟨fun y e => by cases e; exact .inl (round_safe w.2.1 w.2.2.1 w.2.2.2 fun _ l => w.mono l), oi.2⟩⟩
    | toss k b hm =>
      exact ⟨.refl _, upd (.refl _) ⟨fun y e => by cases e; exact .inl (safe hm nofun b), oi.2⟩⟩
    | body a f kw k hm =>
      exact ⟨.refl _, upd (.refl _) ⟨fun y e => (nomatch e), fun t l r hr => safe hm nofun t l r hr, oi.2⟩⟩
    | ret v k st job hm =>
      rw [hm] at oi
      exact ⟨.refl _, upd (.refl _) ⟨fun y e => by cases e; exact .inl (oi.2.1 _ (.refl _) _ (.inl ⟨v, rfl⟩)), oi.2.2⟩⟩
    | raise k st job hm =>
      rw [hm] at oi
      exact ⟨.refl _, upd (.refl _) ⟨fun y e => by cases e; exact .inl (oi.2.1 _ (.refl _) _ (.inr rfl)), oi.2.2⟩⟩

theorem CalmSteps.safe {s t : State U A P} (x : CalmSteps h code T knows N s t) (o : ∀ j, ProcSafe h N s.sh (s.procs j)) :
    LeN N s.sh t.sh ∧ ∀ j, ProcSafe h N t.sh (t.procs j) := by
  induction x with
  | refl => exact ⟨.refl _, o⟩
  | step i x y calm ih =>
    obtain ⟨h1, h2⟩ := step_safe ih.2 y calm
    exact ⟨ih.1.trans h1, h2⟩

theorem init_safe : ∀ j, ProcSafe h N (init : State U A P).sh ((init : State U A P).procs j) :=
  fun _ => ⟨fun y e => (nomatch e), trivial⟩

end Pyth.Parts
