import Verif.Spec.SwarmParts
import Verif.Proofs.PureBase
/-!
# Reasoning about interleaved programs over growing dictionaries

`Ok h X x s`: program `x`, interrupted by other processes at any moment, respects the invariant `Inv` from `s` on.
The value stores only grow, so facts of the form "this value is stored" stay true whatever the others do.
-/
namespace Pyth.Parts
open Pyth.Pure (Val FnId sortKw)

/-- what a program may need: to run code for address `a`, or to wait for the result of `a` in portal `p` -/
inductive Need (A P : Type)
  | run (a : A)
  | await (p : P) (a : A)

variable {U A P : Type} [DecidableEq P] [DecidableEq A] {h : Val U A → A}
  {code : FnId → List (String × Val U A) → Code U A P} {T strict : Prop} {J : Need A P → Prop} {Q : Reply U A P → Shared U A P → Prop}

/-- stored values stay, results stay (possibly with another value) -/
structure Le (s t : Shared U A P) : Prop where
  store : ∀ p a v, s.store p a = some v → t.store p a = some v
  results : ∀ p a, (s.results p a).isSome → (t.results p a).isSome

theorem Le.refl (s : Shared U A P) : Le s s := ⟨fun _ _ _ x => x, fun _ _ x => x⟩

theorem Le.trans {s t u : Shared U A P} (x : Le s t) (y : Le t u) : Le s u :=
  ⟨fun p a v z => y.store p a v (x.store p a v z), fun p a z => y.results p a (x.results p a z)⟩

theorem Le.isSome {s t : Shared U A P} (x : Le s t) {p : P} {a : A} (y : (s.store p a).isSome = true) :
    (t.store p a).isSome = true := by
  cases e : s.store p a with
  | none => rw [e] at y; cases y
  | some v => rw [x.store p a v e]; rfl

theorem Avail.mono {s t : Shared U A P} (x : Le s t) {p : P} {a : A} : Avail T s p a → Avail T t p a
  | .inl y => .inl (x.isSome y)
  | .inr ⟨z, q, y⟩ => .inr ⟨z, q, x.isSome y⟩

theorem Avail.of_eq {s : Shared U A P} {p : P} {a : A} {v : Val U A} (x : s.store p a = some v) : Avail T s p a :=
  .inl (by rw [x]; rfl)

theorem Complete.mono {s t : Shared U A P} (x : Le s t) {p : P} {a : A} : Complete h T s p a → Complete h T t p a :=
  fun ⟨f, l, e, so, y, z, w, v⟩ => ⟨f, l, e, so, y.mono x, z.mono x, w.mono x, fun b hb => (v b hb).mono x⟩

/-- invariant of the dictionaries -/
structure Inv (h : Val U A → A) (code : FnId → List (String × Val U A) → Code U A P) (T strict : Prop) (s : Shared U A P) : Prop where
  store : ∀ p a v, s.store p a = some v → a = h v
  requests : ∀ p a, s.requests p a = true → Complete h T s p a
  results : ∀ p a r, s.results p a = some r → Complete h T s p a ∧ (s.store p r).isSome = true ∧
    Correct h code strict a r

theorem put_store (s : Shared U A P) (p : P) (a : A) (v : Val U A) (q : P) (b : A) :
    (s.put p a v).store q b = if q = p ∧ b = a then some v else s.store q b := by
  unfold Shared.put
  by_cases e : q = p
  · subst e
    by_cases e' : b = a
    · subst e'; simp
    · simp [e']
  · simp [e]

theorem le_put {s : Shared U A P} (i : Inv h code T strict s) {p : P} {v : Val U A} (inj : Function.Injective h) :
    Le s (s.put p (h v) v) := by
  refine ⟨fun q b w x => ?_, fun _ _ x => x⟩
  rw [put_store]
  by_cases e : q = p ∧ b = h v
  · rw [if_pos e]
    have := i.store q b w x
    rw [e.2] at this
    rw [inj this]
  · rw [if_neg e]; exact x

theorem inv_put {s : Shared U A P} (i : Inv h code T strict s) {p : P} {v : Val U A} (inj : Function.Injective h) :
    Inv h code T strict (s.put p (h v) v) := by
  have l := le_put i (p := p) (v := v) inj
  refine ⟨fun q b w x => ?_, fun q b x => (i.requests q b x).mono l, fun q b r x => ?_⟩
  · rw [put_store] at x
    by_cases e : q = p ∧ b = h v
    · rw [if_pos e] at x; cases x; exact e.2
    · rw [if_neg e] at x; exact i.store q b w x
  · have := i.results q b r x
    exact ⟨this.1.mono l, l.isSome this.2.1, this.2.2⟩

theorem le_setResult (s : Shared U A P) (p : P) (a r : A) : Le s (s.setResult p a r) := by
  refine ⟨fun _ _ _ x => x, fun q b x => ?_⟩
  unfold Shared.setResult
  by_cases e : q = p
  · subst e
    by_cases e' : b = a
    · subst e'; simp
    · simpa [e'] using x
  · simpa [e] using x

theorem inv_setResult {s : Shared U A P} (i : Inv h code T strict s) {p : P} {a r : A} (c : Complete h T s p a)
    (v : (s.store p r).isSome = true) (cr : Correct h code strict a r) : Inv h code T strict (s.setResult p a r) := by
  have l := le_setResult s p a r
  refine ⟨i.store, fun q b x => (i.requests q b x).mono l, fun q b r' x => ?_⟩
  unfold Shared.setResult at x
  by_cases e : q = p
  · subst e
    by_cases e' : b = a
    · subst e'
      simp only [Function.update_self, Option.some.injEq] at x
      subst x
      exact ⟨c.mono l, v, cr⟩
    · simp only [Function.update_self, Function.update_of_ne e'] at x
      exact ⟨(i.results q b r' x).1.mono l, (i.results q b r' x).2⟩
  · simp only [Function.update_of_ne e] at x
    exact ⟨(i.results q b r' x).1.mono l, (i.results q b r' x).2⟩

theorem le_setRequest (s : Shared U A P) (p : P) (a : A) (b : Bool) : Le s (s.setRequest p a b) :=
  ⟨fun _ _ _ x => x, fun _ _ x => x⟩

theorem inv_setRequest {s : Shared U A P} (i : Inv h code T strict s) {p : P} {a : A} {b : Bool}
    (c : b = true → Complete h T s p a) : Inv h code T strict (s.setRequest p a b) := by
  have l := le_setRequest s p a b
  refine ⟨i.store, fun q b' x => ?_, fun q b' r x => ⟨(i.results q b' r x).1.mono l, (i.results q b' r x).2⟩⟩
  unfold Shared.setRequest at x
  by_cases e : q = p
  · subst e
    by_cases e' : b' = a
    · subst e'
      simp only [Function.update_self] at x
      exact (c x).mono l
    · simp only [Function.update_self, Function.update_of_ne e'] at x
      exact (i.requests q b' x).mono l
  · simp only [Function.update_of_ne e] at x
    exact (i.requests q b' x).mono l

/-! ### programs -/

/-- a reply is truthful: addresses in it are stored; and, if `strict`, nothing was missing -/
structure ReplyOk (h : Val U A → A) (code : FnId → List (String × Val U A) → Code U A P) (T strict : Prop)
    (Q : Reply U A P → Shared U A P → Prop) (s : Shared U A P) (r : Reply U A P) : Prop where
  vals : ∀ p a, (p, a) ∈ r.vaddrs → Avail T s p a
  calls : ∀ p a, (p, a) ∈ r.raddrs → Complete h T s p a
  found : strict → r ≠ .missing
  got : ∀ a v, r = .got a v → Correct h code strict a (h v)
  ask : ∀ t, Le s t → Q r t

/-- what the code of a function can answer -/
def BodyReply (r : Reply U A P) : Prop := (∃ v, r = .val v) ∨ r = .raised

/-- the call with address `a` has two different values -/
def Torn (h : Val U A → A) (code : FnId → List (String × Val U A) → Code U A P) (strict : Prop) (a : A) : Prop :=
  ∃ f vs v w, a = callOf h f vs ∧ Outcome h code strict (code f vs) (.val v) ∧ Outcome h code strict (code f vs) (.val w) ∧ v ≠ w

/-- program `x` respects the invariant from `s` on, whatever others do in between, and runs code only for addresses
in `J`, and waits only for results in `J` -/
def Ok (h : Val U A → A) (code : FnId → List (String × Val U A) → Code U A P) (T strict : Prop) (J : Need A P → Prop)
    (Q : Reply U A P → Shared U A P → Prop) : Io U A P → Shared U A P → Prop
  | .done r, s => ReplyOk h code T strict Q s r
  | .put p a v k, s => a = h v ∧ ∀ t, Le s t → Inv h code T strict t → Ok h code T strict J Q k (t.put p a v)
  | .load p a k, s => ∀ t, Le s t → Inv h code T strict t →
    Ok h code T strict J Q (k (t.store p a)) t ∧ (¬ strict → Ok h code T strict J Q (k none) t)
  | .result p a k, s => ∀ t, Le s t → Inv h code T strict t → Ok h code T strict J Q (k (t.results p a)) t
  | .setResult p a r k, s => ∀ t, Le s t → Inv h code T strict t →
    Complete h T t p a ∧ (t.store p r).isSome = true ∧ Correct h code strict a r ∧ Ok h code T strict J Q k (t.setResult p a r)
  | .request p a k, s => ∀ t, Le s t → Inv h code T strict t → Complete h T t p a ∧ Ok h code T strict J Q k (t.setRequest p a true)
  | .drop p a k, s => ∀ t, Le s t → Inv h code T strict t → Ok h code T strict J Q k (t.setRequest p a false)
  | .body a f kw k, s => J (.run a) ∧ a = callOf h f kw ∧
    ∀ t, Le s t → Inv h code T strict t → ∀ r, BodyReply r → Outcome h code strict (code f kw) r → Ok h code T strict J Q (k r) t
  | .wait p os a, s => J (.await p a) ∧ Complete h T s p a ∧ (strict → T → ∀ q, q = p ∨ q ∈ os) ∧ (¬ strict → ∀ t, Q .missing t) ∧
    (Torn h code strict a → ∀ t : Shared U A P, (t.results p a).isSome = true → Q .clash t) ∧
    ∀ v, Correct h code strict a (h v) → ∀ t : Shared U A P, (t.results p a).isSome = true → Q (.got a v) t
  | .toss k, s => ∀ b, Ok h code T strict J Q (k b) s

theorem ReplyOk.mono {s t : Shared U A P} (l : Le s t) {r : Reply U A P} (x : ReplyOk h code T strict Q s r) :
    ReplyOk h code T strict Q t r :=
  ⟨fun p a ha => (x.vals p a ha).mono l, fun p a ha => (x.calls p a ha).mono l, x.found, x.got, fun u lu => x.ask u (l.trans lu)⟩

theorem Ok.mono {s t : Shared U A P} (l : Le s t) {x : Io U A P} (o : Ok h code T strict J Q x s) : Ok h code T strict J Q x t := by
  induction x with
  | done r => exact ReplyOk.mono l o
  | put p a v k _ => exact ⟨o.1, fun u hu => o.2 u (l.trans hu)⟩
  | load p a k _ => exact fun u hu => o u (l.trans hu)
  | result p a k _ => exact fun u hu => o u (l.trans hu)
  | setResult p a r k _ => exact fun u hu => o u (l.trans hu)
  | request p a k _ => exact fun u hu => o u (l.trans hu)
  | drop p a k _ => exact fun u hu => o u (l.trans hu)
  | body a f kw k _ => exact ⟨o.1, o.2.1, fun u hu => o.2.2 u (l.trans hu)⟩
  | wait p os a => exact ⟨o.1, o.2.1.mono l, o.2.2⟩
  | toss k ih => exact fun b => ih b (o b)

theorem Avail.val {s : Shared U A P} (i : Inv h code T strict s) {p : P} {a : A} (x : Avail T s p a) : ∃ v, a = h v := by
  have key : ∀ q, (s.store q a).isSome = true → ∃ v, a = h v := fun q e =>
    let ⟨v, hv⟩ := Option.isSome_iff_exists.1 e
    ⟨v, i.store q a v hv⟩
  rcases x with x | ⟨_, q, x⟩
  · exact key p x
  · exact key q x

theorem ok_missing {s : Shared U A P} (qm : ¬ strict → ∀ t, Q .missing t) (x : ¬ strict) : Ok h code T strict J Q (.done .missing : Io U A P) s :=
  ⟨fun _ _ ha => (nomatch ha), fun _ _ ha => (nomatch ha), fun y => absurd y x, fun _ _ e => (nomatch e), fun t _ => qm x t⟩

theorem ok_simple {s : Shared U A P} {r : Reply U A P} (a : r.vaddrs = []) (b : r.raddrs = []) (c : r ≠ .missing)
    (d : ∀ a v, r = .got a v → Correct h code strict a (h v)) (q : ∀ t, Le s t → Q r t) :
    Ok h code T strict J Q (.done r : Io U A P) s :=
  ⟨fun _ _ ha => (by rw [a] at ha; cases ha), fun _ _ ha => (by rw [b] at ha; cases ha), fun _ => c, d, q⟩

/-- continuation `k` is fine from `s` on for all arguments that satisfy `R` -/
def KOk (h : Val U A → A) (code : FnId → List (String × Val U A) → Code U A P) (T strict : Prop) (J : Need A P → Prop)
    (Q : Reply U A P → Shared U A P → Prop) (s : Shared U A P) {γ : Type} (k : γ → Io U A P)
    (R : γ → Shared U A P → Prop) : Prop :=
  ∀ t, Le s t → Inv h code T strict t → ∀ r, R r t → Ok h code T strict J Q (k r) t


theorem ok_setResult {s : Shared U A P} {p : P} {a r : A} {k : Io U A P}
    (hc : Complete h T s p a) (hv : (s.store p r).isSome = true) (cr : Correct h code strict a r)
    (hk : ∀ t, Le s t → Inv h code T strict t → (t.results p a).isSome = true → Ok h code T strict J Q k t) :
    Ok h code T strict J Q (.setResult p a r k) s := by
  intro t l i
  have c := hc.mono l
  have v := l.isSome hv
  refine ⟨c, v, cr, hk _ (l.trans (le_setResult ..)) (inv_setResult i c v cr) ?_⟩
  simp [Shared.setResult]

theorem ok_request {s : Shared U A P} {p : P} {a : A} {k : Io U A P} (hc : Complete h T s p a)
    (hk : ∀ t, Le s t → Inv h code T strict t → Ok h code T strict J Q k t) : Ok h code T strict J Q (.request p a k) s := by
  intro t l i
  exact ⟨hc.mono l, hk _ (l.trans (le_setRequest ..)) (inv_setRequest i fun _ => hc.mono l)⟩

theorem ok_drop {s : Shared U A P} {p : P} {a : A} {k : Io U A P}
    (hk : ∀ t, Le s t → Inv h code T strict t → Ok h code T strict J Q k t) : Ok h code T strict J Q (.drop p a k) s := by
  intro t l i
  exact hk _ (l.trans (le_setRequest ..)) (inv_setRequest i fun e => nomatch e)

/-- what reading a stored value gives -/
def Got (h : Val U A → A) (strict : Prop) (p : P) (a : A) (r : Option (Val U A)) (s : Shared U A P) : Prop :=
  (r = none → ¬ strict) ∧ ∀ v, r = some v → a = h v ∧ s.store p a = some v

section
variable (inj : Function.Injective h)
include inj

theorem ok_put {s : Shared U A P} {p : P} {v : Val U A} {k : Io U A P}
    (hk : ∀ t, Le s t → Inv h code T strict t → t.store p (h v) = some v → Ok h code T strict J Q k t) :
    Ok h code T strict J Q (.put p (h v) v k) s := by
  refine ⟨rfl, fun t l i => ?_⟩
  refine hk _ (l.trans (le_put i inj)) (inv_put i inj) ?_
  rw [put_store, if_pos ⟨rfl, rfl⟩]

theorem valueGetOthers_ok {p : P} {a : A} {k : Option (Val U A) → Io U A P} (os : List P) {s : Shared U A P}
    (hs : strict → ∃ q ∈ os, (s.store q a).isSome = true) (hk : KOk h code T strict J Q s k (Got h strict p a)) (i : Inv h code T strict s) :
    Ok h code T strict J Q (valueGetOthers p a k os) s := by
  induction os generalizing s with
  | nil =>
    refine hk s (.refl s) i none ⟨fun _ hx => ?_, fun v e => (nomatch e)⟩
    obtain ⟨q, hq, _⟩ := hs hx
    cases hq
  | cons q os ih =>
    intro t l j
    refine ⟨?_, fun ns => ih (fun hx => absurd hx ns) (fun u lu => hk u (l.trans lu)) j⟩
    cases e : t.store q a with
    | some v =>
      have ev := j.store q a v e
      subst ev
      refine ok_put inj fun u lu iu x => ?_
      exact hk u (l.trans lu) iu _ ⟨fun y => (nomatch y), fun w y => by cases y; exact ⟨rfl, x⟩⟩
    | none =>
      refine ih (fun hx => ?_) (fun u lu => hk u (l.trans lu)) j
      obtain ⟨q', hq, hv⟩ := hs hx
      have := l.isSome hv
      cases hq with
      | head => rw [e] at this; cases this
      | tail _ hq => exact ⟨q', hq, this⟩

theorem valueGet_ok {p : P} {os : List P} {a : A} {k : Option (Val U A) → Io U A P} {s : Shared U A P}
    (hs : strict → ∃ q, (q = p ∨ q ∈ os) ∧ (s.store q a).isSome = true) (hk : KOk h code T strict J Q s k (Got h strict p a)) :
    Ok h code T strict J Q (valueGet p os a k) s := by
  intro t l i
  refine ⟨?_, fun ns => valueGetOthers_ok inj os (fun hx => absurd hx ns) (fun u lu => hk u (l.trans lu)) i⟩
  cases e : t.store p a with
  | some v => exact hk t l i _ ⟨fun y => (nomatch y), fun w y => by cases y; exact ⟨i.store _ _ _ e, e⟩⟩
  | none =>
    refine valueGetOthers_ok inj os (fun hx => ?_) (fun u lu => hk u (l.trans lu)) i
    obtain ⟨q, e', hq⟩ := hs hx
    have hq := l.isSome hq
    rcases e' with e' | e'
    · subst e'; rw [e] at hq; cases hq
    · exact ⟨q, e', hq⟩

omit [DecidableEq P] [DecidableEq A] inj in
theorem find {p : P} {os : List P} {s : Shared U A P} {a : A} (kn : strict → T → ∀ q, q = p ∨ q ∈ os)
    (hs : Avail T s p a) : strict → ∃ q, (q = p ∨ q ∈ os) ∧ (s.store q a).isSome = true :=
  fun x => match hs with
  | .inl hq => ⟨p, .inl rfl, hq⟩
  | .inr ⟨z, q, hq⟩ => ⟨q, kn x z q, hq⟩

/-- the address of an argument is stored -/
def ArgOk (T : Prop) (s : Shared U A P) : Arg U A P → Prop
  | .raw _ => True
  | .addr home a => Avail T s home a

theorem packOne_ok {p : P} {os : List P} {k : Option A → Io U A P} {s : Shared U A P} (i : Inv h code T strict s)
    (kn : strict → T → ∀ q, q = p ∨ q ∈ os) (x : Arg U A P) (hx : ArgOk T s x)
    (hk : KOk h code T strict J Q s k fun r t => (r = none → ¬ strict) ∧
      ∀ a, r = some a → Avail T t p a ∧ ∃ v, ArgIs h x v ∧ a = h v) :
    Ok h code T strict J Q (packOne h p os k x) s := by
  cases x with
  | raw u =>
    refine ok_put inj fun t l i x => hk t l i _ ⟨fun y => (nomatch y), fun a y => ?_⟩
    cases y
    exact ⟨.of_eq x, _, rfl, rfl⟩
  | addr home a =>
    obtain ⟨v0, hv0⟩ := Avail.val i hx
    have hv0 : ∃ v, ArgIs h (Arg.addr home a : Arg U A P) v ∧ a = h v := ⟨v0, hv0, hv0⟩
    change Ok h code T strict J Q (if home = p then _ else _) s
    by_cases e : home = p
    · rw [if_pos e]
      exact hk s (.refl s) i _ ⟨fun y => (nomatch y), fun b y => by cases y; exact ⟨e ▸ hx, hv0⟩⟩
    · rw [if_neg e]
      intro t l i
      have look : (strict → ∃ q, (q = home ∨ q ∈ os) ∧ (t.store q a).isSome = true) →
          Ok h code T strict J Q (valueGet home os a fun
            | none => k none
            | some v => .put p a v (k (some a))) t := by
        intro hs
        refine valueGet_ok inj hs fun u lu iu r g => ?_
        cases r with
        | none => exact hk u (l.trans lu) iu _ ⟨fun _ => g.1 rfl, fun b y => (nomatch y)⟩
        | some v =>
          have ev := (g.2 v rfl).1
          subst ev
          refine ok_put inj fun w lw iw x => hk w (l.trans (lu.trans lw)) iw _ ⟨fun y => (nomatch y), fun b y => ?_⟩
          cases y
          exact ⟨.of_eq x, hv0⟩
      refine ⟨?_, fun ns => look fun y => absurd y ns⟩
      cases e2 : t.store p a with
      | some v =>
        exact hk t l i _ ⟨fun y => (nomatch y), fun b y => by cases y; exact ⟨.of_eq e2, hv0⟩⟩
      | none =>
        refine look fun y => ?_
        rcases Avail.mono l hx with hq | ⟨z, q, hq⟩
        · exact ⟨home, .inl rfl, hq⟩
        refine ⟨q, ?_, hq⟩
        rcases kn y z q with e' | e'
        · subst e'; rw [e2] at hq; cases hq
        · exact .inr e'

theorem packAll_ok {p : P} {os : List P} (kn : strict → T → ∀ q, q = p ∨ q ∈ os) (kw : List (String × Arg U A P)) :
    ∀ {k : Option (List (String × A)) → Io U A P} {s : Shared U A P}, Inv h code T strict s → (∀ x ∈ kw, ArgOk T s x.2) →
    (KOk h code T strict J Q s k fun r t => (r = none → ¬ strict) ∧ ∀ l, r = some l →
      l.map Prod.fst = kw.map Prod.fst ∧ (∀ x ∈ l, Avail T t p x.2) ∧
      ∃ vs, ArgsAre h kw vs ∧ l = vs.map fun x => (x.1, h x.2)) →
    Ok h code T strict J Q (packAll h p os kw k) s := by
  induction kw with
  | nil =>
    intro k s i ha hk
    refine hk s (.refl s) i _ ⟨fun y => (nomatch y), fun l y => ?_⟩
    cases y
    exact ⟨rfl, fun x hx => (nomatch hx), [], trivial, rfl⟩
  | cons y kw ih =>
    obtain ⟨n, y⟩ := y
    intro k s i ha hk
    unfold packAll
    refine packOne_ok inj i kn y (ha (n, y) (.head _)) fun t l i r g => ?_
    cases r with
    | none => exact hk t l i _ ⟨fun _ => g.1 rfl, fun b y => (nomatch y)⟩
    | some a =>
      obtain ⟨ga, gu⟩ := g.2 a rfl
      refine ih i (fun x hx => ?_) fun u lu iu r g' => ?_
      · have := ha x (.tail _ hx)
        obtain ⟨n', x⟩ := x
        cases x with
        | raw u => trivial
        | addr home b => exact Avail.mono l this
      · cases r with
        | none => exact hk u (l.trans lu) iu _ ⟨fun _ => g'.1 rfl, fun b y => (nomatch y)⟩
        | some m =>
          refine hk u (l.trans lu) iu _ ⟨fun y => (nomatch y), fun b y => ?_⟩
          cases y
          obtain ⟨g1, g2, vs, g3, g4⟩ := g'.2 m rfl
          obtain ⟨v, gv, rfl⟩ := gu
          refine ⟨by simp [g1], fun x hx => ?_, (n, v) :: vs, ⟨rfl, gv, g3⟩, by rw [g4]; rfl⟩
          cases hx with
          | head => exact Avail.mono lu ga
          | tail _ hx => exact g2 x hx

omit [DecidableEq A] inj in
theorem packAll_asArgs (p : P) (os : List P) (l : List (String × A)) :
    ∀ k : Option (List (String × A)) → Io U A P, packAll h p os (asArgs p l) k = k (some l) := by
  induction l with
  | nil => intro k; rfl
  | cons x l ih =>
    intro k
    obtain ⟨n, a⟩ := x
    change packOne h p os _ (.addr p a) = _
    simp only [packOne, if_true]
    change packAll h p os (asArgs p l) _ = _
    rw [ih]

omit [DecidableEq P] [DecidableEq A] inj in
theorem sorted_of_names {γ δ : Type} {l : List (String × γ)} {kw : List (String × δ)}
    (e : l.map Prod.fst = kw.map Prod.fst) (so : kw.Pairwise fun x y => x.1 ≤ y.1) :
    l.Pairwise fun x y => x.1 ≤ y.1 := by
  have h1 : (kw.map Prod.fst).Pairwise (· ≤ ·) := List.pairwise_map.2 so
  rw [← e] at h1
  exact List.pairwise_map.1 h1

theorem mkAddr_ok {p : P} {os : List P} {f : FnId} {kw : List (String × Arg U A P)} {k : Option A → Io U A P}
    {s : Shared U A P} (kn : strict → T → ∀ q, q = p ∨ q ∈ os) (ha : ∀ x ∈ kw, ArgOk T s x.2)
    (hk : KOk h code T strict J Q s k fun r t => (r = none → ¬ strict) ∧
      ∀ a, r = some a → Complete h T t p a ∧ AddrOf h f kw a) :
    Ok h code T strict J Q (mkAddr h p os f kw k) s := by
  refine ok_put inj fun t l i x => ?_
  refine packAll_ok inj kn _ i (fun y hy => ?_) fun u lu iu r g => ?_
  · have := ha y ((Pure.sortKw_perm kw).mem_iff.1 hy)
    obtain ⟨n, y⟩ := y
    cases y with
    | raw u => trivial
    | addr home b => exact Avail.mono l this
  · cases r with
    | none => exact hk u (l.trans lu) iu _ ⟨fun _ => g.1 rfl, fun b y => (nomatch y)⟩
    | some m =>
      obtain ⟨g1, g2, vs, g3, g4⟩ := g.2 m rfl
      refine ok_put inj fun v lv iv xv => ok_put inj fun w lw iw xw => ?_
      refine hk w (l.trans (lu.trans (lv.trans lw))) iw _ ⟨fun y => (nomatch y), fun b y => ?_⟩
      cases y
      refine ⟨⟨f, m, rfl, sorted_of_names g1 (Pure.sortKw_sorted kw), .inl ?_, .inl ?_, .inl ?_,
        fun x hx => (g2 x hx).mono (lv.trans lw)⟩, vs, g3, by rw [g4]; rfl⟩
      · unfold callAddr; rw [xw]; rfl
      · rw [(lu.trans (lv.trans lw)).store _ _ _ x]; rfl
      · rw [lw.store _ _ _ xv]; rfl

theorem mkAddr_asArgs_ok {p : P} {os : List P} {f : FnId} {m : List (String × A)} {k : Option A → Io U A P}
    {s : Shared U A P} (so : SortedNames m) (hm : ∀ x ∈ m, Avail T s p x.2)
    (hk : KOk h code T strict J Q s k fun r t => r = some (callAddr h f m) ∧ Complete h T t p (callAddr h f m)) :
    Ok h code T strict J Q (mkAddr h p os f (asArgs p m) k) s := by
  have e : sortKw (asArgs p m : List (String × Arg U A P)) = asArgs p m := by
    refine Pure.sortKw_of_sorted ?_
    exact sorted_of_names (by simp [asArgs]) so
  refine ok_put inj fun t l i x => ?_
  rw [e, packAll_asArgs]
  refine ok_put inj fun v lv iv xv => ok_put inj fun w lw iw xw => ?_
  refine hk w (l.trans (lv.trans lw)) iw _ ⟨rfl, f, m, rfl, so, .inl ?_, .inl ?_, .inl ?_,
    fun x hx => (hm x hx).mono (l.trans (lv.trans lw))⟩
  · unfold callAddr; rw [xw]; rfl
  · rw [(lv.trans lw).store _ _ _ x]; rfl
  · rw [lw.store _ _ _ xv]; rfl

omit [DecidableEq P] [DecidableEq A] inj in
theorem sortKw_raws (us : List (String × U)) :
    sortKw (raws us : List (String × Arg U A P)) = raws (sortKw us) := by
  unfold sortKw raws
  exact (List.map_insertionSort (fun a b : String × U => a.1 ≤ b.1) (fun a b : String × Arg U A P => a.1 ≤ b.1) _ us
    fun _ _ _ _ => Iff.rfl).symm

theorem getAddress_ok {p : P} {os : List P} {f : FnId} {kw : List (String × Arg U A P)}
    {k : Option (A × List (String × A)) → Io U A P} {s : Shared U A P} (i : Inv h code T strict s)
    (kn : strict → T → ∀ q, q = p ∨ q ∈ os) (ha : ∀ x ∈ kw, ArgOk T s x.2)
    (hk : KOk h code T strict J Q s k fun r t => (r = none → ¬ strict) ∧ ∀ a l, r = some (a, l) →
      a = callAddr h f l ∧ Complete h T t p a ∧ (∀ x ∈ l, Avail T t p x.2) ∧
      ∃ vs, Gets h kw vs ∧ l = vs.map fun x => (x.1, h x.2)) :
    Ok h code T strict J Q (getAddress h p os f kw k) s := by
  refine packAll_ok inj kn _ i (fun y hy => ha y ((Pure.sortKw_perm kw).mem_iff.1 hy)) fun u lu iu r g => ?_
  cases r with
  | none => exact hk u lu iu _ ⟨fun _ => g.1 rfl, fun b l y => (nomatch y)⟩
  | some m =>
    obtain ⟨g1, g2, g3⟩ := g.2 m rfl
    refine mkAddr_asArgs_ok inj (sorted_of_names g1 (Pure.sortKw_sorted kw)) g2 fun w lw iw r hr => ?_
    obtain ⟨hr, hc⟩ := hr
    subst hr
    refine hk w (lu.trans lw) iw _ ⟨fun y => (nomatch y), fun a l y => ?_⟩
    cases y
    exact ⟨rfl, hc, fun x hx => (g2 x hx).mono lw, g3⟩

/-- executing packed arguments again gives the same address -/
theorem getAddress_asArgs_ok {p : P} {os : List P} {f : FnId} {m : List (String × A)}
    {k : Option (A × List (String × A)) → Io U A P} {s : Shared U A P} (so : SortedNames m)
    (hm : ∀ x ∈ m, Avail T s p x.2)
    (hk : KOk h code T strict J Q s k fun r t => r = some (callAddr h f m, m) ∧ Complete h T t p (callAddr h f m)) :
    Ok h code T strict J Q (getAddress h p os f (asArgs p m) k) s := by
  have e : sortKw (asArgs p m : List (String × Arg U A P)) = asArgs p m :=
    Pure.sortKw_of_sorted (sorted_of_names (by simp [asArgs]) so)
  unfold getAddress
  rw [e, packAll_asArgs]
  refine mkAddr_asArgs_ok inj so hm fun w lw iw r hr => ?_
  obtain ⟨hr, hc⟩ := hr
  subst hr
  exact hk w lw iw _ ⟨rfl, hc⟩

theorem unpackAll_ok {p : P} {os : List P} (kn : strict → T → ∀ q, q = p ∨ q ∈ os) (l : List (String × A)) :
    ∀ {k : Option (List (String × Val U A)) → Io U A P} {s : Shared U A P}, Inv h code T strict s → (∀ x ∈ l, Avail T s p x.2) →
    (KOk h code T strict J Q s k fun r _ => (r = none → ¬ strict) ∧ ∀ vals, r = some vals →
      l = vals.map fun x => (x.1, h x.2)) →
    Ok h code T strict J Q (unpackAll p os l k) s := by
  induction l with
  | nil =>
    intro k s i ha hk
    refine hk s (.refl s) i _ ⟨fun y => (nomatch y), fun l y => ?_⟩
    cases y
    rfl
  | cons y l ih =>
    obtain ⟨n, a⟩ := y
    intro k s i ha hk
    unfold unpackAll
    refine valueGet_ok inj (find kn (ha (n, a) (.head _))) fun t lt i r g => ?_
    cases r with
    | none => exact hk t lt i _ ⟨fun _ => g.1 rfl, fun b y => (nomatch y)⟩
    | some v =>
      have ga := (g.2 v rfl).1
      refine ih i (fun x hx => (ha x (.tail _ hx)).mono lt) fun u lu iu r g' => ?_
      cases r with
      | none => exact hk u (lt.trans lu) iu _ ⟨fun _ => g'.1 rfl, fun b y => (nomatch y)⟩
      | some m =>
        refine hk u (lt.trans lu) iu _ ⟨fun y => (nomatch y), fun b y => ?_⟩
        cases y
        rw [g'.2 m rfl, ga]
        rfl

theorem getFunction_ok {p : P} {os : List P} {a : A} {k : Option FnId → Io U A P} {s : Shared U A P}
    (kn : strict → T → ∀ q, q = p ∨ q ∈ os) (hc : Complete h T s p a)
    (hk : KOk h code T strict J Q s k fun r _ => (r = none → ¬ strict) ∧ ∀ f, r = some f → ∃ l, a = callAddr h f l) :
    Ok h code T strict J Q (getFunction p os a k) s := by
  obtain ⟨f, l, e, so, h1, h2, h3, h4⟩ := hc
  refine valueGet_ok inj (find kn h1) fun t lt i r g => ?_
  cases r with
  | none => exact hk t lt i _ ⟨fun _ => g.1 rfl, fun b y => (nomatch y)⟩
  | some v =>
    have ga := (g.2 v rfl).1
    rw [e] at ga
    have := inj ga
    subst this
    refine valueGet_ok inj (find kn (h2.mono lt)) fun u lu iu r g => ?_
    cases r with
    | none => exact hk u (lt.trans lu) iu _ ⟨fun _ => g.1 rfl, fun b y => (nomatch y)⟩
    | some v =>
      have := inj (g.2 v rfl).1
      subst this
      exact hk u (lt.trans lu) iu _ ⟨fun y => (nomatch y), fun b y => by cases y; exact ⟨l, e⟩⟩

theorem getArguments_ok {p : P} {os : List P} {a : A} {k : Option (List (String × A)) → Io U A P} {s : Shared U A P}
    (kn : strict → T → ∀ q, q = p ∨ q ∈ os) (hc : Complete h T s p a)
    (hk : KOk h code T strict J Q s k fun r t => (r = none → ¬ strict) ∧ ∀ l, r = some l → SortedNames l ∧
      (∃ f, a = callAddr h f l) ∧ ∀ x ∈ l, Avail T t p x.2) :
    Ok h code T strict J Q (getArguments p os a k) s := by
  obtain ⟨f, l, e, so, h1, h2, h3, h4⟩ := hc
  refine valueGet_ok inj (find kn h1) fun t lt i r g => ?_
  cases r with
  | none => exact hk t lt i _ ⟨fun _ => g.1 rfl, fun b y => (nomatch y)⟩
  | some v =>
    have ga := (g.2 v rfl).1
    rw [e] at ga
    have := inj ga
    subst this
    refine valueGet_ok inj (find kn (h3.mono lt)) fun u lu iu r g => ?_
    cases r with
    | none => exact hk u (lt.trans lu) iu _ ⟨fun _ => g.1 rfl, fun b y => (nomatch y)⟩
    | some v =>
      have := inj (g.2 v rfl).1
      subst this
      refine hk u (lt.trans lu) iu _ ⟨fun y => (nomatch y), fun b y => ?_⟩
      cases y
      exact ⟨so, ⟨f, e⟩, fun x hx => (h4 x hx).mono (lt.trans lu)⟩

theorem getKwargs_ok {p : P} {os : List P} {a : A} {k : Option (List (String × Val U A)) → Io U A P}
    {s : Shared U A P} (kn : strict → T → ∀ q, q = p ∨ q ∈ os) (hc : Complete h T s p a)
    (hk : KOk h code T strict J Q s k fun r _ => (r = none → ¬ strict)) :
    Ok h code T strict J Q (getKwargs p os a k) s := by
  refine getArguments_ok inj kn hc fun t lt i r g => ?_
  cases r with
  | none => exact hk t lt i _ fun _ => g.1 rfl
  | some l =>
    refine unpackAll_ok inj kn l i (g.2 l rfl).2.2 fun u lu iu r g' => ?_
    exact hk u (lt.trans lu) iu _ g'.1

omit [DecidableEq P] [DecidableEq A] in
theorem callAddr_inj {f g : FnId} {l m : List (String × A)} (e : callAddr h f l = callAddr h g m) : f = g ∧ l = m := by
  have := inj e
  injection this with h1 h2 h3
  have := inj h3
  injection this with h4
  exact ⟨h1, h4⟩

omit [DecidableEq P] [DecidableEq A] in
theorem callOf_inj {f g : FnId} {l m : List (String × Val U A)} (e : callOf h f l = callOf h g m) : f = g ∧ l = m := by
  have e := callAddr_inj inj e
  have hinj : Function.Injective fun x : String × Val U A => (x.1, h x.2) := by
    intro x y hxy
    injection hxy with h1 h2
    exact Prod.ext h1 (inj h2)
  exact ⟨e.1, List.map_injective_iff.2 hinj e.2⟩

/-- two results of the same call are the same, or the call has two different values -/
theorem compare_ok {p : P} {a new : A} {k : Io U A P} {check : Bool} {s : Shared U A P} (hs : (s.results p a).isSome = true)
    (qc : Torn h code strict a → ∀ t : Shared U A P, (t.results p a).isSome = true → Q .clash t)
    (hn : Correct h code strict a new) (hk : Ok h code T strict J Q k s) :
    Ok h code T strict J Q (compare p a check new k) s := by
  unfold compare
  cases check with
  | false => exact hk
  | true =>
    intro t lt it
    have ht := lt.results p a hs
    cases e : t.results p a with
    | none => rw [e] at ht; cases ht
    | some old =>
      show Ok h code T strict J Q (if old = new then k else .done .clash) t
      by_cases eo : old = new
      · rw [if_pos eo]; exact hk.mono lt
      · rw [if_neg eo]
        obtain ⟨f, vs, v, e1, e2, e3⟩ := (it.results p a old e).2.2
        obtain ⟨f', vs', w, e4, e5, e6⟩ := hn
        obtain ⟨rfl, rfl⟩ := callOf_inj inj (e1.symm.trans e4)
        have ne : v ≠ w := fun hvw => eo (by rw [e2, e5, hvw])
        exact ok_simple rfl rfl (fun y => (nomatch y)) (fun _ _ e => (nomatch e))
          (fun u lu => qc ⟨f, vs, v, w, e1, e3, e6, ne⟩ u (lu.results p a ht))

theorem readyOthers_ok {p : P} {all : List P} {a : A} {k : Option Bool → Io U A P} (kn : strict → T → ∀ q, q = p ∨ q ∈ all)
    (qc : Torn h code strict a → ∀ t : Shared U A P, (t.results p a).isSome = true → Q .clash t) (os : List P) : ∀ {s : Shared U A P}, Inv h code T strict s → Complete h T s p a →
    (KOk h code T strict J Q s k fun r t => (r = none → ¬ strict) ∧ (r = some true → (t.results p a).isSome = true)) →
    Ok h code T strict J Q (readyOthers h p all a k os) s := by
  induction os with
  | nil => exact fun {s} i hc hk => hk s (.refl s) i _ ⟨fun y => (nomatch y), fun y => (nomatch y)⟩
  | cons q os ih =>
    intro s i hc hk t lt it
    cases e : t.results q a with
    | none => exact ih it (hc.mono lt) fun u lu => hk u (lt.trans lu)
    | some r =>
      obtain ⟨_, hr, hcr⟩ := it.results q a r e
      intro u lu iu
      refine ⟨?_, fun ns => hk u (lt.trans lu) iu _ ⟨fun _ => ns, fun y => (nomatch y)⟩⟩
      cases e2 : u.store q r with
      | none =>
        have := lu.isSome hr
        rw [e2] at this
        cases this
      | some v =>
        refine ok_put inj fun w lw iw xw => ?_
        have rest : ∀ w', Le w w' → Inv h code T strict w' → (w'.results p a).isSome = true →
            Ok h code T strict J Q (readyOthers.rest p all a k) w' := by
          intro w' lw' iw' hw'
          have lsw : Le s w' := lt.trans (lu.trans (lw.trans lw'))
          refine getFunction_ok inj kn (hc.mono lsw) fun x lx ix r g => ?_
          cases r with
          | none => exact hk x (lsw.trans lx) ix _ ⟨fun _ => g.1 rfl, fun y => (nomatch y)⟩
          | some f =>
            refine getKwargs_ok inj kn (hc.mono (lsw.trans lx)) fun y ly iy r g => ?_
            have hy := (lx.trans ly).results _ _ hw'
            cases r with
            | none => exact hk y (lsw.trans (lx.trans ly)) iy _ ⟨fun _ => g rfl, fun y => (nomatch y)⟩
            | some _ => exact hk y (lsw.trans (lx.trans ly)) iy _ ⟨fun y => (nomatch y), fun _ => hy⟩
        intro w1 lw1 iw1
        cases e3 : w1.results p a with
        | some old =>
          intro b
          have hcv : Correct h code strict a (h v) := by rw [← iu.store _ _ _ e2]; exact hcr
          exact compare_ok inj (by rw [e3]; rfl) qc hcv (rest w1 lw1 iw1 (by rw [e3]; rfl))
        | none =>
          refine ok_setResult (hc.mono (lt.trans (lu.trans (lw.trans lw1)))) ?_ ?_ fun x lx ix hx => ?_
          · rw [lw1.store _ _ _ xw]; rfl
          · rw [← iu.store _ _ _ e2]; exact hcr
          · exact rest x (lw1.trans lx) ix hx

theorem ready_ok {p : P} {os : List P} {a : A} {k : Option Bool → Io U A P} {s : Shared U A P}
    (kn : strict → T → ∀ q, q = p ∨ q ∈ os) (hc : Complete h T s p a) (qc : Torn h code strict a → ∀ t : Shared U A P, (t.results p a).isSome = true → Q .clash t)
    (hk : KOk h code T strict J Q s k fun r t => (r = none → ¬ strict) ∧ (r = some true → (t.results p a).isSome = true)) :
    Ok h code T strict J Q (ready h p os a k) s := by
  intro t lt it
  cases e : t.results p a with
  | some r => exact hk t lt it _ ⟨fun y => (nomatch y), fun _ => by rw [e]; rfl⟩
  | none => exact readyOthers_ok inj kn qc os it (hc.mono lt) fun u lu => hk u (lt.trans lu)

theorem requestExec_ok {p : P} {os : List P} {a : A} {k : Bool → Io U A P} {s : Shared U A P}
    (kn : strict → T → ∀ q, q = p ∨ q ∈ os) (hc : Complete h T s p a) (qc : Torn h code strict a → ∀ t : Shared U A P, (t.results p a).isSome = true → Q .clash t)
    (hk : KOk h code T strict J Q s k fun r _ => (r = false → ¬ strict)) :
    Ok h code T strict J Q (requestExec h p os a k) s := by
  refine ready_ok inj kn hc qc fun t lt it r g => ?_
  match r with
  | none => exact hk t lt it _ fun _ => g.1 rfl
  | some true => exact ok_drop fun u lu iu => hk u (lt.trans lu) iu _ fun y => (nomatch y)
  | some false =>
    exact ok_request (hc.mono lt) fun u lu iu => hk u (lt.trans lu) iu _ fun y => (nomatch y)

omit inj in
theorem readResult_ok {p : P} {a : A} {k : Option (Val U A) → Io U A P} {s : Shared U A P}
    (hr : (s.results p a).isSome = true)
    (hk : KOk h code T strict J Q s k fun r _ => (r = none ∧ ¬ strict) ∨ ∃ v, r = some v ∧ Correct h code strict a (h v)) :
    Ok h code T strict J Q (readResult p a k) s := by
  intro t lt it
  cases e : t.results p a with
  | none => have := lt.results _ _ hr; rw [e] at this; cases this
  | some r =>
    obtain ⟨_, hv, hcr⟩ := it.results p a r e
    intro u lu iu
    refine ⟨?_, fun ns => hk u (lt.trans lu) iu _ (.inl ⟨rfl, ns⟩)⟩
    obtain ⟨v, hv⟩ := Option.isSome_iff_exists.1 (lu.isSome hv)
    refine hk u (lt.trans lu) iu _ (.inr ⟨v, hv, ?_⟩)
    rw [← iu.store _ _ _ hv]
    exact hcr

omit inj in
theorem ok_replyVal {s : Shared U A P} {r : Option (Val U A)} (hq : ∀ r t, Q r t) (x : r = none → ¬ strict) :
    Ok h code T strict J Q (replyVal r : Io U A P) s := by
  cases r with
  | none => exact ok_missing (fun _ => hq _) (x rfl)
  | some v => exact ok_simple rfl rfl (fun y => (nomatch y)) (fun _ _ e => (nomatch e)) (fun t _ => hq _ t)

omit inj in
theorem ok_got {s : Shared U A P} {a : A} {v : Val U A} (hc : Correct h code strict a (h v)) (hq : ∀ t, Le s t → Q (.got a v) t) :
    Ok h code T strict J Q (.done (.got a v) : Io U A P) s :=
  ok_simple rfl rfl (fun y => (nomatch y)) (fun _ _ e => by cases e; exact hc) hq

/-- what an execution of `f` in portal `p` may answer for address `a` with packed arguments `l` -/
def Answers (h : Val U A → A) (code : FnId → List (String × Val U A) → Code U A P) (strict : Prop)
    (Q : Reply U A P → Shared U A P → Prop) (p : P) (f : FnId) (a : A) (l : List (String × A)) : Prop :=
  ∀ kw, l = kw.map (fun x => (x.1, h x.2)) →
    (∀ v, Outcome h code strict (code f kw) (.val v) → ∀ t : Shared U A P, (t.results p a).isSome = true → Q (.got a v) t) ∧
    (Outcome h code strict (code f kw) .raised → ∀ t, Q .raised t)

theorem register_ok {p : P} {a : A} {v : Val U A} {sure : Bool} {s : Shared U A P} (hc : Complete h T s p a)
    (qc : Torn h code strict a → ∀ t : Shared U A P, (t.results p a).isSome = true → Q .clash t) (cr : Correct h code strict a (h v))
    (hq : ∀ t : Shared U A P, (t.results p a).isSome = true → Q (.got a v) t) :
    Ok h code T strict J Q (register h p a v sure) s := by
  unfold register
  refine ok_put inj fun y ly iy xy => ?_
  intro z lz iz
  cases e : z.results p a with
  | some old =>
    have hk : Ok h code T strict J Q (.drop p a (.done (.got a v))) z :=
      ok_drop fun _ l1 _ => ok_got cr fun t l2 => hq t ((l1.trans l2).results p a (by rw [e]; rfl))
    show Ok h code T strict J Q (if sure then _ else _) z
    cases sure with
    | true => exact compare_ok (check := true) inj (by rw [e]; rfl) qc cr hk
    | false => exact fun b => compare_ok inj (by rw [e]; rfl) qc cr hk
  | none =>
    refine ok_setResult (hc.mono (ly.trans lz)) (by rw [lz.store _ _ _ xy]; rfl) cr fun _ _ _ hr => ?_
    exact ok_drop fun _ l1 _ => ok_got cr fun t l2 => hq t ((l1.trans l2).results p a hr)

theorem runAt_ok {p : P} {os : List P} {f : FnId} {a : A} {l : List (String × A)} {sure : Bool} {t : Shared U A P}
    (kn : strict → T → ∀ q, q = p ∨ q ∈ os) (hj : J (.run a)) (ha : a = callAddr h f l) (hc : Complete h T t p a)
    (hl : ∀ x ∈ l, Avail T t p x.2) (qm : ¬ strict → ∀ t, Q .missing t) (qc : Torn h code strict a → ∀ t : Shared U A P, (t.results p a).isSome = true → Q .clash t)
    (hq : Answers h code strict Q p f a l) : Ok h code T strict J Q (runAt h p os f a l sure) t := by
  refine requestExec_ok inj kn hc qc fun u lu iu r g => ?_
  match r with
  | false => exact ok_missing qm (g rfl)
  | true =>
    refine unpackAll_ok inj kn l iu (fun x hx => (hl x hx).mono lu) fun v lv iv r g => ?_
    match r with
    | none => exact ok_missing qm (g.1 rfl)
    | some vals =>
      have el := g.2 vals rfl
      have ea : a = callOf h f vals := by rw [ha, el]; rfl
      refine ⟨hj, ea, fun w lw iw r hr ho => ?_⟩
      rcases hr with ⟨x, rfl⟩ | rfl
      · exact register_ok inj (hc.mono (lu.trans (lv.trans lw))) qc ⟨f, vals, x, ea, rfl, ho⟩ ((hq vals el).1 x ho)
      · exact ok_simple rfl rfl (fun y => (nomatch y)) (fun _ _ e => (nomatch e)) (fun t _ => (hq vals el).2 ho t)

theorem executeAt_ok {p : P} {os : List P} {f : FnId} {a : A} {l : List (String × A)} {s : Shared U A P}
    (kn : strict → T → ∀ q, q = p ∨ q ∈ os) (hj : J (.run a)) (ha : a = callAddr h f l) (hc : Complete h T s p a)
    (hl : ∀ x ∈ l, Avail T s p x.2) (qm : ¬ strict → ∀ t, Q .missing t) (qc : Torn h code strict a → ∀ t : Shared U A P, (t.results p a).isSome = true → Q .clash t)
    (hq : Answers h code strict Q p f a l) :
    Ok h code T strict J Q (executeAt h p os f a l) s := by
  refine ready_ok inj kn hc qc fun t lt it r g => ?_
  have hrun : ∀ sure, Ok h code T strict J Q (runAt h p os f a l sure) t := fun sure =>
    runAt_ok inj kn hj ha (hc.mono lt) (fun x hx => (hl x hx).mono lt) qm qc hq
  match r with
  | none => exact ok_missing qm (g.1 rfl)
  | some true =>
    intro b
    cases b with
    | true => exact hrun true
    | false =>
      have hr := g.2 rfl
      refine readResult_ok (g.2 rfl) fun u lu iu r g => ?_
      obtain ⟨rfl, ns⟩ | ⟨v, rfl, cr⟩ := g
      · exact ok_missing qm ns
      refine ok_got cr ?_
      obtain ⟨f', kw, v', e1, e2, e3⟩ := cr
      obtain ⟨rfl, e4⟩ := callAddr_inj inj (ha.symm.trans e1)
      rw [inj e2]
      exact fun w lw => (hq kw e4).1 v' e3 w ((lu.trans lw).results p a hr)
  | some false => exact hrun false

omit inj [DecidableEq P] [DecidableEq A] in
theorem answers_any {p : P} {f : FnId} {a : A} {l : List (String × A)} (hq : ∀ r t, Q r t) : Answers h code strict Q p f a l :=
  fun _ _ => ⟨fun _ _ _ _ => hq _ _, fun _ _ => hq _ _⟩

/-- what an execution of `f` with argument values `vs` in portal `p` may answer -/
def AnswersFor (h : Val U A → A) (code : FnId → List (String × Val U A) → Code U A P) (strict : Prop)
    (Q : Reply U A P → Shared U A P → Prop) (p : P) (f : FnId) (vs : List (String × Val U A)) : Prop :=
  (∀ v, Outcome h code strict (code f vs) (.val v) → ∀ t : Shared U A P,
    (t.results p (callOf h f vs)).isSome = true → Q (.got (callOf h f vs) v) t) ∧
  (Outcome h code strict (code f vs) .raised → ∀ t, Q .raised t)

theorem execute_ok {p : P} {os : List P} {f : FnId} {kw : List (String × Arg U A P)} {s : Shared U A P}
    (i : Inv h code T strict s) (kn : strict → T → ∀ q, q = p ∨ q ∈ os) (ha : ∀ x ∈ kw, ArgOk T s x.2)
    (hj : ∀ vs, Gets h kw vs → J (.run (callOf h f vs))) (qm : ¬ strict → ∀ t, Q .missing t)
    (qc : ∀ a, AddrOf h f kw a → Torn h code strict a → ∀ t : Shared U A P, (t.results p a).isSome = true → Q .clash t)
    (hq : ∀ vs, Gets h kw vs → AnswersFor h code strict Q p f vs) :
    Ok h code T strict J Q (execute h p os f kw) s := by
  refine getAddress_ok inj i kn ha fun t lt it r g => ?_
  match r with
  | none => exact ok_missing qm (g.1 rfl)
  | some (a, l) =>
    obtain ⟨g1, g2, g3, vs, g4, rfl⟩ := g.2 a l rfl
    have ea : a = callOf h f vs := g1
    subst ea
    refine executeAt_ok inj kn (hj vs g4) g1 g2 g3 qm (qc _ ⟨vs, g4, rfl⟩) fun kw' e' => ?_
    have hk : kw' = vs := (callOf_inj inj (f := f) (g := f) (congrArg (callAddr h f) e'.symm)).2
    subst hk
    exact hq kw' g4

theorem executeAddr_ok {p : P} {os : List P} {a : A} {s : Shared U A P}
    (kn : strict → T → ∀ q, q = p ∨ q ∈ os) (hj : J (.run a)) (hc : Complete h T s p a) (qm : ¬ strict → ∀ t, Q .missing t)
    (qc : Torn h code strict a → ∀ t : Shared U A P, (t.results p a).isSome = true → Q .clash t)
    (hq : ∀ f l, a = callAddr h f l → Answers h code strict Q p f a l) :
    Ok h code T strict J Q (executeAddr h p os a) s := by
  refine getFunction_ok inj kn hc fun t lt it r g => ?_
  match r with
  | none => exact ok_missing qm (g.1 rfl)
  | some f =>
    refine getArguments_ok inj kn (hc.mono lt) fun u lu iu r g' => ?_
    match r with
    | none => exact ok_missing qm (g'.1 rfl)
    | some l =>
      obtain ⟨so, ⟨f', e'⟩, hl⟩ := g'.2 l rfl
      obtain ⟨l', e⟩ := g.2 f rfl
      have := (callAddr_inj inj (e.symm.trans e')).1
      subst this
      subst e'
      refine getAddress_asArgs_ok inj so hl fun v lv iv r hr => ?_
      obtain ⟨rfl, hc'⟩ := hr
      exact executeAt_ok inj kn hj rfl hc' (fun x hx => (hl x hx).mono lv) qm qc (hq f l rfl)

theorem work_ok {p : P} {os : List P} {a : A} {s : Shared U A P}
    (kn : strict → T → ∀ q, q = p ∨ q ∈ os) (hj : J (.run a)) (hc : Complete h T s p a) (qm : ¬ strict → ∀ t, Q .missing t)
    (qc : Torn h code strict a → ∀ t : Shared U A P, (t.results p a).isSome = true → Q .clash t)
    (hu : ∀ t : Shared U A P, (t.results p a).isSome = true → Q .unit t)
    (hq : ∀ f l, a = callAddr h f l → Answers h code strict Q p f a l) :
    Ok h code T strict J Q (work h p os a) s := by
  refine ready_ok inj kn hc qc fun t lt it r g => ?_
  match r with
  | none => exact ok_missing qm (g.1 rfl)
  | some true =>
    exact ok_simple rfl rfl (fun y => (nomatch y)) (fun _ _ e => (nomatch e)) (fun u lu => hu u (lu.results p a (g.2 rfl)))
  | some false =>
    refine getFunction_ok inj kn (hc.mono lt) fun u lu iu r g => ?_
    match r with
    | none => exact ok_missing qm (g.1 rfl)
    | some f =>
      refine getKwargs_ok inj kn (hc.mono (lt.trans lu)) fun v lv iv r g => ?_
      match r with
      | none => exact ok_missing qm (g rfl)
      | some _ => exact executeAddr_ok inj kn hj (hc.mono (lt.trans (lu.trans lv))) qm qc hq

/-- what waiting for the result of call `a` in portal `p` may answer -/
structure WaitOk (h : Val U A → A) (code : FnId → List (String × Val U A) → Code U A P) (T strict : Prop)
    (Q : Reply U A P → Shared U A P → Prop) (p : P) (os : List P) (a : A) (s : Shared U A P) : Prop where
  complete : Complete h T s p a
  knows : strict → T → ∀ q, q = p ∨ q ∈ os
  missing : ¬ strict → ∀ t, Q .missing t
  clash : Torn h code strict a → ∀ t : Shared U A P, (t.results p a).isSome = true → Q .clash t
  got : ∀ v, Correct h code strict a (h v) → ∀ t : Shared U A P, (t.results p a).isSome = true → Q (.got a v) t

omit inj in
theorem WaitOk.mono {p : P} {os : List P} {a : A} {s t : Shared U A P} (l : Le s t) (w : WaitOk h code T strict Q p os a s) :
    WaitOk h code T strict Q p os a t := ⟨w.complete.mono l, w.knows, w.missing, w.clash, w.got⟩

omit inj in
theorem WaitOk.ok {p : P} {os : List P} {a : A} {s : Shared U A P} (w : WaitOk h code T strict Q p os a s)
    (hj : J (.await p a)) : Ok h code T strict J Q (.wait p os a) s := ⟨hj, w.complete, w.knows, w.missing, w.clash, w.got⟩

theorem round_ok {p : P} {os : List P} {a : A} {again : Io U A P} {s : Shared U A P} (w : WaitOk h code T strict Q p os a s)
    (hg : ∀ t, Le s t → Ok h code T strict J Q again t) : Ok h code T strict J Q (round h p os a again) s := by
  refine ready_ok inj w.knows w.complete w.clash fun t lt it r g => ?_
  match r with
  | none => exact ok_missing w.missing (g.1 rfl)
  | some true =>
    have hr := g.2 rfl
    refine readResult_ok hr fun u lu iu r g => ?_
    obtain ⟨rfl, ns⟩ | ⟨v, rfl, cr⟩ := g
    · exact ok_missing w.missing ns
    exact ok_drop fun x lx _ => ok_got cr fun y ly => w.got v cr y ((lu.trans (lx.trans ly)).results p a hr)
  | some false => exact hg t lt

theorem poll_ok {p : P} {os : List P} {a : A} (ht : ∀ t, Q .timeout t) (n : Nat) :
    ∀ {s : Shared U A P}, WaitOk h code T strict Q p os a s → Ok h code T strict J Q (poll h p os a n) s := by
  induction n with
  | zero => exact fun _ => ok_simple rfl rfl (fun y => (nomatch y)) (fun _ _ e => (nomatch e)) (fun t _ => ht t)
  | succ n ih => exact fun w => round_ok inj w fun t lt => ih (w.mono lt)

theorem pollLoop_ok {p : P} {os : List P} {a : A} {rounds : Option Nat} (ht : rounds ≠ none → ∀ t, Q .timeout t)
    (hj : rounds = none → J (.await p a)) {s : Shared U A P} (w : WaitOk h code T strict Q p os a s) : Ok h code T strict J Q (pollLoop h p os a rounds) s := by
  cases rounds with
  | none => exact w.ok (hj rfl)
  | some n => exact poll_ok inj (ht nofun) n w

theorem mkAddrs_ok {p : P} {os : List P} {f : FnId} (kn : strict → T → ∀ q, q = p ∨ q ∈ os)
    (kws : List (List (String × Arg U A P))) : ∀ {k : Option (List A) → Io U A P} {s : Shared U A P}, Inv h code T strict s →
    (∀ kw ∈ kws, ∀ x ∈ kw, ArgOk T s x.2) →
    (KOk h code T strict J Q s k fun r t => (r = none → ¬ strict) ∧ ∀ l, r = some l →
      (∀ a ∈ l, Complete h T t p a) ∧ List.Forall₂ (AddrOf h f) kws l) →
    Ok h code T strict J Q (mkAddrs h p os f kws k) s := by
  induction kws with
  | nil =>
    intro k s i ha hk
    exact hk s (.refl s) i _ ⟨fun y => (nomatch y), fun l y => by cases y; exact ⟨fun a h => (nomatch h), .nil⟩⟩
  | cons kw kws ih =>
    intro k s i ha hk
    unfold mkAddrs
    refine mkAddr_ok inj kn (ha kw (.head _)) fun t lt it r g => ?_
    cases r with
    | none => exact hk t lt it _ ⟨fun _ => g.1 rfl, fun b y => (nomatch y)⟩
    | some a =>
      refine ih it (fun kw hkw x hx => ?_) fun u lu iu r g' => ?_
      · have := ha kw (.tail _ hkw) x hx
        obtain ⟨n, x⟩ := x
        cases x with
        | raw u => trivial
        | addr home b => exact Avail.mono lt this
      · cases r with
        | none => exact hk u (lt.trans lu) iu _ ⟨fun _ => g'.1 rfl, fun b y => (nomatch y)⟩
        | some m =>
          refine hk u (lt.trans lu) iu _ ⟨fun y => (nomatch y), fun b y => ?_⟩
          cases y
          refine ⟨fun b hb => ?_, .cons (g.2 a rfl).2 (g'.2 m rfl).2⟩
          cases hb with
          | head => exact (g.2 a rfl).1.mono lu
          | tail _ hb => exact (g'.2 m rfl).1 b hb

theorem requestAll_ok {p : P} {os : List P} (kn : strict → T → ∀ q, q = p ∨ q ∈ os) (l : List A) :
    ∀ {k : Bool → Io U A P} {s : Shared U A P}, Inv h code T strict s → (∀ a ∈ l, Complete h T s p a) →
    (∀ a ∈ l, Torn h code strict a → ∀ t : Shared U A P, (t.results p a).isSome = true → Q .clash t) →
    (KOk h code T strict J Q s k fun r _ => (r = false → ¬ strict)) →
    Ok h code T strict J Q (requestAll h p os k l) s := by
  induction l with
  | nil => exact fun {k s} i _ _ hk => hk s (.refl s) i _ fun y => (nomatch y)
  | cons a l ih =>
    intro k s i hl qc hk
    refine requestExec_ok inj kn (hl a (.head _)) (qc a (.head _)) fun t lt it r g => ?_
    cases r with
    | false => exact hk t lt it _ fun _ => g rfl
    | true => exact ih it (fun b hb => (hl b (.tail _ hb)).mono lt) (fun b hb => qc b (.tail _ hb)) fun u lu => hk u (lt.trans lu)

omit inj [DecidableEq P] [DecidableEq A] in
theorem forall₂_left {γ δ : Type} {R : γ → δ → Prop} {l : List γ} {m : List δ} (x : List.Forall₂ R l m) :
    ∀ b ∈ m, ∃ a ∈ l, R a b := by
  induction x with
  | nil => exact fun b hb => (nomatch hb)
  | cons r _ ih =>
    intro b hb
    cases hb with
    | head => exact ⟨_, .head _, r⟩
    | tail _ hb => obtain ⟨a, ha, hr⟩ := ih b hb; exact ⟨a, .tail _ ha, hr⟩

omit inj [DecidableEq P] [DecidableEq A] in
theorem Avail.move {s : Shared U A P} {p q : P} {a : A} (z : T) (x : Avail T s q a) : Avail T s p a :=
  match x with
  | .inl y => .inr ⟨z, q, y⟩
  | .inr y => .inr y

omit inj [DecidableEq P] [DecidableEq A] in
theorem heldV {vs : List (P × A)} {s : Shared U A P} (hv : ∀ p a, (p, a) ∈ vs → Avail T s p a) {p : P} {a : A}
    (x : Held T vs p a) : Avail T s p a := by
  rcases x with x | ⟨z, q, x⟩
  · exact hv p a x
  · exact (hv q a x).move z

omit inj [DecidableEq P] [DecidableEq A] in
theorem heldR {rs : List (P × A)} {s : Shared U A P} (hr : ∀ p a, (p, a) ∈ rs → Complete h T s p a) {p : P} {a : A}
    (x : Held T rs p a) : Complete h T s p a := by
  rcases x with x | ⟨z, q, x⟩
  · exact hr p a x
  · obtain ⟨f, l, e, so, h1, h2, h3, h4⟩ := hr q a x
    exact ⟨f, l, e, so, h1.move z, h2.move z, h3.move z, fun x hx => (h4 x hx).move z⟩

omit inj in
/-- a complete call is a call with argument values -/
theorem Complete.call {s : Shared U A P} (i : Inv h code T strict s) {p : P} {a : A} (x : Complete h T s p a) :
    ∃ f vs, a = callOf h f vs := by
  obtain ⟨f, l, e, _, _, _, _, h4⟩ := x
  have key : ∀ l : List (String × A), (∀ x ∈ l, Avail T s p x.2) → ∃ vs : List (String × Val U A), l = vs.map fun x => (x.1, h x.2) := by
    intro l
    induction l with
    | nil => exact fun _ => ⟨[], rfl⟩
    | cons y l ih =>
      intro hl
      obtain ⟨vs, rfl⟩ := ih fun x hx => hl x (.tail _ hx)
      obtain ⟨v, hv⟩ := (hl y (.head _)).val i
      exact ⟨(y.1, v) :: vs, by simp [← hv]⟩
  obtain ⟨vs, rfl⟩ := key l h4
  exact ⟨f, vs, e⟩

omit inj [DecidableEq P] [DecidableEq A] in
theorem argsOk {vs rs : List (P × A)} {kw : List (String × Arg U A P)} {s : Shared U A P}
    (hv : ∀ p a, (p, a) ∈ vs → Avail T s p a) (hr : ∀ p a, (p, a) ∈ rs → Complete h T s p a)
    (x : ArgsKnown T vs rs kw) : ∀ y ∈ kw, ArgOk T s y.2 := by
  intro y hy
  obtain ⟨n, y⟩ := y
  cases y with
  | raw u => trivial
  | addr home a =>
    rcases x n home a hy with z | z
    · exact heldV hv z
    · obtain ⟨f, l, _, _, h1, _⟩ := heldR hr z
      exact h1

/-- every legal operation respects the invariant, and replies what evaluating it can give -/
theorem prog_ok {knows : P → List P → Prop} (kn : strict → T → KnowsAll knows) {vs rs : List (P × A)} {s : Shared U A P}
    (i : Inv h code T strict s) (hv : ∀ p a, (p, a) ∈ vs → Avail T s p a)
    (hr : ∀ p a, (p, a) ∈ rs → Complete h T s p a) (c : Cmd U A P)
    (hl : Legal T knows vs rs c) (hj : ∀ f vs, Runs h c f vs → J (.run (callOf h f vs)))
    (hw : ∀ p os a, c = .getResult p os a none → J (.await p a))
    (hq : ∀ r, Answer h code strict c r → ∀ t, Q r t) :
    Ok h code T strict J Q (prog h c) s := by
  have qm : ¬ strict → ∀ t, Q .missing t := fun hs => hq _ (.missing _ hs)
  have qc : ∀ {p : P} (a : A), Concerns h c a → Torn h code strict a → ∀ t : Shared U A P, (t.results p a).isSome = true → Q .clash t := by
    rintro _ a hca ⟨f, vs, v, w, rfl, x, x', ne⟩ t _
    exact hq _ (.clash _ f vs v w hca x x' ne) t
  have simple : ∀ {s : Shared U A P} {r : Reply U A P} (_ : Says h c r), r.vaddrs = [] → r.raddrs = [] → r ≠ .missing →
      (∀ a v, r ≠ .got a v) → Ok h code T strict J Q (.done r : Io U A P) s :=
    fun hs a b c d => ok_simple a b c (fun x v e => absurd e (d x v)) (fun t _ => hq _ (.other _ _ hs) t)
  have miss : ∀ {s : Shared U A P}, ¬ strict → Ok h code T strict J Q (.done .missing : Io U A P) s := ok_missing qm
  cases c with
  | store p v =>
    refine ok_put inj fun t lt it x => ⟨fun q a ha => ?_, fun _ _ ha => (nomatch ha), fun _ y => (nomatch y),
      fun _ _ e => (nomatch e), fun t _ => hq _ (.other _ (.addr p (h v)) rfl) t⟩
    obtain ⟨rfl, rfl⟩ : q = p ∧ a = h v := by simpa [Reply.vaddrs] using ha
    exact .of_eq x
  | fetch p os a =>
    have ha : Avail T s p a := by
      rcases hl.2 with z | z
      · exact heldV hv z
      · obtain ⟨f, l, _, _, h1, _⟩ := heldR hr z
        exact h1
    refine valueGet_ok inj (find (fun x z => kn x z p os hl.1) ha) fun t lt it r g => ?_
    cases r with
    | none => exact miss (g.1 rfl)
    | some v => exact simple (r := .val v) (g.2 v rfl).1 rfl rfl nofun nofun
  | getAddress p os f kw =>
    unfold prog
    refine getAddress_ok inj i (fun x z => kn x z p os hl.1) (argsOk hv hr hl.2) fun t lt it r g => ?_
    match r with
    | none => exact miss (g.1 rfl)
    | some (a, l) =>
      obtain ⟨g1, g2, g3, vs, g4, rfl⟩ := g.2 a l rfl
      refine ⟨fun _ _ hb => (nomatch hb), fun q b hb => ?_, fun _ y => (nomatch y), fun _ _ e => (nomatch e),
        fun t _ => hq _ (.other _ (.call p _) ⟨vs, g4, g1⟩) t⟩
      obtain ⟨rfl, rfl⟩ : q = p ∧ b = a := by simpa [Reply.raddrs] using hb
      exact g2
  | swarm p os f kw =>
    unfold prog
    refine getAddress_ok inj i (fun x z => kn x z p os hl.1) (argsOk hv hr hl.2) fun t lt it r g => ?_
    match r with
    | none => exact miss (g.1 rfl)
    | some (a, l) =>
      obtain ⟨g1, hc, g3, vs, g4, rfl⟩ := g.2 a l rfl
      refine requestExec_ok inj (fun x z => kn x z p os hl.1) hc (qc a ⟨vs, g4, g1⟩) fun u lu iu r g => ?_
      cases r with
      | false => exact miss (g rfl)
      | true =>
        refine ⟨fun _ _ hb => (nomatch hb), fun q b hb => ?_, fun _ y => (nomatch y), fun _ _ e => (nomatch e),
          fun t _ => hq _ (.other _ (.call p _) ⟨vs, g4, g1⟩) t⟩
        obtain ⟨rfl, rfl⟩ : q = p ∧ b = a := by simpa [Reply.raddrs] using hb
        exact hc.mono lu
  | swarmList p os f kws shuffle =>
    unfold prog
    refine mkAddrs_ok inj (fun x z => kn x z p os hl.1) kws i (fun kw hkw => argsOk hv hr (hl.2.1 kw hkw)) fun t lt it r g => ?_
    match r with
    | none => exact miss (g.1 rfl)
    | some l =>
      obtain ⟨hc, hf⟩ := g.2 l rfl
      refine requestAll_ok inj (fun x z => kn x z p os hl.1) _ it (fun a ha => hc a ((hl.2.2 l).mem_iff.1 ha))
        (fun a ha => qc a (forall₂_left hf a ((hl.2.2 l).mem_iff.1 ha))) fun u lu iu r g => ?_
      cases r with
      | false => exact miss (g rfl)
      | true =>
        refine ⟨fun _ _ hb => (nomatch hb), fun q b hb => ?_, fun _ y => (nomatch y), fun _ _ e => (nomatch e),
          fun t _ => hq _ (.other _ (.calls p l) hf) t⟩
        obtain ⟨c, hc', e⟩ := List.mem_map.1 (show (q, b) ∈ l.map fun a => (p, a) from hb)
        cases e
        exact (hc b hc').mono lu
  | execute p os f kw =>
    exact execute_ok inj i (fun x z => kn x z p os hl.1) (argsOk hv hr hl.2) (fun vs g => hj f vs ⟨rfl, g⟩) qm (fun a g => qc a g) fun vs g =>
      ⟨fun v hv t _ => hq _ (.call _ f vs v ⟨rfl, g⟩ hv) t, fun hv t => hq _ (.raised _ f vs ⟨rfl, g⟩ hv) t⟩
  | executeAddr p os a =>
    obtain ⟨f, vs, rfl⟩ := Complete.call i (heldR hr hl.2)
    refine executeAddr_ok inj (fun x z => kn x z p os hl.1) (hj f vs rfl) (heldR hr hl.2) qm (qc _ rfl) fun f' l e kw' e' => ?_
    subst e'
    obtain ⟨rfl, rfl⟩ := callOf_inj inj (e : callOf h f vs = callOf h f' kw')
    exact ⟨fun v hv t _ => hq _ (.call _ f vs v rfl hv) t, fun hv t => hq _ (.raised _ f vs rfl hv) t⟩
  | requestAddr p os a =>
    unfold prog
    refine requestExec_ok inj (fun x z => kn x z p os hl.1) (heldR hr hl.2) (qc _ rfl) fun u lu iu r g => ?_
    cases r with
    | false => exact miss (g rfl)
    | true => exact simple trivial rfl rfl (fun y => (nomatch y)) (fun _ _ e => (nomatch e))
  | dropAddr p a => exact ok_drop fun _ _ _ => simple trivial rfl rfl (fun y => (nomatch y)) (fun _ _ e => (nomatch e))
  | isReady p os a =>
    unfold prog
    refine ready_ok inj (fun x z => kn x z p os hl.1) (heldR hr hl.2) (qc _ rfl) fun u lu iu r g => ?_
    cases r with
    | none => exact miss (g.1 rfl)
    | some b => exact simple trivial rfl rfl (fun y => (nomatch y)) (fun _ _ e => (nomatch e))
  | getResult p os a n =>
    have got : ∀ v, Correct h code strict a (h v) → ∀ t, Q (.got a v) t := by
      rintro v ⟨f, vs, w, rfl, e, ho⟩ t
      exact hq _ (.call _ f vs v rfl (inj e ▸ ho)) t
    unfold prog
    refine ready_ok inj (fun x z => kn x z p os hl.1) (heldR hr hl.2) (qc _ rfl) fun t lt it r g => ?_
    match r with
    | none => exact miss (g.1 rfl)
    | some true =>
      refine readResult_ok (g.2 rfl) fun u lu iu r g => ?_
      obtain ⟨rfl, ns⟩ | ⟨v, rfl, cr⟩ := g
      · exact miss ns
      exact ok_got cr (fun t _ => got v cr t)
    | some false =>
      refine requestExec_ok inj (fun x z => kn x z p os hl.1) ((heldR hr hl.2).mono lt) (qc _ rfl) fun u lu iu r g => ?_
      cases r with
      | false => exact miss (g rfl)
      | true =>
        exact pollLoop_ok inj (fun e => hq _ (.other _ _ e)) (fun e => hw p os a (by rw [e]))
          ⟨(heldR hr hl.2).mono (lt.trans lu), fun x z => kn x z p os hl.1, qm, qc _ rfl, fun v cr t _ => got v cr t⟩
  | lookAt p os a =>
    unfold prog
    refine getFunction_ok inj (fun x z => kn x z p os hl.1) (heldR hr hl.2) fun u lu iu r g => ?_
    match r with
    | none => exact miss (g.1 rfl)
    | some f =>
      refine getKwargs_ok inj (fun x z => kn x z p os hl.1) ((heldR hr hl.2).mono lu) fun v lv iv r g => ?_
      cases r with
      | none => exact miss (g rfl)
      | some _ => exact simple trivial rfl rfl (fun y => (nomatch y)) (fun _ _ e => (nomatch e))

end

/-! ### replies do not depend on the portals used -/

omit [DecidableEq P] [DecidableEq A] in
theorem Answer.of_at {c : Cmd U A P} {p : P} {os : List P} {r : Reply U A P} (x : Answer h code strict (c.at p os) r) :
    Answer h code strict c r := by
  cases x with
  | call f vs v hc x => exact .call _ f vs v (by cases c <;> exact hc) x
  | raised f vs hc x => exact .raised _ f vs (by cases c <;> exact hc) x
  | other _ hs => exact .other _ _ (by cases c <;> cases r <;> exact hs)
  | missing hs => exact .missing _ hs
  | clash f vs v w hc x x' ne => exact .clash _ f vs v w (by cases c <;> exact hc) x x' ne

omit [DecidableEq P] [DecidableEq A] in
theorem Answer.outcome {c : Cmd U A P} {next : Reply U A P → Code U A P} {r r' : Reply U A P} (x : Answer h code strict c r)
    (y : Outcome h code strict (next r) r') : Outcome h code strict (.op c next) r' := by
  cases x with
  | call f vs v hc x => exact .call _ _ f vs v _ hc x y
  | raised f vs hc x => exact .callRaise _ _ f vs _ hc x y
  | other _ hs => exact .other _ _ _ _ hs y
  | missing hs => exact .missing _ _ _ hs y
  | clash f vs v w hc x x' ne => exact .clash _ _ f vs v w _ hc x x' ne y

omit [DecidableEq P] [DecidableEq A] in
theorem Outcome.split {c : Cmd U A P} {next : Reply U A P → Code U A P} {r : Reply U A P}
    (x : Outcome h code strict (.op c next) r) : ∃ r0, Answer h code strict c r0 ∧ Outcome h code strict (next r0) r := by
  cases x with
  | call _ _ f vs v _ hc x y => exact ⟨_, .call _ f vs v hc x, y⟩
  | callRaise _ _ f vs _ hc x y => exact ⟨_, .raised _ f vs hc x, y⟩
  | other _ _ r0 _ hs y => exact ⟨_, .other _ _ hs, y⟩
  | missing _ _ _ hs y => exact ⟨_, .missing _ hs, y⟩
  | clash _ _ f vs v w _ hc x x' ne y => exact ⟨_, .clash _ f vs v w hc x x' ne, y⟩

/-! ### processes -/

/-- addresses a worker may run code for, in the operation that is not part of other code -/
def Mine (job : Option A) (st : List (Frame U A P)) : Need A P → Prop
  | .run a => st = [] → ∀ b, job = some b → a = b
  | .await _ _ => True

/-- All that waits goes on as it should.  `StackOk true st Q`: the operation running on top of `st` should give a reply
in `Q`; `StackOk false st G`: the code running on top of `st` should have its outcome in `G`. -/
inductive StackOk (h : Val U A → A) (code : FnId → List (String × Val U A) → Code U A P) (T strict : Prop)
    (job : Option A) (s : Shared U A P) : Bool → List (Frame U A P) → (Reply U A P → Prop) → Prop
  | script : StackOk h code T strict job s false [] (fun _ => True)
  | worker : StackOk h code T strict job s true [] (fun r => r = .clash → ∃ a, job = some a ∧ Torn h code strict a)
  | inOp (k st Q G) (x : StackOk h code T strict job s true st Q)
      (hk : ∀ t, Le s t → Inv h code T strict t → ∀ r, BodyReply r → G r → Ok h code T strict (Mine job st) (fun r _ => Q r) (k r) t) :
      StackOk h code T strict job s false (.inOp k :: st) G
  | inCode (c next st G Q) (x : StackOk h code T strict job s false st G)
      (ha : ∀ r, Q r → Answer h code strict c r) (hn : ∀ r, Q r → ∀ r', Outcome h code strict (next r) r' → G r')
      (hm : ¬ strict → Q .missing) : StackOk h code T strict job s true (.inCode c next :: st) Q

theorem StackOk.mono {job : Option A} {s t : Shared U A P} (l : Le s t) {b : Bool} {st : List (Frame U A P)}
    {Q : Reply U A P → Prop} (x : StackOk h code T strict job s b st Q) : StackOk h code T strict job t b st Q := by
  induction x with
  | script => exact .script
  | worker => exact .worker
  | inOp k st Q G x hk ih => exact .inOp k st Q G ih fun u lu => hk u (l.trans lu)
  | inCode c next st G Q x ha hn hm ih => exact .inCode c next st G Q ih ha hn hm

def ProcOk (h : Val U A → A) (code : FnId → List (String × Val U A) → Code U A P) (T strict : Prop)
    (s : Shared U A P) (x : Proc U A P) : Prop :=
  match x.mode with
  | .idle => True
  | .io y => ∃ Q, StackOk h code T strict x.job s true x.stack Q ∧ Ok h code T strict (Mine x.job x.stack) (fun r _ => Q r) y s
  | .code c => ∃ G, StackOk h code T strict x.job s false x.stack G ∧ ∀ r, Outcome h code strict c r → G r

theorem ProcOk.mono {s t : Shared U A P} (l : Le s t) {x : Proc U A P} (o : ProcOk h code T strict s x) :
    ProcOk h code T strict t x := by
  obtain ⟨m, st, job⟩ := x
  cases m with
  | idle => trivial
  | code c => obtain ⟨G, h1, h2⟩ := o; exact ⟨G, h1.mono l, h2⟩
  | io y => obtain ⟨Q, h1, h2⟩ := o; exact ⟨Q, h1.mono l, h2.mono l⟩

/-- invariant of the whole system -/
structure AllOk (h : Val U A → A) (code : FnId → List (String × Val U A) → Code U A P) (T strict : Prop)
    (s : State U A P) : Prop where
  inv : Inv h code T strict s.sh
  vals : ∀ p a, (p, a) ∈ s.vaddrs → Avail T s.sh p a
  calls : ∀ p a, (p, a) ∈ s.raddrs → Complete h T s.sh p a
  procs : ∀ i, ProcOk h code T strict s.sh (s.procs i)

theorem allOk_init : AllOk h code T strict (init : State U A P) :=
  ⟨⟨fun _ _ _ x => (nomatch x), fun _ _ x => (nomatch x), fun _ _ _ x => (nomatch x)⟩,
    fun _ _ x => (nomatch x), fun _ _ x => (nomatch x), fun _ => trivial⟩

/-- process `i` becomes `x`, the dictionaries grow -/
theorem AllOk.upd {s : State U A P} (o : AllOk h code T strict s) (i : Nat) {x : Proc U A P} {t : Shared U A P}
    (l : Le s.sh t) (it : Inv h code T strict t) (hx : ProcOk h code T strict t x) :
    AllOk h code T strict { s with sh := t, procs := Function.update s.procs i x } := by
  refine ⟨it, fun p a ha => (o.vals p a ha).mono l, fun p a ha => (o.calls p a ha).mono l, fun j => ?_⟩
  by_cases e : j = i
  · subst e; simpa using hx
  · simpa [e] using (o.procs j).mono l

theorem AllOk.set {s : State U A P} (o : AllOk h code T strict s) (i : Nat) {x : Proc U A P}
    (hx : ProcOk h code T strict s.sh x) : AllOk h code T strict (s.setProc i x) := o.upd i (.refl _) o.inv hx

theorem AllOk.io {s : State U A P} (o : AllOk h code T strict s) (i : Nat) {x : Io U A P}
    (hm : (s.procs i).mode = .io x) :
    ∃ Q, StackOk h code T strict (s.procs i).job s.sh true (s.procs i).stack Q ∧
      Ok h code T strict (Mine (s.procs i).job (s.procs i).stack) (fun r _ => Q r) x s.sh := by
  have := o.procs i
  unfold ProcOk at this
  rw [hm] at this
  exact this

theorem AllOk.atCode {s : State U A P} (o : AllOk h code T strict s) (i : Nat) {c : Code U A P}
    (hm : (s.procs i).mode = .code c) :
    ∃ G, StackOk h code T strict (s.procs i).job s.sh false (s.procs i).stack G ∧
      ∀ r, Outcome h code strict c r → G r := by
  have := o.procs i
  unfold ProcOk at this
  rw [hm] at this
  exact this

theorem act_ok (inj : Function.Injective h)
    {knows : P → List P → Prop} (kn : strict → T → KnowsAll knows) {i : Nat} {s t : State U A P}
    (o : AllOk h code T strict s) (x : Act h code T knows i s t) : AllOk h code T strict t := by
  have stay : ∀ {y : Io U A P} {u : Shared U A P} (Q : Reply U A P → Prop), Le s.sh u → Inv h code T strict u →
      StackOk h code T strict (s.procs i).job s.sh true (s.procs i).stack Q →
      Ok h code T strict (Mine (s.procs i).job (s.procs i).stack) (fun r _ => Q r) y u → AllOk h code T strict (s.next u i (.io y)) :=
    fun Q l iu hst hy => o.upd i l iu ⟨Q, hst.mono l, hy⟩
  cases x with
  | script c hm => exact o.set i ⟨_, .script, fun _ _ => trivial⟩
  | found p os a hm hk hr =>
    exact o.set i ⟨_, .worker, work_ok inj (fun y z => kn y z p os hk) (fun _ b e => by cases e; rfl)
      (o.inv.requests p a hr) (fun _ _ e => (nomatch e)) (fun z _ _ _ => ⟨a, rfl, z⟩) (fun _ _ e => (nomatch e))
      (fun _ _ _ _ _ => ⟨fun _ _ _ _ e => (nomatch e), fun _ _ e => (nomatch e)⟩)⟩
  | op c next p os hm hl =>
    obtain ⟨G, h1, h2⟩ := o.atCode i hm
    let Q : Reply U A P → Prop := fun r => Answer h code strict (c.at p os) r ∧ ∀ r', Outcome h code strict (next r) r' → G r'
    refine o.set i ⟨Q, .inCode _ next _ G Q h1 (fun r hr => hr.1) (fun r hr => hr.2)
      fun ns => ⟨.missing _ ns, fun r' x => h2 _ (.missing _ _ _ ns x)⟩, ?_⟩
    refine prog_ok inj kn o.inv o.vals o.calls _ hl (fun f vs _ e => (nomatch e)) (fun _ _ _ _ => trivial) fun r hr _ =>
      ⟨hr, fun r' x => h2 _ ?_⟩
    exact (hr.of_at).outcome x
  | done r c next st job hm =>
    obtain ⟨Q, h1, hr⟩ := o.io i (x := .done r) (by rw [hm])
    rw [hm] at h1
    have hr : ReplyOk h code T strict (fun r _ => Q r) s.sh r := hr
    cases h1 with
    | inCode _ _ _ G _ h1 _ hn =>
    have := o.set i (x := ⟨.code (next r), st, job⟩) ⟨G, h1, hn r (hr.ask _ (.refl _))⟩
    refine ⟨this.inv, fun p a ha => ?_, fun p a ha => ?_, this.procs⟩
    · rcases List.mem_append.1 ha with ha | ha
      · exact hr.vals p a ha
      · exact o.vals p a ha
    · rcases List.mem_append.1 ha with ha | ha
      · exact hr.calls p a ha
      · exact o.calls p a ha
  | workDone r job hm => exact o.set i trivial
  | put p a v k hm =>
    obtain ⟨Q, h1, ha, hx⟩ := o.io i hm
    subst ha
    exact stay Q (le_put o.inv inj) (inv_put o.inv inj) h1 (hx s.sh (.refl _) o.inv)
  | load p a k hm =>
    obtain ⟨Q, h1, hx⟩ := o.io i hm
    exact stay Q (.refl _) o.inv h1 (hx s.sh (.refl _) o.inv).1
  | result p a k hm =>
    obtain ⟨Q, h1, hx⟩ := o.io i hm
    exact stay Q (.refl _) o.inv h1 (hx s.sh (.refl _) o.inv)
  | setResult p a r k hm =>
    obtain ⟨Q, h1, hx⟩ := o.io i hm
    obtain ⟨h2, h3, h4, h5⟩ := hx s.sh (.refl _) o.inv
    exact stay Q (le_setResult ..) (inv_setResult o.inv h2 h3 h4) h1 h5
  | request p a k hm =>
    obtain ⟨Q, h1, hx⟩ := o.io i hm
    obtain ⟨h2, h3⟩ := hx s.sh (.refl _) o.inv
    exact stay Q (le_setRequest ..) (inv_setRequest o.inv fun _ => h2) h1 h3
  | drop p a k hm =>
    obtain ⟨Q, h1, hx⟩ := o.io i hm
    exact stay Q (le_setRequest ..) (inv_setRequest o.inv fun e => (nomatch e)) h1 (hx s.sh (.refl _) o.inv)
  | wait p os a hm =>
    obtain ⟨Q, h1, w0, w1, w2, w3, w4, w5⟩ := o.io i hm
    have w : WaitOk h code T strict (fun r _ => Q r) p os a s.sh := ⟨w1, w2, w3, w4, w5⟩
    exact stay Q (.refl _) o.inv h1 (round_ok inj w fun t lt => (w.mono lt).ok w0)
  | toss k b hm =>
    obtain ⟨Q, h1, hx⟩ := o.io i hm
    exact stay Q (.refl _) o.inv h1 (hx b)
  | body a f kw k hm =>
    obtain ⟨Q, h1, _, _, h4⟩ := o.io i hm
    exact o.set i ⟨_, .inOp k _ Q (fun r => Outcome h code strict (code f kw) r) h1 fun t l it r hb hg => h4 t l it r hb hg,
      fun r hr => hr⟩
  | ret v k st job hm =>
    obtain ⟨G, h1, h2⟩ := o.atCode i (c := .ret v) (by rw [hm])
    rw [hm] at h1
    cases h1 with
    | inOp _ _ Q _ h1 hk =>
    exact o.set i ⟨Q, h1, hk s.sh (.refl _) o.inv _ (.inl ⟨v, rfl⟩) (h2 _ (.ret v))⟩
  | raise k st job hm =>
    obtain ⟨G, h1, h2⟩ := o.atCode i (c := .raise) (by rw [hm])
    rw [hm] at h1
    cases h1 with
    | inOp _ _ Q _ h1 hk =>
    exact o.set i ⟨Q, h1, hk s.sh (.refl _) o.inv _ (.inr rfl) (h2 _ .raise)⟩

theorem step_ok (inj : Function.Injective h)
    {knows : P → List P → Prop} (kn : strict → T → KnowsAll knows) {i : Nat} {s t : State U A P}
    (o : AllOk h code T strict s) (x : Step h code T knows i s t) : AllOk h code T strict t := by
  cases x with
  | act _ x => exact act_ok inj kn o x
  | crash => exact o.set i trivial

theorem steps_ok (inj : Function.Injective h)
    {knows : P → List P → Prop} (kn : strict → T → KnowsAll knows) {s t : State U A P}
    (o : AllOk h code T strict s) (x : Steps h code T knows s t) : AllOk h code T strict t := by
  induction x with
  | refl => exact o
  | step i x y ih => exact step_ok inj kn ih y

theorem Reachable.ok (inj : Function.Injective h)
    {knows : P → List P → Prop} (kn : strict → T → KnowsAll knows) {s : State U A P}
    (x : Reachable h code T knows s) : AllOk h code T strict s := steps_ok inj kn allOk_init x

/-- the stores only grow -/
theorem act_le (inj : Function.Injective h)
    {knows : P → List P → Prop} {i : Nat} {s t : State U A P} (o : AllOk h code T strict s) (x : Act h code T knows i s t) :
    Le s.sh t.sh := by
  cases x with
  | put p a v k hm =>
    obtain ⟨Q, h1, ha, _⟩ := o.io i hm
    subst ha
    exact le_put o.inv inj
  | setResult p a r k hm => exact le_setResult ..
  | request p a k hm => exact le_setRequest ..
  | drop p a k hm => exact le_setRequest ..
  | script c hm => exact .refl _
  | found p os a hm hk hr => exact .refl _
  | op c next p os hm hl => exact .refl _
  | done r c next st job hm => exact .refl _
  | workDone r job hm => exact .refl _
  | load p a k hm => exact .refl _
  | result p a k hm => exact .refl _
  | body a f kw k hm => exact .refl _
  | wait p os a hm => exact .refl _
  | toss k b hm => exact .refl _
  | ret v k st job hm => exact .refl _
  | raise k st job hm => exact .refl _

theorem step_le (inj : Function.Injective h)
    {knows : P → List P → Prop} {i : Nat} {s t : State U A P} (o : AllOk h code T strict s) (x : Step h code T knows i s t) :
    Le s.sh t.sh := by
  cases x with
  | act _ x => exact act_le inj o x
  | crash => exact .refl _

end Pyth.Parts
