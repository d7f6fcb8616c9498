import Verif.Proofs.SwarmParts
/-!
# Outcomes are unique when code does not depend on what others do
-/
namespace Pyth.Parts
open Pyth.Pure (Val FnId sortKw)

variable {U A P : Type} {h : Val U A → A} {code : FnId → List (String × Val U A) → Code U A P}

theorem raws_inj {us vs : List (String × U)} (e : (raws us : List (String × Arg U A P)) = raws vs) : us = vs := by
  refine List.map_injective_iff.2 (fun x y hxy => ?_) e
  injection hxy with h1 h2
  injection h2 with h2
  exact Prod.ext h1 h2

/-- the values of plain arguments -/
theorem argsAre_raws (us : List (String × U)) :
    ArgsAre h (raws us : List (String × Arg U A P)) (us.map fun x => (x.1, .user x.2)) := by
  induction us with
  | nil => trivial
  | cons x us ih => exact ⟨rfl, rfl, ih⟩

theorem gets_raws (us : List (String × U)) : Gets h (raws us : List (String × Arg U A P)) (vals us) := by
  unfold Gets vals
  rw [sortKw_raws]
  exact argsAre_raws _

section
variable (inj : Function.Injective h)
include inj

theorem argsAre_unique {kw kv : List (String × Arg U A P)} : ∀ {vs ws : List (String × Val U A)}, ArgsLike kw kv →
    ArgsAre h kw vs → ArgsAre h kv ws → vs = ws := by
  induction kw generalizing kv with
  | nil =>
    intro vs ws l x y
    cases kv with
    | cons z kv => cases l
    | nil =>
      cases vs with
      | cons z vs => exact x.elim
      | nil =>
        cases ws with
        | cons z vs => exact y.elim
        | nil => rfl
  | cons k kw ih =>
    intro vs ws l x y
    obtain ⟨n, a⟩ := k
    cases kv with
    | nil => cases l
    | cons k kv =>
      obtain ⟨m, b⟩ := k
      injection l with l1 l2
      injection l1 with l3 l4
      cases vs with
      | nil => exact x.elim
      | cons v vs =>
        cases ws with
        | nil => exact y.elim
        | cons w ws =>
          obtain ⟨x1, x2, x3⟩ := x
          obtain ⟨y1, y2, y3⟩ := y
          rw [ih l2 x3 y3]
          congr 1
          refine Prod.ext (x1.symm.trans (l3.trans y1)) ?_
          cases a with
          | raw u =>
            cases b with
            | raw w => injection l4 with l4; exact (x2.trans (by rw [l4])).trans y2.symm
            | addr _ _ => cases l4
          | addr _ a =>
            cases b with
            | raw w => cases l4
            | addr _ b =>
              injection l4 with l4
              exact inj (x2.symm.trans (l4.trans y2))

theorem gets_unique {kw kv : List (String × Arg U A P)} {vs ws : List (String × Val U A)} (l : ArgsLike kw kv)
    (x : Gets h kw vs) (y : Gets h kv ws) : vs = ws := by
  have key : ∀ kw : List (String × Arg U A P), (sortKw kw).map (fun x => (x.1, x.2.text)) =
      sortKw (kw.map fun x => (x.1, x.2.text)) := by
    intro kw
    unfold sortKw
    exact List.map_insertionSort _ _ _ kw fun _ _ _ _ => Iff.rfl
  refine argsAre_unique inj (kw := sortKw kw) (kv := sortKw kv) ?_ x y
  unfold ArgsLike
  rw [key, key, l]

theorem addrOf_unique {f : FnId} {kw kv : List (String × Arg U A P)} {a b : A} (l : ArgsLike kw kv)
    (x : AddrOf h f kw a) (y : AddrOf h f kv b) : a = b := by
  obtain ⟨vs, x, rfl⟩ := x
  obtain ⟨ws, y, rfl⟩ := y
  rw [gets_unique inj l x y]

theorem addrsOf_unique {f : FnId} {kws : List (List (String × Arg U A P))} :
    ∀ {kvs : List (List (String × Arg U A P))} {l m : List A}, List.Forall₂ ArgsLike kws kvs →
    List.Forall₂ (AddrOf h f) kws l → List.Forall₂ (AddrOf h f) kvs m → l = m := by
  induction kws with
  | nil => intro kvs l m x y z; cases x; cases y; cases z; rfl
  | cons kw kws ih =>
    intro kvs l m x y z
    cases x with
    | cons x1 x2 =>
      cases y with
      | cons y1 y2 =>
        cases z with
        | cons z1 z2 => rw [addrOf_unique inj x1 y1 z1, ih x2 y2 z2]

theorem gets_raws_iff {us : List (String × U)} {vs : List (String × Val U A)}
    (x : Gets h (raws us : List (String × Arg U A P)) vs) : vs = vals us :=
  gets_unique inj (P := P) rfl x (gets_raws us)

theorem calls_unique {c c' : Cmd U A P} {f f' : FnId} {vs vs' : List (String × Val U A)} (l : c.Like c')
    (x : Calls h c f vs) (y : Calls h c' f' vs') : f' = f ∧ vs' = vs := by
  cases c <;> cases c' <;> first | exact l.elim | exact x.elim | skip
  case execute.execute => exact ⟨y.1.symm.trans (l.1.symm.trans x.1), (gets_unique inj l.2 x.2 y.2).symm⟩
  case executeAddr.executeAddr => exact callOf_inj inj (y.symm.trans ((l : _ = _).symm.trans x))
  case getResult.getResult => exact callOf_inj inj (y.symm.trans (l.1.symm.trans x))

omit inj in
theorem Runs.calls {c : Cmd U A P} {f : FnId} {vs : List (String × Val U A)} (x : Runs h c f vs) : Calls h c f vs := by
  cases c <;> first | exact x | exact x.elim

omit inj in
/-- an operation that returns a result of a call says nothing else, except that the time is over -/
theorem Calls.says {c c' : Cmd U A P} {f : FnId} {vs : List (String × Val U A)} {r : Reply U A P} (l : c.Like c')
    (x : Calls h c f vs) (y : Says h c' r) : r = .timeout ∧ ∃ p os a n, c = .getResult p os a (some n) := by
  cases c <;> cases c' <;> first | exact l.elim | exact x.elim | skip
  case execute.execute => cases r <;> exact y.elim
  case executeAddr.executeAddr => cases r <;> exact y.elim
  case getResult.getResult p os a n p' os' b m =>
    cases r <;> first | exact y.elim | skip
    refine ⟨rfl, p, os, a, ?_⟩
    cases n with
    | none => exact absurd (l.2.1 rfl) y
    | some n => exact ⟨n, rfl⟩

/-- replies that do not depend on calls -/
theorem says_like {c c' : Cmd U A P} {r r' : Reply U A P} (l : c.Like c') (x : Says h c r) (y : Says h c' r') :
    r.Like r' ∧ Fits c r ∧ Fits c' r' ∨ r = .timeout ∧ r' = .timeout := by
  cases c <;> cases c' <;> first | exact l.elim | skip
  all_goals cases r <;> first | exact x.elim | skip
  all_goals cases r' <;> first | exact y.elim | skip
  case store.store.addr.addr => exact .inl ⟨x.trans ((congrArg h l).trans (Eq.symm y)), trivial, trivial⟩
  case fetch.fetch.val.val => exact .inl ⟨inj (x.symm.trans ((l : _ = _).trans y)), trivial, trivial⟩
  case getAddress.getAddress.call.call => obtain ⟨rfl, l⟩ := l; exact .inl ⟨addrOf_unique inj l x y, trivial, trivial⟩
  case swarm.swarm.call.call => obtain ⟨rfl, l⟩ := l; exact .inl ⟨addrOf_unique inj l x y, trivial, trivial⟩
  case swarmList.swarmList.calls.calls => obtain ⟨rfl, l⟩ := l; exact .inl ⟨addrsOf_unique inj l x y, trivial, trivial⟩
  case getResult.getResult.timeout.timeout => exact .inr ⟨rfl, rfl⟩
  all_goals exact .inl ⟨trivial, trivial, trivial⟩

omit inj in
theorem Calls.fits {c : Cmd U A P} {f : FnId} {vs : List (String × Val U A)} (x : Calls h c f vs) (a : A) (v : Val U A) :
    Fits c (.got a v) := by
  cases c <;> first | exact x.elim | exact trivial

omit inj in
theorem Runs.fits {c : Cmd U A P} {f : FnId} {vs : List (String × Val U A)} (x : Runs h c f vs) : Fits c .raised := by
  cases c <;> first | exact x.elim | exact trivial

/-- outcomes that do not involve failing consistency checks -/
inductive Plain (h : Val U A → A) (code : FnId → List (String × Val U A) → Code U A P) : Code U A P → Reply U A P → Prop
  | ret (v) : Plain h code (.ret v) (.val v)
  | raise : Plain h code .raise .raised
  | call (c next f vs v r) (e : Calls h c f vs) (x : Plain h code (code f vs) (.val v))
      (y : Plain h code (next (.got (callOf h f vs) v)) r) : Plain h code (.op c next) r
  | callRaise (c next f vs r) (e : Runs h c f vs) (x : Plain h code (code f vs) .raised)
      (y : Plain h code (next .raised) r) : Plain h code (.op c next) r
  | other (c next r0 r) (e : Says h c r0) (y : Plain h code (next r0) r) : Plain h code (.op c next) r

omit inj in
theorem Plain.of_raise {r : Reply U A P} (x : Plain h code .raise r) : r = .raised := by cases x; rfl

omit inj in
/-- if calls have one plain value, consistency checks do not fail -/
theorem Outcome.plain (one : ∀ f kw v w, Plain h code (code f kw) (.val v) → Plain h code (code f kw) (.val w) → v = w)
    {c : Code U A P} {r : Reply U A P} (x : Outcome h code True c r) : Plain h code c r := by
  induction x with
  | ret v => exact .ret v
  | raise => exact .raise
  | call c next f vs v r e x y ih1 ih2 => exact .call _ _ _ _ _ _ e ih1 ih2
  | callRaise c next f vs r e x y ih1 ih2 => exact .callRaise _ _ _ _ _ e ih1 ih2
  | other c next r0 r e y ih => exact .other _ _ _ _ e ih
  | missing c next r hs y ih => exact absurd trivial hs
  | clash c next f vs v w r e x x' ne y ih1 ih2 ih3 => exact absurd (one _ _ _ _ ih1 ih2) ne

/-- how the outcomes of two pieces of code that do the same are related -/
def Agree (uncaught : Prop) (r r' : Reply U A P) : Prop := r = r' ∨ (uncaught ∧ (r = .raised ∨ r' = .raised))

/-- code that does not depend on what others do has one outcome; if there are timeouts, one value -/
theorem plain_unique {uncaught : Prop} (det : ∀ f kw, Steady uncaught (code f kw)) {c : Code U A P} {r : Reply U A P}
    (x : Plain h code c r) : ∀ {c'}, Alike uncaught c c' → ∀ r', Plain h code c' r' → Agree uncaught r r' := by
  induction x with
  | ret v => intro c' l r' y; cases l; cases y; exact .inl rfl
  | raise => intro c' l r' y; cases l; cases y; exact .inl rfl
  | call c next f vs v r e x y ih1 ih2 =>
    intro c' l r' z
    cases l with
    | op _ c' _ next' l no exc hn =>
    cases z with
    | call _ _ f' vs' v' _ e' x' h2 =>
      obtain ⟨rfl, rfl⟩ := calls_unique inj l e e'
      rcases ih1 (det _ _) _ x' with h3 | ⟨_, h3 | h3⟩
      · injection h3 with h3
        subst h3
        exact ih2 (hn _ _ (e.fits _ _) (e'.fits _ _) ⟨rfl, rfl⟩) _ h2
      · cases h3
      · cases h3
    | callRaise _ _ f' vs' _ e' x' h2 =>
      obtain ⟨rfl, rfl⟩ := calls_unique inj l e e'.calls
      rcases ih1 (det _ _) _ x' with h3 | ⟨u, _⟩
      · cases h3
      · rw [(exc u _ (.inl rfl)).2] at h2
        exact .inr ⟨u, .inr h2.of_raise⟩
    | other _ _ _ _ hs h2 =>
      obtain ⟨rfl, p, os, a, n, rfl⟩ := Calls.says l e hs
      by_cases u : uncaught
      · rw [(exc u _ (.inr rfl)).2] at h2
        exact .inr ⟨u, .inr h2.of_raise⟩
      · exact absurd rfl (no u p os a n)
  | callRaise c next f vs r e x y ih1 ih2 =>
    intro c' l r' z
    cases l with
    | op _ c' _ next' l no exc hn =>
    by_cases u : uncaught
    · rw [(exc u _ (.inl rfl)).1] at y
      exact .inr ⟨u, .inl y.of_raise⟩
    cases z with
    | call _ _ f' vs' v' _ e' x' h2 =>
      obtain ⟨rfl, rfl⟩ := calls_unique inj l e.calls e'
      rcases ih1 (det _ _) _ x' with h3 | ⟨u', _⟩
      · cases h3
      · exact absurd u' u
    | callRaise _ _ f' vs' _ e' x' h2 => exact ih2 (hn _ _ e.fits e'.fits trivial) _ h2
    | other _ _ _ _ hs h2 =>
      obtain ⟨rfl, p, os, a, n, rfl⟩ := Calls.says l e.calls hs
      exact absurd rfl (no u p os a n)
  | other c next r0 r e y ih =>
    intro c' l r' z
    cases l with
    | op _ c' _ next' l no exc hn =>
    have late : ∀ {p os a n}, r0 = .timeout → c = .getResult p os a n → Agree uncaught r r' := by
      rintro p os a n rfl rfl
      by_cases u : uncaught
      · rw [(exc u _ (.inr rfl)).1] at y
        exact .inr ⟨u, .inl y.of_raise⟩
      · cases n with
        | none => exact absurd rfl e
        | some n => exact absurd rfl (no u p os a n)
    cases z with
    | call _ _ f' vs' v' _ e' x' h2 =>
      have : ∃ p os a n, c = .getResult p os a n ∧ r0 = .timeout := by
        cases c <;> cases c' <;> first | exact l.elim | exact e'.elim | skip
        case execute.execute => cases r0 <;> exact e.elim
        case executeAddr.executeAddr => cases r0 <;> exact e.elim
        case getResult.getResult => cases r0 <;> first | exact e.elim | exact ⟨_, _, _, _, rfl, rfl⟩
      obtain ⟨p, os, a, n, e1, e2⟩ := this
      exact late e2 e1
    | callRaise _ _ f' vs' _ e' x' h2 =>
      cases c <;> cases c' <;> first | exact l.elim | exact e'.elim | skip
      case execute.execute => cases r0 <;> exact e.elim
      case executeAddr.executeAddr => cases r0 <;> exact e.elim
    | other _ _ _ _ hs h2 =>
      rcases says_like inj l e hs with ⟨h3, h4, h5⟩ | ⟨h3, h4⟩
      · exact ih (hn _ _ h4 h5 h3) _ h2
      · refine (?_ : ∃ p os a n, c = .getResult p os a n).elim fun p ⟨os, a, n, e1⟩ => late h3 e1
        subst h3
        cases c <;> first | exact e.elim | exact ⟨_, _, _, _, rfl⟩

/-- code that does not depend on what others do has one outcome; if there are timeouts, one value -/
theorem alike_unique {uncaught : Prop} (det : ∀ f kw, Steady uncaught (code f kw)) {c : Code U A P} {r : Reply U A P}
    (x : Outcome h code True c r) {c' : Code U A P} (l : Alike uncaught c c') (r' : Reply U A P)
    (y : Outcome h code True c' r') : Agree uncaught r r' := by
  have one : ∀ f kw v w, Plain h code (code f kw) (.val v) → Plain h code (code f kw) (.val w) → v = w := by
    intro f kw v w x y
    rcases plain_unique inj det x (det f kw) _ y with e | ⟨_, e | e⟩
    · injection e
    · cases e
    · cases e
  exact plain_unique inj det (x.plain one) l _ (y.plain one)

theorem steady_oneValue {uncaught : Prop} (det : ∀ f kw, Steady uncaught (code f kw)) : OneValue h code := by
  intro f kw v w x y
  rcases alike_unique inj det x (det f kw) _ y with e | ⟨_, e | e⟩
  · injection e
  · cases e
  · cases e

/-- without timeouts: one outcome -/
theorem outcome_unique (det : ∀ f kw, Steady False (code f kw)) {c : Code U A P} {r : Reply U A P}
    (x : Outcome h code True c r) (hc : Steady False c) (r' : Reply U A P) (y : Outcome h code True c r') : r' = r := by
  rcases alike_unique inj det x hc _ y with e | ⟨e, _⟩
  · exact e.symm
  · exact e.elim

omit inj in
theorem CallsOnly.steady {c : Code U A P} (x : CallsOnly c) : Steady False c := by
  induction x with
  | ret v => exact .ret v
  | raise => exact .raise
  | call p os f us next y ih =>
    refine .op _ _ _ _ ⟨rfl, rfl⟩ (fun _ => nofun) (fun u => u.elim) fun r r' h1 h2 l => ?_
    have : r = r' := by
      cases r <;> first | exact h1.elim | skip
      all_goals cases r' <;> first | exact h2.elim | exact l.elim | skip
      · rw [l.1, l.2]
      · rfl
    subst this
    exact ih r

theorem correct_unique (pure : OneValue h code) {a r r' : A}
    (x : Correct h code True a r) (y : Correct h code True a r') : r = r' := by
  obtain ⟨f, kw, v, e1, e2, e3⟩ := x
  obtain ⟨f', kw', v', e1', e2', e3'⟩ := y
  obtain ⟨rfl, rfl⟩ := callOf_inj inj (e1.symm.trans e1')
  rw [e2, e2', pure _ _ _ _ e3 e3']

end
end Pyth.Parts
