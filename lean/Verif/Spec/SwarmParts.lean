import Verif.Model.SwarmParts
/-!
# What it means that a call is completely stored (specification for C88)
-/
namespace Pyth.Parts
open Pyth.Pure (Val FnId sortKw)

variable {U A P : Type}

/-- a value is stored under `a` in portal `p` or, if address objects travel, in some portal -/
def Avail (travel : Prop) (s : Shared U A P) (p : P) (a : A) : Prop :=
  (s.store p a).isSome = true ∨ (travel ∧ ∃ q, (s.store q a).isSome = true)

/-- the names of the arguments are in order -/
def SortedNames (l : List (String × A)) : Prop := l.Pairwise fun x y => x.1 ≤ y.1

/-- `a` is the address of a call, and its signature, function, packed arguments and every argument value are stored:
in portal `p` or, if address objects travel, each in some portal -/
def Complete (h : Val U A → A) (travel : Prop) (s : Shared U A P) (p : P) (a : A) : Prop :=
  ∃ f l, a = callAddr h f l ∧ SortedNames l ∧ Avail travel s p a ∧ Avail travel s p (h (.fn f)) ∧
    Avail travel s p (h (.args l)) ∧ ∀ x ∈ l, Avail travel s p x.2

/-- the same, spelled out: everything is in portal `p`, and it is what it should be -/
def CompleteIn (h : Val U A → A) (s : Shared U A P) (p : P) (a : A) : Prop :=
  ∃ f l, a = callAddr h f l ∧ SortedNames l ∧ s.store p a = some (.sig f (h (.fn f)) (h (.args l))) ∧
    s.store p (h (.fn f)) = some (.fn f) ∧ s.store p (h (.args l)) = some (.args l) ∧
    ∀ x ∈ l, ∃ v, s.store p x.2 = some v ∧ x.2 = h v

/-- plain values as arguments -/
def raws (us : List (String × U)) : List (String × Arg U A P) := us.map fun x => (x.1, .raw x.2)

/-- the values a function gets for plain arguments -/
def vals (us : List (String × U)) : List (String × Val U A) := (sortKw us).map fun x => (x.1, .user x.2)

/-- the address of the call of `f` with argument values `kw` -/
def callOf (h : Val U A → A) (f : FnId) (kw : List (String × Val U A)) : A :=
  callAddr h f (kw.map fun x => (x.1, h x.2))

/-- the value an argument stands for: the value itself, or the value with that address -/
def ArgIs (h : Val U A → A) : Arg U A P → Val U A → Prop
  | .raw u, v => v = .user u
  | .addr _ a, v => a = h v

/-- names and values that arguments stand for -/
def ArgsAre (h : Val U A → A) : List (String × Arg U A P) → List (String × Val U A) → Prop
  | [], [] => True
  | (n, x) :: kw, (m, v) :: vs => n = m ∧ ArgIs h x v ∧ ArgsAre h kw vs
  | _, _ => False

/-- a function called with arguments `kw` gets the values `vs` -/
def Gets (h : Val U A → A) (kw : List (String × Arg U A P)) (vs : List (String × Val U A)) : Prop :=
  ArgsAre h (sortKw kw) vs

/-- operation `c` is to return the result of the call of `f` with argument values `vs` -/
def Calls (h : Val U A → A) : Cmd U A P → FnId → List (String × Val U A) → Prop
  | .execute _ _ g kw, f, vs => g = f ∧ Gets h kw vs
  | .executeAddr _ _ a, f, vs => a = callOf h f vs
  | .getResult _ _ a _, f, vs => a = callOf h f vs
  | _, _, _ => False

/-- operation `c` may run the call of `f` with argument values `vs`, and so raise its exceptions -/
def Runs (h : Val U A → A) : Cmd U A P → FnId → List (String × Val U A) → Prop
  | .execute _ _ g kw, f, vs => g = f ∧ Gets h kw vs
  | .executeAddr _ _ a, f, vs => a = callOf h f vs
  | _, _, _ => False

/-- `a` is the address of a call of `f` with arguments `kw` -/
def AddrOf (h : Val U A → A) (f : FnId) (kw : List (String × Arg U A P)) (a : A) : Prop :=
  ∃ vs, Gets h kw vs ∧ a = callOf h f vs

/-- the replies to an operation that neither are results of calls nor come from running them: addresses of values and
calls (in whatever portal), values of addresses, nothing, whether a result is ready (this depends on what others do), or that
the waiting time is over -/
def Says (h : Val U A → A) : Cmd U A P → Reply U A P → Prop
  | .store _ v, .addr _ a => a = h v
  | .fetch _ _ a, .val v => a = h v
  | .getAddress _ _ f kw, .call _ a => AddrOf h f kw a
  | .swarm _ _ f kw, .call _ a => AddrOf h f kw a
  | .swarmList _ _ f kws _, .calls _ l => List.Forall₂ (AddrOf h f) kws l
  | .requestAddr _ _ _, .unit => True
  | .dropAddr _ _, .unit => True
  | .lookAt _ _ _, .unit => True
  | .isReady _ _ _, .flag _ => True
  | .getResult _ _ _ rounds, .timeout => rounds ≠ none
  | _, _ => False

/-- operation `c` deals with the result of the call with address `a` -/
def Concerns (h : Val U A → A) : Cmd U A P → A → Prop
  | .swarm _ _ f kw, a => AddrOf h f kw a
  | .swarmList _ _ f kws _, a => ∃ kw ∈ kws, AddrOf h f kw a
  | .execute _ _ f kw, a => AddrOf h f kw a
  | .executeAddr _ _ b, a => a = b
  | .requestAddr _ _ b, a => a = b
  | .isReady _ _ b, a => a = b
  | .getResult _ _ b _, a => a = b
  | _, _ => False

/-- Possible outcomes of code when it is simply evaluated, without portals, processes, or memory of earlier
calls: the result of a call is the value of evaluating it, recursively.  Nothing is missing if `sure`.  A consistency check fails
only if the call in question has two different values. -/
inductive Outcome (h : Val U A → A) (code : FnId → List (String × Val U A) → Code U A P) (sure : Prop) :
    Code U A P → Reply U A P → Prop
  | ret (v) : Outcome h code sure (.ret v) (.val v)
  | raise : Outcome h code sure .raise .raised
  | call (c next f vs v r) (e : Calls h c f vs) (x : Outcome h code sure (code f vs) (.val v))
      (y : Outcome h code sure (next (.got (callOf h f vs) v)) r) : Outcome h code sure (.op c next) r
  | callRaise (c next f vs r) (e : Runs h c f vs) (x : Outcome h code sure (code f vs) .raised)
      (y : Outcome h code sure (next .raised) r) : Outcome h code sure (.op c next) r
  | other (c next r0 r) (e : Says h c r0) (y : Outcome h code sure (next r0) r) : Outcome h code sure (.op c next) r
  | missing (c next r) (hs : ¬ sure) (y : Outcome h code sure (next .missing) r) : Outcome h code sure (.op c next) r
  | clash (c next f vs v w r) (e : Concerns h c (callOf h f vs)) (x : Outcome h code sure (code f vs) (.val v))
      (x' : Outcome h code sure (code f vs) (.val w)) (ne : v ≠ w) (y : Outcome h code sure (next .clash) r) :
      Outcome h code sure (.op c next) r

/-- the replies that the evaluation of an operation can give -/
inductive Answer (h : Val U A → A) (code : FnId → List (String × Val U A) → Code U A P) (sure : Prop) :
    Cmd U A P → Reply U A P → Prop
  | call (c f vs v) (e : Calls h c f vs) (x : Outcome h code sure (code f vs) (.val v)) :
      Answer h code sure c (.got (callOf h f vs) v)
  | raised (c f vs) (e : Runs h c f vs) (x : Outcome h code sure (code f vs) .raised) : Answer h code sure c .raised
  | other (c r) (e : Says h c r) : Answer h code sure c r
  | missing (c) (hs : ¬ sure) : Answer h code sure c .missing
  | clash (c f vs v w) (e : Concerns h c (callOf h f vs)) (x : Outcome h code sure (code f vs) (.val v))
      (x' : Outcome h code sure (code f vs) (.val w)) (ne : v ≠ w) : Answer h code sure c .clash

/-- `r` is the address of a value that evaluating the call with address `a` can return -/
def Correct (h : Val U A → A) (code : FnId → List (String × Val U A) → Code U A P) (sure : Prop) (a r : A) : Prop :=
  ∃ f kw v, a = callOf h f kw ∧ r = h v ∧ Outcome h code sure (code f kw) (.val v)

/-- functions are pure: evaluating a call gives at most one value, whatever the replies that depend on others -/
def OneValue (h : Val U A → A) (code : FnId → List (String × Val U A) → Code U A P) : Prop :=
  ∀ f kw v w, Outcome h code True (code f kw) (.val v) → Outcome h code True (code f kw) (.val w) → v = w

/-! ### code that does not depend on what others do

A sufficient condition for functions to be pure, which covers code that starts calls elsewhere and waits for their results
(`addr = f.swarm(…); … ; addr.get()`). -/

/-- an argument without the portal of an address object -/
def Arg.text : Arg U A P → U ⊕ A
  | .raw u => .inl u
  | .addr _ a => .inr a

/-- the same arguments, up to portals -/
def ArgsLike (kw kv : List (String × Arg U A P)) : Prop :=
  kw.map (fun x => (x.1, x.2.text)) = kv.map (fun x => (x.1, x.2.text))

/-- the same operation, up to portals, the order of requests and the length of timeouts -/
def Cmd.Like : Cmd U A P → Cmd U A P → Prop
  | .store _ v, .store _ w => v = w
  | .fetch _ _ a, .fetch _ _ b => a = b
  | .getAddress _ _ f kw, .getAddress _ _ g kv => f = g ∧ ArgsLike kw kv
  | .swarm _ _ f kw, .swarm _ _ g kv => f = g ∧ ArgsLike kw kv
  | .swarmList _ _ f kws _, .swarmList _ _ g kvs _ => f = g ∧ List.Forall₂ ArgsLike kws kvs
  | .execute _ _ f kw, .execute _ _ g kv => f = g ∧ ArgsLike kw kv
  | .executeAddr _ _ a, .executeAddr _ _ b => a = b
  | .requestAddr _ _ a, .requestAddr _ _ b => a = b
  | .dropAddr _ a, .dropAddr _ b => a = b
  | .isReady _ _ a, .isReady _ _ b => a = b
  | .getResult _ _ a n, .getResult _ _ b m => a = b ∧ (n = none ↔ m = none)
  | .lookAt _ _ a, .lookAt _ _ b => a = b
  | _, _ => False

/-- the same reply, up to portals and to what depends on others -/
def Reply.Like : Reply U A P → Reply U A P → Prop
  | .unit, .unit => True
  | .flag _, .flag _ => True
  | .val v, .val w => v = w
  | .got a v, .got b w => a = b ∧ v = w
  | .addr _ a, .addr _ b => a = b
  | .call _ a, .call _ b => a = b
  | .calls _ l, .calls _ m => l = m
  | .raised, .raised => True
  | _, _ => False

/-- this kind of reply fits the operation -/
def Fits : Cmd U A P → Reply U A P → Prop
  | .store _ _, .addr _ _ => True
  | .fetch _ _ _, .val _ => True
  | .getAddress _ _ _ _, .call _ _ => True
  | .swarm _ _ _ _, .call _ _ => True
  | .swarmList _ _ _ _ _, .calls _ _ => True
  | .execute _ _ _ _, .got _ _ => True
  | .execute _ _ _ _, .raised => True
  | .executeAddr _ _ _, .got _ _ => True
  | .executeAddr _ _ _, .raised => True
  | .requestAddr _ _ _, .unit => True
  | .dropAddr _ _, .unit => True
  | .isReady _ _ _, .flag _ => True
  | .getResult _ _ _ _, .got _ _ => True
  | .lookAt _ _ _, .unit => True
  | _, _ => False

/-- Two pieces of code do the same, whatever the portals in which they work and whatever others do.  If exceptions are
caught in the code, `addr.get()` is used without timeouts; if they are not caught (`uncaught`), with or without. -/
inductive Alike (uncaught : Prop) : Code U A P → Code U A P → Prop
  | ret (v) : Alike uncaught (.ret v) (.ret v)
  | raise : Alike uncaught .raise .raise
  | op (c c' next next') (e : c.Like c') (no : ¬ uncaught → ∀ p os a n, c ≠ .getResult p os a (some n))
      (exc : uncaught → (∀ r, r = .raised ∨ r = .timeout → next r = .raise ∧ next' r = .raise))
      (y : ∀ r r', Fits c r → Fits c' r' → r.Like r' → Alike uncaught (next r) (next' r')) :
      Alike uncaught (.op c next) (.op c' next')

/-- code the result of which does not depend on portals, nor on what others do -/
def Steady (uncaught : Prop) (c : Code U A P) : Prop := Alike uncaught c c

/-- the code only calls functions with plain arguments -/
inductive CallsOnly : Code U A P → Prop
  | ret (v) : CallsOnly (.ret v)
  | raise : CallsOnly .raise
  | call (p os f us next) (y : ∀ r, CallsOnly (next r)) : CallsOnly (.op (.execute p os f (raws us)) next)

variable [DecidableEq P] [DecidableEq A]

/-- reachable: any number of steps of any processes, with crashes, starting from empty portals -/
def Reachable (h : Val U A → A) (code : FnId → List (String × Val U A) → Code U A P)
    (travel : Prop) (knows : P → List P → Prop) (s : State U A P) : Prop := Steps h code travel knows init s

/-- every process knows all portals -/
def KnowsAll (knows : P → List P → Prop) : Prop := ∀ p os, knows p os → ∀ q, q = p ∨ q ∈ os

end Pyth.Parts
