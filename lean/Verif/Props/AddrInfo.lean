import Verif.Proofs.AddrInfo
import Verif.Examples.Pure
/-!
# What the address of a call tells (C82), addresses of results as arguments (C83) and as results (C84)
-/
set_option linter.unusedSectionVars false
set_option linter.unusedVariables false
namespace Pyth.Pure
open Pyth.World Pyth.Portal
open Pyth.ValueAddr (IsAddr HoldsVal)

variable {U A : Type} [DecidableEq U] [DecidableEq A] {addrOf : Val U A → A}

theorem Untouched.of_peek {s s' : PWorld U A} (h : Peek s s') : Untouched s s' := by
  obtain ⟨ra, e⟩ := h
  refine ⟨⟨?_, ?_, ?_, ?_, ?_, ?_, ?_⟩, ?_, ?_⟩ <;> rw [e]

theorem described {K : Accept U} (hinj : Function.Injective addrOf) (info : FnInfo) {s : PWorld U A} (hs : Good addrOf K s)
    {r : Nat} {f : FnId} {vals : List (String × U)} {p : PortalId} (hr : RD addrOf s r f vals p) (qs : List Ask) (q : Ask) :
    ∃ x s', ask info r q (askAll info r qs s) = (.ok x, s') ∧
      Right addrOf info s' f vals (s.ext.requests p (callKey addrOf f vals)) q x ∧ Untouched s s' := by
  obtain ⟨h1, h2, h3⟩ := askAll_spec hinj info hs hr qs
  have hreq : (askAll info r qs s).ext.requests p (callKey addrOf f vals) = s.ext.requests p (callKey addrOf f vals) := by
    rw [(Untouched.of_peek h3).requests]
  obtain ⟨x, s', e, h4, _⟩ := (sp_ask (K := K) (c := none) hinj info r f vals p _ q).total h1 ⟨h2, hreq⟩
  have h5 := peek_ask info r q (askAll info r qs s)
  rw [e] at h5
  exact ⟨x, s', e, h4.1, .of_peek (peekFree.trans h3 h5)⟩

/-- **C82** The address of a call describes the call.  After any later history, and after any other questions,
every question asked of the address succeeds and is answered with the function, its name, source and island, and the
argument values of the call, sorted by name; asking executes nothing and stores or removes no result and no request. -/
theorem C82_address_describes_call (hinj : Function.Injective addrOf) (prog : FnId → Fn U) {s : PWorld U A}
    (hs : Reached addrOf prog s) (p : PortalId) (f : FnId) {kw : Kw U} {vals : List (String × U)} (hkw : DenKw addrOf s kw vals)
    (info : FnInfo) :
    ∃ r s1, getAddress addrOf p f kw s = (.ok r, s1) ∧
      ∀ later, LegalAll addrOf prog (anything U) s1 later → ∀ (qs : List Ask) (q : Ask),
        let s2 := session addrOf prog s1 later
        ∃ x s3, ask info r q (askAll info r qs s2) = (.ok x, s3) ∧
          Right addrOf info s3 f (sortKw vals) (s2.ext.requests p (keyOf addrOf f vals)) q x ∧ Untouched s2 s3 := by
  have hg := hs.good hinj
  obtain ⟨r, s1, e, hr, hb⟩ := (sp_getAddress_rd (K := anything U) (c := none) hinj p f kw vals).total hg hkw
  refine ⟨r, s1, e, fun later hl qs q => ?_⟩
  have hg1 := hb.good hg
  have hk := session_keep hinj (mode_any prog) later hg1 hl (.inl trivial)
  exact described hinj info hk.1 (session_rd hinj (mode_any prog) later hg1 hl (.inl trivial) hr) qs q

/-- **C82** The same for an address that is rebuilt from its text by anybody - another process, a background worker -
provided the portal holds the call, which is so once an address of the call was made there (`C82_call_is_stored`). -/
theorem C82_rebuilt_address_describes_call (hinj : Function.Injective addrOf) (prog : FnId → Fn U) {s : PWorld U A}
    (hs : Reached addrOf prog s) (p : PortalId) (f : FnId) {vals : List (String × U)}
    (hrun : Runnable addrOf s p (keyOf addrOf f vals) (sortKw vals)) (info : FnInfo) :
    ∃ r s1, rFromKey p (keyOf addrOf f vals) s = (.ok r, s1) ∧
      ∀ (qs : List Ask) (q : Ask), ∃ x s3, ask info r q (askAll info r qs s1) = (.ok x, s3) ∧
        Right addrOf info s3 f (sortKw vals) (s.ext.requests p (keyOf addrOf f vals)) q x ∧ Untouched s s3 := by
  have hg := hs.good hinj
  have hstep := step_fromKey hg p (keyOf addrOf f vals) ⟨texts addrOf (sortKw vals), rfl,
    (denKw_sort (denKw_raw (addrOf := addrOf) s vals)).match.sorted.2 (sortKw_sorted _)⟩
  refine ⟨_, _, rfl, fun qs q => ?_⟩
  have hb : Backed addrOf s p f (sortKw vals) := ⟨hrun.2.1, hrun.2.2.1, hrun.2.2.2.1, hrun.2.2.2.2⟩
  have hr := rd_fromKey hb
  obtain ⟨x, s3, e, h1, h2⟩ := described hinj info hstep.good hr qs q
  exact ⟨x, s3, e, h1, ⟨⟨h2.ran.attempts, h2.ran.outputs, h2.ran.results, h2.ran.crashes, h2.ran.screen, h2.ran.runs, h2.ran.trace⟩,
    h2.results, h2.requests⟩⟩

/-- **C82** Making the address of a call stores everything needed to describe it, for good. -/
theorem C82_call_is_stored (hinj : Function.Injective addrOf) (prog : FnId → Fn U) {s : PWorld U A}
    (hs : Reached addrOf prog s) (p : PortalId) (f : FnId) {kw : Kw U} {vals : List (String × U)} (hkw : DenKw addrOf s kw vals) :
    ∃ r s1, getAddress addrOf p f kw s = (.ok r, s1) ∧
      ∀ later, LegalAll addrOf prog (anything U) s1 later →
        Runnable addrOf (session addrOf prog s1 later) p (keyOf addrOf f vals) (sortKw vals) := by
  have hg := hs.good hinj
  obtain ⟨r, s1, e, hr, hb⟩ := (sp_getAddress_rd (K := anything U) (c := none) hinj p f kw vals).total hg hkw
  refine ⟨r, s1, e, fun later hl => ?_⟩
  obtain ⟨o, _, _, _, _, h1, h2, h3, h4⟩ := session_rd hinj (mode_any prog) later (hb.good hg) hl (.inl trivial) hr
  exact ⟨rfl, h1, h2, h3, h4⟩

/-! ### C83 -/

/-- **C83** The address of a result as an argument stands for the *call*, not for its result.  Whatever is stored,
and in whatever portal the argument is packed, it becomes the address of the call's signature; the value handed to
the callee - at once or after any later history - is that signature object, never the result of the call. -/
theorem C83_result_address_argument (hinj : Function.Injective addrOf) (prog : FnId → Fn U) {s : PWorld U A}
    (hs : Reached addrOf prog s) (p : PortalId) (f : FnId) {kw : Kw U} {vals : List (String × U)} (hkw : DenKw addrOf s kw vals)
    (q : PortalId) :
    ∃ r s1, getAddress addrOf p f kw s = (.ok r, s1) ∧
      ∀ later, LegalAll addrOf prog (anything U) s1 later →
        ∃ i s2, packR q r (session addrOf prog s1 later) = (.ok i, s2) ∧ IsAddr s2 i (keyOf addrOf f vals).2 (some q) ∧
          ∀ later', LegalAll addrOf prog (anything U) s2 later' →
            ∃ s3, ValueAddr.get i (session addrOf prog s2 later') = (.ok (sigVal addrOf f (sortKw vals)), s3) := by
  have hg := hs.good hinj
  obtain ⟨r, s1, e, hr, hb⟩ := (sp_getAddress_rd (K := anything U) (c := none) hinj p f kw vals).total hg hkw
  refine ⟨r, s1, e, fun later hl => ?_⟩
  have hg1 := hb.good hg
  have hk := session_keep hinj (mode_any prog) later hg1 hl (.inl trivial)
  obtain ⟨i, s2, e2, ⟨h1, h2⟩, hb2⟩ := (sp_packR (K := anything U) (c := none) hinj r f (sortKw vals) p q).total hk.1
    (session_rd hinj (mode_any prog) later hg1 hl (.inl trivial) hr)
  refine ⟨i, s2, e2, h1, fun later' hl' => ?_⟩
  have hg2 := hb2.good hk.1
  have hk2 := session_keep hinj (mode_any prog) later' hg2 hl' (.inl trivial)
  obtain ⟨v, s3, e3, h3, _⟩ := (sp_get_held (K := anything U) (c := none) hinj i (sigVal addrOf f (sortKw vals)) q).total hk2.1
    ⟨h1.grow hk2.2.grow, hk2.2.grow.store _ _ _ h2⟩
  rw [h3] at e3
  exact ⟨s3, e3⟩

/-- **C83** In particular the argument is not the result, also if the result is known: the claim "the address of a
result, passed as an argument, stands for the result" is false for every call. -/
theorem C83_never_the_result (hinj : Function.Injective addrOf) (prog : FnId → Fn U) {s : PWorld U A}
    (hs : Reached addrOf prog s) (p : PortalId) (f : FnId) {kw : Kw U} {vals : List (String × U)} (hkw : DenKw addrOf s kw vals)
    {u : U} (hu : Stored addrOf s p f vals u) (q : PortalId) :
    ∃ r s1 i s2 v s3, getAddress addrOf p f kw s = (.ok r, s1) ∧ packR q r s1 = (.ok i, s2) ∧
      ValueAddr.get i s2 = (.ok v, s3) ∧ v ≠ .user u ∧ ∀ u', v ≠ .user u' := by
  obtain ⟨r, s1, e1, h⟩ := C83_result_address_argument hinj prog hs p f hkw q
  obtain ⟨i, s2, e2, _, h⟩ := h [] trivial
  obtain ⟨s3, e3⟩ := h [] trivial
  exact ⟨r, s1, i, s2, _, s3, e1, e2, e3, (by intro h; cases h), fun u' h => by cases h⟩

/-! ### C84 -/

/-- the result of a finished call is read back, from the address object of the call -/
def ReadsBack (s : PWorld U A) (ri : Nat) (v : Val U A) : Prop :=
  ∃ s', (rGetStored ri : PM U A (Val U A)) s = (.ok v, s')

theorem finish_total {K : Accept U} (hinj : Function.Injective addrOf) {s : PWorld U A} (hs : Good addrOf K s) {p : PortalId}
    (hcur : s.sys.stack.head? = some p) {ri : Nat} {k : Key A} (hri : RIs s ri k p) (hn : (s.ext.results p).data k = none)
    {ret : Ret U} {v : Val U A} (hlow : Resp Low (vaOfRet addrOf ret)) {P : PWorld U A → Prop}
    (hsp : Sp addrOf K (some p) P (vaOfRet addrOf ret) (fun i s => IsAddr s i (addrOf v) (some p) ∧ HoldsVal s p (addrOf v) v) (fun _ _ => False))
    (hP : P s) (run : Nat) (conduct : Bool) :
    ∃ s2, finish addrOf p ri run conduct (s.ext.pCfg p) ret s = (.ok ret, s2) ∧ ReadsBack s2 ri v := by
  have h := hsp s hs.ok hs.w (fun q hq => by cases hq; exact hcur) hP
  cases e : vaOfRet addrOf ret s with
  | mk x t1 =>
    rw [e] at h
    cases x with
    | error x => exact (h.2.2 x rfl).elim
    | ok ra =>
      obtain ⟨h1, h2⟩ := h.2.1 ra rfl
      have hl := (hlow s).ext
      rw [e] at hl
      obtain ⟨s2, e2, ho2, h3, h4, h5⟩ := finish_run (run := run) (conduct := conduct) e hl (h.1.ctx.ok hs.ok) h1 h2 hri hn
      rw [← hs.w.pCheck]
      exact ⟨s2, e2, rGetStored_run ho2 h5 h3 h4⟩

/-- **C84** Code that returns a value: what the first call returned is what is read back afterwards. -/
theorem C84_value_read_back_partial (hinj : Function.Injective addrOf) (prog : FnId → Fn U) {s : PWorld U A} (hs : Reached addrOf prog s)
    {p : PortalId} (hcur : s.sys.stack.head? = some p) {ri : Nat} {f : FnId} {vals : List (String × U)}
    (hri : IsResAddr s ri (keyOf addrOf f vals) p) (hn : NoResult addrOf s p f vals) (run : Nat) (conduct : Bool) (u : U) :
    ∃ s2, finish addrOf p ri run conduct (s.ext.pCfg p) (.value u) s = (.ok (.value u), s2) ∧ ReadsBack s2 ri (.user u) :=
  finish_total (K := anything U) hinj (hs.good hinj) hcur hri hn (low_new _ _) (sp_new_cur hinj (.user u) p) trivial run conduct

/-- **C84** Code that returns a `ValueAddr` object: the first call returns the address object, but what is read back
for it later is the value it points to. -/
theorem C84_value_address_counterexample (hinj : Function.Injective addrOf) (prog : FnId → Fn U) {s : PWorld U A} (hs : Reached addrOf prog s)
    {p : PortalId} (hcur : s.sys.stack.head? = some p) {ri : Nat} {f : FnId} {vals : List (String × U)}
    (hri : IsResAddr s ri (keyOf addrOf f vals) p) (hn : NoResult addrOf s p f vals) (run : Nat) (conduct : Bool) {i : Nat} {u : U}
    (hi : Denotes addrOf s (.addr i) u) :
    ∃ s2, finish addrOf p ri run conduct (s.ext.pCfg p) (.vaddr i) s = (.ok (.vaddr i), s2) ∧ ReadsBack s2 ri (.user u) :=
  finish_total (K := anything U) hinj (hs.good hinj) hcur hri hn (low_conv _ _)
    (P := fun s => ∃ q, IsAddr s i (addrOf (.user u)) (some q) ∧ HoldsVal s q (addrOf (.user u)) (.user u))
    (Sp.exI fun q => sp_conv_held hinj i (.user u) q p) hi run conduct

/-- **C84** Code that returns the address of a result (`return g.swarm(…)`): the first call returns the address, but
what is read back for it later is neither the address nor the result it points to: it is the signature of the inner call. -/
theorem C84_result_address_counterexample (hinj : Function.Injective addrOf) (prog : FnId → Fn U) {s : PWorld U A} (hs : Reached addrOf prog s)
    {p : PortalId} {g : FnId} {kw : Kw U} {gvals : List (String × U)} (hkw : DenKw addrOf s kw gvals) (q : PortalId) :
    ∃ r s1, getAddress addrOf q g kw s = (.ok r, s1) ∧
      ∀ later, LegalAll addrOf prog (anything U) s1 later →
        let s2 := session addrOf prog s1 later
        s2.sys.stack.head? = some p → ∀ (ri : Nat) (f : FnId) (vals : List (String × U)),
          IsResAddr s2 ri (keyOf addrOf f vals) p → NoResult addrOf s2 p f vals → ∀ (run : Nat) (conduct : Bool),
            ∃ s3, finish addrOf p ri run conduct (s2.ext.pCfg p) (.raddr r) s2 = (.ok (.raddr r), s3) ∧
              ReadsBack s3 ri (sigVal addrOf g (sortKw gvals)) := by
  have hg := hs.good hinj
  obtain ⟨r, s1, e, hr, hb⟩ := (sp_getAddress_rd (K := anything U) (c := none) hinj q g kw gvals).total hg hkw
  refine ⟨r, s1, e, fun later hl hcur ri f vals hri hn run conduct => ?_⟩
  have hg1 := hb.good hg
  have hk := session_keep hinj (mode_any prog) later hg1 hl (.inl trivial)
  exact finish_total (K := anything U) hinj hk.1 hcur hri hn (low_vaOfR r) (sp_vaOfR hinj r g (sortKw gvals) q p)
    (session_rd hinj (mode_any prog) later hg1 hl (.inl trivial) hr) run conduct

end Pyth.Pure

/-! ### the hypotheses are met -/
namespace Pyth.Pure.Ex
open Pyth.World Pyth.Portal
open Pyth.ValueAddr (IsAddr HoldsVal)

def exInfo : FnInfo where
  name f := if f = 1 then "combine" else "other"
  island _ := "main"
  source _ := "def combine(x, y): return x + 10*y"

/-- a session: portal 0, an address of 4, the address of `f(y=<address of 4>, x=3)`; portal 0 is entered -/
def infoState : PWorld Nat T := session addrOf prog (start none fun _ => 0)
  [.val (.newPortal 0), .val (.new (.user 4) (some 0)), .address 0 1 [("y", .addr 0), ("x", .raw 3)], .val (.enter 0)]

theorem infoState_reached : Reached addrOf prog infoState :=
  (Reached.start (start_ok _ _ _)).session ⟨trivial, trivial, rfl, trivial, trivial⟩

theorem ex_raddr {s : PWorld Nat T} {r : Nat} {k : Key T} {p : PortalId}
    (h : (s.ext.raddrs[r]?.map fun o => (o.key, o.portal)) = some (k, p)) : IsResAddr s r k p := by
  cases e : s.ext.raddrs[r]? with
  | none => rw [e] at h; cases h
  | some o =>
    rw [e] at h
    simp at h
    exact ⟨o, e, h.1, h.2⟩

theorem ex_addr {s : PWorld Nat T} {i : Nat} {a : T} {p : Option PortalId}
    (h : (s.heap[i]?.map fun o => (o.chain, o.portal)) = some (a, p)) : IsAddr s i a p := by
  cases e : s.heap[i]? with
  | none => rw [e] at h; cases h
  | some o =>
    rw [e] at h
    simp at h
    exact ⟨o, e, h.1, h.2⟩

/-- portal 0 is current, object 0 is the address of the call, which has no result, and the address of 4 denotes 4 -/
example : infoState.sys.stack.head? = some 0 ∧ IsResAddr infoState 0 (keyOf addrOf 1 [("y", 4), ("x", 3)]) 0 ∧
    NoResult addrOf infoState 0 1 [("y", 4), ("x", 3)] ∧ Denotes addrOf infoState (.addr 0) 4 := by
  refine ⟨?_, ex_raddr ?_, ?_, 0, ex_addr ?_, ?_⟩
  · decide +kernel
  · decide +kernel
  · unfold NoResult; decide +kernel
  · decide +kernel
  · unfold HoldsVal; decide +kernel

def answer (r : Except Exc (Answer Nat) × PWorld Nat T) : Option (String ⊕ List (String × Nat)) :=
  match r.1 with
  | .ok (.text t) => some (.inl t)
  | .ok (.kwargs l) => some (.inr l)
  | _ => none

/-- the name and the arguments of the call -/
example : answer (ask exInfo 0 .fnName infoState) = some (.inl "combine") := by decide +kernel
example : answer (ask exInfo 0 .kwargs infoState) = some (.inr [("x", 3), ("y", 4)]) := by decide +kernel

/-- the argument a callee receives for the address of `f(x=3, y=4)`, although the result 43 is known -/
def passed (r : Except Exc (Val Nat T) × PWorld Nat T) : Option (Nat ⊕ Nat) :=
  match r.1 with
  | .ok (.user u) => some (.inl u)
  | .ok (.sig f _ _) => some (.inr f)
  | _ => none

example : passed ((do
    let u ← exec addrOf prog 0 5 1 [("x", .raw 3), ("y", .raw 4)]
    let r ← getAddress addrOf 0 1 [("x", .raw 3), ("y", .raw 4)]
    let i ← packR 0 r
    ValueAddr.get i : PM Nat T (Val Nat T)) infoState) = some (.inr 1) := by decide +kernel

end Pyth.Pure.Ex
