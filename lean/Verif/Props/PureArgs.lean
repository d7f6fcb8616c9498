import Verif.Proofs.PureMain
import Verif.Examples.Pure
/-!
# Arguments of pure calls: C20–C22
-/
set_option linter.unusedSectionVars false
set_option linter.unusedVariables false
namespace Pyth.Pure
open Pyth.World Pyth.Portal
open Pyth.ValueAddr (IsAddr HoldsVal)

variable {U A : Type} [DecidableEq U] [DecidableEq A] {addrOf : Val U A → A}

/-- two ways to write the same keyword arguments: the same entries in another order, every name once
(Python rejects repeated keyword arguments) -/
def SameArgs {γ : Type} (kw kw' : List (String × γ)) : Prop :=
  kw.Perm kw' ∧ (kw.map Prod.fst).Nodup

theorem sortKw_sameArgs {γ : Type} {kw kw' : List (String × γ)} (h : SameArgs kw kw') : sortKw kw = sortKw kw' :=
  sortKw_eq_of_perm h.1 h.2

/-- **C20** The address of a call does not depend on the order of the keyword arguments: the
operations that take the arguments of a call behave in exactly the same way. -/
theorem C20_address_order (addrOf : Val U A → A) (prog : FnId → Fn U) (n : Nat) (p : PortalId) (f : FnId)
    {kw kw' : Kw U} (h : SameArgs kw kw') :
    getAddress addrOf p f kw = getAddress addrOf p f kw' ∧ swarm addrOf p f kw = swarm addrOf p f kw' ∧
    run addrOf prog n p f kw = run addrOf prog n p f kw' ∧ mkRAddr addrOf f p kw = mkRAddr addrOf f p kw' := by
  have e := sortKw_sameArgs h
  have h1 : getAddress addrOf p f kw = getAddress addrOf p f kw' := by unfold getAddress; rw [e]
  have h2 : mkRAddr addrOf f p kw = mkRAddr addrOf f p kw' := by unfold mkRAddr; rw [e]
  refine ⟨h1, ?_, ?_, h2⟩
  · unfold swarm; rw [h1]
  · unfold run; rw [h1]

/-- **C20** For arguments which stand for values, the text of the address is a function of the
values by name, so it is the same for all orders. -/
theorem C20_key_order (addrOf : Val U A → A) (f : FnId) {vals vals' : List (String × U)} (h : SameArgs vals vals') :
    keyOf addrOf f vals = keyOf addrOf f vals' := by
  unfold keyOf; rw [sortKw_sameArgs h]

/-- **C20**, conversely: calls with different functions or different arguments have different
addresses, provided different data have different hashes. -/
theorem C20_key_injective (hinj : Function.Injective addrOf) {f g : FnId} {vals vals' : List (String × U)}
    (h : keyOf addrOf f vals = keyOf addrOf g vals') : f = g ∧ vals.Perm vals' := by
  obtain ⟨h1, h2⟩ := callKey_inj hinj h
  refine ⟨h1, (sortKw_perm vals).symm.trans ?_⟩
  rw [h2]; exact sortKw_perm vals'

/-- **C21** Packing keyword arguments into a portal and unpacking them - at once, or after anything
else happened - gives back the values, whether they were passed as values or as addresses of stored
values. -/
theorem C21_pack_unpack (hinj : Function.Injective addrOf) (prog : FnId → Fn U) {s : PWorld U A}
    (hs : Reached addrOf prog s) (p : PortalId) {kw : Kw U} {vals : List (String × U)} (hkw : DenKw addrOf s kw vals) :
    ∃ l s1, pack addrOf p kw s = (.ok l, s1) ∧
      ∀ later, LegalAll addrOf prog (anything U) s1 later →
        ∃ s2, unpack (asKw l) (session addrOf prog s1 later) = (.ok vals, s2) := by
  have hg := hs.good hinj
  obtain ⟨l, s1, e1, ⟨hp, hh⟩, hb⟩ := (sp_pack_den (K := anything U) (c := none) hinj p kw vals).total hg hkw
  refine ⟨l, s1, e1, fun later hl => ?_⟩
  have hg1 := hb.good hg
  obtain ⟨hg2, hk⟩ := session_keep hinj (mode_any prog) later hg1 hl (.inl trivial)
  have hden : DenKw addrOf s1 (asKw l) vals := denKw_packed hp hh
  obtain ⟨r, s2, e2, rfl, _⟩ := (sp_unpack_den (K := anything U) (c := none) hinj (asKw l) vals).total hg2 (hden.keep hk)
  exact ⟨s2, e2⟩

/-- **C22** Building the address of a call succeeds for arguments which stand for values and gives the
address text determined by the values alone: it does not matter which of them are passed as values
and which as addresses of stored values, nor where they are stored. -/
theorem C22_same_address (hinj : Function.Injective addrOf) (prog : FnId → Fn U) {s : PWorld U A}
    (hs : Reached addrOf prog s) (p : PortalId) (f : FnId) {kw : Kw U} {vals : List (String × U)}
    (hkw : DenKw addrOf s kw vals) :
    ∃ r s1, getAddress addrOf p f kw s = (.ok r, s1) ∧ IsResAddr s1 r (keyOf addrOf f vals) p := by
  obtain ⟨r, s1, e, ⟨⟨o, h1, h2, h3, _⟩, _⟩, _⟩ :=
    (sp_getAddress_new (K := anything U) (c := none) hinj p f kw vals).total (hs.good hinj) hkw
  exact ⟨r, s1, e, o, h1, h2, h3⟩

/-- **C22** Packing is idempotent: packing packed arguments again gives addresses with the same names
and texts. -/
theorem C22_pack_idempotent (hinj : Function.Injective addrOf) (prog : FnId → Fn U) {s : PWorld U A}
    (hs : Reached addrOf prog s) (p q : PortalId) {kw : Kw U} {vals : List (String × U)}
    (hkw : DenKw addrOf s kw vals) :
    ∃ l s1 l' s2, pack addrOf p kw s = (.ok l, s1) ∧ pack addrOf q (asKw l) s1 = (.ok l', s2) ∧
      l.map Prod.fst = kw.map Prod.fst ∧ l'.map Prod.fst = kw.map Prod.fst ∧
      ∀ i (h : i < l.length) (h' : i < l'.length), ∃ a, IsAddr s2 l[i].2 a (some p) ∧ IsAddr s2 l'[i].2 a (some q) := by
  have hg := hs.good hinj
  obtain ⟨l, s1, e1, ⟨hp, hh⟩, hb⟩ := (sp_pack_den (K := anything U) (c := none) hinj p kw vals).total hg hkw
  have hg1 := hb.good hg
  have hden : DenKw addrOf s1 (asKw l) vals := denKw_packed hp hh
  obtain ⟨l', s2, e2, ⟨hp', _⟩, hb2⟩ := (sp_pack_den (K := anything U) (c := none) hinj q (asKw l) vals).total hg1 hden
  have hn : kw.map Prod.fst = vals.map Prod.fst := forall₂_names (fun _ _ h => h.1) hkw
  have hn1 := forall₂_names (fun _ _ h => h.1) hp
  have hn2 := forall₂_names (fun _ _ h => h.1) hp'
  have ht : (texts addrOf vals).map Prod.fst = vals.map Prod.fst := by unfold texts; simp
  refine ⟨l, s1, l', s2, e1, e2, hn1.trans (ht.trans hn.symm), hn2.trans (ht.trans hn.symm), fun i h h' => ?_⟩
  have hlen : i < (texts addrOf vals).length := hp.length_eq ▸ h
  have a1 := hp.get h hlen
  have a2 := hp'.get h' hlen
  exact ⟨_, a1.2.grow hb2.ev.grow, a2.2⟩

/-! ### the hypotheses are met -/

end Pyth.Pure

namespace Pyth.Pure.Ex
open Pyth.World Pyth.Portal

/-- two orders of `f(x=3, y=4)` -/
example : SameArgs [("x", Arg.raw 3), ("y", Arg.raw 4)] [("y", Arg.raw (3+1)), ("x", .raw 3)] := by
  refine ⟨List.Perm.swap _ _ _, by decide⟩

/-- state after creating a `ValueAddr` for 4 in portal 0 -/
def exState : PWorld Nat T := session addrOf prog (start none fun _ => 0)
  [.val (.newPortal 0), .val (.new (.user 4) (some 0))]

theorem exState_reached : Reached addrOf prog exState :=
  (Reached.start (start_ok _ _ _)).session ⟨trivial, trivial, trivial⟩

/-- `f(y=<address of 4>, x=3)` -/
example : DenKw addrOf exState [("y", .addr 0), ("x", .raw 3)] [("y", 4), ("x", 3)] := by
  refine .cons ⟨rfl, 0, ⟨_, rfl, rfl, rfl⟩, rfl⟩ (.cons ⟨rfl, rfl⟩ .nil)

end Pyth.Pure.Ex
