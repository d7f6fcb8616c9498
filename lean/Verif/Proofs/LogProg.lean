import Verif.Proofs.LogPure
import Verif.Model.UserProg
/-! Crash histories of sessions and of user programs. -/
set_option linter.unusedSectionVars false
set_option linter.unusedVariables false
namespace Pyth.Pure
open Pyth.World Pyth.Portal

variable {U A α : Type} [DecidableEq U] [DecidableEq A] (addrOf : Val U A → A)

theorem tidy_done {m : PM U A α} (h : Tidy m) : Tidy (done m) := Tidy.bind h fun _ => Tidy.ret ()

theorem tidy_register (p : PortalId) : Tidy (PyM.modify fun s => { s with sys := register s.sys p } : PM U A Unit) := by
  intro s hs
  refine .frame () ⟨?_, ?_, rfl, ?_⟩ rfl rfl rfl
  · show (register s.sys p).stack = _; unfold register; split <;> rfl
  · show (register s.sys p).counters = _; unfold register; split <;> rfl
  · show s.sys.all <+: (register s.sys p).all
    unfold register
    split
    · exact List.prefix_rfl
    · exact List.prefix_append _ _

theorem tidy_putResult (p : PortalId) (f : FnId) (vals : List (String × U)) (u : U) :
    Tidy (PyM.modify (putResult addrOf p f vals u) : PM U A Unit) := by
  intro s hs
  have h := (Tidy.storeSet (E := Ext U A) p (addrOf (.user u)) (Val.user u)) s hs
  have h2 := h.ok (β := Unit) ()
  exact h2.trans (TidyAt.frame () ⟨rfl, rfl, rfl, List.prefix_rfl⟩ rfl rfl rfl)

theorem tidy_act (prog : FnId → Fn U) (o : POp U A) : Tidy (o.act addrOf prog) := by
  cases o with
  | val o =>
    cases o with
    | new v p => exact tidy_done (ValueAddr.tidy_new _ _ _)
    | conv i p => exact tidy_done (ValueAddr.tidy_conv _ _)
    | fromStrings a p c => exact tidy_done (ValueAddr.tidy_fromStrings _ _ _)
    | copy i => exact tidy_done (ValueAddr.tidy_copy _)
    | unpickle i => exact tidy_done (ValueAddr.tidy_unpickle _)
    | get i => exact tidy_done (ValueAddr.tidy_get _)
    | ready i => exact tidy_done (ValueAddr.tidy_ready _)
    | newPortal p => exact tidy_register _
    | enter p => exact Tidy.ret _
    | exit p => exact Tidy.ret _
    | beginExcept k => exact Tidy.ret _
    | endExcept => exact Tidy.ret _
    | foreign p v => exact tidy_done (Tidy.storeSet _ _ _)
  | call p n f kw => exact tidy_done (tidy_exec _ _ _ _ _ _)
  | address p f kw => exact tidy_done (tidy_getAddress _ _ _ _)
  | swarm p f kw => exact tidy_done (tidy_swarm _ _ _ _)
  | run n p f kw => exact tidy_done (tidy_run _ _ _ _ _ _)
  | swarmList sh p f l => exact tidy_done (tidy_swarmList _ _ _ _ _)
  | runList n sh1 sh2 p f l => exact tidy_done (tidy_runList _ _ _ _ _ _ _ _)
  | fromKey p k => exact tidy_done (tidy_rFromKey _ _)
  | rexec n r => exact tidy_done (tidy_rExecute _ _ _ _)
  | rget r => exact tidy_done (tidy_rGet _ _)
  | rready r => exact tidy_done (tidy_rReady _ _)
  | rrequest r => exact tidy_done (tidy_rRequest _ _)
  | rkwargs r => exact tidy_done (tidy_rKwargs _)
  | rdrop r => exact tidy_done (tidy_rDrop _)
  | foreignResult p f vals u => exact tidy_putResult _ _ _ _ _
  | foreignRequest p f vals => exact tidy_modExt _
  | foreignDrop p k => exact tidy_modExt _

theorem tidy_raiseAgain : Tidy (raiseAgain : PM U A Unit) := by
  intro s hs
  unfold raiseAgain
  split
  · exact raiseNew_tidyAt _ s
  · rename_i e l he
    exact TidyH.raise e s hs (by rw [he]; rfl)

theorem tidy_prog (prog : FnId → Fn U) (a : UProg U A) : Tidy (a.run addrOf prog) := by
  induction a with
  | pass => exact Tidy.ret _
  | op o => exact tidy_act _ _ _
  | raise k => exact Tidy.raiseNew _
  | reraise => exact tidy_raiseAgain
  | seq a b ha hb => exact Tidy.bind ha fun _ => hb
  | tryExcept a b ha hb => exact Tidy.tryE ha fun e => hb.h e
  | within p a ha => exact Tidy.withP p ha

/-- a session step that is not about contexts does what the operation does -/
theorem step_act (prog : FnId → Fn U) (s : PWorld U A) (o : POp U A)
    (h : ∀ v, o = .val v → (∀ p, v ≠ .enter p) ∧ (∀ p, v ≠ .exit p) ∧ (∀ k, v ≠ .beginExcept k) ∧ v ≠ .endExcept) :
    o.step addrOf prog s = (o.act addrOf prog s).2 := by
  have hd : ∀ {β : Type} (m : PM U A β), (done m s).2 = (m s).2 := by
    intro β m
    show (PyM.bind m _ s).2 = _
    unfold PyM.bind
    cases m s with
    | mk r t => cases r <;> rfl
  cases o with
  | val o =>
    obtain ⟨h1, h2, h3, h4⟩ := h o rfl
    cases o with
    | enter p => exact absurd rfl (h1 p)
    | exit p => exact absurd rfl (h2 p)
    | beginExcept k => exact absurd rfl (h3 k)
    | endExcept => exact absurd rfl h4
    | newPortal p => rfl
    | _ => exact (hd _).symm
  | foreignResult p f vals u => rfl
  | foreignRequest p f vals => rfl
  | foreignDrop p k => rfl
  | _ => exact (hd _).symm

theorem LogInv.sys {s : PWorld U A} (h : LogInv s) (x : Sys) : LogInv { s with sys := x } := ⟨h.nodup, h.marked, h.old, h.handled⟩

/-- the invariant of the logs holds after every step -/
theorem step_log (prog : FnId → Fn U) (s : PWorld U A) (hs : Ok s) (hl : LogInv s) (o : POp U A) :
    Ok (o.step addrOf prog s) ∧ LogInv (o.step addrOf prog s) := by
  by_cases hc : ∀ v, o = .val v → (∀ p, v ≠ .enter p) ∧ (∀ p, v ≠ .exit p) ∧ (∀ k, v ≠ .beginExcept k) ∧ v ≠ .endExcept
  · rw [step_act addrOf prog s o hc]
    have h := tidy_act addrOf prog o s hs
    exact ⟨h.ctx.ok hs, h.inv hl⟩
  · have hv : ∃ v, o = .val v ∧ ((∃ p, v = .enter p) ∨ (∃ p, v = .exit p) ∨ (∃ k, v = .beginExcept k) ∨ v = .endExcept) := by
      by_contra hn
      apply hc
      intro v hv
      refine ⟨fun p hp => hn ⟨v, hv, .inl ⟨p, hp⟩⟩, fun p hp => hn ⟨v, hv, .inr (.inl ⟨p, hp⟩)⟩,
        fun p hp => hn ⟨v, hv, .inr (.inr (.inl ⟨p, hp⟩))⟩, fun hp => hn ⟨v, hv, .inr (.inr (.inr hp))⟩⟩
    obtain ⟨v, rfl, hv⟩ := hv
    refine ⟨ValueAddr.ok_step addrOf s v hs, ?_⟩
    have hraise : ∀ (t : PWorld U A) (k : Kind), LogInv t → LogInv (raiseNew (α := Unit) k t).2 := fun t k ht =>
      ⟨ht.nodup, ht.marked, fun x hx => Nat.lt_succ_of_lt (ht.old x hx), fun e he => Nat.lt_succ_of_lt (ht.handled e he)⟩
    rcases hv with ⟨p, rfl⟩ | ⟨p, rfl⟩ | ⟨k, rfl⟩ | rfl
    · show LogInv (enterP p s).2
      unfold enterP
      split
      · exact LogInv.sys hl _
      · exact hraise _ _ hl
    · show LogInv (exitP p s).2
      have hle : LogInv (exceptionLogger s) := ((TidyAt.refl s ()).logger).inv hl
      unfold exitP
      simp only
      split
      · exact LogInv.sys hle _
      · exact hraise _ _ hle
    · refine ⟨hl.nodup, hl.marked, fun x hx => Nat.lt_succ_of_lt (hl.old x hx), fun e he => ?_⟩
      rcases List.mem_cons.1 he with h | h
      · subst h; exact Nat.lt_succ_self _
      · exact Nat.lt_succ_of_lt (hl.handled e h)
    · exact ⟨hl.nodup, hl.marked, hl.old, fun e he => hl.handled e (List.mem_of_mem_tail he)⟩

theorem session_log (prog : FnId → Fn U) (s : PWorld U A) (hs : Ok s) (hl : LogInv s) (ops : List (POp U A)) :
    Ok (session addrOf prog s ops) ∧ LogInv (session addrOf prog s ops) := by
  unfold session
  induction ops generalizing s with
  | nil => exact ⟨hs, hl⟩
  | cons o l ih =>
    have h := step_log addrOf prog s hs hl o
    exact ih _ h.1 h.2

end Pyth.Pure
