import Verif.Props.Drain
import Verif.Props.WorkerScan
/-!
# C98 and C72 speak about the same workers

A scan that nothing interrupts, in the model where every look is a step of its own (`Verif.Model.Drain`), does what the
model of whole scans (`Verif.Model.WorkerScan`) says.
-/
namespace Pyth.Drain
open Pyth.Retry Pyth.Scan

variable {K : Type} [DecidableEq K]

/-- these events lead from one state to the other -/
inductive Steps : Sys K → List (Ev K) → Sys K → Prop
  | nil (s) : Steps s [] s
  | cons {s e s1 l s2} (h : Step s e s1) (hl : Steps s1 l s2) : Steps s (e :: l) s2

theorem setBusy_setBusy (s : Sys K) (i : Nat) (b c : Busy K) : (s.setBusy i b).setBusy i c = s.setBusy i c := by
  simp [Sys.setBusy]

theorem setBusy_at (s : Sys K) (i : Nat) (b : Busy K) : (s.setBusy i b).busy i = b := by
  simp [Sys.setBusy]

/-- the state of a worker after looking at all requests -/
def afterScan (limit : Nat) : Option (List K) → Busy K
  | none => .idle
  | some c => .looking [] c limit

theorem looks (s : Sys K) (i limit : Nat) : ∀ (rest cands : List K),
    ∃ evs, (∀ e ∈ evs, e = Ev.look i) ∧
      Steps (s.setBusy i (.looking rest cands limit)) evs
        (s.setBusy i (afterScan limit (scan s.q s.clock limit rest cands)))
  | [], cands => ⟨[], by simp, .nil _⟩
  | k :: rest, cands => by
    have hstep := Step.look (s := s.setBusy i (.looking (k :: rest) cands limit)) i k rest cands limit (setBusy_at ..)
    rw [setBusy_setBusy] at hstep
    have hl : lookAt (s.setBusy i (.looking (k :: rest) cands limit)) k rest cands limit = lookAt s k rest cands limit := rfl
    rw [hl] at hstep
    have key : ∀ rest' cands', lookAt s k rest cands limit = .looking rest' cands' limit →
        scan s.q s.clock limit (k :: rest) cands = scan s.q s.clock limit rest' cands' →
        (∃ evs, (∀ e ∈ evs, e = Ev.look i) ∧ Steps (s.setBusy i (.looking rest' cands' limit)) evs
          (s.setBusy i (afterScan limit (scan s.q s.clock limit rest' cands')))) →
        ∃ evs, (∀ e ∈ evs, e = Ev.look i) ∧ Steps (s.setBusy i (.looking (k :: rest) cands limit)) evs
          (s.setBusy i (afterScan limit (scan s.q s.clock limit (k :: rest) cands))) := by
      rintro r c h1 h2 ⟨evs, he, hs⟩
      rw [h1] at hstep
      rw [h2]
      exact ⟨.look i :: evs, by simpa using he, .cons hstep hs⟩
    cases hn : s.q.needs s.clock k with
    | false =>
      exact key rest cands (by simp [lookAt, hn]) (by simp [scan, hn]) (looks s i limit rest cands)
    | true =>
      cases hc : s.q.can k with
      | raises =>
        refine ⟨[.look i], by simp, .cons hstep ?_⟩
        simp only [lookAt, scan, hn, hc, if_true, afterScan]
        exact .nil _
      | no => exact key rest cands (by simp [lookAt, hn, hc]) (by simp [scan, hn, hc]) (looks s i limit rest cands)
      | yes =>
        by_cases hlen : (cands ++ [k]).length > limit
        · exact key [] (cands ++ [k]) (by simp only [lookAt, hn, hc, if_true, if_pos hlen]) (by
            conv_lhs => rw [scan]
            simp only [hn, hc, if_true, if_pos hlen]; rfl) ⟨[], by simp, .nil _⟩
        · exact key rest (cands ++ [k]) (by simp only [lookAt, hn, hc, if_true, if_neg hlen]) (by
            rw [scan]; simp only [hn, hc, if_true, if_neg hlen]) (looks s i limit rest _)

/-- the calls that were executed in one scan -/
def executedIn : Outcome K → List K
  | .executed k => [k]
  | _ => []

/-- **C98**: a scan that is not interrupted, taken look by look, has the outcome of `job` (C72): the same requests, results and
attempts, and the same call executed; nothing happens to other workers.  (The call runs without time passing.) -/
theorem C98_uninterrupted_scan (s : Sys K) (i : Nat) (hi : s.busy i = .idle) (order : List K) (ho : order.Perm s.q.requests)
    (limit : Nat) (hl : Limit limit) (choice : Nat)
    (hc : ∀ cands, scan s.q s.clock limit order [] = some cands → cands ≠ [] → choice < cands.length) (ok : Bool) :
    ∃ evs s', (∀ e ∈ evs, e.By i ∧ e ≠ .kill i) ∧ Steps s evs s' ∧
      s'.q = (job s.q s.clock order limit choice ok).1 ∧ s'.busy = s.busy ∧ s'.clock = s.clock ∧
      s'.runs = s.runs ++ executedIn (job s.q s.clock order limit choice ok).2 := by
  have hback : s.setBusy i .idle = s := by
    unfold Sys.setBusy
    rw [← hi, Function.update_eq_self]
  obtain ⟨looksEv, hle, hls⟩ := looks s i limit order []
  have hlooks : ∀ e ∈ looksEv, e.By i ∧ e ≠ .kill i := fun e he => by
    rw [hle e he]; exact ⟨rfl, nofun⟩
  have hlist := Step.list (s := s) i order limit hi ho hl
  have app : ∀ {a b c : Sys K} {l l' : List (Ev K)}, Steps a l b → Steps b l' c → Steps a (l ++ l') c := by
    intro a b c l l' h h'
    induction h with
    | nil => exact h'
    | cons h _ ih => exact .cons h (ih h')
  have first := Steps.cons hlist hls
  unfold job
  cases hs : scan s.q s.clock limit order [] with
  | none =>
    rw [hs] at first
    simp only [afterScan, hback] at first
    refine ⟨_, _, ?_, first, rfl, rfl, rfl, by simp [executedIn]⟩
    intro e he
    rcases List.mem_cons.1 he with rfl | he
    · exact ⟨rfl, nofun⟩
    · exact hlooks e he
  | some cands =>
    rw [hs] at first
    simp only [afterScan] at first
    have hpick := Step.pick (s := s.setBusy i (.looking [] cands limit)) i cands limit choice (setBusy_at ..) (hc cands hs)
    rw [setBusy_setBusy] at hpick
    unfold choose at hpick
    have hevs : ∀ tail : List (Ev K), (∀ e ∈ tail, e.By i ∧ e ≠ .kill i) →
        ∀ e ∈ (Ev.list i order limit :: looksEv) ++ tail, e.By i ∧ e ≠ .kill i := by
      intro tail ht e he
      rcases List.mem_append.1 he with he | he
      · rcases List.mem_cons.1 he with rfl | he
        · exact ⟨rfl, nofun⟩
        · exact hlooks e he
      · exact ht e he
    cases hg : cands[choice]? with
    | none =>
      rw [hg] at hpick
      simp only [hback] at hpick
      exact ⟨_, _, hevs [.pick i choice] (by simp [Ev.By]), app first (.cons hpick (.nil _)), by simp only [hg], rfl, rfl,
        by simp only [hg, executedIn, List.append_nil]⟩
    | some k =>
      rw [hg] at hpick
      simp only at hpick
      have hmem := List.mem_of_getElem? hg
      obtain ⟨hreq, hneeds, hcan, _⟩ := C72_only_candidates_executed s.q s.clock order ho limit choice ok _ k
        (show job s.q s.clock order limit choice ok = (s.q.execute s.clock k ok, .executed k) by
          unfold job; rw [hs]; simp only [hg])
      have hready : s.q.ready k = false := by
        cases hr : s.q.ready k with
        | false => rfl
        | true => rw [hr] at hneeds; simp [needsExecution] at hneeds
      have hstart := Step.start (s := s.setBusy i (.chosen k)) i k (setBusy_at ..)
      have hfin := Step.finish (s := startRun (s.setBusy i (.chosen k)) i k) i k ok (by
        unfold startRun
        rw [show (s.setBusy i (.chosen k)).q = s.q from rfl, hready]
        exact setBusy_at ..)
      have hq : (startRun (s.setBusy i (.chosen k)) i k) =
          { s with
            q := { s.q with attempts := fun x => if x = k then s.q.attempts k ++ [s.clock] else s.q.attempts x }
            busy := Function.update s.busy i (.running k), runs := s.runs ++ [k] } := by
        unfold startRun
        rw [show (s.setBusy i (.chosen k)).q = s.q from rfl, hready]
        simp [Sys.setBusy, Sys.attempt, Sys.addRequest, hreq]
      refine ⟨_, _, hevs [.pick i choice, .start i, .finish i ok] (by simp [Ev.By]),
        app first (.cons hpick (.cons hstart (.cons hfin (.nil _)))), ?_, ?_, ?_, ?_⟩
      · rw [hq]
        simp only [hg]
        cases ok with
        | true => simp [finishRun, Sys.setBusy, Sys.store, Sys.dropRequest, Queue.execute]
        | false =>
          simp only [finishRun, Bool.false_eq_true, if_false, Sys.setBusy, Queue.execute, Bool.false_or]
          congr 1
          funext x
          by_cases hx : x = k <;> simp [hx]
      · rw [hq]
        cases ok <;> simp [finishRun, Sys.setBusy, Sys.store, Sys.dropRequest, ← hi]
      · rw [hq]
        cases ok <;> simp [finishRun, Sys.setBusy, Sys.store, Sys.dropRequest]
      · rw [hq]
        simp only [hg]
        cases ok <;> simp [finishRun, Sys.setBusy, Sys.store, Sys.dropRequest, executedIn]

/-- non-vacuity: two requests, the second of which is executed -/
example : ∃ s : Sys Nat, s.busy 0 = .idle ∧ [2, 1].Perm s.q.requests ∧ Limit 200 ∧
    scan s.q s.clock 200 [2, 1] [] = some [2, 1] ∧ (job s.q s.clock [2, 1] 200 1 true).2 = .executed 1 ∧
    (job s.q s.clock [2, 1] 200 1 true).1.requests = [2] :=
  ⟨⟨⟨[1, 2], fun _ => false, fun _ => [], fun _ => .yes⟩, fun _ => .idle, 0, []⟩, rfl, by decide, ⟨by decide, by decide⟩,
    by decide +kernel, by decide +kernel, by decide +kernel⟩

end Pyth.Drain
