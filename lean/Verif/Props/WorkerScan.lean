import Verif.Model.WorkerScan
import Mathlib.Tactic
/-!
# C72: which requests workers execute
-/
namespace Pyth.Scan
open Pyth.Retry

variable {K : Type} [DecidableEq K]

/-- a request worth executing: the call needs execution (C35) and can be executed here -/
def Candidate (q : Queue K) (now : Rat) (k : K) : Prop := q.needs now k = true ∧ q.can k = .yes
/-- a request that makes the scan fail: the call needs execution, and checking whether it can be executed raises -/
def Poison (q : Queue K) (now : Rat) (k : K) : Prop := q.needs now k = true ∧ q.can k = .raises

instance (q : Queue K) (now : Rat) : DecidablePred (Candidate q now) := fun _ => inferInstanceAs (Decidable (_ ∧ _))
instance (q : Queue K) (now : Rat) : DecidablePred (Poison q now) := fun _ => inferInstanceAs (Decidable (_ ∧ _))

/-- one iteration, by cases -/
theorem scan_cons (q : Queue K) (now : Rat) (limit : Nat) (k : K) (addrs cands : List K) :
    (Poison q now k ∧ scan q now limit (k :: addrs) cands = none) ∨
    (Candidate q now k ∧ scan q now limit (k :: addrs) cands =
      if cands.length ≥ limit then some (cands ++ [k]) else scan q now limit addrs (cands ++ [k])) ∨
    (¬ Poison q now k ∧ ¬ Candidate q now k ∧ scan q now limit (k :: addrs) cands = scan q now limit addrs cands) := by
  unfold Poison Candidate
  rw [scan]
  cases hn : q.needs now k
  · simp
  · cases hc : q.can k
    · right; left
      simp only [if_true, List.length_append, List.length_cons, List.length_nil, true_and, and_self]
      by_cases h : cands.length ≥ limit
      · rw [if_pos (by omega), if_pos h]
      · rw [if_neg (by omega), if_neg h]
    · simp
    · simp

/-- what a scan collects -/
theorem scan_some {q : Queue K} {now : Rat} {limit : Nat} : ∀ {addrs cands r : List K}, cands.length ≤ limit →
    scan q now limit addrs cands = some r →
    r = cands ++ (addrs.filter (Candidate q now)).take (limit + 1 - cands.length)
  | [], cands, r, _, h => by
    rw [scan] at h; injection h with h; subst h; simp
  | k :: addrs, cands, r, hl, h => by
    rcases scan_cons q now limit k addrs cands with ⟨_, h2⟩ | ⟨h1, h2⟩ | ⟨_, h1, h2⟩
    · rw [h2] at h; cases h
    · rw [h2] at h
      rw [List.filter_cons_of_pos (by simpa using h1)]
      split at h
      · rename_i hge
        injection h with h; subst h
        have : limit + 1 - cands.length = 1 := by omega
        rw [this]; simp
      · rename_i hge
        have := scan_some (by simp; omega) h
        rw [this]
        simp only [List.append_assoc, List.length_append, List.length_cons, List.length_nil, Nat.zero_add,
          List.singleton_append]
        obtain ⟨m, hm⟩ : ∃ m, limit + 1 - cands.length = m + 1 := ⟨limit - cands.length, by omega⟩
        rw [hm, List.take_succ_cons]
        congr 3
        omega
    · rw [h2] at h
      rw [List.filter_cons_of_neg (by simpa using h1)]
      exact scan_some hl h

/-- when a scan fails -/
theorem scan_none {q : Queue K} {now : Rat} {limit : Nat} : ∀ {addrs cands : List K}, cands.length ≤ limit →
    (scan q now limit addrs cands = none ↔
      ∃ pre p post, addrs = pre ++ p :: post ∧ Poison q now p ∧
        cands.length + (pre.filter (Candidate q now)).length ≤ limit)
  | [], cands, hl => by simp [scan]
  | k :: addrs, cands, hl => by
    rcases scan_cons q now limit k addrs cands with ⟨h1, h2⟩ | ⟨h1, h2⟩ | ⟨h0, h1, h2⟩
    · rw [h2]
      exact iff_of_true rfl ⟨[], k, addrs, rfl, h1, by simpa using hl⟩
    · have hnp : ¬ Poison q now k := by
        intro hp
        have a := hp.2; have b := h1.2
        rw [a] at b; cases b
      rw [h2]
      by_cases hge : cands.length ≥ limit
      · rw [if_pos hge]
        constructor
        · intro h; cases h
        · rintro ⟨pre, p, post, e, hp, hlen⟩
          cases pre with
          | nil => injection e with e _; subst e; exact absurd hp hnp
          | cons x pre =>
            injection e with e _; subst e
            rw [List.filter_cons_of_pos (by simpa using h1)] at hlen
            simp only [List.length_cons] at hlen
            omega
      · rw [if_neg hge, scan_none (by simp; omega)]
        constructor
        · rintro ⟨pre, p, post, e, hp, hlen⟩
          refine ⟨k :: pre, p, post, by rw [e]; rfl, hp, ?_⟩
          rw [List.filter_cons_of_pos (by simpa using h1)]
          simp only [List.length_append, List.length_cons, List.length_nil] at hlen ⊢
          omega
        · rintro ⟨pre, p, post, e, hp, hlen⟩
          cases pre with
          | nil => injection e with e _; subst e; exact absurd hp hnp
          | cons x pre =>
            injection e with e1 e2; subst e1
            rw [List.filter_cons_of_pos (by simpa using h1)] at hlen
            refine ⟨pre, p, post, e2, hp, ?_⟩
            simp only [List.length_append, List.length_cons, List.length_nil] at hlen ⊢
            omega
    · rw [h2, scan_none hl]
      constructor
      · rintro ⟨pre, p, post, e, hp, hlen⟩
        exact ⟨k :: pre, p, post, by rw [e]; rfl, hp, by rw [List.filter_cons_of_neg (by simpa using h1)]; exact hlen⟩
      · rintro ⟨pre, p, post, e, hp, hlen⟩
        cases pre with
        | nil => injection e with e _; subst e; exact absurd hp h0
        | cons x pre =>
          injection e with e1 e2; subst e1
          rw [List.filter_cons_of_neg (by simpa using h1)] at hlen
          exact ⟨pre, p, post, e2, hp, hlen⟩

/-- **C72**: a worker executes only calls that are requested, need execution (C35) and can be executed in its
environment; executing one changes nothing about the other calls. -/
theorem C72_only_candidates_executed (q : Queue K) (now : Rat) (order : List K) (ho : order.Perm q.requests)
    (limit choice : Nat) (ok : Bool) (q' : Queue K) (k : K) (h : job q now order limit choice ok = (q', .executed k)) :
    k ∈ q.requests ∧ needsExecution (q.ready k) (q.attempts k) now = true ∧ q.can k = .yes ∧
    (∀ x, x ≠ k → (x ∈ q'.requests ↔ x ∈ q.requests) ∧ q'.ready x = q.ready x ∧ q'.attempts x = q.attempts x) ∧
    q'.attempts k = q.attempts k ++ [now] ∧ (ok = true → q'.ready k = true ∧ k ∉ q'.requests) := by
  unfold job at h
  cases hs : scan q now limit order [] with
  | none => rw [hs] at h; injection h with _ h; cases h
  | some cands =>
    rw [hs] at h
    dsimp only at h
    cases hc : cands[choice]? with
    | none => rw [hc] at h; injection h with _ h; cases h
    | some x =>
      rw [hc] at h
      injection h with h1 h2
      injection h2 with h2
      subst h2; subst h1
      have hr := scan_some (by simp) hs
      have hm := List.mem_of_getElem? hc
      rw [hr, List.nil_append] at hm
      have hm := List.mem_of_mem_take hm
      simp only [List.mem_filter, decide_eq_true_eq] at hm
      refine ⟨ho.subset hm.1, hm.2.1, hm.2.2, ?_, by simp [Queue.execute], ?_⟩
      · intro y hy
        refine ⟨?_, by simp [Queue.execute, hy], by simp [Queue.execute, hy]⟩
        unfold Queue.execute
        dsimp only
        split
        · simp [hy]
        · rfl
      · rintro rfl
        simp [Queue.execute]

/-- **C72** (partial): if checking the requests raises no exception, then every request worth executing may be chosen,
if there are not more of them than the worker considers (200 at least); and if there is such a request, the worker
executes one.  Missing: requests whose check raises an exception. -/
theorem C72_every_candidate_possible_partial (q : Queue K) (now : Rat) (order : List K) (ho : order.Perm q.requests)
    (limit : Nat) (hp : ∀ p ∈ q.requests, ¬ Poison q now p)
    (hn : (q.requests.filter (Candidate q now)).length ≤ limit + 1) (ok : Bool) :
    (∀ k ∈ q.requests, Candidate q now k →
      ∃ choice, job q now order limit choice ok = (q.execute now k ok, .executed k)) ∧
    ∃ cands, scan q now limit order [] = some cands ∧ ∀ k, k ∈ cands ↔ k ∈ q.requests ∧ Candidate q now k := by
  cases hs : scan q now limit order [] with
  | none =>
    obtain ⟨pre, p, post, e, hp', _⟩ := (scan_none (by simp)).mp hs
    exact absurd hp' (hp p (ho.subset (by rw [e]; simp)))
  | some cands =>
    have hr := scan_some (by simp) hs
    have hlen := (ho.filter (fun k => decide (Candidate q now k))).length_eq
    rw [List.take_of_length_le (by simp only [List.length_nil]; omega), List.nil_append] at hr
    have hmem : ∀ k, k ∈ cands ↔ k ∈ q.requests ∧ Candidate q now k := by
      intro k
      rw [hr]
      simp only [List.mem_filter, decide_eq_true_eq, ho.mem_iff]
    refine ⟨?_, cands, rfl, hmem⟩
    intro k hk hc
    obtain ⟨i, hi, he⟩ := List.getElem_of_mem ((hmem k).mpr ⟨hk, hc⟩)
    refine ⟨i, ?_⟩
    unfold job
    rw [hs]
    simp only [List.getElem?_eq_getElem hi, he]

/-- **C72**: if no request is worth executing and no check raises, the worker executes nothing, changes nothing and looks
again later. -/
theorem C72_idle (q : Queue K) (now : Rat) (order : List K) (ho : order.Perm q.requests)
    (h : ∀ k ∈ q.requests, ¬ Candidate q now k ∧ ¬ Poison q now k) (limit choice : Nat) (ok : Bool) :
    job q now order limit choice ok = (q, .again) := by
  cases hs : scan q now limit order [] with
  | none =>
    obtain ⟨pre, p, post, e, hp', _⟩ := (scan_none (by simp)).mp hs
    exact absurd hp' (h p (ho.subset (by rw [e]; simp))).2
  | some cands =>
    have hr := scan_some (by simp) hs
    have : order.filter (fun k => decide (Candidate q now k)) = [] := by
      rw [List.filter_eq_nil_iff]
      intro k hk
      simpa using (h k (ho.subset hk)).1
    rw [this] at hr
    simp only [List.take_nil, List.append_nil] at hr
    subst hr
    unfold job
    rw [hs]
    rfl

/-! ### what one bad request does -/

/-- things that happen to the queue of a portal: a scan of some worker, a request filed or dropped by a client, or a
result stored by a client -/
inductive Op (K : Type)
  | job (now : Rat) (order : List K) (limit choice : Nat) (ok : Bool)
  | request (k : K)
  | drop (k : K)
  | store (k : K)

/-- one event and the call executed by a worker, if any -/
def act (q : Queue K) : Op K → Queue K × Option K
  | .job now order limit choice ok => match job q now order limit choice ok with
    | (q', .executed k) => (q', some k)
    | (q', _) => (q', none)
  | .request k => ({ q with requests := if k ∈ q.requests then q.requests else q.requests ++ [k] }, none)
  | .drop k => ({ q with requests := q.requests.filter (· ≠ k) }, none)
  | .store k => ({ q with ready := fun x => if x = k then true else q.ready x }, none)

/-- the queue after a history, and the calls executed by workers -/
def acts (q : Queue K) : List (Op K) → Queue K × List K
  | [] => (q, [])
  | op :: ops => ((acts (act q op).1 ops).1, (act q op).2.toList ++ (acts (act q op).1 ops).2)

/-- a real scan: it sees all requests, in some order, and considers at least 200 -/
def Op.Fair (q : Queue K) : Op K → Prop
  | .job _ order limit _ _ => order.Perm q.requests ∧ 200 ≤ limit
  | _ => True

/-- every scan of the history is real, and there are never more than 200 requests -/
def FairAll (q : Queue K) : List (Op K) → Prop
  | [] => True
  | op :: ops => q.requests.length ≤ 200 ∧ op.Fair q ∧ FairAll (act q op).1 ops

/-- **C72** is false of the code: one request whose check raises an exception — for example of a function that cannot be
restored (C51) — stops all workers of the portal: as long as nobody drops this request or stores its result, workers
execute no request at all, whatever is requested and whenever they look (up to 200 requests).  The request is not given
up either, because no attempt is ever recorded. -/
theorem C72_poison_counterexample (q : Queue K) (p : K) (hp : p ∈ q.requests) (hc : q.can p = .raises)
    (hr : q.ready p = false) (ha : q.attempts p = []) (ops : List (Op K)) (hf : FairAll q ops)
    (hops : Op.drop p ∉ ops ∧ Op.store p ∉ ops) :
    (acts q ops).2 = [] ∧ p ∈ (acts q ops).1.requests ∧ (acts q ops).1.attempts p = [] := by
  induction ops generalizing q with
  | nil => exact ⟨rfl, hp, ha⟩
  | cons op ops ih =>
    obtain ⟨hlen, hfair, hrest⟩ := hf
    have hdrop : Op.drop p ∉ ops := fun h => hops.1 (by simp [h])
    have hstore : Op.store p ∉ ops := fun h => hops.2 (by simp [h])
    rw [acts]
    suffices H : (act q op).2 = none ∧ p ∈ (act q op).1.requests ∧ (act q op).1.can p = .raises ∧
        (act q op).1.ready p = false ∧ (act q op).1.attempts p = [] by
      obtain ⟨h1, h2, h3, h4, h5⟩ := H
      obtain ⟨i1, i2, i3⟩ := ih (act q op).1 h2 h3 h4 h5 hrest ⟨hdrop, hstore⟩
      exact ⟨by rw [h1, i1]; rfl, i2, i3⟩
    cases op with
    | job now order limit choice ok =>
      obtain ⟨ho, hl⟩ := hfair
      have hpo : Poison q now p := ⟨by unfold Queue.needs; rw [hr, ha]; rfl, hc⟩
      have hs : scan q now limit order [] = none := by
        rw [scan_none (by simp)]
        obtain ⟨pre, post, e⟩ := List.append_of_mem (ho.symm.subset hp)
        refine ⟨pre, p, post, e, hpo, ?_⟩
        have h1 := List.length_filter_le (fun k => decide (Candidate q now k)) pre
        have h2 := ho.length_eq
        rw [e] at h2
        simp only [List.length_append, List.length_cons, List.length_nil] at h2 ⊢
        omega
      have hj : job q now order limit choice ok = (q, .died) := by unfold job; rw [hs]
      simp only [act, hj]
      exact ⟨trivial, hp, hc, hr, ha⟩
    | request k =>
      refine ⟨rfl, ?_, hc, hr, ha⟩
      simp only [act]
      split
      · exact hp
      · simp [hp]
    | drop k =>
      have hk : p ≠ k := fun e => hops.1 (by simp [e])
      exact ⟨rfl, by simp [act, hp, hk], hc, hr, ha⟩
    | store k =>
      have hk : p ≠ k := fun e => hops.2 (by simp [e])
      exact ⟨rfl, hp, hc, by simp [act, hk, hr], ha⟩

namespace Ex

/-- requests `1`, `2` (has a result), `3`; `3` was attempted a second ago -/
def q : Queue Nat where
  requests := [1, 2, 3]
  ready := (· == 2)
  attempts := fun k => if k = 3 then [99] else []
  can := fun _ => .yes

example : (job q 100 [3, 2, 1] 200 0 true).2 = .executed 1 := by decide +kernel
example := C72_only_candidates_executed q 100 [3, 2, 1] (by decide) 200 0 true (job q 100 [3,2,1] 200 0 true).1 1
  (Prod.ext rfl (by decide +kernel))
example : ∃ choice, job q 100 [3, 2, 1] 200 choice true = (q.execute 100 1 true, .executed 1) :=
  (C72_every_candidate_possible_partial q 100 [3, 2, 1] (by decide) 200
    (by intro p _ h; have := h.2; simp [q] at this) (by decide +kernel) true).1 1 (by decide) (by decide +kernel)

-- only request 2, which has a result
example : job { q with requests := [2] } 100 [2] 200 0 true = ({ q with requests := [2] }, .again) :=
  C72_idle _ 100 [2] (by decide) (by
    intro k hk
    have : k = 2 := by simpa using hk
    subst this
    exact ⟨by decide +kernel, by decide +kernel⟩) 200 0 true

/-- the same requests, and request `7` of a function that cannot be restored; two scans, a new request, another scan -/
def bad : Queue Nat := { q with requests := [1, 2, 3, 7], can := fun k => if k = 7 then .raises else .yes }
def hist : List (Op Nat) :=
  [.job 100 [1, 2, 3, 7] 200 0 true, .job 101 [7, 3, 2, 1] 4000 1 true, .request 8, .job 1000000 [8, 7, 3, 2, 1] 200 0 true]
example : (acts bad hist).2 = [] :=
  (C72_poison_counterexample bad 7 (by decide) rfl rfl rfl hist (by
    refine ⟨by decide +kernel, ⟨by decide +kernel, by decide +kernel⟩, by decide +kernel, ⟨by decide +kernel, by decide +kernel⟩, by decide +kernel, trivial, ?_⟩
    exact ⟨by decide +kernel, ⟨by decide +kernel, by decide +kernel⟩, trivial⟩) (by simp [hist])).1
-- without request 7 the same scans execute calls
example : (acts q [.job 100 [1, 2, 3] 200 0 true, .request 8, .job 1000000 [8, 3, 2] 200 0 true]).2 = [1, 8] := by
  decide +kernel

end Ex

end Pyth.Scan
