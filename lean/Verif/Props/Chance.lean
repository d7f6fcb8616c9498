import Verif.Proofs.Chance
import Mathlib.Algebra.Order.Archimedean.Basic
import Mathlib.Data.Rat.Floor
/-!
# C117: the chance that a worker chooses a request

C93 and C97 assume that a worker is eventually found for a request that stays visible.  Here it is shown that this happens with
probability 1, whatever other requests come and go, as long as there are never more than 5001 candidates at a time.
-/
namespace Pyth.Scan
variable {K : Type} [DecidableEq K]

/-- **C117** (1). If at every scan of a worker, as long as `k` was not executed, a request for `k` can be seen, which needs execution
and can be executed here, the scan does not fail, and at most `m` ≤ 201 requests are like this: then the probability that `r` scans pass
without an execution of `k` is at most (1 - 1/m)^r, whatever else happens. -/
theorem C117_few_candidates (adv : Adversary K) (k : K) (m : Nat) (h2 : m ≤ 201)
    (hs : ∀ h, NotYet adv k h → (adv h).Shows k m) (r : Nat) :
    0 ≤ missed adv k r [] ∧ missed adv k r [] ≤ (1 - 1 / m) ^ r := by
  refine ⟨missed_nonneg adv k r [], ?_⟩
  have hn : NotYet adv k [] := by
    intro h' x hp
    simp at hp
  have h1 : 1 ≤ m := by
    have h := hs [] hn
    have : k ∈ (adv []).q.requests.filter (Candidate (adv []).q (adv []).now) :=
      List.mem_filter.2 ⟨h.requested, by simpa using h.candidate⟩
    exact (List.length_pos_of_mem this).trans_le h.few
  have := missed_le adv k m h1 (by omega) hs r [] hn
  have hc : chance m = 1 / m := by
    unfold chance
    rw [max_eq_left (by omega)]
    norm_num
  rwa [hc] at this

/-- **C117** (2). The same for up to 5001 candidates: each scan executes `k` with probability at least
((5001 - max 200 (m - 1)) / 4801) / m. -/
theorem C117_many_candidates (adv : Adversary K) (k : K) (m : Nat) (h1 : 1 ≤ m) (h2 : m ≤ 5001)
    (hs : ∀ h, NotYet adv k h → (adv h).Shows k m) (r : Nat) :
    missed adv k r [] ≤ (1 - ((5001 - max 200 (m - 1) : Nat) : Rat) / 4801 / m) ^ r :=
  missed_le adv k m h1 h2 hs r [] (by intro h' x hp; simp at hp)

/-- **C117** (3). So the request is executed with probability 1: the probability that it is still waiting after `r` scans gets
smaller than any `ε`. -/
theorem C117_almost_surely (adv : Adversary K) (k : K) (m : Nat) (h2 : m ≤ 5001)
    (hs : ∀ h, NotYet adv k h → (adv h).Shows k m) (ε : Rat) (hε : 0 < ε) :
    ∃ r0, ∀ r, r0 ≤ r → missed adv k r [] < ε := by
  have hn : NotYet adv k [] := by
    intro h' x hp
    simp at hp
  have h1 : 1 ≤ m := by
    have h := hs [] hn
    have : k ∈ (adv []).q.requests.filter (Candidate (adv []).q (adv []).now) :=
      List.mem_filter.2 ⟨h.requested, by simpa using h.candidate⟩
    exact (List.length_pos_of_mem this).trans_le h.few
  have hm : (0 : Rat) < m := by exact_mod_cast h1
  have hpos : 0 < chance m := by
    unfold chance
    have : (0 : Rat) < ((5001 - max 200 (m - 1) : Nat) : Rat) := by exact_mod_cast (by omega : 0 < 5001 - max 200 (m - 1))
    positivity
  have hle : chance m ≤ 1 := by
    unfold chance
    rw [div_le_iff₀ hm, div_le_iff₀ (by norm_num)]
    have : ((5001 - max 200 (m - 1) : Nat) : Rat) ≤ 4801 := by exact_mod_cast (by omega : 5001 - max 200 (m - 1) ≤ 4801)
    have : (1 : Rat) ≤ m := by exact_mod_cast h1
    nlinarith
  obtain ⟨r0, h0⟩ := exists_pow_lt_of_lt_one hε (show 1 - chance m < 1 by linarith)
  refine ⟨r0, fun r hr => lt_of_le_of_lt (missed_le adv k m h1 h2 hs r [] hn) (lt_of_le_of_lt ?_ h0)⟩
  exact pow_le_pow_of_le_one (by linarith) (by linarith) hr

/-- **C117** (4). With a constant set of `m` ≤ 201 candidates and only one worker the bound is exact for the first scan: the chance is
exactly one in `m`. -/
theorem C117_first_scan (s : Sight K) (k : K) (m : Nat) (h2 : m ≤ 201) (hs : s.Shows k m) (hnd : s.q.requests.Nodup)
    (hm : (s.q.requests.filter (Candidate s.q s.now)).length = m) : missed (fun _ => s) k 1 [] = 1 - 1 / m := by
  have hpos : 0 < m := by
    have : k ∈ s.q.requests.filter (Candidate s.q s.now) := List.mem_filter.2 ⟨hs.requested, by simpa using hs.candidate⟩
    rw [← hm]
    exact List.length_pos_of_mem this
  have hm0 : (m : Rat) ≠ 0 := by exact_mod_cast hpos.ne'
  have hl : ∀ l ∈ Finset.Icc 200 5000, (meanBelow (s.choices l) fun i =>
      if s.outcome (l, i) = .executed k then 0 else missed (fun _ => s) k 0 ([] ++ [(l, i)])) = 1 - 1 / m := by
    intro l hl
    rw [Finset.mem_Icc] at hl
    obtain ⟨cands, hc, hmem⟩ := (C72_every_candidate_possible_partial s.q s.now s.order hs.all l hs.sound
      (hs.few.trans (by omega)) s.ok).2
    have hr := scan_some (by simp) hc
    have hlen : (s.order.filter (Candidate s.q s.now)).length = m := by
      rw [(hs.all.filter _).length_eq]; exact hm
    rw [List.nil_append, List.take_of_length_le (by rw [hlen]; simp only [List.length_nil]; omega)] at hr
    have hch : s.choices l = m := by unfold Sight.choices; rw [hc, ← hlen, hr]
    have hcl : cands.length = m := by rw [hr]; exact hlen
    have hnd' : cands.Nodup := by
      rw [hr]; exact (hs.all.nodup_iff.2 hnd).filter _
    have hout : ∀ i, (hi : i < cands.length) → s.outcome (l, i) = .executed cands[i] := by
      intro i hi
      unfold Sight.outcome job
      rw [hc]
      simp only [List.getElem?_eq_getElem hi]
    obtain ⟨j, hj, he⟩ := List.getElem_of_mem ((hmem k).2 ⟨hs.requested, hs.candidate⟩)
    rw [hch, meanBelow, if_neg hpos.ne']
    have hsum : (∑ i ∈ Finset.range m, if s.outcome (l, i) = .executed k then (0 : Rat)
        else missed (fun _ => s) k 0 ([] ++ [(l, i)])) = m - 1 := by
      rw [← Finset.add_sum_erase _ _ (Finset.mem_range.2 (hcl ▸ hj) : j ∈ Finset.range m), hout j hj, he, if_pos rfl, zero_add]
      rw [Finset.sum_congr rfl (g := fun _ => (1 : Rat)) (fun i hi => by
        obtain ⟨hne, hi⟩ := Finset.mem_erase.1 hi
        have hi' : i < cands.length := hcl ▸ Finset.mem_range.1 hi
        rw [hout i hi', if_neg]
        · rfl
        · intro e
          injection e with e
          exact hne ((hnd'.getElem_inj_iff (hi := hi') (hj := hj)).1 (e.trans he.symm)))]
      rw [Finset.sum_const, Finset.card_erase_of_mem (Finset.mem_range.2 (hcl ▸ hj)), Finset.card_range, nsmul_eq_mul, mul_one,
        Nat.cast_sub hpos, Nat.cast_one]
    rw [hsum]
    field_simp
  rw [missed, meanLimit, Finset.sum_congr rfl hl, Finset.sum_const, Nat.card_Icc, nsmul_eq_mul]
  norm_num

/-! ## A concrete case -/

namespace Ex

/-- Requests 1, 2, 3, and new ones all the time (3 + number of scans): two old ones are candidates, and the newest one; calls return; then
their requests are gone. -/
def busyPlace : Adversary Nat := fun h =>
  { q := { requests := [1, 2, 3 + h.length], ready := fun _ => false, attempts := fun _ => [], can := fun _ => .yes }
    now := h.length, order := [2, 3 + h.length, 1], ok := true }

theorem busyPlace_shows (h : List Numbers) : (busyPlace h).Shows 1 3 where
  all := by
    show List.Perm [2, 3 + h.length, 1] [1, 2, 3 + h.length]
    exact (List.perm_append_comm (l₁ := [2, 3 + h.length]) (l₂ := [1]))
  requested := by simp [busyPlace]
  candidate := ⟨rfl, rfl⟩
  sound := by
    intro p _ hp
    have := hp.2
    simp [busyPlace] at this
  few := (List.length_filter_le _ _).trans (by simp [busyPlace])

example (r : Nat) : missed busyPlace 1 r [] ≤ (1 - 1 / 3) ^ r :=
  (C117_few_candidates busyPlace 1 3 (by omega) (fun h _ => busyPlace_shows h) r).2

end Ex

end Pyth.Scan
