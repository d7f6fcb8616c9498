import Verif.Model.Workers
/-!
# C39: background workers stop with their parent
-/
namespace Pyth.Workers

variable {K : Type}

/-! ### specification -/

/-- nothing has happened yet on this portal's nodes, apart from records left behind -/
structure Init (s : State K) : Prop where
  workers : ∀ w, s.workers w = none
  records : ∀ n r, s.record n = some r → r < s.fresh
  started : s.started = []

def Reachable (s : State K) : Prop := ∃ s0, Init s0 ∧ Steps s0 s

/-- worker `w` was launched on node `n` by the program with runtime id `r` -/
def Launched (s : State K) (w n r : Nat) : Prop := ∃ x, s.workers w = some x ∧ x.node = n ∧ x.rid = r

/-- the process of worker `w` has ended -/
def Stopped (s : State K) (w : Nat) : Prop := ∃ x, s.workers w = some x ∧ x.mode = .stopped

/-- number of calls worker `w` has started -/
def startedBy (s : State K) (w : Nat) : Nat := (s.started.filter (fun a => a.1 == w)).length

/-- steps, of which exactly `n` are steps of worker `w` -/
inductive StepsOf (w : Nat) : State K → State K → Nat → Prop
  | refl (s) : StepsOf w s s 0
  | own {s t u n} (h : StepsOf w s t n) (h' : WorkStep w t u) : StepsOf w s u (n + 1)
  | other {s t u n} (v) (hv : v ≠ w) (h : StepsOf w s t n) (h' : WorkStep v t u) : StepsOf w s u n
  | prog {s t u n} (h : StepsOf w s t n) (h' : ProgStep t u) : StepsOf w s u n

/-! ### proof support -/

structure Inv (s : State K) : Prop where
  records : ∀ n r, s.record n = some r → r < s.fresh
  workers : ∀ w x, s.workers w = some x → x.rid < s.fresh

theorem goto_other (s : State K) {w v : Nat} (x : Worker K) (m : Mode K) (h : v ≠ w) : (s.goto w x m).workers v = s.workers v :=
  Function.update_of_ne h _ _

theorem goto_self (s : State K) (w : Nat) (x : Worker K) (m : Mode K) : (s.goto w x m).workers w = some { x with mode := m } :=
  Function.update_self _ _ _

theorem inv_goto {s : State K} (h : Inv s) {w : Nat} {x : Worker K} (hx : s.workers w = some x) (m : Mode K) : Inv (s.goto w x m) where
  records := h.records
  workers v y hy := by
    by_cases e : v = w
    · subst e; rw [goto_self] at hy; injection hy with hy; subst hy; exact h.workers v x hx
    · rw [goto_other s x m e] at hy; exact h.workers v y hy

theorem prog_inv {s t : State K} (h : Inv s) (hs : ProgStep s t) : Inv t := by
  cases hs with
  | kill w x hx => exact inv_goto h hx _
  | create n =>
    refine ⟨fun m r hr => ?_, fun w x hx => Nat.lt_succ_of_lt (h.workers w x hx)⟩
    have hr : Function.update s.record n (some s.fresh) m = some r := hr
    by_cases e : m = n
    · subst e; rw [Function.update_self] at hr; injection hr with hr; subst hr; exact Nat.lt_succ_self _
    · rw [Function.update_of_ne e] at hr; exact Nat.lt_succ_of_lt (h.records m r hr)
  | launch n r w hr hw =>
    refine ⟨h.records, fun v x hx => ?_⟩
    have hx : Function.update s.workers w (some ⟨n, r, .loop⟩) v = some x := hx
    by_cases e : v = w
    · subst e; rw [Function.update_self] at hx; injection hx with hx; subst hx; exact hr
    · rw [Function.update_of_ne e] at hx; exact h.workers v x hx
  | remove n =>
    refine ⟨fun m r hr => ?_, h.workers⟩
    have hr : Function.update s.record n none m = some r := hr
    by_cases e : m = n
    · subst e; rw [Function.update_self] at hr; cases hr
    · rw [Function.update_of_ne e] at hr; exact h.records m r hr

theorem work_inv {w : Nat} {s t : State K} (h : Inv s) (hs : WorkStep w s t) : Inv t := by
  cases hs with
  | loopLive x hx _ _ => exact inv_goto h hx _
  | loopDead x hx _ _ => exact inv_goto h hx _
  | jobLive x hx _ _ => exact inv_goto h hx _
  | jobDead x hx _ _ => exact inv_goto h hx _
  | scanNone x hx _ => exact inv_goto h hx _
  | scanSome x k hx _ => exact inv_goto h hx _
  | start x k hx _ => exact inv_goto (s := { s with started := s.started ++ [(w, k)] }) ⟨h.records, h.workers⟩ hx _
  | finish x k hx _ => exact inv_goto h hx _

theorem Reachable.inv {s : State K} (h : Reachable s) : Inv s := by
  obtain ⟨s0, hi, hs⟩ := h
  induction hs with
  | refl => exact ⟨hi.records, fun w x hx => by rw [hi.workers w] at hx; cases hx⟩
  | step _ h' ih =>
    cases h' with
    | prog h => exact prog_inv ih h
    | work w h => exact work_inv ih h

/-- what a step of worker `w` does to everything except its mode and the calls started -/
structure Quiet (w : Nat) (s t : State K) : Prop where
  record : t.record = s.record
  fresh : t.fresh = s.fresh
  others : ∀ v, v ≠ w → t.workers v = s.workers v

theorem work_quiet {w : Nat} {s t : State K} (hs : WorkStep w s t) : Quiet w s t := by
  cases hs <;> exact ⟨rfl, rfl, fun v hv => goto_other _ _ _ hv⟩

theorem work_self {w : Nat} {s t : State K} {x : Worker K} (hx : s.workers w = some x) (hs : WorkStep w s t) :
    ∃ m, t.workers w = some { x with mode := m } := by
  have key : ∀ (u : State K) (y : Worker K) (m : Mode K), s.workers w = some y → ∃ m', (u.goto w y m).workers w = some { x with mode := m' } := by
    intro u y m hy
    cases hy.symm.trans hx
    exact ⟨m, goto_self _ _ _ _⟩
  cases hs with
  | loopLive y hy _ _ => exact key _ y _ hy
  | loopDead y hy _ _ => exact key _ y _ hy
  | jobLive y hy _ _ => exact key _ y _ hy
  | jobDead y hy _ _ => exact key _ y _ hy
  | scanNone y hy _ => exact key _ y _ hy
  | scanSome y k hy _ => exact key _ y _ hy
  | start y k hy _ => exact key _ y _ hy
  | finish y k hy _ => exact key _ y _ hy

theorem prog_workers {s t : State K} (hs : ProgStep s t) {w : Nat} {x : Worker K} (hx : s.workers w = some x) :
    t.workers w = some x ∨ t.workers w = some { x with mode := .stopped } := by
  cases hs with
  | create n => exact Or.inl hx
  | remove n => exact Or.inl hx
  | kill v y hy =>
    by_cases e : w = v
    · subst e
      cases hy.symm.trans hx
      exact Or.inr (goto_self _ _ _ _)
    · exact Or.inl ((goto_other _ _ _ e).trans hx)
  | launch n r v hr hv =>
    have : w ≠ v := by intro e; subst e; rw [hv] at hx; cases hx
    exact Or.inl ((Function.update_of_ne this _ _).trans hx)

/-- once the record is not the id of an existing worker's program, it never is again -/
theorem prog_dead {s t : State K} (hi : Inv s) {n r : Nat} (hr : r < s.fresh) (hd : s.record n ≠ some r) (hs : ProgStep s t) :
    t.record n ≠ some r ∧ s.fresh ≤ t.fresh := by
  cases hs with
  | create m =>
    refine ⟨fun h => ?_, Nat.le_succ _⟩
    have h : Function.update s.record m (some s.fresh) n = some r := h
    by_cases e : n = m
    · subst e; rw [Function.update_self] at h; injection h with h; omega
    · rw [Function.update_of_ne e] at h; exact hd h
  | launch m q v _ _ => exact ⟨hd, Nat.le_refl _⟩
  | kill v y hy => exact ⟨hd, Nat.le_refl _⟩
  | remove m =>
    refine ⟨fun h => ?_, Nat.le_refl _⟩
    have h : Function.update s.record m none n = some r := h
    by_cases e : n = m
    · subst e; rw [Function.update_self] at h; cases h
    · rw [Function.update_of_ne e] at h; exact hd h

theorem StepsOf.inv {w : Nat} {s t : State K} {n : Nat} (hi : Inv s) (h : StepsOf w s t n) : Inv t := by
  induction h with
  | refl => exact hi
  | own _ h' ih => exact work_inv ih h'
  | other v _ _ h' ih => exact work_inv ih h'
  | prog _ h' ih => exact prog_inv ih h'

theorem StepsOf.dead {w : Nat} {s t : State K} {n m r : Nat} (hi : Inv s) (hr : r < s.fresh) (hd : s.record m ≠ some r)
    (h : StepsOf w s t n) : t.record m ≠ some r ∧ r < t.fresh := by
  induction h with
  | refl => exact ⟨hd, hr⟩
  | own _ h' ih => have q := work_quiet h'; rw [q.record, q.fresh]; exact ih
  | other v _ _ h' ih => have q := work_quiet h'; rw [q.record, q.fresh]; exact ih
  | prog h h' ih => have q := prog_dead (h.inv hi) ih.2 ih.1 h'; exact ⟨q.1, Nat.lt_of_lt_of_le ih.2 q.2⟩

theorem StepsOf.worker {w : Nat} {s t : State K} {n : Nat} {x : Worker K} (hx : s.workers w = some x) (h : StepsOf w s t n) :
    ∃ m, t.workers w = some { x with mode := m } := by
  induction h with
  | refl => exact ⟨x.mode, hx⟩
  | own _ h' ih => obtain ⟨m, hm⟩ := ih; obtain ⟨m', hm'⟩ := work_self hm h'; exact ⟨m', hm'⟩
  | other v hv _ h' ih => obtain ⟨m, hm⟩ := ih; exact ⟨m, by rw [(work_quiet h').others w (Ne.symm hv)]; exact hm⟩
  | prog _ h' ih =>
    obtain ⟨m, hm⟩ := ih
    rcases prog_workers h' hm with h | h
    · exact ⟨m, h⟩
    · exact ⟨.stopped, h⟩

/-- the calls a worker with dead parent can still start -/
def callsLeft : Mode K → Nat
  | .scan => 1 | .chosen _ => 1 | _ => 0

theorem startedBy_append (s : State K) (w : Nat) (k : K) (v : Nat) :
    ((s.started ++ [(v, k)]).filter (fun a => a.1 == w)).length = startedBy s w + (if v = w then 1 else 0) := by
  rw [List.filter_append, List.length_append]
  by_cases e : v = w
  · simp [e, startedBy]
  · simp [e, startedBy]

theorem work_startedBy_other {w v : Nat} {s t : State K} (hv : v ≠ w) (hs : WorkStep v s t) : startedBy t w = startedBy s w := by
  cases hs <;> first | rfl | skip
  rename_i x k hx hm
  have := startedBy_append s w k v
  rw [if_neg hv] at this
  exact this

theorem dead_budget {w : Nat} {s t : State K} {n : Nat} {x : Worker K} (hi : Inv s) (hx : s.workers w = some x)
    (hd : ¬ live s x) (h : StepsOf w s t n) :
    ∃ m, t.workers w = some { x with mode := m } ∧ startedBy t w + callsLeft m ≤ startedBy s w + callsLeft x.mode := by
  induction h with
  | refl => exact ⟨x.mode, hx, Nat.le_refl _⟩
  | @own s' u n h h' ih =>
    obtain ⟨m, hm, hb⟩ := ih
    have hdead : ¬ live s' { x with mode := m } := (StepsOf.dead hi (hi.workers w x hx) hd h).1
    cases h' with
    | loopLive y hy hl hv => cases hy.symm.trans hm; exact absurd hv hdead
    | jobLive y hy hl hv => cases hy.symm.trans hm; exact absurd hv hdead
    | loopDead y hy hl _ =>
      cases hy.symm.trans hm
      refine ⟨.stopped, goto_self _ _ _ _, ?_⟩
      have hl : m = .loop := hl
      subst hl; exact hb
    | jobDead y hy hl _ =>
      cases hy.symm.trans hm
      refine ⟨.loop, goto_self _ _ _ _, ?_⟩
      have hl : m = .job := hl
      subst hl; exact hb
    | scanNone y hy hl =>
      cases hy.symm.trans hm
      refine ⟨.job, goto_self _ _ _ _, ?_⟩
      exact Nat.le_trans (Nat.add_le_add_left (Nat.zero_le _) _) hb
    | scanSome y k hy hl =>
      cases hy.symm.trans hm
      refine ⟨.chosen k, goto_self _ _ _ _, ?_⟩
      have hl : m = .scan := hl
      subst hl; exact hb
    | start y k hy hl =>
      cases hy.symm.trans hm
      refine ⟨.running k, goto_self _ _ _ _, ?_⟩
      have hl : m = .chosen k := hl
      subst hl
      have := startedBy_append s' w k w
      rw [if_pos rfl] at this
      show ((s'.started ++ [(w, k)]).filter (fun a => a.1 == w)).length + 0 ≤ _
      rw [this]; exact hb
    | finish y k hy hl =>
      cases hy.symm.trans hm
      refine ⟨.loop, goto_self _ _ _ _, ?_⟩
      have hl : m = .running k := hl
      subst hl; exact hb
  | other v hv h h' ih =>
    obtain ⟨m, hm, hb⟩ := ih
    refine ⟨m, by rw [(work_quiet h').others w (Ne.symm hv)]; exact hm, ?_⟩
    rw [work_startedBy_other hv h']; exact hb
  | prog h h' ih =>
    obtain ⟨m, hm, hb⟩ := ih
    have hst : ∀ {a b : State K}, ProgStep a b → startedBy b w = startedBy a w := by intro a b h; cases h <;> rfl
    rw [hst h']
    rcases prog_workers h' hm with h | h
    · exact ⟨m, h, hb⟩
    · exact ⟨.stopped, h, Nat.le_trans (Nat.add_le_add_left (Nat.zero_le _) _) hb⟩

theorem callsLeft_le (m : Mode K) : callsLeft m ≤ 1 := by cases m <;> simp [callsLeft]

/-! ### C39 -/

/-- A worker does not end by itself while the id of the program which launched it is on record. -/
theorem C39_works_while_recorded {w n r : Nat} {s t : State K} (hw : Launched s w n r) (hrec : s.record n = some r)
    (hs : WorkStep w s t) : ¬ Stopped t w := by
  obtain ⟨x, hx, hn, hr⟩ := hw
  have hl : live s x := by unfold live; rw [hn, hr]; exact hrec
  rintro ⟨y, hy, hm⟩
  cases hs with
  | loopDead z hz _ hv => cases hz.symm.trans hx; exact absurd hl hv
  | loopLive z hz _ _ => rw [goto_self] at hy; cases hy; cases hm
  | jobLive z hz _ _ => rw [goto_self] at hy; cases hy; cases hm
  | jobDead z hz _ _ => rw [goto_self] at hy; cases hy; cases hm
  | scanNone z hz _ => rw [goto_self] at hy; cases hy; cases hm
  | scanSome z k hz _ => rw [goto_self] at hy; cases hy; cases hm
  | start z k hz _ => rw [goto_self] at hy; cases hy; cases hm
  | finish z k hz _ => rw [goto_self] at hy; cases hy; cases hm

/-- while its program's id is on record and it was not stopped, a worker can start another call (if `k` is requested) in
a few steps of its own -/
theorem C39_can_start_calls {w n r : Nat} {s : State K} (hw : Launched s w n r) (hns : ¬ Stopped s w)
    (hrec : s.record n = some r) (k : K) : ∃ t m, StepsOf w s t m ∧ startedBy t w = startedBy s w + 1 ∧ t.record = s.record := by
  obtain ⟨x, hx, hn, hr⟩ := hw
  have hl : ∀ (u : State K) (m : Mode K), u.record = s.record → live u { x with mode := m } := by
    intro u m hu; unfold live; rw [hu]; show s.record x.node = some x.rid; rw [hn, hr]; exact hrec
  -- from each mode
  have fromChosen : ∀ (u : State K) (k : K) (j : Nat), StepsOf w s u j → u.record = s.record → startedBy u w = startedBy s w →
      u.workers w = some { x with mode := .chosen k } → ∃ t m, StepsOf w s t m ∧ startedBy t w = startedBy s w + 1 ∧ t.record = s.record := by
    intro u k j hj hu hst hm
    refine ⟨_, _, .own hj (.start _ k hm rfl), ?_, hu⟩
    have := startedBy_append u w k w
    rw [if_pos rfl, hst] at this
    exact this
  have fromScan : ∀ (u : State K) (j : Nat), StepsOf w s u j → u.record = s.record → startedBy u w = startedBy s w →
      u.workers w = some { x with mode := .scan } → ∃ t m, StepsOf w s t m ∧ startedBy t w = startedBy s w + 1 ∧ t.record = s.record :=
    fun u j hj hu hst hm => fromChosen _ k _ (.own hj (.scanSome _ k hm rfl)) hu hst (goto_self _ _ _ _)
  have fromJob : ∀ (u : State K) (j : Nat), StepsOf w s u j → u.record = s.record → startedBy u w = startedBy s w →
      u.workers w = some { x with mode := .job } → ∃ t m, StepsOf w s t m ∧ startedBy t w = startedBy s w + 1 ∧ t.record = s.record :=
    fun u j hj hu hst hm => fromScan _ _ (.own hj (.jobLive _ hm rfl (hl u _ hu))) hu hst (goto_self _ _ _ _)
  have fromLoop : ∀ (u : State K) (j : Nat), StepsOf w s u j → u.record = s.record → startedBy u w = startedBy s w →
      u.workers w = some { x with mode := .loop } → ∃ t m, StepsOf w s t m ∧ startedBy t w = startedBy s w + 1 ∧ t.record = s.record :=
    fun u j hj hu hst hm => fromJob _ _ (.own hj (.loopLive _ hm rfl (hl u _ hu))) hu hst (goto_self _ _ _ _)
  have hxm : ∀ m, x.mode = m → s.workers w = some { x with mode := m } := by intro m h; rw [← h]; exact hx
  cases hm : x.mode with
  | loop => exact fromLoop s 0 (.refl s) rfl rfl (hxm _ hm)
  | job => exact fromJob s 0 (.refl s) rfl rfl (hxm _ hm)
  | scan => exact fromScan s 0 (.refl s) rfl rfl (hxm _ hm)
  | chosen k' => exact fromChosen s k' 0 (.refl s) rfl rfl (hxm _ hm)
  | running k' => exact fromLoop _ _ (.own (.refl s) (.finish _ k' (hxm _ hm) rfl)) rfl rfl (goto_self _ _ _ _)
  | stopped => exact absurd ⟨x, hx, hm⟩ hns

/-- Once the record of its node is not its program's id any more, a worker starts at most one more call, whatever programs
and other workers do; and the record never becomes its program's id again. -/
theorem C39_at_most_one_more_call {w n r m : Nat} {s t : State K} (hR : Reachable s) (hw : Launched s w n r)
    (hdead : s.record n ≠ some r) (hs : StepsOf w s t m) :
    startedBy t w ≤ startedBy s w + 1 ∧ t.record n ≠ some r := by
  obtain ⟨x, hx, hn, hr⟩ := hw
  have hi := hR.inv
  have hd : ¬ live s x := by unfold live; rw [hn, hr]; exact hdead
  obtain ⟨m', _, hb⟩ := dead_budget hi hx hd hs
  refine ⟨?_, (StepsOf.dead hi (hr ▸ hi.workers w x hx) hdead hs).1⟩
  have := callsLeft_le x.mode
  omega

/-- and if at that moment it is not between its last check of the record and the start of a call, it starts none -/
theorem C39_no_more_calls {w n r m : Nat} {s t : State K} (hR : Reachable s) {x : Worker K} (hx : s.workers w = some x)
    (hn : x.node = n) (hr : x.rid = r) (hm : x.mode ≠ .scan ∧ ∀ k, x.mode ≠ .chosen k)
    (hdead : s.record n ≠ some r) (hs : StepsOf w s t m) : startedBy t w = startedBy s w := by
  have hi := hR.inv
  have hd : ¬ live s x := by unfold live; rw [hn, hr]; exact hdead
  obtain ⟨m', hm', hb⟩ := dead_budget hi hx hd hs
  have h0 : callsLeft x.mode = 0 := by
    cases h : x.mode <;> first | rfl | skip
    · exact absurd h hm.1
    · exact absurd h (hm.2 _)
  have mono : startedBy s w ≤ startedBy t w := by
    clear hb hm'
    induction hs with
    | refl => exact Nat.le_refl _
    | own h h' ih =>
      refine Nat.le_trans (ih) ?_
      cases h' <;> first | exact Nat.le_refl _ | skip
      rename_i k _ _
      show _ ≤ ((_ ++ [(w, k)]).filter (fun a => a.1 == w)).length
      rw [startedBy_append]; exact Nat.le_add_right _ _
    | other v hv h h' ih => rw [work_startedBy_other hv h']; exact ih
    | prog h h' ih => cases h' <;> exact ih
  omega

/-- It stops soon: after five steps of its own at the latest (the steps it makes while the call it already chose is
executed count as one). -/
theorem C39_stops {w n r m : Nat} {s t : State K} (hR : Reachable s) (hw : Launched s w n r)
    (hdead : s.record n ≠ some r) (hs : StepsOf w s t m) (hm : 5 ≤ m) : Stopped t w := by
  obtain ⟨x, hx, hn, hr⟩ := hw
  have hi := hR.inv
  have hd : ¬ live s x := by unfold live; rw [hn, hr]; exact hdead
  -- a measure: chosen and scan may need four more steps
  let need : Mode K → Nat := fun m => match m with
    | .stopped => 0 | .loop => 1 | .job => 2 | .running _ => 2 | .chosen _ => 3 | .scan => 4
  have key : ∃ m', t.workers w = some { x with mode := m' } ∧ (m' = .stopped ∨ need m' + m ≤ 4) := by
    clear hm
    induction hs with
    | refl =>
      refine ⟨x.mode, hx, Or.inr ?_⟩
      show need x.mode ≤ 4
      cases x.mode <;> simp [need]
    | @own s' u j h h' ih =>
      obtain ⟨m', hm', hb⟩ := ih
      have hdd : ¬ live s' { x with mode := m' } := (StepsOf.dead hi (hi.workers w x hx) hd h).1
      cases h' with
      | loopLive y hy hl hv => cases hy.symm.trans hm'; exact absurd hv hdd
      | jobLive y hy hl hv => cases hy.symm.trans hm'; exact absurd hv hdd
      | loopDead y hy hl _ => cases hy.symm.trans hm'; exact ⟨_, goto_self _ _ _ _, Or.inl rfl⟩
      | jobDead y hy hl _ =>
        cases hy.symm.trans hm'
        have hl : m' = .job := hl
        subst hl
        refine ⟨_, goto_self _ _ _ _, Or.inr ?_⟩
        rcases hb with hb | hb
        · cases hb
        · have hb : 2 + j ≤ 4 := hb
          show 1 + (j + 1) ≤ 4; omega
      | scanNone y hy hl =>
        cases hy.symm.trans hm'
        have hl : m' = .scan := hl
        subst hl
        refine ⟨_, goto_self _ _ _ _, Or.inr ?_⟩
        rcases hb with hb | hb
        · cases hb
        · have hb : 4 + j ≤ 4 := hb
          show 2 + (j + 1) ≤ 4; omega
      | scanSome y k hy hl =>
        cases hy.symm.trans hm'
        have hl : m' = .scan := hl
        subst hl
        refine ⟨_, goto_self _ _ _ _, Or.inr ?_⟩
        rcases hb with hb | hb
        · cases hb
        · have hb : 4 + j ≤ 4 := hb
          show 3 + (j + 1) ≤ 4; omega
      | start y k hy hl =>
        cases hy.symm.trans hm'
        have hl : m' = .chosen k := hl
        subst hl
        refine ⟨_, goto_self _ _ _ _, Or.inr ?_⟩
        rcases hb with hb | hb
        · cases hb
        · have hb : 3 + j ≤ 4 := hb
          show 2 + (j + 1) ≤ 4; omega
      | finish y k hy hl =>
        cases hy.symm.trans hm'
        have hl : m' = .running k := hl
        subst hl
        refine ⟨_, goto_self _ _ _ _, Or.inr ?_⟩
        rcases hb with hb | hb
        · cases hb
        · have hb : 2 + j ≤ 4 := hb
          show 1 + (j + 1) ≤ 4; omega
    | other v hv h h' ih =>
      obtain ⟨m', hm', hb⟩ := ih
      exact ⟨m', by rw [(work_quiet h').others w (Ne.symm hv)]; exact hm', hb⟩
    | prog h h' ih =>
      obtain ⟨m', hm', hb⟩ := ih
      rcases prog_workers h' hm' with h | h
      · exact ⟨m', h, hb⟩
      · exact ⟨_, h, Or.inl rfl⟩
  obtain ⟨m', hm', hb | hb⟩ := key
  · exact ⟨_, hm', hb⟩
  · omega

/-- and until then it is not blocked: it can make a step -/
theorem C39_not_blocked {w n r : Nat} {s : State K} (hw : Launched s w n r) (hns : ¬ Stopped s w) : ∃ t, WorkStep w s t := by
  obtain ⟨x, hx, _⟩ := hw
  cases hm : x.mode with
  | loop =>
    by_cases hl : live s x
    · exact ⟨_, .loopLive x hx hm hl⟩
    · exact ⟨_, .loopDead x hx hm hl⟩
  | job =>
    by_cases hl : live s x
    · exact ⟨_, .jobLive x hx hm hl⟩
    · exact ⟨_, .jobDead x hx hm hl⟩
  | scan => exact ⟨_, .scanNone x hx hm⟩
  | chosen k => exact ⟨_, .start x k hx hm⟩
  | running k => exact ⟨_, .finish x k hx hm⟩
  | stopped => exact absurd ⟨x, hx, hm⟩ hns

/-- A second program on the same node and portal takes over the record: the workers of the first program start at most one
more call each and stop. -/
theorem C39_second_program {w n r m : Nat} {s t : State K} (hR : Reachable s) (hw : Launched s w n r)
    (hs : StepsOf w { s with record := Function.update s.record n (some s.fresh), fresh := s.fresh + 1 } t m) :
    startedBy t w ≤ startedBy s w + 1 ∧ (5 ≤ m → Stopped t w) := by
  obtain ⟨s0, hi, hst⟩ := hR
  have hR' : Reachable { s with record := Function.update s.record n (some s.fresh), fresh := s.fresh + 1 } :=
    ⟨s0, hi, .step hst (.prog (.create n))⟩
  have hd : ({ s with record := Function.update s.record n (some s.fresh), fresh := s.fresh + 1 } : State K).record n ≠ some r := by
    show Function.update s.record n (some s.fresh) n ≠ some r
    rw [Function.update_self]
    intro h
    injection h with h
    obtain ⟨x, hx, _, hr⟩ := hw
    have := (Reachable.inv ⟨s0, hi, hst⟩).workers w x hx
    omega
  exact ⟨(C39_at_most_one_more_call hR' hw hd hs).1, fun hm => C39_stops hR' hw hd hs hm⟩

end Pyth.Workers

/-! ### a concrete case: one program with one worker, which executes a call; then a second program starts -/
namespace Pyth.Workers.Ex

def s0 : State String := ⟨fun _ => none, 0, fun _ => none, []⟩
def s1 : State String := { s0 with record := Function.update s0.record 7 (some 0), fresh := 1 }
def s2 : State String := { s1 with workers := Function.update s1.workers 3 (some ⟨7, 0, .loop⟩) }

example : Init s0 := ⟨fun _ => rfl, fun _ _ h => (by cases h), rfl⟩
theorem reach2 : Reachable s2 :=
  ⟨s0, ⟨fun _ => rfl, fun _ _ h => (by cases h), rfl⟩,
    .step (.step (.refl _) (.prog (.create 7))) (.prog (.launch 7 0 3 (by decide) rfl))⟩
theorem launched2 : Launched s2 3 7 0 := ⟨⟨7, 0, .loop⟩, rfl, rfl, rfl⟩
-- the worker can start the call "f"
example : ∃ t m, StepsOf 3 s2 t m ∧ startedBy t 3 = 1 ∧ t.record = s2.record :=
  C39_can_start_calls launched2 (by rintro ⟨x, hx, hm⟩; cases hx; cases hm) (by decide +kernel) "f"
-- after the start of a second program on node 7 it starts at most one
example (t : State String) (m : Nat)
    (h : StepsOf 3 { s2 with record := Function.update s2.record 7 (some s2.fresh), fresh := s2.fresh + 1 } t m) :
    startedBy t 3 ≤ 1 := (C39_second_program reach2 launched2 h).1

end Pyth.Workers.Ex
