import Verif.Proofs.PureMain
/-! The code of a terminating call is executed at most once. -/
set_option linter.unusedSectionVars false
set_option linter.unusedVariables false
set_option linter.unusedSimpArgs false
namespace Pyth.Pure
open Pyth.World Pyth.Portal
open Pyth.ValueAddr (Grow growFree Integ integFree IsAddr HoldsVal Has)

variable {U A α β : Type} [DecidableEq U] [DecidableEq A] {addrOf : Val U A → A}
  {K : Accept U} {c : Option PortalId}
  {P P' F G Z : PWorld U A → Prop} {X X0 : Kind → PWorld U A → Prop}
  {prog : FnId → Fn U} {n m : Nat} {rec : FnId → Kw U → PM U A U}

/-! ### operations that start no run -/

/-- no run starts, stored results stay -/
structure AG (s s' : PWorld U A) : Prop where
  attempts : ∀ p k, s'.ext.attempts p k = s.ext.attempts p k
  results : ∀ p k, ((s.ext.results p).data k).isSome → ((s'.ext.results p).data k).isSome
  pCfg : s'.ext.pCfg = s.ext.pCfg
  runs : ∀ g vals, codeRuns s' g vals = codeRuns s g vals

theorem agFree : CtxFree (AG : PWorld U A → PWorld U A → Prop) where
  refl s := ⟨fun _ _ => rfl, fun _ _ h => h, rfl, fun _ _ => rfl⟩
  trans h h' := ⟨fun p k => (h'.attempts p k).trans (h.attempts p k), fun p k x => h'.results p k (h.results p k x),
    h'.pCfg.trans h.pCfg, fun g v => (h'.runs g v).trans (h.runs g v)⟩
  frame s _ _ _ _ _ := ⟨fun _ _ => rfl, fun _ _ h => h, rfl, fun _ _ => rfl⟩

/-- kept by everything that starts no run -/
def Stable (Z : PWorld U A → Prop) : Prop := ∀ s s', AG s s' → Z s → Z s'

theorem Stable.fr (h : Stable Z) : Fr Z := fun s a b c d e hz => h s _ (agFree.frame s a b c d e) hz
theorem Stable.and {Y : PWorld U A → Prop} (h : Stable Z) (h' : Stable Y) : Stable (fun s => Z s ∧ Y s) :=
  fun s s' a x => ⟨h s s' a x.1, h' s s' a x.2⟩

theorem ag_of_quiet {s s' : PWorld U A} (hq : hist s' = hist s) (he : Ev s s') : AG s s' := by
  simp only [hist, Hist.mk.injEq] at hq
  refine ⟨fun p k => by rw [hq.1], fun p k h => ?_, he.pCfg, fun g v => by unfold codeRuns; rw [hq.2.2.2.2.2.2.2.2.2]⟩
  obtain ⟨a, ha⟩ := Option.isSome_iff_exists.1 h
  rw [he.results p k a ha]; rfl

theorem ag_ext {s s' : PWorld U A} (h : s'.ext = s.ext) : AG s s' :=
  ⟨fun p k => by rw [h], fun p k x => by rw [h]; exact x, by rw [h], fun g v => by unfold codeRuns; rw [h]⟩

theorem Resp.agLow {m : PM U A α} (h : Resp Low m) : Resp AG m := fun s => ag_ext (h s).ext

/-- a stable assertion passes operations that start no run -/
theorem Sp.ag {m : PM U A α} {Q : α → PWorld U A → Prop} (h : Sp addrOf K c P m Q X) (hr : Resp AG m) (hZ : Stable Z) :
    Sp addrOf K c (fun s => P s ∧ Z s) m (fun a s => Q a s ∧ Z s) (fun k s => X k s ∧ Z s) := fun s a b d e =>
  have h1 := h s a b d e.1
  have h2 := hZ _ _ (hr s) e.2
  ⟨h1.1, fun x y => ⟨h1.2.1 x y, h2⟩, fun x y => ⟨h1.2.2 x y, h2⟩⟩

theorem Sp.agq {m : PM U A α} {Q : α → PWorld U A → Prop} (h : Sp addrOf K c P m Q X) (hr : Resp Quiet m) (hZ : Stable Z) :
    Sp addrOf K c (fun s => P s ∧ Z s) m (fun a s => Q a s ∧ Z s) (fun k s => X k s ∧ Z s) := fun s a b d e =>
  have h1 := h s a b d e.1
  have h2 := hZ _ _ (ag_of_quiet (hr s) h1.1.ev) e.2
  ⟨h1.1, fun x y => ⟨h1.2.1 x y, h2⟩, fun x y => ⟨h1.2.2 x y, h2⟩⟩

/-! ### what holds afterwards, however the computation ends -/

def Tr (addrOf : Val U A → A) (K : Accept U) (c : Option PortalId) (P : PWorld U A → Prop) (m : PM U A α)
    (Z : PWorld U A → Prop) : Prop :=
  ∀ s, Ok s → W addrOf K s → Cur c s → P s → Z (m s).2

theorem Tr.bind {m : PM U A α} {k : α → PM U A β} {Q : α → PWorld U A → Prop} (hm : Sp addrOf K c P m Q X)
    (hX : ∀ e s, X e s → Z s) (hk : ∀ a, Tr addrOf K c (Q a) (k a) Z) : Tr addrOf K c P (m >>= k) Z := by
  intro s ho hw hc hp
  have h1 := hm s ho hw hc hp
  rw [PyM.run_bind]
  cases hms : m s with
  | mk r s' =>
    rw [hms] at h1
    cases r with
    | ok a => exact hk a s' (h1.1.ctx.ok ho) h1.1.wf (hc.ctx h1.1.ctx) (h1.2.1 a rfl)
    | error e => exact hX _ _ (h1.2.2 e rfl)

theorem Tr.pre {m : PM U A α} (h : Tr addrOf K c P m Z) (hP : ∀ s, P' s → P s) : Tr addrOf K c P' m Z :=
  fun s a b d e => h s a b d (hP s e)

theorem Tr.gain {B : Prop} {m : PM U A α} (h : B → Tr addrOf K c P m Z) : Tr addrOf K c (fun s => B ∧ P s) m Z :=
  fun s a b d e => h e.1 s a b d e.2

theorem Tr.exI {ι : Type} {P : ι → PWorld U A → Prop} {m : PM U A α} (h : ∀ i, Tr addrOf K c (P i) m Z) :
    Tr addrOf K c (fun s => ∃ i, P i s) m Z := fun s a b d ⟨i, e⟩ => h i s a b d e

theorem Tr.ite {B : Prop} [Decidable B] {m m' : PM U A α} (h : B → Tr addrOf K c P m Z)
    (h' : ¬ B → Tr addrOf K c P m' Z) : Tr addrOf K c P (if B then m else m') Z := by
  split
  · exact h ‹_›
  · exact h' ‹_›

theorem Tr.resp {m : PM U A α} (h : Resp AG m) (hZ : Stable Z) (hP : ∀ s, P s → Z s) : Tr addrOf K c P m Z :=
  fun s _ _ _ e => hZ _ _ (h s) (hP s e)

theorem Tr.ofSp {m : PM U A α} (h : Sp addrOf K c P m (fun _ => Z) (fun _ => Z)) : Tr addrOf K c P m Z := by
  intro s a b d e
  have := h s a b d e
  cases hm : (m s).1 with
  | ok x => exact this.2.1 x hm
  | error x => exact this.2.2 x hm

theorem Sp.tr {m : PM U A α} {Q : α → PWorld U A → Prop} (h : Sp addrOf K c P m Q X) (h' : Tr addrOf K c P' m Z) :
    Sp addrOf K c (fun s => P s ∧ P' s) m (fun a s => Q a s ∧ Z s) (fun k s => X k s ∧ Z s) := fun s a b d e =>
  have h1 := h s a b d e.1
  have h2 := h' s a b d e.2
  ⟨h1.1, fun x y => ⟨h1.2.1 x y, h2⟩, fun x y => ⟨h1.2.2 x y, h2⟩⟩

theorem Tr.withP {p : PortalId} {m : PM U A α} (hP : Fr P) (hZ : Stable Z) (h : Tr addrOf K (some p) P m Z) :
    Tr addrOf K c P (World.withP p m) Z := by
  intro s ho hw hc hp
  obtain ⟨sys', e1, h2, h3, h4, h5, h6⟩ := enterP_ok p s ho
  have hin : Ok (inside p s) := by rw [h6]; exact h2
  have hwin : W addrOf K (inside p s) := by rw [h6]; exact hw.frame _ _ _ _ _
  have hpin : P (inside p s) := by
    rw [h6]; exact hP s sys' s.handling s.nextExc s.marked s.crashes hp
  have hcin : Cur (some p) (inside p s) := by rw [h6]; intro q hq; cases hq; exact h4
  have hb := h (inside p s) hin hwin hcin hpin
  unfold World.withP
  rw [e1, ← h6]
  simp only
  cases hms : m (inside p s) with
  | mk r s' =>
    rw [hms] at hb
    cases r with
    | ok a =>
      have h7 := hZ _ _ (Resp.exitP agFree p s') hb
      simp only
      rcases hx : (exitP p : PM U A Unit) s' with ⟨r2, s2⟩
      rw [hx] at h7
      cases r2 <;> exact h7
    | error e =>
      have h7 := hZ _ _ (Resp.handlingE agFree e (Resp.exitP agFree p) s') hb
      simp only
      rcases hx : handlingE e (exitP p : PM U A Unit) s' with ⟨r2, s2⟩
      rw [hx] at h7
      cases r2 <;> exact h7

/-- opening, running and closing a frame -/
theorem Tr.frameRun {r : RObj U A} {f : FnId} {body : Nat → PM U A α} (hP : Fr P) (hZ : Stable Z)
    (hopen : ∀ s, P s → P' { s with ext := openFrame r f s.ext })
    (h : ∀ i, Tr addrOf K (some r.portal) P' (body i) Z) : Tr addrOf K c P (frameRun r f body) Z := by
  intro s ho hw hc hp
  obtain ⟨sys', e1, h2, h3, h4, h5, h6⟩ := enterP_ok r.portal s ho
  have hp' := hopen _ (hP s sys' s.handling s.nextExc s.marked s.crashes hp)
  have hb := h s.ext.nextRun { s with sys := sys', ext := openFrame r f s.ext } h2 (w_frame_open hw r f sys')
    (fun q hq => by cases hq; exact h4) hp'
  have hun : Pure.frameRun r f body s = (match body s.ext.nextRun { s with sys := sys', ext := openFrame r f s.ext } with
    | (.ok a, s1) =>
      let s1 := { s1 with ext := storeOutput r s.ext.nextRun s1.ext }
      match exitP r.portal s1 with
      | (.ok _, s2) => (.ok a, { s2 with ext := popFrame r f s2.ext })
      | (.error e, s2) => (.error e, s2)
    | (.error e, s1) =>
      let s1 := { s1 with ext := storeOutput r s.ext.nextRun s1.ext }
      match handlingE e (exitP r.portal) s1 with
      | (.ok _, s2) => (.error e, { s2 with ext := popFrame r f s2.ext })
      | (.error e', s2) => (.error e', s2)) := by
    unfold Pure.frameRun
    rw [PyM.run_bind]
    show (do enterP r.portal; modExt (openFrame r f); _ : PM U A α) s = _
    rw [PyM.run_bind, e1]
    rfl
  have hpop : ∀ t : PWorld U A, Z t → Z { t with ext := popFrame r f t.ext } :=
    fun t ht => hZ t _ ⟨fun _ _ => rfl, fun _ _ h => h, rfl, fun _ _ => rfl⟩ ht
  have hso : ∀ t : PWorld U A, Z t → Z { t with ext := storeOutput r s.ext.nextRun t.ext } :=
    fun t ht => hZ t _ ⟨fun _ _ => rfl, fun _ _ h => h, rfl, fun _ _ => rfl⟩ ht
  rw [hun]
  rcases hms : body s.ext.nextRun { s with sys := sys', ext := openFrame r f s.ext } with ⟨res, s1⟩
  rw [hms] at hb
  cases res with
  | ok a =>
    have h7 := hZ _ _ (Resp.exitP agFree r.portal _) (hso s1 hb)
    simp only
    rcases hx : (exitP r.portal : PM U A Unit) { s1 with ext := storeOutput r s.ext.nextRun s1.ext } with ⟨r2, s2⟩
    rw [hx] at h7
    cases r2 with
    | ok _ => exact hpop _ h7
    | error _ => exact h7
  | error e =>
    have h7 := hZ _ _ (Resp.handlingE agFree e (Resp.exitP agFree r.portal) _) (hso s1 hb)
    simp only
    rcases hx : handlingE e (exitP r.portal : PM U A Unit) { s1 with ext := storeOutput r s.ext.nextRun s1.ext } with ⟨r2, s2⟩
    rw [hx] at h7
    cases r2 with
    | ok _ => exact hpop _ h7
    | error _ => exact h7

theorem Tr.traceback {m : PM U A α} (hZ : Stable Z) (h : Tr addrOf K c P m Z) : Tr addrOf K c P (printTraceback m) Z := by
  intro s ho hw hc hp
  have hb := h s ho hw hc hp
  unfold printTraceback
  rcases hms : m s with ⟨r, s1⟩
  rw [hms] at hb
  cases r with
  | ok a => exact hb
  | error e => exact hZ s1 _ ⟨fun _ _ => rfl, fun _ _ h => h, rfl, fun _ _ => rfl⟩ hb

/-! ### the end of a run -/

theorem ag_modExt {g : Ext U A → Ext U A} (h : ∀ s : PWorld U A, AG s { s with ext := g s.ext }) :
    Resp AG (modExt g : PM U A Unit) := fun s => h s

theorem ag_readR (r : Nat) : Resp AG (readR r : PM U A (RObj U A)) := by
  intro s
  unfold readR
  split
  · exact agFree.refl s
  · exact Resp.raiseNew agFree _ s

theorem ag_setPCheck (p : PortalId) (x : Option Rat) : Resp AG (setPCheck p x : PM U A Unit) := by
  refine ag_modExt fun s => ⟨fun _ _ => rfl, fun q k h => ?_, rfl, fun _ _ => rfl⟩
  simp only
  by_cases hq : q = p
  · simpa [hq] using h
  · simpa [hq] using h

theorem ag_resSet (p : PortalId) (k : Key A) (a : A) : Resp AG (resSet p k a : PM U A Unit) := by
  intro s
  obtain ⟨d, n, h, h2, _⟩ := resSet_run p k a s
  rw [h]
  refine ⟨fun _ _ => rfl, fun q k' hs => ?_, rfl, fun _ _ => rfl⟩
  simp only
  by_cases hq : q = p
  · subst hq
    obtain ⟨x, hx⟩ := Option.isSome_iff_exists.1 hs
    simp [h2, hx]
  · simpa [hq] using hs

theorem ag_storeResult (p : PortalId) (k : Key A) (a : A) (conduct : Bool) (cfg : Option Rat) :
    Resp AG (storeResult p k a conduct cfg : PM U A Unit) := by
  intro s
  have b := (agFree (U := U) (A := A)).toPreOrd
  have h1 : Resp AG (do
      if conduct then setPCheck p (some 1) else pure ()
      resSet p k a : PM U A Unit) := by
    cases conduct with
    | true => exact Resp.bind b (ag_setPCheck p _) fun _ => ag_resSet p k a
    | false => exact ag_resSet p k a
  exact agFree.trans (h1 s) (ag_setPCheck p cfg _)

theorem ag_rDrop (r : Nat) : Resp AG (rDrop r : PM U A Unit) :=
  Resp.bind agFree.toPreOrd (ag_readR r) fun o => Resp.withP agFree _ (ag_modExt fun s => ⟨fun _ _ => rfl, fun _ _ h => h, rfl, fun _ _ => rfl⟩)

theorem ag_tail (p : PortalId) (ri run : Nat) (conduct : Bool) (cfg : Option Rat) (u : U) :
    Resp AG (do
      let ra ← ValueAddr.new addrOf (.user u) none
      let t ← textOf ra
      let o ← readR ri
      registerResult o run t
      storeResult p o.key t conduct cfg
      rDrop ri
      pure u : PM U A U) := by
  have b := (agFree (U := U) (A := A)).toPreOrd
  refine Resp.bind b (Resp.agLow (low_new _ _)) fun _ => Resp.bind b (Resp.agLow (low_textOf _)) fun _ =>
    Resp.bind b (ag_readR _) fun _ => Resp.bind b (ag_modExt fun s => ⟨fun _ _ => rfl, fun _ _ h => h, rfl, fun _ _ => rfl⟩) fun _ =>
    Resp.bind b (ag_storeResult _ _ _ _ _) fun _ => Resp.bind b (ag_rDrop _) fun _ => Resp.pure b _

/-! ### the invariant -/

/-- a call that returns a value -/
def OkKey (addrOf : Val U A → A) (prog : FnId → Fn U) (k : Key A) : Prop :=
  ∃ g vals u, Den prog g vals (.ok u) ∧ k = callKey addrOf g (sortKw vals)

/-- Compared with the beginning (`b` runs of each call recorded, `st`: results stored), every call that returns
a value was started at most once more, and then its result is stored or its run is open (`F`). -/
def Once (addrOf : Val U A → A) (prog : FnId → Fn U) (p : PortalId) (cfg : Option Rat) (b : Key A → Nat) (st F : Key A → Prop)
    (s : PWorld U A) : Prop :=
  s.ext.pCfg p = cfg ∧ ∀ k, OkKey addrOf prog k →
    (st k → ((s.ext.results p).data k).isSome) ∧
    ((s.ext.attempts p k).length = b k ∨
      ((s.ext.attempts p k).length = b k + 1 ∧ ¬ st k ∧ (((s.ext.results p).data k).isSome ∨ F k)))

theorem stable_once (p : PortalId) (cfg : Option Rat) (b : Key A → Nat) (st F : Key A → Prop) :
    Stable (U := U) (Once addrOf prog p cfg b st F) := by
  intro s s' h ⟨h1, h2⟩
  refine ⟨by rw [h.pCfg]; exact h1, fun k hk => ?_⟩
  obtain ⟨h3, h4⟩ := h2 k hk
  rw [h.attempts]
  refine ⟨fun x => h.results _ _ (h3 x), ?_⟩
  rcases h4 with h4 | ⟨h4, h5, h6⟩
  · exact .inl h4
  · exact .inr ⟨h4, h5, h6.imp (h.results _ _) id⟩

/-- call `k` has not been started and had no stored result at the beginning -/
def Virgin (addrOf : Val U A → A) (prog : FnId → Fn U) (p : PortalId) (b : Key A → Nat) (st : Key A → Prop) (k : Key A)
    (s : PWorld U A) : Prop :=
  OkKey addrOf prog k → (s.ext.attempts p k).length = b k ∧ ¬ st k

theorem stable_virgin (p : PortalId) (b : Key A → Nat) (st : Key A → Prop) (k : Key A) :
    Stable (U := U) (Virgin addrOf prog p b st k) := fun s s' h hv hk => by
  rw [h.attempts]; exact hv hk

/-- the runs that are open would not end within depth `m` -/
def Opened (addrOf : Val U A → A) (prog : FnId → Fn U) (m : Nat) (F : Key A → Prop) : Prop :=
  ∀ g vals, F (callKey addrOf g (sortKw vals)) → ref prog m g vals = .error diverge

theorem Opened.mono {m m' : Nat} {F : Key A → Prop} (h : Opened addrOf prog m F) (hm : m' ≤ m) : Opened addrOf prog m' F := by
  intro g vals hf
  by_contra hne
  have := ref_mono prog m' m hm g vals hne
  rw [h g vals hf] at this
  exact hne this.symm

/-- nested calls start each call at most once -/
def RecOnce (addrOf : Val U A → A) (prog : FnId → Fn U) (p : PortalId) (cfg : Option Rat) (b : Key A → Nat) (st : Key A → Prop)
    (n : Nat) (rec : FnId → Kw U → PM U A U) : Prop :=
  ∀ m, m ≤ n → ∀ F, Opened addrOf prog m F → ∀ c g vals, ref prog m g vals ≠ .error diverge →
    Sp addrOf (correct prog) c (Once addrOf prog p cfg b st F) (rec g (rawKw vals))
      (fun _ => Once addrOf prog p cfg b st F) (fun _ => Once addrOf prog p cfg b st F)

variable {p : PortalId} {cfg : Option Rat} {b : Key A → Nat} {st Fk : Key A → Prop}

theorem dn_eq {R : Nat → Except Kind α} (hR : Cut R) {r : Except Kind α} (h : Dn R r) {m : Nat}
    (hm : R m ≠ .error diverge) : R m = r := Dn.unique hR ⟨hm, m, rfl⟩ h

theorem sp_bodyOnce (hrec : RecOK addrOf (correct prog) False prog n rec) (honce : RecOnce addrOf prog p cfg b st n rec)
    (hmn : m ≤ n) (hF : Opened addrOf prog m Fk) (body : Body U) : body.Det → refBody (ref prog m) body ≠ .error diverge →
    Sp addrOf (correct prog) c (Once addrOf prog p cfg b st Fk) (runBody rec body)
      (fun _ => Once addrOf prog p cfg b st Fk) (fun _ => Once addrOf prog p cfg b st Fk) := by
  induction body with
  | ret u => exact fun _ _ => Sp.pure fun s h => h
  | raise i => exact fun _ _ => Sp.raiseNew (stable_once p cfg b st Fk).fr fun s h => h
  | call g kw k ih =>
    intro hd hne
    simp only [refBody] at hne
    have hg := hrec c g (rawKw kw) kw (.inr (.inl rfl))
    have hne' : ref prog m g kw ≠ .error diverge := by
      intro h; rw [h] at hne; exact hne rfl
    have ho := honce m hmn Fk hF c g kw hne'
    refine Sp.bind ((hg.and ho).conseq (fun s h => ⟨.inr (denKw_raw s kw), h⟩) (fun _ _ h => h) (fun _ _ h => h.2)) fun u => ?_
    refine Sp.gain fun hu => ih u (hd u) ?_
    have : ref prog m g kw = .ok u := dn_eq (cut_ref prog g kw) (hu.resolve_left id) hne'
    rw [this] at hne; exact hne
  | tryCall g kw k ih =>
    intro hd hne
    simp only [refBody] at hne
    rw [runBody_tryCall]
    have hg := hrec c g (rawKw kw) kw (.inr (.inl rfl))
    have hne' : ref prog m g kw ≠ .error diverge := by
      intro h; rw [h] at hne; exact hne (by simp)
    have ho := honce m hmn Fk hF c g kw hne'
    refine sp_tryCall ((hg.and ho).pre fun s h => ⟨.inr (denKw_raw s kw), h⟩) (fun u => Sp.gain fun hu => ih _ (hd _) ?_)
      (fun e he => Sp.gain fun hu => ih _ (hd _) ?_) (fun s h => h.2)
    · have : ref prog m g kw = .ok u := dn_eq (cut_ref prog g kw) (hu.resolve_left id) hne'
      rw [this] at hne; exact hne
    · have hu := hu.resolve_left id
      rcases hu with hu | hu
      · exact absurd hu.1 he
      · have : ref prog m g kw = .error e := dn_eq (cut_ref prog g kw) hu.2 hne'
        rw [this] at hne
        simpa [he] using hne
  | print t body ih =>
    intro hd hne
    refine Sp.bind (((sp_print (P := fun _ => True) (X := fun _ _ => True) t).ag (ag_modExt fun s => ⟨fun _ _ => rfl, fun _ _ h => h, rfl, fun _ _ => rfl⟩)
      (stable_once p cfg b st Fk)).conseq (fun s h => ⟨trivial, h⟩) (fun _ _ h => h.2) (fun _ _ h => h.2)) fun _ => ih hd hne
  | draw k ih => exact fun hd _ => hd.elim

theorem sp_guardOnce (hrec : RecOK addrOf (correct prog) False prog n rec) (honce : RecOnce addrOf prog p cfg b st n rec)
    (hmn : m ≤ n) (hF : Opened addrOf prog m Fk) (vals : List (String × U)) (gs : List FnId) :
    refGuards (ref prog m) vals gs ≠ .error diverge →
    Sp addrOf (correct prog) c (Once addrOf prog p cfg b st Fk) (guardLoop rec (rawKw vals) gs)
      (fun _ => Once addrOf prog p cfg b st Fk) (fun _ => Once addrOf prog p cfg b st Fk) := by
  induction gs with
  | nil => exact fun _ => Sp.pure fun s h => h
  | cons g gs ih =>
    intro hne
    simp only [refGuards] at hne
    have hg := hrec c g (rawKw vals) vals (.inr (.inl rfl))
    have hne' : ref prog m g vals ≠ .error diverge := by
      intro h; rw [h] at hne; exact hne rfl
    have ho := honce m hmn Fk hF c g vals hne'
    refine Sp.bind ((hg.and ho).conseq (fun s h => ⟨.inr (denKw_raw s vals), h⟩) (fun _ _ h => h) (fun _ _ h => h.2)) fun u => ?_
    refine Sp.gain fun hu => ih ?_
    have : ref prog m g vals = .ok u := dn_eq (cut_ref prog g vals) (hu.resolve_left id) hne'
    rw [this] at hne; exact hne

theorem sp_canOnce (hrec : RecOK addrOf (correct prog) False prog n rec) (honce : RecOnce addrOf prog p cfg b st n rec)
    (hmn : m ≤ n) (hF : Opened addrOf prog m Fk) (f : FnId) (vals : List (String × U))
    (hne : refGuards (ref prog m) vals (prog f).guards ≠ .error diverge) :
    Sp addrOf (correct prog) c (Once addrOf prog p cfg b st Fk) (canBeExecuted rec prog p f (rawKw vals))
      (fun _ => Once addrOf prog p cfg b st Fk) (fun _ => Once addrOf prog p cfg b st Fk) := by
  have hs := (stable_once (addrOf := addrOf) (prog := prog) (U := U) p cfg b st Fk).fr
  refine Sp.withP hs (fun _ => hs) (fun _ => hs) ?_
  refine Sp.tryE (fun _ => hs) (fun _ => hs) (fun _ => hs) (sp_guardOnce hrec honce hmn hF vals _ hne) fun e => ?_
  exact Sp.ite (fun he => Sp.raise fun s h => h) (fun he => Sp.pure fun s h => h)

theorem ag_logFailure (q : PortalId) (f : FnId) (e : Exc) (s : PWorld U A) : AG s (logFailure q f e s) := by
  unfold logFailure
  split
  · exact agFree.refl s
  · simp only
    obtain ⟨mk, cr, h⟩ := persistExc_form [some f, none] e s
    rw [h]
    cases s.ext.frames q f with
    | nil => exact ⟨fun _ _ => rfl, fun _ _ h => h, rfl, fun _ _ => rfl⟩
    | cons x xs => exact ⟨fun _ _ => rfl, fun _ _ h => h, rfl, fun _ _ => rfl⟩

theorem sp_autOnce (hrec : RecOK addrOf (correct prog) False prog n rec) (honce : RecOnce addrOf prog p cfg b st n rec)
    (hmn : m ≤ n) (hF : Opened addrOf prog m Fk) (f : FnId) (kw : Kw U) (hd : ((prog f).body kw).Det)
    (hne : refBody (ref prog m) ((prog f).body kw) ≠ .error diverge) :
    Sp addrOf (correct prog) c (fun s => ((prog f).isPure = true → TailG (correct prog).may f kw s.ext) ∧ Once addrOf prog p cfg b st Fk s)
      (autExec rec prog p f kw)
      (fun _ => Once addrOf prog p cfg b st Fk) (fun _ => Once addrOf prog p cfg b st Fk) := by
  have hst := stable_once (addrOf := addrOf) (prog := prog) (U := U) p cfg b st Fk
  refine Sp.withP (fun s a b c d e h => ⟨h.1, hst.fr s a b c d e h.2⟩) (fun _ => hst.fr) (fun _ => hst.fr) ?_
  rw [ordExec_eq]
  refine Sp.bind (Q := fun _ => Once addrOf prog p cfg b st Fk) (sp_modExt fun s hw hp => ⟨?_, ev_trace s _, ?_⟩) fun _ =>
    Sp.onError (base_logFailure p f) (fun k e s h => hst _ _ (ag_logFailure p f e s) h) (sp_bodyOnce hrec honce hmn hF _ hd hne)
  · exact ⟨hw.integ, hw.held, hw.pCheck, hw.reqs, hw.obj, hw.trace.start f kw _ hp.1⟩
  · exact hp.2

end Pyth.Pure
