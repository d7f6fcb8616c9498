import Verif.Spec.PureFn
import Verif.Proofs.ValueAddrProps
import Verif.Proofs.Hoare
/-!
# Program logic for the pure layer

`Sp c P m Q X`: started in a well-formed state with current portal `c` (if given) and `P`, the
computation `m` restores the portal context, keeps the state well-formed, only lets it evolve in the
allowed ways (`Ev`), and ends with `Q` (value) or `X` (exception).
-/
set_option linter.unusedSectionVars false
set_option linter.unusedVariables false
set_option linter.unusedSimpArgs false
namespace Pyth.Pure
open Pyth.World Pyth.Portal
open Pyth.ValueAddr (Grow growFree Integ integFree IsAddr HoldsVal)

variable {U A α β : Type} [DecidableEq U] [DecidableEq A]

/-- all arguments are addresses bound to portal `p` -/
def BoundTo (s : PWorld U A) (p : PortalId) (l : Kw U) : Prop :=
  ∀ x ∈ l, ∃ i a, x.2 = Arg.addr i ∧ IsAddr s i a (some p)

/-- how a result address object may change -/
structure REv (s' : PWorld U A) (o o' : RObj U A) : Prop where
  key : o'.key = o.key
  portal : o'.portal = o.portal
  ready : o.ready = true → o'.ready = true
  fn : ∀ f, o.fn = some f → o'.fn = some f
  args' : ∀ l, o'.args = some l → o.args = some l ∨ BoundTo s' o.portal l
  result : o.result.isSome → o'.result.isSome

theorem REv.refl (s : PWorld U A) (o : RObj U A) : REv s o o :=
  ⟨rfl, rfl, id, fun _ => id, fun _ => .inl, id⟩

theorem BoundTo.grow {s s' : PWorld U A} {p : PortalId} {l : Kw U} (h : BoundTo s p l)
    (hg : Grow s s') : BoundTo s' p l := fun x hx =>
  have ⟨i, a, h1, h2⟩ := h x hx
  ⟨i, a, h1, h2.grow hg⟩

theorem REv.trans {s1 s2 : PWorld U A} {o o1 o2 : RObj U A} (hg : Grow s1 s2) (h : REv s1 o o1)
    (h' : REv s2 o1 o2) : REv s2 o o2 where
  key := h'.key.trans h.key
  portal := h'.portal.trans h.portal
  ready x := h'.ready (h.ready x)
  fn f x := h'.fn f (h.fn f x)
  args' l x := by
    rcases h'.args' l x with h1 | h1
    · rcases h.args' l h1 with h2 | h2
      · exact .inl h2
      · exact .inr (h2.grow hg)
    · rw [h.portal] at h1; exact .inr h1
  result x := h'.result (h.result x)

/-- allowed evolution of the state -/
structure Ev (s s' : PWorld U A) : Prop where
  grow : Grow s s'
  draws : s'.draws = s.draws
  nd : s.nd ≤ s'.nd
  dflt : s'.dflt = s.dflt
  pCfg : s'.ext.pCfg = s.ext.pCfg
  results : ∀ p k a, (s.ext.results p).data k = some a → (s'.ext.results p).data k = some a
  requests : ∀ p k, s.ext.requests p k = true →
    s'.ext.requests p k = true ∨ ((s'.ext.results p).data k).isSome
  attempts : ∀ p k, s.ext.attempts p k <+: s'.ext.attempts p k
  outputs : ∀ p k, s.ext.outputs p k <+: s'.ext.outputs p k
  resultRecs : ∀ p k, s.ext.resultRecs p k <+: s'.ext.resultRecs p k
  crashRecs : ∀ p k, s.ext.crashRecs p k <+: s'.ext.crashRecs p k
  frames : s'.ext.frames = s.ext.frames
  out : ∃ o, s'.ext.caps = s.ext.caps.map (· ++ o) ∧ s'.ext.screen = s.ext.screen ++ o
  trace : s.ext.trace <+: s'.ext.trace
  nextRun : s.ext.nextRun ≤ s'.ext.nextRun
  raddrs : ∀ (r : Nat) (o : RObj U A), s.ext.raddrs[r]? = some o → ∃ o' : RObj U A,
    s'.ext.raddrs[r]? = some o' ∧ REv s' o o'

theorem Ev.refl (s : PWorld U A) : Ev s s where
  grow := growFree.refl s
  draws := rfl
  nd := Nat.le_refl _
  dflt := rfl
  pCfg := rfl
  results _ _ _ h := h
  requests _ _ h := .inl h
  attempts _ _ := List.prefix_rfl
  outputs _ _ := List.prefix_rfl
  resultRecs _ _ := List.prefix_rfl
  crashRecs _ _ := List.prefix_rfl
  frames := rfl
  out := ⟨[], by simp, by simp⟩
  trace := List.prefix_rfl
  nextRun := Nat.le_refl _
  raddrs r o h := ⟨o, h, .refl _ _⟩

theorem Ev.trans {a b c : PWorld U A} (h : Ev a b) (h' : Ev b c) : Ev a c where
  grow := growFree.trans h.grow h'.grow
  draws := h'.draws.trans h.draws
  nd := Nat.le_trans h.nd h'.nd
  dflt := h'.dflt.trans h.dflt
  pCfg := h'.pCfg.trans h.pCfg
  results p k x e := h'.results p k x (h.results p k x e)
  requests p k e := by
    rcases h.requests p k e with h1 | h1
    · exact h'.requests p k h1
    · obtain ⟨x, hx⟩ := Option.isSome_iff_exists.1 h1
      exact .inr (by rw [h'.results p k x hx]; rfl)
  attempts p k := (h.attempts p k).trans (h'.attempts p k)
  outputs p k := (h.outputs p k).trans (h'.outputs p k)
  resultRecs p k := (h.resultRecs p k).trans (h'.resultRecs p k)
  crashRecs p k := (h.crashRecs p k).trans (h'.crashRecs p k)
  frames := h'.frames.trans h.frames
  out := by
    obtain ⟨o, h1, h2⟩ := h.out
    obtain ⟨o', h1', h2'⟩ := h'.out
    refine ⟨o ++ o', ?_, ?_⟩
    · rw [h1', h1, List.map_map]; congr 1; funext l; simp
    · rw [h2', h2]; simp
  trace := h.trace.trans h'.trace
  nextRun := Nat.le_trans h.nextRun h'.nextRun
  raddrs r o e := by
    obtain ⟨o1, a1, a2⟩ := h.raddrs r o e
    obtain ⟨o2, b1, b2⟩ := h'.raddrs r o1 a1
    exact ⟨o2, b1, a2.trans h'.grow b2⟩

theorem Ev.frame (s : PWorld U A) (sys : Sys) (handling : List Exc) (nextExc : Nat)
    (marked : List Nat) (crashes : PortalId → List CrashRec) :
    Ev s { s with sys := sys, handling := handling, nextExc := nextExc, marked := marked, crashes := crashes } := by
  have := Ev.refl s
  exact { this with
    grow := growFree.frame s _ _ _ _ _
    raddrs := fun r o h => ⟨o, h, .refl _ _⟩ }

theorem evFree : CtxFree (Ev : PWorld U A → PWorld U A → Prop) where
  refl := Ev.refl
  trans := Ev.trans
  frame := Ev.frame

variable (addrOf : Val U A → A) (K : Accept U)

/-- argument objects and the address texts they carry -/
def Match (s : PWorld U A) (kw : Kw U) (ts : List (String × A)) : Prop :=
  List.Forall₂ (fun x y => x.1 = y.1 ∧ match x.2 with
    | .raw u => y.2 = addrOf (.user u)
    | .addr i => ValueAddr.Has i y.2 s) kw ts

theorem Match.grow {addrOf : Val U A → A} {s s' : PWorld U A} {kw : Kw U} {ts : List (String × A)}
    (h : Match addrOf s kw ts) (hg : Grow s s') : Match addrOf s' kw ts := by
  refine List.Forall₂.imp (fun x y h => ⟨h.1, ?_⟩) h
  have h2 := h.2
  cases hx : x.2 with
  | raw u => rw [hx] at h2; exact h2
  | addr i => rw [hx] at h2; exact ValueAddr.Has.grow h2 hg

section sorting
variable {γ : Type}
instance leKey_total : Std.Total (fun a b : String × γ => a.1 ≤ b.1) := ⟨fun a b => le_total a.1 b.1⟩
instance leKey_trans : IsTrans (String × γ) (fun a b : String × γ => a.1 ≤ b.1) := ⟨fun a b c h h' => le_trans h h'⟩

theorem sortKw_perm (kw : List (String × γ)) : (sortKw kw).Perm kw := List.perm_insertionSort _ _

theorem sortKw_sorted (kw : List (String × γ)) : (sortKw kw).Pairwise (fun a b => a.1 ≤ b.1) :=
  List.pairwise_insertionSort _ _

theorem sortKw_of_sorted {kw : List (String × γ)} (h : kw.Pairwise (fun a b => a.1 ≤ b.1)) : sortKw kw = kw :=
  List.Pairwise.insertionSort_eq h

end sorting

/-- the key of a call with the given argument addresses, sorted by name -/
def SigOf (k : Key A) (ts : List (String × A)) : Prop :=
  k.2 = sigText addrOf k.1 ts ∧ ts.Pairwise (fun a b => a.1 ≤ b.1)

theorem Match.sorted {addrOf : Val U A → A} {s : PWorld U A} {kw : Kw U} {ts : List (String × A)}
    (h : Match addrOf s kw ts) : (ts.Pairwise (fun a b => a.1 ≤ b.1) ↔ kw.Pairwise (fun a b => a.1 ≤ b.1)) := by
  have e : kw.map Prod.fst = ts.map Prod.fst := by
    induction h with
    | nil => rfl
    | cons h _ ih => simp [h.1, ih]
  have h1 : kw.Pairwise (fun a b => a.1 ≤ b.1) ↔ (kw.map Prod.fst).Pairwise (· ≤ ·) := List.pairwise_map.symm
  have h2 : ts.Pairwise (fun a b => a.1 ≤ b.1) ↔ (ts.map Prod.fst).Pairwise (· ≤ ·) := List.pairwise_map.symm
  rw [h1, h2, e]

/-- well-formed result address object -/
def ObjOK (s : PWorld U A) (o : RObj U A) : Prop :=
  ∃ ts, SigOf addrOf o.key ts ∧ (∀ f, o.fn = some f → f = o.key.1) ∧
    (∀ l, o.args = some l → Match addrOf s l ts) ∧
    (∀ u, o.result = some u → ∀ vals, o.key = callKey addrOf o.key.1 vals → K o.key.1 vals u) ∧
    ((o.ready = true ∨ o.result.isSome = true) → ((s.ext.results o.portal).data o.key).isSome)

/-- the arguments the guards saw and those the code got: same names in sorted order, same values
where the caller passed values -/
def ArgsAgree (kw0 kw : Kw U) : Prop :=
  List.Forall₂ (fun x y => x.1 = y.1 ∧ ∃ v, y.2 = Arg.raw v ∧ ∀ u, x.2 = Arg.raw u → v = u)
    (sortKw kw0) kw

/-- every start of a pure function is directly preceded by the successful evaluation of its guards -/
def Gated (may : FnId → List (String × U) → Prop) (t : List (Event U)) : Prop :=
  (∀ pre f kw post, t = pre ++ Event.start f kw true :: post →
    ∃ pre' kw0, pre = pre' ++ [Event.guards f kw0 true] ∧ ArgsAgree kw0 kw) ∧
  ∀ f vals, Event.start f (rawKw vals) true ∈ t → may f vals

/-- well-formed state of the pure layer; `K f vals u`: `u` is an acceptable result of `f` -/
structure W (s : PWorld U A) : Prop where
  integ : Integ addrOf s
  /-- a recorded result points to an acceptable user value held by the same portal -/
  held : ∀ p k a, (s.ext.results p).data k = some a →
    ∃ u, a = addrOf (.user u) ∧ (s.store p).data a = some (.user u) ∧
      ∀ vals, k = callKey addrOf k.1 vals → K k.1 vals u
  pCheck : ∀ p, (s.ext.results p).pCheck = s.ext.pCfg p
  reqs : ∀ p k, s.ext.requests p k = true → ∃ ts, SigOf addrOf k ts
  obj : ∀ (r : Nat) (o : RObj U A), s.ext.raddrs[r]? = some o → ObjOK addrOf K s o
  trace : Gated K.may s.ext.trace

variable {addrOf} {K}

theorem ObjOK.frame {s : PWorld U A} {o : RObj U A} (h : ObjOK addrOf K s o) (sys : Sys)
    (handling : List Exc) (nextExc : Nat) (marked : List Nat) (crashes : PortalId → List CrashRec) :
    ObjOK addrOf K { s with sys := sys, handling := handling, nextExc := nextExc, marked := marked, crashes := crashes } o := h

theorem W.frame {s : PWorld U A} (h : W addrOf K s) (sys : Sys) (handling : List Exc) (nextExc : Nat)
    (marked : List Nat) (crashes : PortalId → List CrashRec) :
    W addrOf K { s with sys := sys, handling := handling, nextExc := nextExc, marked := marked, crashes := crashes } :=
  ⟨h.integ, h.held, h.pCheck, h.reqs, h.obj, h.trace⟩

theorem wFree : CtxFree (fun s s' : PWorld U A => W addrOf K s → W addrOf K s') where
  refl _ h := h
  trans a b h := b (a h)
  frame s _ _ _ _ _ h := h.frame _ _ _ _ _

def Cur (c : Option PortalId) (s : PWorld U A) : Prop := ∀ p, c = some p → s.sys.stack.head? = some p

theorem Cur.ctx {c : Option PortalId} {s s' : PWorld U A} (h : Cur c s) (hc : Ctx s s') : Cur c s' :=
  fun p hp => by rw [hc.stack]; exact h p hp

/-- the base part: context restored, well-formedness kept, allowed evolution -/
structure Base (addrOf : Val U A → A) (K : Accept U) (s s' : PWorld U A) : Prop where
  ctx : Ctx s s'
  wf : W addrOf K s'
  ev : Ev s s'

def Sp (addrOf : Val U A → A) (K : Accept U) (c : Option PortalId) (P : PWorld U A → Prop) (m : PM U A α)
    (Q : α → PWorld U A → Prop) (X : Kind → PWorld U A → Prop) : Prop :=
  ∀ s, Ok s → W addrOf K s → Cur c s → P s → Base addrOf K s (m s).2 ∧
    (∀ a, (m s).1 = .ok a → Q a (m s).2) ∧ (∀ e, (m s).1 = .error e → X e.kind (m s).2)

/-- no functional statement -/
abbrev Gen (addrOf : Val U A → A) (K : Accept U) (c : Option PortalId) (m : PM U A α) : Prop :=
  Sp addrOf K c (fun _ => True) m (fun _ _ => True) (fun _ _ => True)

section rules
variable {c : Option PortalId} {P P' F : PWorld U A → Prop} {m : PM U A α} {Q Q' : α → PWorld U A → Prop}
  {X X' : Kind → PWorld U A → Prop}

theorem Sp.conseq (h : Sp addrOf K c P m Q X) (hP : ∀ s, P' s → P s) (hQ : ∀ a s, Q a s → Q' a s)
    (hX : ∀ k s, X k s → X' k s) : Sp addrOf K c P' m Q' X' := fun s a b d e =>
  have := h s a b d (hP s e)
  ⟨this.1, fun x y => hQ _ _ (this.2.1 x y), fun x y => hX _ _ (this.2.2 x y)⟩

theorem Sp.pre (h : Sp addrOf K c P m Q X) (hP : ∀ s, P' s → P s) : Sp addrOf K c P' m Q X :=
  h.conseq hP (fun _ _ h => h) (fun _ _ h => h)

theorem Sp.gen (h : Sp addrOf K c P m Q X) (hP : ∀ s, P s) : Gen addrOf K c m :=
  h.conseq (fun s _ => hP s) (fun _ _ _ => trivial) (fun _ _ _ => trivial)

theorem Sp.weaken (h : Sp addrOf K none P m Q X) : Sp addrOf K c P m Q X := fun s a b _ e =>
  h s a b (fun p hp => by cases hp) e

theorem Sp.fact {G : Prop} (h : G → Sp addrOf K c P m Q X) : Sp addrOf K c (fun s => P s ∧ G) m Q X :=
  fun s a b d e => h e.2 s a b d e.1

/-- monotone assertions are framed through any computation -/
def Mono (addrOf : Val U A → A) (K : Accept U) (F : PWorld U A → Prop) : Prop :=
  ∀ s s', Ev s s' → W addrOf K s' → F s → F s'

theorem Sp.mono (h : Sp addrOf K c P m Q X) (hF : Mono addrOf K F) :
    Sp addrOf K c (fun s => P s ∧ F s) m (fun a s => Q a s ∧ F s) (fun k s => X k s ∧ F s) := fun s a b d e =>
  have := h s a b d e.1
  have hf := hF s _ this.1.ev this.1.wf e.2
  ⟨this.1, fun x y => ⟨this.2.1 x y, hf⟩, fun x y => ⟨this.2.2 x y, hf⟩⟩

theorem Sp.and (h : Sp addrOf K c P m Q X) (h' : Sp addrOf K c P' m Q' X') :
    Sp addrOf K c (fun s => P s ∧ P' s) m (fun a s => Q a s ∧ Q' a s) (fun k s => X k s ∧ X' k s) :=
  fun s a b d e => ⟨(h s a b d e.1).1,
    fun x y => ⟨(h s a b d e.1).2.1 x y, (h' s a b d e.2).2.1 x y⟩,
    fun x y => ⟨(h s a b d e.1).2.2 x y, (h' s a b d e.2).2.2 x y⟩⟩

theorem Base.refl {s : PWorld U A} (h : W addrOf K s) : Base addrOf K s s := ⟨.refl s, h, .refl s⟩
theorem Base.trans {a b c : PWorld U A} (h : Base addrOf K a b) (h' : Base addrOf K b c) :
    Base addrOf K a c := ⟨h.ctx.trans h'.ctx, h'.wf, h.ev.trans h'.ev⟩

theorem Sp.pure {a : α} (h : ∀ s, P s → Q a s) : Sp addrOf K c P (Pure.pure a : PM U A α) Q X :=
  fun s _ hw _ hp => ⟨.refl hw, fun b e => (by cases e; exact h s hp), fun e h => (by cases h)⟩

theorem Sp.getS : Sp addrOf K c P (PyM.get : PM U A (PWorld U A)) (fun t s => s = t ∧ P s) X :=
  fun s _ hw _ hp => ⟨.refl hw, fun b e => (by cases e; exact ⟨rfl, hp⟩), fun e h => (by cases h)⟩

theorem Sp.raiseNew {k : Kind} (hP : Fr P) (h : ∀ s, P s → X k s) :
    Sp addrOf K c P (raiseNew k : PM U A α) Q X :=
  fun s _ hw _ hp => ⟨⟨Keeps.raiseNew (α := α) k s ‹_›, hw.frame _ _ _ _ _, Ev.frame s _ _ _ _ _⟩,
    fun b e => (by cases e), fun e h' => (by
      cases h'
      exact h _ (hP s s.sys s.handling _ s.marked s.crashes hp))⟩

theorem Sp.bind {k : α → PM U A β} {R : β → PWorld U A → Prop} (hm : Sp addrOf K c P m Q X)
    (hk : ∀ a, Sp addrOf K c (Q a) (k a) R X) : Sp addrOf K c P (m >>= k) R X := by
  intro s ho hw hc hp
  have h1 := hm s ho hw hc hp
  rw [PyM.run_bind]
  cases hms : m s with
  | mk r s' =>
    rw [hms] at h1
    cases r with
    | ok a =>
      have h2 := hk a s' (h1.1.ctx.ok ho) h1.1.wf (hc.ctx h1.1.ctx) (h1.2.1 a rfl)
      exact ⟨h1.1.trans h2.1, h2.2⟩
    | error e => exact ⟨h1.1, fun b h => (by cases h), fun e' h => (by cases h; exact h1.2.2 e rfl)⟩

theorem Sp.ite {b : Prop} [Decidable b] {m' : PM U A α} (h : b → Sp addrOf K c P m Q X)
    (h' : ¬ b → Sp addrOf K c P m' Q X) : Sp addrOf K c P (if b then m else m') Q X := by
  split
  · exact h ‹_›
  · exact h' ‹_›

theorem base_logger {s : PWorld U A} (hw : W addrOf K s) : Base addrOf K s (exceptionLogger s) := by
  refine ⟨?_, wFree.logger s hw, evFree.logger s⟩
  have := logger_sys s
  exact ⟨by rw [this.1], by rw [this.1], this.2, by rw [this.1]; exact List.prefix_rfl⟩

/-- `with p: m` -/
theorem Sp.withP {p : PortalId} (hP : Fr P) (hQ : ∀ a, Fr (Q a)) (hX : ∀ k, Fr (X k))
    (h : Sp addrOf K (some p) P m Q X) : Sp addrOf K c P (withP p m) Q X := by
  intro s ho hw hc hp
  obtain ⟨sys', e1, h2, h3, h4, h5, h6⟩ := enterP_ok p s ho
  have hin : Ok (inside p s) := by rw [h6]; exact h2
  have hwin : W addrOf K (inside p s) := by rw [h6]; exact hw.frame _ _ _ _ _
  have hpin : P (inside p s) := by
    rw [h6]; exact hP s sys' s.handling s.nextExc s.marked s.crashes hp
  have hcin : Cur (some p) (inside p s) := by rw [h6]; intro q hq; cases hq; exact h4
  have evin : Ev s (inside p s) := by rw [h6]; exact Ev.frame s _ _ _ _ _
  have hb := h (inside p s) hin hwin hcin hpin
  have hin6 := h6
  unfold World.withP
  rw [e1, ← h6]
  simp only
  cases hms : m (inside p s) with
  | mk r s' =>
    rw [hms] at hb
    simp only at hb
    cases r with
    | ok a =>
      have hex := exitP_ok p s s' ho hb.1.ctx
      simp only [hex]
      have hl := base_logger hb.1.wf
      refine ⟨⟨?_, hl.wf.frame _ _ _ _ _, ?_⟩, fun b e => ?_, fun e h => (by cases h)⟩
      · refine ⟨rfl, rfl, ?_, ?_⟩
        · exact hl.ctx.handling.trans (hb.1.ctx.handling.trans (by rw [h6]))
        · have := hb.1.ctx.all
          rw [h6] at this
          simpa [h3] using this
      · exact evin.trans (hb.1.ev.trans (hl.ev.trans (Ev.frame _ _ _ _ _ _)))
      · cases e
        have := (hQ a).free.logger s' (hb.2.1 a rfl)
        exact hQ a _ _ _ _ _ _ this
    | error e =>
      have hctx' : Ctx (inside p s) s' := hb.1.ctx
      have hs'' : Ctx (inside p { s with handling := e :: s.handling })
          { s' with handling := e :: s'.handling } := by
        obtain ⟨sys2, g1, g2, g3, g4, g5, g6⟩ := enterP_ok p { s with handling := e :: s.handling } ho
        have e12 : sys2 = sys' := by
          have a1 := e1; have a2 := g1
          unfold enterP at a1 a2
          simp only at a2
          cases hE : Portal.enter p s.sys with
          | ok y =>
            rw [hE] at a1 a2
            simp only at a1 a2
            injection a1 with _ a1; injection a2 with _ a2
            have b1 := congrArg World.sys a1
            have b2 := congrArg World.sys a2
            simp only at b1 b2
            rw [← b1, ← b2]
          | error y => rw [hE] at a1; simp [World.raiseNew] at a1
        rw [g6, e12]
        rw [h6] at hctx'
        exact ⟨hctx'.stack, hctx'.counters, by simp [hctx'.handling], hctx'.all⟩
      have hex := exitP_ok p { s with handling := e :: s.handling } { s' with handling := e :: s'.handling }
        ho hs''
      have hh : handlingE e (exitP p : PM U A Unit) s' = (.ok (),
          { exceptionLogger { s' with handling := e :: s'.handling } with
            sys := { s.sys with all := s'.sys.all }
            handling := (exceptionLogger { s' with handling := e :: s'.handling }).handling.tail }) := by
        unfold handlingE
        rw [hex]
      simp only [hh]
      have hw1 : W addrOf K { s' with handling := e :: s'.handling } := hb.1.wf.frame _ _ _ _ _
      have hl := base_logger hw1
      refine ⟨⟨?_, hl.wf.frame _ _ _ _ _, ?_⟩, fun b e => (by cases e), fun e' h => ?_⟩
      · refine ⟨rfl, rfl, ?_, ?_⟩
        · simp only
          rw [hl.ctx.handling]
          simp only [List.tail_cons]
          exact hb.1.ctx.handling.trans (by rw [h6])
        · have := hb.1.ctx.all
          rw [h6] at this
          simpa [h3] using this
      · exact evin.trans (hb.1.ev.trans ((Ev.frame s' _ _ _ _ _).trans
          (hl.ev.trans (Ev.frame _ _ _ _ _ _))))
      · cases h
        have h1 := hX e.kind s' s'.sys (e :: s'.handling) s'.nextExc s'.marked s'.crashes (hb.2.2 e rfl)
        have := (hX e.kind).free.logger _ h1
        exact hX e.kind _ _ _ _ _ _ this

/-- `try: m except: h` -/
theorem Sp.tryE {h : Exc → PM U A α} {R : α → PWorld U A → Prop} {Y : Kind → PWorld U A → Prop}
    (hQ : ∀ a, Fr (R a)) (hX : ∀ k, Fr (X k)) (hY : ∀ k, Fr (Y k))
    (hm : Sp addrOf K c P m R X) (hh : ∀ e, Sp addrOf K c (X e.kind) (h e) R Y) :
    Sp addrOf K c P (tryE m h) R Y := by
  intro s ho hw hc hp
  have h1 := hm s ho hw hc hp
  unfold World.tryE
  cases hms : m s with
  | mk r s' =>
    rw [hms] at h1
    cases r with
    | ok a => exact ⟨h1.1, h1.2.1, fun e h => (by cases h)⟩
    | error e =>
      simp only
      have hx := hX e.kind s' s'.sys (e :: s'.handling) s'.nextExc s'.marked s'.crashes (h1.2.2 e rfl)
      have h2 := hh e { s' with handling := e :: s'.handling } (h1.1.ctx.ok ho)
        (h1.1.wf.frame _ _ _ _ _) (fun p hp => (hc.ctx h1.1.ctx) p hp) hx
      unfold World.handlingE
      cases hhs : h e { s' with handling := e :: s'.handling } with
      | mk r2 s2 =>
        rw [hhs] at h2
        simp only at h2 ⊢
        have hctx := h2.1.ctx
        refine ⟨⟨h1.1.ctx.trans ⟨hctx.stack, hctx.counters, ?_, hctx.all⟩, h2.1.wf.frame _ _ _ _ _,
          h1.1.ev.trans ((Ev.frame s' _ _ _ _ _).trans (h2.1.ev.trans (Ev.frame _ _ _ _ _ _)))⟩,
          fun a e => ?_, fun e' h => ?_⟩
        · simp only [hctx.handling, List.tail_cons]
        · exact hQ a s2 s2.sys s2.handling.tail s2.nextExc s2.marked s2.crashes (h2.2.1 a e)
        · exact hY _ s2 s2.sys s2.handling.tail s2.nextExc s2.marked s2.crashes (h2.2.2 e' h)

end rules

theorem fr_true : Fr (fun _ : PWorld U A => True) := fun _ _ _ _ _ _ h => h
theorem fr_false : Fr (fun _ : PWorld U A => False) := fun _ _ _ _ _ _ h => h

theorem Gen.withP {c : Option PortalId} {p : PortalId} {m : PM U A α} (h : Gen addrOf K (some p) m) :
    Gen addrOf K c (World.withP p m) :=
  Sp.withP fr_true (fun _ => fr_true) (fun _ => fr_true) h

theorem Gen.bind {c : Option PortalId} {m : PM U A α} {k : α → PM U A β} (hm : Gen addrOf K c m)
    (hk : ∀ a, Gen addrOf K c (k a)) : Gen addrOf K c (m >>= k) := Sp.bind hm hk
theorem Gen.pure {c : Option PortalId} (a : α) : Gen addrOf K c (Pure.pure a : PM U A α) :=
  Sp.pure fun _ _ => trivial
theorem Gen.raiseNew {c : Option PortalId} (k : Kind) : Gen addrOf K c (World.raiseNew k : PM U A α) :=
  Sp.raiseNew fr_true fun _ _ => trivial
theorem Gen.ite {c : Option PortalId} {b : Prop} [Decidable b] {m m' : PM U A α}
    (h : b → Gen addrOf K c m) (h' : ¬ b → Gen addrOf K c m') : Gen addrOf K c (if b then m else m') :=
  Sp.ite h h'
theorem Gen.getS {c : Option PortalId} : Gen addrOf K c (PyM.get : PM U A (PWorld U A)) :=
  Sp.getS.conseq (fun _ _ => trivial) (fun _ _ _ => trivial) (fun _ _ h => h)
/-- a functional statement together with generic behaviour -/
theorem Sp.ofGen {c : Option PortalId} {P : PWorld U A → Prop} {m : PM U A α}
    {Q : α → PWorld U A → Prop} {X : Kind → PWorld U A → Prop} (h : Gen addrOf K c m)
    (hf : ∀ s, Ok s → W addrOf K s → Cur c s → P s →
      (∀ a, (m s).1 = .ok a → Q a (m s).2) ∧ (∀ e, (m s).1 = .error e → X e.kind (m s).2)) :
    Sp addrOf K c P m Q X := fun s a b d e => ⟨(h s a b d trivial).1, hf s a b d e⟩

/-! ### operations of the value layer -/

/-- what the value layer leaves alone -/
structure Low (s s' : PWorld U A) : Prop where
  ext : s'.ext = s.ext
  draws : s'.draws = s.draws
  nd : s.nd ≤ s'.nd
  dflt : s'.dflt = s.dflt

theorem lowFree : CtxFree (Low : PWorld U A → PWorld U A → Prop) where
  refl s := ⟨rfl, rfl, Nat.le_refl _, rfl⟩
  trans h h' := ⟨h'.ext.trans h.ext, h'.draws.trans h.draws, Nat.le_trans h.nd h'.nd,
    h'.dflt.trans h.dflt⟩
  frame s _ _ _ _ _ := ⟨rfl, rfl, Nat.le_refl _, rfl⟩

theorem low_storeSet (p : PortalId) (a : A) (v : Val U A) :
    Resp Low (storeSet p a v : PM U A Unit) := by
  intro s
  obtain ⟨d, n, h1, _⟩ := ValueAddr.storeSet_run p a v s
  rw [h1]
  exact ⟨rfl, rfl, Nat.le_succ _, rfl⟩
theorem low_upd (i : Nat) (f : AddrObj A (Val U A) → AddrObj A (Val U A)) :
    Resp Low (updObj i f : PM U A Unit) := fun s => ⟨rfl, rfl, Nat.le_refl _, rfl⟩
theorem low_alloc (o : AddrObj A (Val U A)) : Resp Low (alloc o : PM U A Nat) :=
  fun s => ⟨rfl, rfl, Nat.le_refl _, rfl⟩

theorem Ev.low {s s' : PWorld U A} (hl : Low s s') (hg : Grow s s') : Ev s s' where
  grow := hg
  draws := hl.draws
  nd := hl.nd
  dflt := hl.dflt
  pCfg := by rw [hl.ext]
  results p k a h := by rw [hl.ext]; exact h
  requests p k h := .inl (by rw [hl.ext]; exact h)
  attempts p k := by rw [hl.ext]; exact List.prefix_rfl
  outputs p k := by rw [hl.ext]; exact List.prefix_rfl
  resultRecs p k := by rw [hl.ext]; exact List.prefix_rfl
  crashRecs p k := by rw [hl.ext]; exact List.prefix_rfl
  frames := by rw [hl.ext]
  out := ⟨[], by rw [hl.ext]; simp, by rw [hl.ext]; simp⟩
  trace := by rw [hl.ext]; exact List.prefix_rfl
  nextRun := by rw [hl.ext]
  raddrs r o h := ⟨o, by rw [hl.ext]; exact h, .refl _ _⟩

theorem W.low {s s' : PWorld U A} (h : W addrOf K s) (hl : Low s s') (hg : Grow s s')
    (hi : Integ addrOf s') : W addrOf K s' := by
  refine ⟨hi, ?_, ?_, ?_, ?_, ?_⟩
  · intro p k a
    rw [hl.ext]
    intro e
    obtain ⟨u, h1, h2, h3⟩ := h.held p k a e
    exact ⟨u, h1, hg.store _ _ _ h2, h3⟩
  · rw [hl.ext]; exact h.pCheck
  · rw [hl.ext]; exact h.reqs
  · rw [hl.ext]
    intro r o ho
    obtain ⟨ts, h1, h2, h3, h4, h5⟩ := h.obj r o ho
    exact ⟨ts, h1, h2, fun l hl => (h3 l hl).grow hg, h4, by rw [hl.ext]; exact h5⟩
  · rw [hl.ext]; exact h.trace

theorem gen_low {c : Option PortalId} {m : PM U A α} (hk : Keeps m) (hl : Resp Low m)
    (hg : Resp Grow m) (hi : Resp (fun s s' => Integ addrOf s → Integ addrOf s') m) :
    Gen addrOf K c m := fun s ho hw _ _ =>
  ⟨⟨hk s ho, hw.low (hl s) (hg s) (hi s hw.integ), Ev.low (hl s) (hg s)⟩,
    fun _ _ => trivial, fun _ _ => trivial⟩

open ValueAddr

theorem gen_new {c : Option PortalId} (v : Val U A) (p : Option PortalId) :
    Gen addrOf K c (new addrOf v p : PM U A Nat) :=
  gen_low (keeps_new addrOf v p)
    (resp_new lowFree low_storeSet (fun i _ => low_upd i _) (fun i => low_upd i _)
      (fun i _ => low_upd i _) low_alloc addrOf v p)
    (resp_new growFree Resp.storeSetGrow Resp.valGrow Resp.readyGrow Resp.bothGrow Resp.allocGrow
      addrOf v p)
    (integ_new addrOf v p)

theorem gen_conv {c : Option PortalId} (i : Nat) (p : Option PortalId) :
    Gen addrOf K c (conv i p : PM U A Nat) :=
  gen_low (keeps_conv i p)
    (resp_conv lowFree low_storeSet (fun i _ => low_upd i _) (fun i => low_upd i _) low_alloc i p)
    (resp_conv growFree Resp.storeSetGrow Resp.valGrow Resp.readyGrow Resp.allocGrow i p)
    (integ_conv addrOf i p)

theorem gen_vget {c : Option PortalId} (i : Nat) : Gen addrOf K c (ValueAddr.get i : PM U A (Val U A)) :=
  gen_low (keeps_get i) (resp_get lowFree low_storeSet (fun i _ => low_upd i _) i) (grow_get i)
    (integ_get addrOf i)

theorem gen_fromStrings {c : Option PortalId} (a : A) (p : Option PortalId) (b : Bool) :
    Gen addrOf K c (fromStrings a p b : PM U A Nat) :=
  gen_low (keeps_fromStrings a p b)
    (resp_fromStrings lowFree low_storeSet (fun i _ => low_upd i _) (fun i => low_upd i _) low_alloc a p b)
    (resp_fromStrings growFree Resp.storeSetGrow Resp.valGrow Resp.readyGrow Resp.allocGrow a p b)
    (integ_fromStrings addrOf a p b)

theorem gen_readObj {c : Option PortalId} (i : Nat) :
    Gen addrOf K c (readObj i : PM U A (AddrObj A (Val U A))) :=
  gen_low (Keeps.readObj i) (Resp.readObj lowFree i) (Resp.readObj growFree i)
    (Resp.readObj (integFree addrOf) i)

theorem gen_storeGet {c : Option PortalId} (p : PortalId) (a : A) :
    Gen addrOf K c (storeGet p a : PM U A (Val U A)) :=
  gen_low (Keeps.storeGet p a) (Resp.storeGet lowFree p a) (Resp.storeGet growFree p a)
    (Resp.storeGet (integFree addrOf) p a)

theorem gen_alloc {c : Option PortalId} (o : AddrObj A (Val U A)) (h : o.value = none) :
    Gen addrOf K c (alloc o : PM U A Nat) :=
  gen_low (Keeps.alloc o) (low_alloc o) (Resp.allocGrow o)
    (fun s hs => integ_alloc addrOf o h s hs)

theorem gen_textOf {c : Option PortalId} (i : Nat) : Gen addrOf K c (textOf i : PM U A A) :=
  Gen.bind (gen_readObj i) fun o => Gen.pure _

end Pyth.Pure
