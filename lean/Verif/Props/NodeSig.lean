import Verif.Spec.NodeSig
import Verif.Proofs.HashAddr
/-! # Property C111: node signatures tell nodes apart -/
namespace Pyth.NodeSig
open Spec

theorem idString_text (n : Node) : idString n = text n := by
  have : HashAddr.str n.mac = (toString n.mac).toList := by
    simp [HashAddr.str, toString, Nat.repr]
  simp [idString, idStart, text, description, this]

/-- **C111**: two nodes have the same signature exactly if the texts of their descriptions are the
same or the hasher confuses these two texts. In particular a node has the same signature in every
process of the same user. -/
theorem C111_same_signature_iff (hex : List Char → List Char) (m n : Node) :
    getNodeSignature hex m = getNodeSignature hex n ↔
      text m = text n ∨ Collision hex (text m) (text n) := by
  unfold getNodeSignature Collision
  rw [idString_text, idString_text]
  by_cases h : text m = text n
  · simp [h]
  · simp [h]

theorem flatten_differ : ∀ (l m : List (List Char)) (i : Nat), DifferAt i l m → l.flatten ≠ m.flatten
  | [], [], i, h => by simp [DifferAt] at h
  | [], _ :: _, _, h => by simp [DifferAt] at h
  | _ :: _, [], _, h => by simp [DifferAt] at h
  | a :: l, b :: m, 0, h => by
    obtain ⟨_, h0, hj⟩ := h
    have e : l = m := by
      apply List.ext_getElem?
      intro j
      simpa using hj (j + 1) (by omega)
    subst e
    simp only [List.getElem?_cons_zero, ne_eq, Option.some.injEq] at h0
    simpa using h0
  | a :: l, b :: m, i + 1, h => by
    obtain ⟨hl, h0, hj⟩ := h
    have e : a = b := by simpa using hj 0 (by omega)
    subst e
    have := flatten_differ l m i ⟨by simpa using hl, by simpa using h0, fun j hji => by
      simpa using hj (j + 1) (by omega)⟩
    simpa using this

/-- **C111**: two nodes whose descriptions differ in exactly one point - another computer of the same
kind, another user of the same computer, an upgraded system - have different signatures, unless the
hasher confuses the two texts. -/
theorem C111_one_difference (hex : List Char → List Char) (m n : Node) (i : Nat)
    (hd : DifferAt i (description m) (description n))
    (hc : ¬ Collision hex (text m) (text n)) : getNodeSignature hex m ≠ getNodeSignature hex n := by
  intro h
  rcases (C111_same_signature_iff hex m n).mp h with h | h
  · exact flatten_differ _ _ i hd h
  · exact hc h

theorem takeWhile_digits (k : Nat) (s r : List Char) (hs : StartsWithLetter s) :
    (HashAddr.str k ++ (s ++ r)).takeWhile Char.isDigit = HashAddr.str k := by
  obtain ⟨c, t, rfl, hc⟩ := hs
  have hd : ∀ c ∈ HashAddr.str k, c.isDigit = true := fun c hc => Nat.isDigit_of_mem_toDigits (by decide) (by decide) hc
  rw [List.takeWhile_append_of_pos hd]
  simp [hc]

/-- **C111**: computers with different hardware addresses have different signatures, whatever else is
the same or different, if their systems have names which do not begin with a digit (and unless the
hasher confuses the two texts). -/
theorem C111_different_computers_partial (hex : List Char → List Char) (m n : Node)
    (hm : StartsWithLetter m.system) (hn : StartsWithLetter n.system) (hmac : m.mac ≠ n.mac)
    (hc : ¬ Collision hex (text m) (text n)) : getNodeSignature hex m ≠ getNodeSignature hex n := by
  intro h
  rcases (C111_same_signature_iff hex m n).mp h with h | h
  · rw [← idString_text, ← idString_text] at h
    have e := congrArg (List.takeWhile Char.isDigit) h
    simp only [idString, idStart, List.append_assoc] at e
    rw [takeWhile_digits _ _ _ hm, takeWhile_digits _ _ _ hn] at e
    exact hmac (HashAddr.str_injective e)
  · exact hc h

/-- a Linux computer and a user on it -/
def node1 : Node where
  mac := 117
  system := "Linux".toList
  release := "5.4".toList
  version := "1".toList
  machine := "arm64".toList
  processor := "arm".toList
  user := "guest".toList

/-- another user of the same computer: the hypotheses of `C111_one_difference` -/
example : DifferAt 6 (description node1) (description { node1 with user := "root".toList }) := by
  refine ⟨rfl, by decide, ?_⟩
  intro j hj
  match j, hj with
  | 0, _ | 1, _ | 2, _ | 3, _ | 4, _ | 5, _ => rfl
  | 6, h => exact absurd rfl h
  | _ + 7, _ => simp [description]

/-- and of `C111_different_computers_partial` -/
example : StartsWithLetter node1.system := ⟨'L', _, rfl, by decide⟩

/-- C111 is false of the code for arbitrary nodes: there are no separators between the parts of the
description, so different nodes can have the same signature whatever the hasher does: a user named
"armguest" of a computer which reports no processor and a user named "guest" of one with processor "arm". -/
theorem C111_no_separators_counterexample :
    ∃ m n : Node, m ≠ n ∧ ∀ hex, getNodeSignature hex m = getNodeSignature hex n :=
  ⟨node1, { node1 with processor := [], user := "armguest".toList }, by decide,
    fun hex => (C111_same_signature_iff hex _ _).mpr (Or.inl (by decide +kernel))⟩

/-- without a system name the hardware addresses 11 and 1 can be confused -/
theorem C111_computers_counterexample :
    ∃ m n : Node, m.mac ≠ n.mac ∧ ∀ hex, getNodeSignature hex m = getNodeSignature hex n :=
  ⟨{ node1 with mac := 11, system := [], release := "5.4".toList },
    { node1 with mac := 1, system := [], release := "15.4".toList }, by decide,
    fun hex => (C111_same_signature_iff hex _ _).mpr (Or.inl (by decide +kernel))⟩

end Pyth.NodeSig
