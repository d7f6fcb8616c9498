import Verif.Proofs.HashAddr
/-! # Properties C12, C13: what a hash address reveals -/
namespace Pyth.HashAddr

/-- C12 (a): an address is determined by lower-cased class name, size information and digest. -/
theorem C12_address_determined (x y : Obj)
    (h1 : x.className.map Char.toLower = y.className.map Char.toLower)
    (h2 : x.size = y.size) (h3 : x.hexdigest = y.hexdigest) : address x = address y := by
  obtain ⟨n, sz, hx⟩ := x
  obtain ⟨n', sz', hx'⟩ := y
  simp only at h1 h2 h3
  subst h2 h3
  simp [address, buildHashSignature, buildPrefix, h1]

/-- C12 (b): from an address the lower-cased class name, the size information (not sized / length /
shape) and the signature can be recovered: objects with the same address agree in all three. Hence
objects of different (lower-cased) class name, length or shape never share an address. -/
theorem C12_address_reveals (x y : Obj) (a : List Char × List Char)
    (hx : address x = some a) (hy : address y = some a) :
    x.className.map Char.toLower = y.className.map Char.toLower ∧ x.size = y.size ∧
    Base32.hashSignature x.hexdigest = Base32.hashSignature y.hexdigest := by
  unfold address buildHashSignature at hx hy
  cases hsx : Base32.hashSignature x.hexdigest with
  | none => rw [hsx] at hx; simp at hx
  | some s1 =>
    cases hsy : Base32.hashSignature y.hexdigest with
    | none => rw [hsy] at hy; simp at hy
    | some s2 =>
      rw [hsx] at hx
      rw [hsy] at hy
      simp only [Option.map_some, Option.some.injEq] at hx hy
      rw [← hy] at hx
      simp only [Prod.mk.injEq, buildPrefix] at hx
      obtain ⟨e1, e2⟩ := split_last (descriptor_ends x.size) (descriptor_ends y.size)
        (sig_no_underscore hsx) (sig_no_underscore hsy) hx.2
      exact ⟨hx.1, descriptor_injective e1, by rw [e2]⟩

/-- a string of length 3 hashed to "0f": the address is ("str", "len_3_f") -/
example : address ⟨"Str".toList, .sized 3, "0f".toList⟩ = some ("str".toList, "len_3_f".toList) := by
  have h : Base32.parseHex "0f".toList 0 = some 15 := by decide
  have e : Base32.convertIntToBase32 (15 : Nat) = "f".toList := by
    rw [Base32.convert_nat, Base32.enc_pos 15 (by decide), show 15 / 32 = 0 from rfl, Base32.enc_zero]
    decide
  unfold address buildHashSignature Base32.hashSignature Base32.convertBase16ToBase32
  rw [if_neg (by decide), h]
  simp only [Option.map_some, e]
  decide

/-- C13 (a): different shapes - including the empty one - have different descriptors. -/
theorem C13_shapes_distinct (d1 d2 : List Nat)
    (h : descriptor (.shaped d1) = descriptor (.shaped d2)) : d1 = d2 := by
  have := descriptor_injective h
  simpa using this

/-- C13 (b): the descriptor of a non-empty shape is readable: "shape_", the dimensions in decimal
separated by "_x_", "_"; the empty shape yields the mangled "sha_" (the connector that is not there
is cut off the word "shape_"). -/
theorem C13_shape_text (n : Nat) (ns : List Nat) :
    descriptor (.shaped (n :: ns)) =
      "shape_".toList ++ List.intercalate "_x_".toList ((n :: ns).map (fun k => (toString k).toList)) ++ ['_'] ∧
    descriptor (.shaped []) = "sha_".toList := by
  refine ⟨?_, descriptor_shaped_nil⟩
  rw [descriptor_shaped_cons]
  have hstr : ∀ k : Nat, (toString k).toList = str k := by
    intro k
    unfold str
    exact Nat.toList_repr
  simp only [hstr]
  induction ns generalizing n with
  | nil => simp [body, List.intercalate]
  | cons m ms ih =>
    have := ih m
    have h := List.append_cancel_left (this.trans (List.append_assoc _ _ _))
    simp only [body]
    rw [h]
    have hx : "_x_".toList = ['_', 'x', '_'] := by decide
    simp [List.intercalate, hx]

example : descriptor (.shaped [3, 12]) = "shape_3_x_12_".toList := by decide

end Pyth.HashAddr
