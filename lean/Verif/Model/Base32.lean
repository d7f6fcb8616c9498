/-!
# Base-16 / base-32 conversions and signatures
(`pythagoras/_820_strings_signatures_converters/`)

Strings are lists of characters.
-/
namespace Pyth.Base32

/-- `base32_alphabet` (base_16_32_convertors.py:1) -/
def alphabet : List Char := "0123456789abcdefghijklmnopqrstuv".toList

/-- `base32_alphabet[i]` (0 ≤ i < 32 at every call) (base_16_32_convertors.py:22-34) -/
def digit (i : Nat) : Char := alphabet.getD i '?'

/-- `base32_alphabet_map[c]`: index of the character, `none` = KeyError
(base_16_32_convertors.py:2) -/
def digitValue (c : Char) : Option Nat :=
  let i := alphabet.idxOf c
  if i < alphabet.length then some i else none

/-- the `while n > 0` loop of `convert_int_to_base32` (base_16_32_convertors.py:29-33) on a
non-negative `n`; `acc` is `base32_str`. -/
def encodeLoop (n : Nat) (acc : List Char) : List Char :=
  if h : n = 0 then acc
  else encodeLoop (n >>> 5) (digit (n &&& 31) :: acc)
termination_by n
decreasing_by
  rw [Nat.shiftRight_eq_div_pow]
  exact Nat.div_lt_self (Nat.pos_of_ne_zero h) (by decide)

/-- `convert_int_to_base32` (base_16_32_convertors.py:22-34); for `n ≤ 0` the loop body is never
entered. -/
def convertIntToBase32 (n : Int) : List Char :=
  if n > 0 then encodeLoop n.toNat [] else []

/-- the accumulation loop of `convert_base_32_to_int` (base_16_32_convertors.py:44-46) -/
def decodeLoop : List Char → Nat → Option Nat
  | [], num => some num
  | c :: cs, num => match digitValue c with
    | none => none
    | some d => decodeLoop cs (num * 32 + d)

/-- `convert_base_32_to_int` (base_16_32_convertors.py:36-47), `none` = KeyError.  `str.lower` is
modelled on ASCII letters. -/
def convertBase32ToInt (digest : List Char) : Option Nat :=
  decodeLoop (digest.map Char.toLower) 0

/-- value of a hexadecimal digit, either case (for `int(hexdigest, 16)`, base_16_32_convertors.py:6-20) -/
def hexValue (c : Char) : Option Nat :=
  if '0' ≤ c ∧ c ≤ '9' then some (c.toNat - '0'.toNat)
  else if 'a' ≤ c ∧ c ≤ 'f' then some (c.toNat - 'a'.toNat + 10)
  else if 'A' ≤ c ∧ c ≤ 'F' then some (c.toNat - 'A'.toNat + 10)
  else none

/-- `int(hexdigest, 16)` for strings of hexadecimal digits (`none` = ValueError).  Python also accepts
surrounding blanks, a sign, `0x` and underscores; digests produced by the hasher never contain
them. (base_16_32_convertors.py:6-20) -/
def parseHex : List Char → Nat → Option Nat
  | [], num => some num
  | c :: cs, num => match hexValue c with
    | none => none
    | some d => parseHex cs (num * 16 + d)

/-- `convert_base16_to_base32` (base_16_32_convertors.py:6-17) -/
def convertBase16ToBase32 (hexdigest : List Char) : Option (List Char) :=
  if hexdigest.isEmpty then some ['0']
  else match parseHex hexdigest 0 with
    | none => none
    | some num => some (convertIntToBase32 num)

/-- `max_signature_length` (hash_signatures.py:9, random_signatures.py:6) -/
def maxSignatureLength : Nat := 22

/-- `get_hash_signature` (hash_signatures.py:27-28) as a function of the hexadecimal digest of the
object (`joblib`'s hasher is external). -/
def hashSignature (hexdigest : List Char) : Option (List Char) :=
  (convertBase16ToBase32 hexdigest).map (·.take maxSignatureLength)

/-- `get_random_signature` (random_signatures.py:8-12) as a function of the random integer. -/
def randomSignature (randomInt : Nat) : List Char :=
  (convertIntToBase32 randomInt).take maxSignatureLength

end Pyth.Base32
