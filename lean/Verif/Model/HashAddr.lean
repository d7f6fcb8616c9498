import Verif.Model.Base32
/-!
# Hash addresses (`pythagoras/_030_data_portals/hash_addresses.py`)

An object is represented by what the address construction looks at: the name of its class, its size
information, and the hexadecimal digest computed by the external hasher.
-/
namespace Pyth.HashAddr

/-- what `hasattr`/`callable` tests on lines 55-63 find out about an object -/
inductive Size
  | shaped (dims : List Nat)   -- iterable non-callable `.shape` attribute (entries: integers)
  | sized (len : Nat)          -- otherwise: callable `__len__`
  | plain                      -- neither
  deriving DecidableEq, Repr

/-- the values, as far as the text of an address distinguishes them (hash_addresses.py:42-72) -/
structure Obj where
  className : List Char
  size : Size
  hexdigest : List Char
  deriving DecidableEq, Repr

/-- `str(n)` for a non-negative integer (hash_addresses.py:42-50) -/
def str (n : Nat) : List Char := Nat.toDigits 10 n

/-- `persidict.replace_unsafe_chars(_, "_")` (hash_addresses.py:42-50) -/
def safeChars : List Char :=
  "abcdefghijklmnopqrstuvwxyzABCDEFGHIJKLMNOPQRSTUVWXYZ0123456789()_-~.=".toList
/-- every other character becomes "_" (hash_addresses.py:42-50) -/
def replaceUnsafe (s : List Char) : List Char := s.map (fun c => if c ∈ safeChars then c else '_')

/-- `_build_prefix` (hash_addresses.py:43-48); `str.lower` on ASCII letters -/
def buildPrefix (x : Obj) : List Char := x.className.map Char.toLower

/-- the descriptor of lines 55-65 -/
def descriptor (sz : Size) : List Char :=
  let d := match sz with
    | .shaped dims =>
      let connector := "_x_".toList
      let d := dims.foldl (fun d n => d ++ str n ++ connector) "shape_".toList
      d.take (d.length - connector.length) ++ ['_']
    | .sized n => "len_".toList ++ str n ++ ['_']
    | .plain => []
  replaceUnsafe d

/-- `_build_hash_signature` (hash_addresses.py:52-70), `none` if the digest is malformed -/
def buildHashSignature (x : Obj) : Option (List Char) :=
  (Base32.hashSignature x.hexdigest).map (fun raw => descriptor x.size ++ raw)

/-- the two strings of an address: prefix and hash signature (hash_addresses.py:29-40) -/
def address (x : Obj) : Option (List Char × List Char) :=
  (buildHashSignature x).map (fun h => (buildPrefix x, h))

end Pyth.HashAddr
