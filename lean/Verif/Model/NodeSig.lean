import Verif.Model.HashAddr
/-!
# Node signatures (`pythagoras/_820_strings_signatures_converters/node_signatures.py`)

What `uuid`, `platform` and `getpass` report about the computer and the user is the input; the
hexadecimal digest of a text (`joblib`'s hasher) is a parameter.
-/
namespace Pyth.NodeSig

/-- what is asked about the computer and the user (node_signatures.py:9-15): the hardware address as
a number, the texts reported by `platform` and the login name -/
structure Node where
  mac : Nat
  system : List Char
  release : List Char
  version : List Char
  machine : List Char
  processor : List Char
  user : List Char
  deriving DecidableEq, Repr

/-- `f"{mac}{system}{release}{version}"` (node_signatures.py:16) -/
def idStart (n : Node) : List Char := HashAddr.str n.mac ++ n.system ++ n.release ++ n.version

/-- `id_string += f"{machine}{processor}{user}"` (node_signatures.py:17) -/
def idString (n : Node) : List Char := idStart n ++ (n.machine ++ n.processor ++ n.user)

/-- `get_node_signature` (node_signatures.py:6-18): the hash signature of the id string; `hex` is the
external hasher -/
def getNodeSignature (hex : List Char → List Char) (n : Node) : Option (List Char) :=
  Base32.hashSignature (hex (idString n))

end Pyth.NodeSig
