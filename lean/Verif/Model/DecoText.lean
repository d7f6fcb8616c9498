import Verif.Model.SourceText
/-!
# Decorators as text, and back

The text of a decorator (`AutonomousFn.decorator`, `PureFn.decorator`), which goes into the augmented source code of pure
functions, and what `process_augmented_func_src` makes of such a text in another process: `ast.parse`,
`convert_astkeywords_to_dict` (with `ast.literal_eval`), and the call of the decorator.

Python's parser is modelled for the texts of decorators `@pth.name(keyword=value, …)`, where a value is a string literal (or
several adjacent ones), a list of string literals, `None`, `True` or `False`.
Simplifications: other values, escapes `\N{…}` and escapes for surrogates are refused (Python accepts some of them); a
carriage return is refused inside a literal, as a line end is (Python translates it to one); string prefixes, `+` and
parentheses are refused; names of keywords consist of ASCII letters, digits and underscores; comments are refused.
-/
namespace Pyth.Deco
open Pyth.Src

/-- the decorators' classes (autonomous_decorators.py:42, 105; pure_decorator.py:10) -/
inductive Kind
  | autonomous | strictly | pure
  deriving DecidableEq, Repr

/-- a decorator with its arguments; `island = none`: the portal's default island
(autonomous_core_classes.py:202-207, pure_core_classes.py:209-217) -/
structure Call where
  kind : Kind
  island : Option Txt
  guards : Option (List Txt) := none
  deriving DecidableEq, Repr

/-- `fn_type` (autonomous_core_classes.py:196-200, pure_core_classes.py:205-207) -/
def Kind.text : Kind → Txt
  | .autonomous => "autonomous".toList
  | .strictly => "strictly_autonomous".toList
  | .pure => "pure".toList

/-! ## Printing -/

/-- the hexadecimal digit of a number below 16 (for `repr`/f-strings in pure_core_classes.py:209-217) -/
def hexDigit (n : Nat) : Char := "0123456789abcdef".toList.getD n '0'

/-- the lowest `w` hexadecimal digits of a number (for `repr` in pure_core_classes.py:209-217) -/
def hex : Nat → Nat → Txt
  | 0, _ => []
  | w + 1, n => hex w (n / 16) ++ [hexDigit (n % 16)]

/-- one character in Python's `repr` of a string delimited by `q`; `printable`: `str.isprintable` of the characters
beyond ASCII (for `repr` in pure_core_classes.py:209-217) -/
def reprChar (printable : Char → Bool) (q c : Char) : Txt :=
  if c = q ∨ c = '\\' then ['\\', c]
  else if c = '\t' then ['\\', 't']
  else if c = '\n' then ['\\', 'n']
  else if c = '\r' then ['\\', 'r']
  else if c.toNat < 32 ∨ c.toNat = 127 then '\\' :: 'x' :: hex 2 c.toNat
  else if c.toNat < 127 then [c]
  else if printable c then [c]
  else if c.toNat < 256 then '\\' :: 'x' :: hex 2 c.toNat
  else if c.toNat < 65536 then '\\' :: 'u' :: hex 4 c.toNat
  else '\\' :: 'U' :: hex 8 c.toNat

/-- the delimiter that Python's `repr` chooses (for `repr` in pure_core_classes.py:209-217) -/
def quoteOf (s : Txt) : Char := if '\'' ∈ s ∧ '"' ∉ s then '"' else '\''

/-- Python's `repr` of a string (for `repr` in pure_core_classes.py:209-217) -/
def reprStr (printable : Char → Bool) (s : Txt) : Txt :=
  quoteOf s :: s.flatMap (reprChar printable (quoteOf s)) ++ [quoteOf s]

/-- `", ".join(parts)` (pure_core_classes.py:209-217) -/
def joinComma : List Txt → Txt
  | [] => []
  | [x] => x
  | x :: y :: r => x ++ ", ".toList ++ joinComma (y :: r)

/-- `f"{names}"` for a list of strings (pure_core_classes.py:214) -/
def reprList (printable : Char → Bool) (l : List Txt) : Txt := '[' :: joinComma (l.map (reprStr printable)) ++ [']']

/-- `AutonomousFn.decorator` (autonomous_core_classes.py:202-206) and `PureFn.decorator` (pure_core_classes.py:209-217) for
a function in island `isl` -/
def decoText (printable : Char → Bool) (kind : Kind) (isl : Txt) (guards : Option (List Txt)) : Txt :=
  match kind with
  | .pure =>
    "@pth.pure(".toList ++ "\n\tisland_name='".toList ++ isl ++ ['\''] ++
      (match guards with
       | some l => "\n\t, guards=".toList ++ reprList printable l
       | none => []) ++ [')']
  | k => "@pth.".toList ++ k.text ++ "(island_name='".toList ++ isl ++ "')".toList

/-! ## Reading string literals -/

/-- the raw text of a literal up to the delimiter `q`, and the text after it (for `ast.parse`, process_augmented_func_src.py:13-60) -/
def scan (q : Char) : Txt → Option (Txt × Txt)
  | [] => none
  | [c] => if c = q then some ([], []) else none
  | c :: d :: r =>
    if c = '\\' then (if d = '\x00' then none else (scan q r).map fun p => (c :: d :: p.1, p.2))
    else if c = q then some ([], d :: r)
    else if c = '\n' ∨ c = '\r' ∨ c = '\x00' then none
    else (scan q (d :: r)).map fun p => (c :: p.1, p.2)

/-- the raw text of a literal up to three delimiters `q`, and the text after them (for `ast.parse`, process_augmented_func_src.py:13-60) -/
def scan3 (q : Char) : Txt → Option (Txt × Txt)
  | a :: b :: c :: r =>
    if a = q ∧ b = q ∧ c = q then some ([], r)
    else if a = '\\' then (if b = '\x00' then none else (scan3 q (c :: r)).map fun p => (a :: b :: p.1, p.2))
    else if a = '\x00' then none
    else (scan3 q (b :: c :: r)).map fun p => (a :: p.1, p.2)
  | _ => none

/-- the value of a hexadecimal digit (for `ast.parse`, process_augmented_func_src.py:13-60) -/
def hexVal (c : Char) : Option Nat :=
  if '0' ≤ c ∧ c ≤ '9' then some (c.toNat - 48)
  else if 'a' ≤ c ∧ c ≤ 'f' then some (c.toNat - 87)
  else if 'A' ≤ c ∧ c ≤ 'F' then some (c.toNat - 55)
  else none

/-- the value of hexadecimal digits (for `ast.parse`, process_augmented_func_src.py:13-60) -/
def hexNum : Nat → Txt → Option Nat
  | acc, [] => some acc
  | acc, c :: r => match hexVal c with
    | some d => hexNum (acc * 16 + d) r
    | none => none

/-- the character with this code (for `ast.parse`, process_augmented_func_src.py:13-60) -/
def charOf (n : Nat) : Option Char := if n.isValidChar then some (Char.ofNat n) else none

/-- the character given by hexadecimal digits (for `ast.parse`, process_augmented_func_src.py:13-60) -/
def hexChar (l : Txt) : Option Char := (hexNum 0 l).bind charOf

/-- the value of an octal digit (for `ast.parse`, process_augmented_func_src.py:13-60) -/
def octVal (c : Char) : Option Nat := if '0' ≤ c ∧ c ≤ '7' then some (c.toNat - 48) else none

/-- the escapes of one character (for `ast.parse`, process_augmented_func_src.py:13-60) -/
def simpleEscape (c : Char) : Option Char :=
  if c = '\\' ∨ c = '\'' ∨ c = '"' then some c
  else if c = 'a' then some (Char.ofNat 7)
  else if c = 'b' then some (Char.ofNat 8)
  else if c = 'f' then some (Char.ofNat 12)
  else if c = 'n' then some '\n'
  else if c = 'r' then some '\r'
  else if c = 't' then some '\t'
  else if c = 'v' then some (Char.ofNat 11)
  else none

/-- the characters given by an escape: `d` is the character after the backslash, `r` what follows; the result is the text
it stands for and how many characters of `r` belong to it.  Unknown escapes stay as they are.
(for `ast.parse`, process_augmented_func_src.py:13-60) -/
def escapeOf (d : Char) (r : Txt) : Option (Txt × Nat) :=
  if d = '\n' ∨ d = '\r' then some ([], 0)
  else match simpleEscape d with
    | some e => some ([e], 0)
    | none =>
      if d = 'N' then none
      else if d = 'x' then (if r.length < 2 then none else (hexChar (r.take 2)).map fun e => ([e], 2))
      else if d = 'u' then (if r.length < 4 then none else (hexChar (r.take 4)).map fun e => ([e], 4))
      else if d = 'U' then (if r.length < 8 then none else (hexChar (r.take 8)).map fun e => ([e], 8))
      else match octVal d with
        | some n =>
          let more := (r.take 2).filterMap octVal
          let more := if (r.take 1).filterMap octVal = [] then [] else more
          some ([Char.ofNat (more.foldl (fun a k => a * 8 + k) n)], more.length)
        | none => some (['\\', d], 0)

/-- the value of the raw text of a literal, ignoring the first `skip` characters (for `ast.parse`, process_augmented_func_src.py:13-60) -/
def unescapeFrom : Nat → Txt → Option Txt
  | _, [] => some []
  | skip + 1, _ :: r => unescapeFrom skip r
  | 0, c :: r =>
    if c ≠ '\\' then (unescapeFrom 0 r).map (c :: ·)
    else match r.head? with
      | none => none
      | some d => match escapeOf d r.tail with
        | some (out, k) => (unescapeFrom (k + 1) r).map (out ++ ·)
        | none => none

/-- the value of the raw text of a literal (for `ast.parse`, process_augmented_func_src.py:13-60) -/
def unescape (raw : Txt) : Option Txt := unescapeFrom 0 raw

/-- a literal after its first delimiter `q` (for `ast.parse`, process_augmented_func_src.py:13-60) -/
def literalAfter (q : Char) (t : Txt) : Option (Txt × Txt) :=
  match t with
  | a :: b :: r =>
    if a = q ∧ b = q then (scan3 q r).bind fun p => (unescape p.1).map (·, p.2)
    else (scan q t).bind fun p => (unescape p.1).map (·, p.2)
  | _ => (scan q t).bind fun p => (unescape p.1).map (·, p.2)

/-- whitespace between tokens inside parentheses (for `ast.parse`, process_augmented_func_src.py:13-60) -/
def isWs (c : Char) : Bool := c == ' ' || c == '\t' || c == '\n' || c == '\r' || c == '\x0c'

/-- skip whitespace (for `ast.parse`, process_augmented_func_src.py:13-60) -/
def skipWs (t : Txt) : Txt := t.dropWhile isWs

/-- adjacent string literals: their values are concatenated; reads at least one (for `ast.parse`, process_augmented_func_src.py:13-60) -/
def literals : Nat → Txt → Option (Txt × Txt)
  | 0, _ => none
  | n + 1, c :: r =>
    if c = '\'' ∨ c = '"' then
      match literalAfter c r with
      | none => none
      | some (v, rest) =>
        match skipWs rest with
        | d :: r' =>
          if d = '\'' ∨ d = '"' then (literals n (d :: r')).map fun p => (v ++ p.1, p.2)
          else some (v, d :: r')
        | [] => some (v, [])
    else none
  | _ + 1, [] => none

/-! ## Reading keywords and values -/

/-- a value of a keyword, after `ast.literal_eval` (astkeywords_dict_convertors.py:17) -/
inductive Value
  | str (s : Txt) | list (l : List Txt) | none | bool (b : Bool)
  deriving DecidableEq, Repr

/-- the rest of a list of string literals, after `[` or a comma (for `ast.parse`, process_augmented_func_src.py:13-60) -/
def items : Nat → Txt → Option (List Txt × Txt)
  | 0, _ => none
  | n + 1, t =>
    match skipWs t with
    | ']' :: r => some ([], r)
    | t' =>
      match literals t'.length t' with
      | none => none
      | some (v, r) =>
        match skipWs r with
        | ',' :: r' => (items n r').map fun p => (v :: p.1, p.2)
        | ']' :: r' => some ([v], r')
        | _ => none

/-- the characters of identifiers (for `ast.parse`, process_augmented_func_src.py:13-60) -/
def isIdent (c : Char) : Bool := c.isAlphanum || c == '_'

/-- a value and the text after it (for `ast.parse`, process_augmented_func_src.py:13-60) -/
def value (t : Txt) : Option (Value × Txt) :=
  match t with
  | '[' :: r => (items t.length r).map fun p => (.list p.1, p.2)
  | '\'' :: _ => (literals t.length t).map fun p => (.str p.1, p.2)
  | '"' :: _ => (literals t.length t).map fun p => (.str p.1, p.2)
  | _ =>
    if t.takeWhile isIdent = "None".toList then some (.none, t.dropWhile isIdent)
    else if t.takeWhile isIdent = "True".toList then some (.bool true, t.dropWhile isIdent)
    else if t.takeWhile isIdent = "False".toList then some (.bool false, t.dropWhile isIdent)
    else Option.none

/-- `keyword=value` pairs up to the closing parenthesis (process_augmented_func_src.py:13-60) -/
def keywords : Nat → Txt → Option (List (Txt × Value) × Txt)
  | 0, _ => none
  | n + 1, t =>
    match skipWs t with
    | ')' :: r => some ([], r)
    | t' =>
      if t'.takeWhile isIdent = [] then none
      else
        match skipWs (t'.dropWhile isIdent) with
        | '=' :: r =>
          match value (skipWs r) with
          | none => none
          | some (v, r') =>
            match skipWs r' with
            | ',' :: r'' => (keywords n r'').map fun p => ((t'.takeWhile isIdent, v) :: p.1, p.2)
            | ')' :: r'' => some ([(t'.takeWhile isIdent, v)], r'')
            | _ => none
        | _ => none

/-- the decorator of a definition: `@pth.name(…)`; the result is the name, the keywords and the text that follows
(process_augmented_func_src.py:37-55; `decorator.func.attr` is the name, `pth.` is not looked at: simplified to the prefix that
is always printed) -/
def readDeco (t : Txt) : Option (Txt × List (Txt × Value) × Txt) :=
  if "@pth.".toList.isPrefixOf t then
    let r := t.drop 5
    match r.dropWhile isIdent with
    | '(' :: r' => (keywords t.length r').map fun p => (r.takeWhile isIdent, p.1, p.2)
    | _ => none
  else none

/-! ## Calling the decorator -/

/-- `decorator_kwargs[key]`: a later keyword replaces an earlier one (astkeywords_dict_convertors.py:13-19) -/
def get (kw : List (Txt × Value)) (k : Txt) : Option Value := kw.reverse.lookup k

/-- the `island_name` argument of a decorator: a string or None (autonomous_decorators.py:67, pure_decorator.py:19);
outer `none`: AssertionError -/
def islandArg (kw : List (Txt × Value)) : Option (Option Txt) :=
  match get kw "island_name".toList with
  | Option.none => some Option.none
  | some .none => some Option.none
  | some (.str s) => some (some s)
  | some _ => Option.none

/-- the `guards` argument: None, a name or a list of names (pure_core_classes.py:161-168); outer `none`: an
AssertionError -/
def guardsArg (kw : List (Txt × Value)) : Option (Option (List Txt)) :=
  match get kw "guards".toList with
  | Option.none => some Option.none
  | some .none => some Option.none
  | some (.str s) => some (some [s])
  | some (.list l) => some (some l)
  | some (.bool _) => Option.none

/-- `bool(strictly_autonomous)` (autonomous_core_classes.py:131) -/
def truthy : Option Value → Bool
  | some (.str s) => !s.isEmpty
  | some (.list l) => !l.isEmpty
  | some (.bool b) => b
  | some .none => false
  | Option.none => false

/-- `pth.primary_decorators[name](**kwargs)` (process_augmented_func_src.py:45-60; autonomous_decorators.py:57-63, 122-128;
pure_decorator.py:15-23): the decorator with its arguments; an unknown keyword is a TypeError, an unknown decorator and a
keyword `portal` an AssertionError -/
def callDeco (name : Txt) (kw : List (Txt × Value)) : Option Call :=
  if name = "autonomous".toList then
    if kw.all (fun p => p.1 == "island_name".toList || p.1 == "strictly_autonomous".toList) then
      (islandArg kw).map fun i =>
        { kind := if truthy (get kw "strictly_autonomous".toList) then .strictly else .autonomous, island := i }
    else none
  else if name = "strictly_autonomous".toList then
    if kw.all (fun p => p.1 == "island_name".toList) then (islandArg kw).map fun i => { kind := .strictly, island := i }
    else none
  else if name = "pure".toList then
    if kw.all (fun p => p.1 == "island_name".toList || p.1 == "guards".toList) then
      (islandArg kw).bind fun i => (guardsArg kw).map fun g => { kind := .pure, island := i, guards := g }
    else none
  else none

/-- what `process_augmented_func_src` makes of a decorator's text; also the text that follows
(process_augmented_func_src.py:36-60) -/
def decode (t : Txt) : Option (Call × Txt) :=
  match readDeco t with
  | some (name, kw, rest) => (callDeco name kw).map (·, rest)
  | none => none

end Pyth.Deco
