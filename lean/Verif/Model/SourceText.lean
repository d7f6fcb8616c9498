import Verif.Model.Py
/-!
# Source texts: lines, indentation, function names

The purely textual part of the normalizer
(`pythagoras/_040_ordinary_functions/code_normalizer_implementation.py` lines 52-76) and
`get_function_name_from_source` (`pythagoras/_040_ordinary_functions/function_name.py`).
A text is a list of characters.
-/
namespace Pyth.Src

/-- A Python string (code_normalizer_implementation.py:53-73) -/
abbrev Txt := List Char

/-- The exceptions of the modelled functions. (code_normalizer_implementation.py:53-73, function_name.py:3-12) -/
inductive Err
  | indexError | assertionError | valueError | attributeError | syntaxError
  deriving DecidableEq, Repr

/-- Python `str.isspace` on one character (CPython's `_PyUnicode_IsWhitespace`): what `strip()`,
`lstrip()` remove. (used by code_normalizer_implementation.py:53-73) -/
def isSpace (c : Char) : Bool :=
  let n := c.toNat
  (9 ≤ n && n ≤ 13) || (28 ≤ n && n ≤ 32) || n == 133 || n == 160 || n == 0x1680
    || (0x2000 ≤ n && n ≤ 0x200a) || n == 0x2028 || n == 0x2029 || n == 0x202f || n == 0x205f
    || n == 0x3000

/-- The characters at which Python's `str.splitlines` ends a line. (used by code_normalizer_implementation.py:53-73) -/
def isBreak (c : Char) : Bool :=
  let n := c.toNat
  (10 ≤ n && n ≤ 13) || (28 ≤ n && n ≤ 30) || n == 133 || n == 0x2028 || n == 0x2029

/-- `str.splitlines()`; `cur` is the current line, reversed. Python: "\r\n" is one line end, a text
that ends in a line end has no further (empty) line.
(code_normalizer_implementation.py:52 `code_lines = code.splitlines()`) -/
def splitlinesAux (cur : Txt) : Txt → List Txt
  | [] => if cur = [] then [] else [cur.reverse]
  | [c] => if isBreak c then [cur.reverse] else [(c :: cur).reverse]
  | c :: d :: r =>
    if isBreak c then
      if c = '\r' ∧ d = '\n' then cur.reverse :: splitlinesAux [] r
      else cur.reverse :: splitlinesAux [] (d :: r)
    else splitlinesAux (c :: cur) (d :: r)

/-- `code.splitlines()` (code_normalizer_implementation.py:51) -/
def splitlines (t : Txt) : List Txt := splitlinesAux [] t

/-- `set(line)<=set(" \t")` (code_normalizer_implementation.py:55) -/
def blank (line : Txt) : Bool := line.all fun c => c == ' ' || c == '\t'

/-- `line.lstrip()` (code_normalizer_implementation.py:53-73) -/
def lstrip (line : Txt) : Txt := line.dropWhile isSpace

/-- `line.strip()` (code_normalizer_implementation.py:53-73, function_name.py:3-12) -/
def strip (line : Txt) : Txt := (lstrip (lstrip line).reverse).reverse

/-- The loop of lines 65-68: `assert line.startswith(chars_to_remove)`, then drop as many
characters. -/
def cutAll (pre : Txt) : List Txt → Except Err (List Txt)
  | [] => .ok []
  | l :: ls =>
    if pre.isPrefixOf l then
      match cutAll pre ls with
      | .ok r => .ok (l.drop pre.length :: r)
      | .error e => .error e
    else .error .assertionError

/-- Lines 54-69: drop blank lines, remove the first remaining line's indentation from every
remaining line. `code_no_empty_lines[0]` raises IndexError when nothing remains. (code_normalizer_implementation.py:54-69) -/
def cleanLines (t : Txt) : Except Err (List Txt) :=
  match (splitlines t).filter (fun l => !blank l) with
  | [] => .error .indexError
  | first :: rest =>
    let first_line_no_indent := lstrip first
    let n := first.length - first_line_no_indent.length
    cutAll (first.take n) (first :: rest)

/-- `"\n".join(lines)` (code_normalizer_implementation.py:53-73) -/
def joinNl : List Txt → Txt
  | [] => []
  | [l] => l
  | l :: m :: ls => l ++ '\n' :: joinNl (m :: ls)

/-- `code_clean_version` (code_normalizer_implementation.py:51-70) -/
def clean (t : Txt) : Except Err Txt :=
  match cleanLines t with
  | .ok ls => .ok (joinNl ls)
  | .error e => .error e

/-- `text.split('\n')`; `cur` is the current piece, reversed. Never returns an empty list.
(function_name.py:5) -/
def splitNlAux (cur : Txt) : Txt → List Txt
  | [] => [cur.reverse]
  | c :: r => if c = '\n' then cur.reverse :: splitNlAux [] r else splitNlAux (c :: cur) r

/-- `a_func.split('\n')` (function_name.py:5) -/
def splitNl (t : Txt) : List Txt := splitNlAux [] t

/-- `s[3:s.find('(')]`: `find` returns -1 when there is no parenthesis, and then the slice ends
before the last character. (function_name.py:9-10) -/
def sliceName (s : Txt) : Txt :=
  if '(' ∈ s then (s.take (s.idxOf '(')).drop 3
  else (s.take (s.length - 1)).drop 3

/-- The loop of function_name.py:6-12 -/
def nameFromLines : List Txt → Except Err Txt
  | [] => .error .valueError
  | line :: rest =>
    let stripped := strip line
    if "def ".toList.isPrefixOf stripped then .ok (strip (sliceName stripped))
    else nameFromLines rest

/-- `get_function_name_from_source` (function_name.py:3-12) -/
def functionName (t : Txt) : Except Err Txt := nameFromLines (splitNl t)

end Pyth.Src
