import Verif.Py.Num

/-!
# Python strings

Strings are lists of characters, that is of Unicode scalar values: lone surrogates are not
representable. `str.split`/`str.strip` treat `\x1c`-`\x1f` as white space while `float`/`int` do not.
-/

namespace Colosseum

/-- A Python `str`. -/
abbrev PyStr := List Char

/-- The code points of the characters outside ASCII for which `str.isspace()` holds
(`_PyUnicode_IsWhitespace`; the same in all versions of Python from 3.9 on). -/
def wideBlanks : List Nat :=
  [0x85, 0xa0, 0x1680, 0x2000, 0x2001, 0x2002, 0x2003, 0x2004, 0x2005, 0x2006, 0x2007, 0x2008, 0x2009, 0x200a,
   0x2028, 0x2029, 0x202f, 0x205f, 0x3000]

/-- White space outside ASCII. -/
def isWideBlank (c : Char) : Bool := decide (128 ≤ c.toNat) && wideBlanks.contains c.toNat

/-- White space skipped by `float()` and `int()`
(`_PyUnicode_TransformDecimalAndSpaceToASCII` turns the white space outside ASCII into spaces). -/
def isSpaceC (c : Char) : Bool :=
  c == ' ' || c == '\t' || c == '\n' || c == '\r' || c == '\x0b' || c == '\x0c' || isWideBlank c

/-- White space of `str.split()` and `str.strip()`. -/
def isSpacePy (c : Char) : Bool :=
  isSpaceC c || c == '\x1c' || c == '\x1d' || c == '\x1e' || c == '\x1f'

/-- Remove leading and trailing characters satisfying `p`. -/
def stripBy (p : Char → Bool) (s : PyStr) : PyStr :=
  ((s.dropWhile p).reverse.dropWhile p).reverse

/-- `s.strip()`. -/
def strip (s : PyStr) : PyStr := stripBy isSpacePy s

/-- `s.rstrip("%")`. -/
def rstripPercent (s : PyStr) : PyStr := (s.reverse.dropWhile (· == '%')).reverse

/-- Loop of `s.split()`; `cur` is the current word, reversed. -/
def splitWsAux : PyStr → PyStr → List PyStr
  | [], cur => if cur.isEmpty then [] else [cur.reverse]
  | c :: cs, cur =>
    if isSpacePy c then
      if cur.isEmpty then splitWsAux cs [] else cur.reverse :: splitWsAux cs []
    else splitWsAux cs (c :: cur)

/-- `s.split()`: the maximal runs of non-blank characters. -/
def splitWs (s : PyStr) : List PyStr := splitWsAux s []

/-- Loop of `s.split(sep)` for a one character separator. -/
def splitOnAux (sep : Char) : PyStr → PyStr → List PyStr
  | [], cur => [cur.reverse]
  | c :: cs, cur => if c == sep then cur.reverse :: splitOnAux sep cs [] else splitOnAux sep cs (c :: cur)

/-- `s.split(sep)` for a one character separator. -/
def splitOn (sep : Char) (s : PyStr) : List PyStr := splitOnAux sep s []

/-- `sep.join(parts)` for a one character separator. -/
def joinWith (sep : Char) : List PyStr → PyStr
  | [] => []
  | [a] => a
  | a :: b :: r => a ++ sep :: joinWith sep (b :: r)

/-- `s.startswith(p)`. -/
def startsWith (s p : PyStr) : Bool := p.isPrefixOf s
/-- `s.endswith(p)`. -/
def endsWith (s p : PyStr) : Bool := p.isSuffixOf s
/-- `s[:-len(p)]` for a non-empty `p`. -/
def dropSuffix (s p : PyStr) : PyStr := s.take (s.length - p.length)
/-- `s[n:-1]`. -/
def sliceInner (n : Nat) (s : PyStr) : PyStr := (s.take (s.length - 1)).drop n

/-- `s.count(c)` for one character. -/
def countChar (c : Char) (s : PyStr) : Nat := s.count c

/-- `s.count(p)` for a non-empty `p`: non overlapping occurrences; `skip` characters belong to the
occurrence found last. -/
def countSub (p : PyStr) : Nat → PyStr → Nat
  | _, [] => 0
  | skip + 1, _ :: cs => countSub p skip cs
  | 0, c :: cs => if p.isPrefixOf (c :: cs) then 1 + countSub p (p.length - 1) cs else countSub p 0 cs

/-- `s.replace(p, "")` for a non-empty `p`. -/
def removeSub (p : PyStr) : Nat → PyStr → PyStr
  | _, [] => []
  | skip + 1, _ :: cs => removeSub p skip cs
  | 0, c :: cs => if p.isPrefixOf (c :: cs) then removeSub p (p.length - 1) cs else c :: removeSub p 0 cs

/-- `s.replace(a, b)` for single characters. -/
def replaceChar (a b : Char) (s : PyStr) : PyStr := s.map fun c => if c == a then b else c

/-- `c.lower()` of one character: the letters of ASCII, and the Kelvin sign, whose lower case is `k`. Every
other character outside ASCII is left as it is; in Python its lower case contains a character outside
ASCII, too (`lower` is only used to look up ASCII texts). -/
def lowerChar (c : Char) : Char := if c = '\u212a' then 'k' else c.toLower

/-- `s.lower()`, see `lowerChar`. -/
def lower (s : PyStr) : PyStr := s.map lowerChar

/-- String literal. -/
abbrev lit (s : String) : PyStr := s.toList

end Colosseum
