import Verif.Py.Str

/-!
# `float(str)`, `int(str)`, `int(str, 16)` and decimal printing of integers

Executable recognisers of the literals Python's conversion functions accept.
Simplifications: a decimal literal that overflows gives a huge rational instead of `inf`; the 4300
digit limit of `int(str)` is not modelled; `int(s, 16)` does not accept an `0x` prefix (colosseum
only passes two character strings, for which the prefix alone is rejected anyway).
-/

namespace Colosseum

/-- ASCII decimal digit. -/
def isDigit (c : Char) : Bool := '0'.toNat ≤ c.toNat && c.toNat ≤ '9'.toNat

/-- Value of an ASCII decimal digit. -/
def digitVal (c : Char) : Nat := c.toNat - '0'.toNat

/-- Value of a string of ASCII decimal digits, most significant first. -/
def digitsVal (s : PyStr) : Nat := s.foldl (fun n c => 10 * n + digitVal c) 0

/-- The code points of the digits zero outside ASCII, each followed by the other nine digits of its
script: the characters with a decimal value in Unicode 14 (Python 3.11; later versions add scripts). -/
def wideZeros : List Nat :=
  [0x660, 0x6f0, 0x7c0, 0x966, 0x9e6, 0xa66, 0xae6, 0xb66, 0xbe6, 0xc66, 0xce6, 0xd66,
   0xde6, 0xe50, 0xed0, 0xf20, 0x1040, 0x1090, 0x17e0, 0x1810, 0x1946, 0x19d0, 0x1a80, 0x1a90,
   0x1b50, 0x1bb0, 0x1c40, 0x1c50, 0xa620, 0xa8d0, 0xa900, 0xa9d0, 0xa9f0, 0xaa50, 0xabf0, 0xff10,
   0x104a0, 0x10d30, 0x11066, 0x110f0, 0x11136, 0x111d0, 0x112f0, 0x11450, 0x114d0, 0x11650, 0x116c0, 0x11730,
   0x118e0, 0x11950, 0x11c50, 0x11d50, 0x11da0, 0x16a60, 0x16ac0, 0x16b50, 0x1d7ce, 0x1d7d8, 0x1d7e2, 0x1d7ec,
   0x1d7f6, 0x1e140, 0x1e2f0, 0x1e950, 0x1fbf0]

/-- The decimal value of a character outside ASCII (`_PyUnicode_ToDecimalDigit`). -/
def wideDigit (c : Char) : Option Nat :=
  if c.toNat < 128 then none
  else (wideZeros.find? fun z => decide (z ≤ c.toNat) && decide (c.toNat < z + 10)).map (c.toNat - ·)

/-- A decimal digit of any script: `float()` and `int()` first turn these into ASCII digits
(`_PyUnicode_TransformDecimalAndSpaceToASCII`); every other character outside ASCII makes them fail. -/
def isDecimal (c : Char) : Bool := isDigit c || (wideDigit c).isSome

/-- Value of a decimal digit of any script. -/
def decimalVal (c : Char) : Nat := if isDigit c then digitVal c else (wideDigit c).getD 0

/-- Value of a string of decimal digits of any scripts, most significant first. -/
def decimalsVal (s : PyStr) : Nat := s.foldl (fun n c => 10 * n + decimalVal c) 0

/-- Underscores may only stand between two digits; they are dropped. `prev` is the previous
character. (`_Py_string_to_number_with_underscores`) -/
def dropUnderscores : Option Char → PyStr → Option PyStr
  | prev, [] => if prev = some '_' then none else some []
  | prev, c :: cs =>
    if c == '_' then
      match prev with
      | some d => if isDecimal d then dropUnderscores (some '_') cs else none
      | none => none
    else if prev = some '_' && !isDecimal c then none
    else (dropUnderscores (some c) cs).map (c :: ·)

/-- Split off an optional sign. -/
def takeSign : PyStr → Bool × PyStr
  | '-' :: r => (true, r)
  | '+' :: r => (false, r)
  | r => (false, r)

/-- `10 ^ e`. -/
def pow10 : Int → Rat
  | .ofNat n => (10 : Rat) ^ n
  | .negSucc n => 1 / (10 : Rat) ^ (n + 1)

/-- The exponent part of a decimal literal: nothing, or `e` with an optionally signed number. -/
def parseExp : PyStr → Option Int
  | [] => some 0
  | c :: r =>
    if c == 'e' || c == 'E' then
      let d := (takeSign r).2
      if d.isEmpty || !d.all isDecimal then none
      else some (if (takeSign r).1 then -(decimalsVal d : Int) else (decimalsVal d : Int))
    else none

/-- Split off the fractional digits after an optional point. -/
def fracPart : PyStr → PyStr × PyStr
  | '.' :: r => (r.takeWhile isDecimal, r.dropWhile isDecimal)
  | r => ([], r)

/-- An unsigned decimal literal: `digits [. digits] [exponent]`, at least one mantissa digit. -/
def parseDecimal (s : PyStr) : Option Rat :=
  let ip := s.takeWhile isDecimal
  let fr := (fracPart (s.dropWhile isDecimal)).1
  if ip.isEmpty && fr.isEmpty then none
  else
    match parseExp (fracPart (s.dropWhile isDecimal)).2 with
    | none => none
    | some e => some ((decimalsVal (ip ++ fr) : Rat) * pow10 (e - (fr.length : Int)))

/-- A float literal after its sign: `inf`, `infinity`, `nan` in any case, or a decimal literal. -/
def floatBody (fp : FP) (neg : Bool) (m : PyStr) : Option PyNum :=
  if m.map Char.toLower = lit "inf" || m.map Char.toLower = lit "infinity" then some (.inf neg)
  else if m.map Char.toLower = lit "nan" then some .nan
  else
    match parseDecimal m with
    | none => none
    | some q => some (.fin (.flt (fp.rnd (if neg then -q else q))))

/-- `float(s)` for a string: `none` stands for `ValueError`. -/
def parseFloat (fp : FP) (s : PyStr) : Option PyNum :=
  match dropUnderscores none (stripBy isSpaceC s) with
  | none => none
  | some t => floatBody fp (takeSign t).1 (takeSign t).2

/-- `int(s)` for a string: `none` stands for `ValueError`. -/
def parseInt (s : PyStr) : Option Int :=
  match dropUnderscores none (takeSign (stripBy isSpaceC s)).2 with
  | none => none
  | some d =>
    if d.isEmpty || !d.all isDecimal then none
    else some (if (takeSign (stripBy isSpaceC s)).1 then -(decimalsVal d : Int) else (decimalsVal d : Int))

/-- Value of a hexadecimal digit. -/
def hexVal (c : Char) : Option Nat :=
  if isDecimal c then some (decimalVal c)
  else if 'a'.toNat ≤ c.toNat && c.toNat ≤ 'f'.toNat then some (c.toNat - 'a'.toNat + 10)
  else if 'A'.toNat ≤ c.toNat && c.toNat ≤ 'F'.toNat then some (c.toNat - 'A'.toNat + 10)
  else none

/-- Value of a non-empty string of hexadecimal digits, underscores allowed between two of them;
`prevU` tells whether the previous character was an underscore (or the start). -/
def hexDigits : Bool → Nat → PyStr → Option Nat
  | prevU, n, [] => if prevU then none else some n
  | prevU, n, c :: cs =>
    if c == '_' then if prevU then none else hexDigits true n cs
    else
      match hexVal c with
      | some d => hexDigits false (16 * n + d) cs
      | none => none

/-- `int(s, 16)`: `none` stands for `ValueError`. -/
def parseHex (s : PyStr) : Option Int :=
  match hexDigits true 0 (takeSign (stripBy isSpaceC s)).2 with
  | none => none
  | some n => some (if (takeSign (stripBy isSpaceC s)).1 then -(n : Int) else (n : Int))

/-- Decimal digit character. -/
def digitChar (n : Nat) : Char := Char.ofNat ('0'.toNat + n)

/-- Decimal digits of `n`, most significant first; `[]` for `0`, with fuel. -/
def natDigitsAux : Nat → Nat → PyStr → PyStr
  | 0, _, acc => acc
  | fuel + 1, n, acc => if n = 0 then acc else natDigitsAux fuel (n / 10) (digitChar (n % 10) :: acc)

/-- `str(n)` for a natural number. -/
def natStr (n : Nat) : PyStr := if n = 0 then ['0'] else natDigitsAux n n []

/-- `str(i)` for an `int`. -/
def intStr (i : Int) : PyStr :=
  if i < 0 then '-' :: natStr i.natAbs else natStr i.natAbs

end Colosseum
