import Verif.Model.Wrappers
import Verif.Model.Declaration

/-!
# `str(x)` of the values a declaration can hold

`CSS.__str__` (`/repo/src/colosseum/declaration.py:753-761`) formats the stored values with `str`.
-/

namespace Colosseum

/-- The parts of the Python runtime printing depends on: `repr` of a finite float, `str.isprintable` of a character outside ASCII,
and the text of objects that are no colosseum values. -/
structure Printer where
  reprFloat : Rat → PyStr
  printable : Char → Bool
  object : Val → Res PyStr

/-- `str(x)` of a number. -/
def Printer.num (P : Printer) : PyNum → PyStr
  | .fin (.int i) => intStr i
  | .fin (.flt q) => P.reprFloat q
  | .inf neg => if neg then lit "-inf" else lit "inf"
  | .nan => lit "nan"

/-- A hexadecimal digit. -/
def hexDigit (n : Nat) : Char := if n < 10 then Char.ofNat (48 + n) else Char.ofNat (87 + n)

/-- A number with `w` hexadecimal digits. -/
def hexText : Nat → Nat → PyStr
  | 0, _ => []
  | w + 1, n => hexText w (n / 16) ++ [hexDigit (n % 16)]

/-- A character outside ASCII inside the `repr` of a string (CPython `unicode_repr`). White space outside ASCII is never printable: `str.isprintable` is
false of every separator and control character. -/
def Printer.reprChar (P : Printer) (c : Char) : PyStr :=
  if P.printable c && !isWideBlank c then [c]
  else if c.toNat < 256 then '\\' :: 'x' :: hexText 2 c.toNat
  else if c.toNat < 65536 then '\\' :: 'u' :: hexText 4 c.toNat
  else '\\' :: 'U' :: hexText 8 c.toNat

/-- A character inside the `repr` of a string quoted with `q` (CPython `unicode_repr`). -/
def Printer.quotedChar (P : Printer) (q c : Char) : PyStr :=
  if c = q ∨ c = '\\' then ['\\', c]
  else if c = '\t' then lit "\\t"
  else if c = '\n' then lit "\\n"
  else if c = '\r' then lit "\\r"
  else if c.toNat < 32 ∨ c.toNat = 127 then '\\' :: 'x' :: hexText 2 c.toNat
  else if c.toNat < 127 then [c]
  else P.reprChar c

/-- `repr` of a string: single quotes, unless it contains a single and no double quote. -/
def Printer.strRepr (P : Printer) (s : PyStr) : PyStr :=
  let q := if '\'' ∈ s ∧ '"' ∉ s then '"' else '\''
  q :: s.flatMap (P.quotedChar q) ++ [q]

/-- `repr` of a value produced by `ast.literal_eval`. -/
def Printer.qval (P : Printer) : QVal → PyStr
  | .str s => P.strRepr s
  | .other t _ => t

/-- `Quotes.__str__` (`/repo/src/colosseum/wrappers.py:59-65`). -/
def Printer.quotes (P : Printer) (q : List (QVal × QVal)) : PyStr :=
  List.intercalate (lit " ") (q.flatMap fun p => [P.qval p.1, P.qval p.2])

/-- `str` of an item of a `Cursor` (`/repo/src/colosseum/wrappers.py:164-168`). -/
def cursorItemStr : CurItem → PyStr
  | .opt s => s
  | .uri _ x => uriShow x

/-- `rgb.__str__` and `hsl.__str__` (`/repo/src/colosseum/colors.py:14-15,31-32`). -/
def Printer.color (P : Printer) : Color → PyStr
  | .rgb r g b a => lit "rgba(" ++ intStr r ++ lit ", " ++ intStr g ++ lit ", " ++ intStr b ++ lit ", " ++ P.num a ++ lit ")"
  | .hsl h s l a =>
    lit "hsla(" ++ P.num (.fin h) ++ lit ", " ++ P.num (.fin s) ++ lit ", " ++ P.num (.fin l) ++ lit ", " ++ P.num a ++ lit ")"

/-- `str(v)`: `BaseUnit.__repr__` (`/repo/src/colosseum/units.py:35-41`), the colours
(`/repo/src/colosseum/colors.py:14-15,31-32`), `Rect.__str__` (`/repo/src/colosseum/shapes.py:19-23`), `Uri.__str__`,
`BorderSpacing.__str__`, `Quotes.__str__` and `ImmutableList.__str__` (`/repo/src/colosseum/wrappers.py:24-30,59-65,164-168,209-210`). -/
def Printer.str (P : Printer) : Val → Res PyStr
  | .none => .ok (lit "None")
  | .str s => .ok s
  | .num x => .ok (P.num x)
  | .unit u => u.repr P.reprFloat
  | .color _ c => .ok (P.color c)
  | .uri _ x => .ok (uriShow x)
  | .rect a b c d => rectStr P.reprFloat a b c d
  | .borderSpacing _ h v => borderSpacingStr P.reprFloat h v
  | .quotes q => .ok (P.quotes q)
  | .cursor xs => .ok (List.intercalate (lit ", ") (xs.map cursorItemStr))
  | v => P.object v

/-- `f"{name}: {value}"` of each property in order; the first value that cannot be printed raises
(`/repo/src/colosseum/declaration.py:761`). -/
def Printer.lines (P : Printer) : List (PyStr × Val) → Res (List PyStr)
  | [] => .ok []
  | (n, v) :: r => do
    let s ← P.str v
    let t ← P.lines r
    pure ((n ++ lit ": " ++ s) :: t)

/-- `CSS.__str__` (`/repo/src/colosseum/declaration.py:753-761`). -/
def Printer.css (P : Printer) (c : CSS) : Res PyStr := do
  let ls ← P.lines c.rendered
  pure (List.intercalate (lit "; ") ls)

end Colosseum
