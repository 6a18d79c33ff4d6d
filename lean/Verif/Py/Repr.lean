import Verif.Py.Float64
import Verif.Py.Lit

/-!
# `repr` of a finite `float`

CPython: `float_repr` (`Objects/floatobject.c`) calls `PyOS_double_to_string(x, 'r', 0, Py_DTSF_ADD_DOT_0)`, which formats the shortest digits
`_Py_dg_dtoa` finds that read back as `x`. The algorithm below finds the same digits by trying 1, 2, … 17 significant digits. The sign of zero is
not modelled.
-/

namespace Colosseum

/-- The place of the last of `n` significant digits of `q`. -/
def lastPlace (q : Rat) (n : Nat) : Int := Int.log 10 q - n + 1

/-- The integer on the other side of `x`. -/
def otherSide (x : Rat) (m : Int) : Int := if (m : Rat) ≤ x then m + 1 else m - 1

/-- The shortest digits `m`, and the place `k` of the last, such that `m * 10 ^ k` reads as `q`; the nearest such; from `n` digits on, `fuel`
lengths are tried before the length is taken as it is. -/
def shortest (fp : FP) (q : Rat) : Nat → Nat → Int × Int
  | 0, n => (pyRound (q * (10 : Rat) ^ (-lastPlace q n)), lastPlace q n)
  | fuel + 1, n =>
    let k := lastPlace q n
    let x := q * (10 : Rat) ^ (-k)
    let m := pyRound x
    if fp.rnd ((m : Rat) * (10 : Rat) ^ k) = q then (m, k)
    else if fp.rnd ((otherSide x m : Rat) * (10 : Rat) ^ k) = q then (otherSide x m, k)
    else shortest fp q fuel (n + 1)

/-- Digits without trailing zeros. -/
def dropZeros (s : PyStr) : PyStr := (s.reverse.dropWhile (· == '0')).reverse

/-- An exponent: sign and at least two digits. -/
def expStr (e : Int) : PyStr :=
  (if e < 0 then '-' else '+') :: (if e.natAbs < 10 then '0' :: natStr e.natAbs else natStr e.natAbs)

/-- `0.d * 10 ^ p` in the format of `repr` (`format_float_short`, `Python/pystrtod.c`). -/
def formatShort (d : PyStr) (p : Int) : PyStr :=
  if p ≤ -4 ∨ 16 < p then
    match d with
    | [] => []
    | [c] => c :: 'e' :: expStr (p - 1)
    | c :: r => c :: '.' :: (r ++ 'e' :: expStr (p - 1))
  else if p ≤ 0 then '0' :: '.' :: (List.replicate p.natAbs '0' ++ d)
  else if d.length ≤ p.natAbs then d ++ List.replicate (p.natAbs - d.length) '0' ++ ['.', '0']
  else d.take p.natAbs ++ '.' :: d.drop p.natAbs

/-- `repr` of a positive float. -/
def reprPos (fp : FP) (q : Rat) : PyStr :=
  let r := shortest fp q 16 1
  let s := natStr r.1.natAbs
  formatShort (dropZeros s) (s.length + r.2)

/-- `repr` of a finite float. -/
def pyRepr (fp : FP) (q : Rat) : PyStr :=
  if q = 0 then "0.0".toList
  else if q < 0 then '-' :: reprPos fp (-q)
  else reprPos fp q

end Colosseum
