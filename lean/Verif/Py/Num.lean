/-!
# Python exceptions and numbers

The fragment of the Python runtime that colosseum's arithmetic uses.

* `Err`: one constructor per exception class that can escape the modelled code.
* `FP`: the floating point unit. Every operation that produces a Python `float` rounds its exact
  rational result with `FP.rnd`.  The theorems either hold for every `FP`, or state the law of `rnd`
  they need as a hypothesis.
* `Num`: a finite Python number; the tag records whether it is an `int` or a `float`, because
  `/repo/src/colosseum/dimensions.py:339` tests `isinstance(value, int)`.
* `PyNum`: a Python number, possibly `inf` or `nan` (`float("inf")` is an accepted literal).

Simplifications: `-0.0` is identified with `0.0`; finite arithmetic does not overflow to `inf`;
converting an `int` to `float` never raises `OverflowError`.
-/

namespace Colosseum

/-- Exception classes that can escape the modelled code. `validation` is
`/repo/src/colosseum/exceptions.py:4-5`, a subclass of `ValueError`. -/
inductive Err
  | validation
  | value
  | type
  | attribute
  | index
  | key
  | name
  | notImplemented
  | overflow
  | recursion
  | generic
deriving DecidableEq, Repr

/-- `except ValueError` also catches `ValidationError` (`/repo/src/colosseum/exceptions.py:4`). -/
def Err.isValueError : Err → Bool
  | .validation => true
  | .value => true
  | _ => false

/-- A computation that may raise. -/
abbrev Res (α : Type) := Except Err α

/-- The floating point unit: how an exact result is rounded to a float. -/
structure FP where
  rnd : Rat → Rat

namespace FP
/-- Ideal arithmetic: no rounding. -/
def Exact (fp : FP) : Prop := ∀ q, fp.rnd q = q
/-- Rounding is monotone. -/
def Mono (fp : FP) : Prop := ∀ a b, a ≤ b → fp.rnd a ≤ fp.rnd b
/-- Rounding is symmetric around zero. -/
def Odd (fp : FP) : Prop := ∀ a, fp.rnd (-a) = -fp.rnd a
/-- Rounding a float changes nothing. -/
def Idem (fp : FP) : Prop := ∀ a, fp.rnd (fp.rnd a) = fp.rnd a
/-- The unit that computes exactly. -/
def exact : FP := ⟨fun q => q⟩
theorem exact_exact : exact.Exact := fun _ => rfl
theorem exact_mono : exact.Mono := fun _ _ h => h
theorem exact_odd : exact.Odd := fun _ => rfl
theorem exact_idem : exact.Idem := fun _ => rfl
end FP

/-- A finite Python number: an `int`, or a `float` with its exact value. -/
inductive Num
  | int (i : Int)
  | flt (q : Rat)
deriving DecidableEq, Repr

/-- `round(q)` for a float: to the nearest integer, ties to even. -/
def pyRound (q : Rat) : Int :=
  let f := q.floor
  let d := q - (f : Rat)
  if d < 1 / 2 then f
  else if 1 / 2 < d then f + 1
  else if f % 2 = 0 then f
  else f + 1

/-- `int(q)` for a float: truncation towards zero. -/
def pyTrunc (q : Rat) : Int :=
  if 0 ≤ q then q.floor else -((-q).floor)

namespace Num

/-- The mathematical value. -/
def val : Num → Rat
  | int i => (i : Rat)
  | flt q => q

/-- `isinstance(value, int)`. -/
def isInt : Num → Bool
  | int _ => true
  | flt _ => false

/-- Conversion of an operand of a mixed operation to `float`. -/
def toFloat (fp : FP) : Num → Rat
  | int i => fp.rnd (i : Rat)
  | flt q => q

/-- `a + b`. -/
def add (fp : FP) : Num → Num → Num
  | int a, int b => int (a + b)
  | a, b => flt (fp.rnd (a.toFloat fp + b.toFloat fp))

/-- `a - b`. -/
def sub (fp : FP) : Num → Num → Num
  | int a, int b => int (a - b)
  | a, b => flt (fp.rnd (a.toFloat fp - b.toFloat fp))

/-- `a * b`. -/
def mul (fp : FP) : Num → Num → Num
  | int a, int b => int (a * b)
  | a, b => flt (fp.rnd (a.toFloat fp * b.toFloat fp))

/-- `a / b` for a non-zero literal `b` (the code divides only by `64`, `72`, `100`, `100.0`, `60.0`,
`0xFF`). Division of two `int`s is correctly rounded. -/
def div (fp : FP) : Num → Num → Num
  | int a, int b => flt (fp.rnd ((a : Rat) / (b : Rat)))
  | a, b => flt (fp.rnd (a.toFloat fp / b.toFloat fp))

/-- `a // 2`. -/
def floorDiv2 (fp : FP) : Num → Num
  | int a => int (a.fdiv 2)
  | flt q => flt (fp.rnd ((q / 2).floor : Rat))

/-- `-a`. -/
def neg : Num → Num
  | int a => int (-a)
  | flt q => flt (-q)

/-- `a == b`: comparison of numbers is by exact value. -/
def pyEq (a b : Num) : Bool := a.val == b.val
/-- `a < b`. -/
def pyLt (a b : Num) : Bool := decide (a.val < b.val)

/-- `max(a, b)`: Python keeps the first argument unless the second is greater. -/
def pyMax (a b : Num) : Num := if a.pyLt b then b else a
/-- `min(a, b)`: Python keeps the first argument unless the second is smaller. -/
def pyMin (a b : Num) : Num := if b.pyLt a then b else a

/-- `round(a)`. -/
def round : Num → Int
  | int a => a
  | flt q => pyRound q

/-- `int(a)`. -/
def trunc : Num → Int
  | int a => a
  | flt q => pyTrunc q

end Num

/-- A Python number. -/
inductive PyNum
  | fin (n : Num)
  | inf (neg : Bool)
  | nan
deriving DecidableEq, Repr

namespace PyNum

/-- `a * b`. -/
def mul (fp : FP) : PyNum → PyNum → PyNum
  | fin a, fin b => fin (a.mul fp b)
  | inf s, fin b => if b.val = 0 then nan else inf (s != decide (b.val < 0))
  | fin a, inf s => if a.val = 0 then nan else inf (s != decide (a.val < 0))
  | inf s, inf t => inf (s != t)
  | nan, _ => nan
  | _, nan => nan

/-- `a / b` for a non-zero finite literal `b > 0`. -/
def div (fp : FP) : PyNum → Num → PyNum
  | fin a, b => fin (a.div fp b)
  | inf s, _ => inf s
  | nan, _ => nan

/-- `a == b`. -/
def pyEq : PyNum → PyNum → Bool
  | fin a, fin b => a.pyEq b
  | inf s, inf t => s == t
  | _, _ => false

/-- `a < b`. -/
def pyLt : PyNum → PyNum → Bool
  | fin a, fin b => a.pyLt b
  | inf true, fin _ => true
  | fin _, inf false => true
  | inf true, inf false => true
  | _, _ => false

/-- `isinstance(x, int)`. -/
def isInt : PyNum → Bool
  | fin n => n.isInt
  | _ => false

/-- `round(x)`: `OverflowError` for `inf`, `ValueError` for `nan`. -/
def round : PyNum → Res Int
  | fin a => .ok a.round
  | inf _ => .error .overflow
  | nan => .error .value

/-- `int(x)`: `OverflowError` for `inf`, `ValueError` for `nan`. -/
def trunc : PyNum → Res Int
  | fin a => .ok a.trunc
  | inf _ => .error .overflow
  | nan => .error .value

/-- `float(x)`. -/
def toFloat (fp : FP) : PyNum → PyNum
  | fin a => fin (.flt (a.toFloat fp))
  | x => x

end PyNum

end Colosseum
