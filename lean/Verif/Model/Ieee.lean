import Verif.Model.Units
import Verif.Py.Ieee

/-!
# Resolving lengths with the range of IEEE doubles

Everywhere else exponents are unbounded (`FP.b64`). Here the arithmetic of `Unit.lu` and `Unit.px` is
modelled once more with the limits of binary64: numbers below `2^-1022` lose bits, numbers from `2^1024` on
become `inf`, and an `int` too large for a float raises `OverflowError`. Only the sign of zero is still
missing.
-/

namespace Colosseum
namespace Ieee

/-- Floats are smaller than this. -/
def limit : Rat := 2 ^ (1024 : Int)

/-- A float operation with exact result `q`: `inf` beyond the largest float. -/
def float (q : Rat) : PyNum :=
  if |rnd q| < limit then .fin (.flt (rnd q)) else .inf (decide (q < 0))

/-- The operand of a mixed operation: "int too large to convert to float" is an `OverflowError`. -/
def conv : Num → Res Rat
  | .int i => if |rnd (i : Rat)| < limit then .ok (rnd (i : Rat)) else .error .overflow
  | .flt q => .ok q

/-- A float operation on two numbers, at least one of them a float. -/
def mixed (f : Rat → Rat → Rat) (a b : Num) : Res PyNum :=
  match conv a with
  | .error e => .error e
  | .ok x =>
    match conv b with
    | .error e => .error e
    | .ok y => .ok (float (f x y))

/-- `inf * y`. -/
def infTimes (s : Bool) (y : Rat) : PyNum := if y = 0 then .nan else .inf (s != decide (y < 0))

/-- `a * b`. -/
def mul : PyNum → PyNum → Res PyNum
  | .fin (.int a), .fin (.int b) => .ok (.fin (.int (a * b)))
  | .fin a, .fin b => mixed (· * ·) a b
  | .inf s, .fin b => (conv b).map (infTimes s)
  | .fin a, .inf s => (conv a).map (infTimes s)
  | .inf s, .inf t => .ok (.inf (s != t))
  | .nan, .fin b => (conv b).map fun _ => .nan
  | .fin a, .nan => (conv a).map fun _ => .nan
  | _, _ => .ok .nan

/-- `a / b` for a literal `b > 0`; the quotient of two `int`s is correctly rounded and raises when it is too
large. -/
def div : PyNum → Num → Res PyNum
  | .fin (.int a), .int b =>
    if |rnd ((a : Rat) / (b : Rat))| < limit then .ok (.fin (.flt (rnd ((a : Rat) / (b : Rat)))))
    else .error .overflow
  | .fin a, b => mixed (· / ·) a b
  | .inf s, _ => .ok (.inf s)
  | .nan, _ => .ok .nan

/-- `round(LU_PER_PIXEL * self.val * (f / 72) * display.dpi)`
(`/repo/src/colosseum/units.py:101-103,120`). -/
def luScaled (val : PyNum) (f dpi : Num) : Res Int := do
  let a ← mul (.fin luPerPixel) val
  let s ← div (.fin f) (.int 72)
  let b ← mul a s
  let c ← mul b (.fin dpi)
  c.round

/-- `round(LU_PER_PIXEL * self.val * self.scale(display) / 100)`
(`/repo/src/colosseum/units.py:137`). -/
def luViewport (val : PyNum) (s : Num) : Res Int := do
  let a ← mul (.fin luPerPixel) val
  let b ← mul a (.fin s)
  let c ← div b (.int 100)
  c.round

/-- `round(LU_PER_PIXEL * self.val / 100.0 * size)` (`/repo/src/colosseum/units.py:152-153`). -/
def luPercent (val : PyNum) (s : Num) : Res Int := do
  let a ← mul (.fin luPerPixel) val
  let b ← div a (.flt 100)
  let c ← mul b (.fin s)
  c.round

/-- `lu()` of a length unit (`/repo/src/colosseum/units.py:55-56,100-103,119-120,136-137,152-153`); the
literals `28.3465` and `2.83465` are floats. -/
def luOf (k : LKind) (val : PyNum) (c : PxCtx) : Res Int :=
  match k with
  | .px => do
    let a ← mul (.fin luPerPixel) val
    a.round
  | .em => luScaled val c.font.em c.display.dpi
  | .ex => luScaled val c.font.ex c.display.dpi
  | .ch => luScaled val c.font.ch c.display.dpi
  | .pt => luScaled val (.int 1) c.display.dpi
  | .pc => luScaled val (.int 12) c.display.dpi
  | .inch => luScaled val (.int 72) c.display.dpi
  | .cm => luScaled val (.flt (rnd (283465 / 10000))) c.display.dpi
  | .mm => luScaled val (.flt (rnd (283465 / 100000))) c.display.dpi
  | .vh => luViewport val (vhScale c.display)
  | .vmax => luViewport val (vmaxScale c.display)
  | .vmin => luViewport val (vminScale c.display)
  | .vw => luViewport val (vwScale c.display)
  | .percent =>
    match c.size with
    | none => .error .type
    | some s => luPercent val s

/-- `logical_units / LU_PER_PIXEL`, as an `int` when integral
(`/repo/src/colosseum/units.py:60-62`). -/
def pxOfLu (lu : Int) : Res Num :=
  let value := rnd ((lu : Rat) / 64)
  if |value| < limit then
    .ok (if value = (pyTrunc value : Rat) then .int (pyTrunc value) else .flt value)
  else .error .overflow

/-- `Unit.px()` (`/repo/src/colosseum/units.py:58-62`). -/
def px (k : LKind) (val : PyNum) (c : PxCtx) : Res Num := do
  let l ← luOf k val c
  pxOfLu l

end Ieee
end Colosseum
