import Verif.Model.Values

/-!
# The arithmetic of units

The products a caller writes to build lengths (`10 * px`), as the expressions evaluate: which operand's
method Python calls, and what it returns when the operand is not a number.
-/

namespace Colosseum

/-- The class of a unit object (`/repo/src/colosseum/units.py:65,84,99,114,131,148`). -/
inductive UClass
  | angle | pixel | font | absolute | viewport | percent
deriving DecidableEq, Repr

/-- The class of the unit objects of a kind (`/repo/src/colosseum/units.py:167-189`; `dup` keeps the
class, lines 75, 88, 105, 122, 139, 155). -/
def UKind.cls : UKind → UClass
  | .ang _ => .angle
  | .len .px => .pixel
  | .len .em => .font
  | .len .ex => .font
  | .len .ch => .font
  | .len .pt => .absolute
  | .len .pc => .absolute
  | .len .inch => .absolute
  | .len .cm => .absolute
  | .len .mm => .absolute
  | .len .vh => .viewport
  | .len .vmax => .viewport
  | .len .vmin => .viewport
  | .len .vw => .viewport
  | .len .percent => .percent

/-- `v * u` for a unit object `u`: `BaseUnit.__rmul__` (`/repo/src/colosseum/units.py:43-45`), whose
missing `else` returns `None`. Python does not call the reflected method when both operands have the same
class; units have no `__mul__`, so that product is a `TypeError`. -/
def timesUnit (fp : FP) (v : Val) (u : CUnit) : Res Val :=
  match v with
  | .num x => .ok (.unit (u.rmul fp x))
  | .unit w => if w.kind.cls = u.kind.cls then .error .type else .ok .none
  | _ => .ok .none

/-- `u * v` for a unit object `u`: units define no `__mul__`
(`/repo/src/colosseum/units.py:27-51`), so only the reflected method of another unit is left. -/
def unitTimes (fp : FP) (u : CUnit) (v : Val) : Res Val :=
  match v with
  | .unit w => timesUnit fp (.unit u) w
  | _ => .error .type

end Colosseum
