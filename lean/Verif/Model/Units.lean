import Verif.Py.Lit

/-!
# `/repo/src/colosseum/units.py`
-/

namespace Colosseum

/-- The fourteen length units (`/repo/src/colosseum/units.py:167-184`). -/
inductive LKind
  | px | em | ex | ch | pt | pc | inch | cm | mm | vh | vmax | vmin | vw | percent
deriving DecidableEq, Repr

/-- The four angle units (`/repo/src/colosseum/units.py:186-189`). -/
inductive AKind
  | deg | grad | rad | turn
deriving DecidableEq, Repr

/-- A unit kind: class, suffix and scale of a `BaseUnit` object. User defined suffixes
(`FontUnit("foo")`) are not modelled. -/
inductive UKind
  | len (k : LKind)
  | ang (k : AKind)
deriving DecidableEq, Repr

/-- `self.suffix` (`/repo/src/colosseum/units.py:167-189`). -/
def LKind.suffix : LKind → PyStr
  | .px => lit "px"
  | .em => lit "em"
  | .ex => lit "ex"
  | .ch => lit "ch"
  | .pt => lit "pt"
  | .pc => lit "pc"
  | .inch => lit "in"
  | .cm => lit "cm"
  | .mm => lit "mm"
  | .vh => lit "vh"
  | .vmax => lit "vmax"
  | .vmin => lit "vmin"
  | .vw => lit "vw"
  | .percent => lit "%"

/-- `self.suffix` (`/repo/src/colosseum/units.py:186-189`). -/
def AKind.suffix : AKind → PyStr
  | .deg => lit "deg"
  | .grad => lit "grad"
  | .rad => lit "rad"
  | .turn => lit "turn"

/-- `self.suffix` (`/repo/src/colosseum/units.py:32`). -/
def UKind.suffix : UKind → PyStr
  | .len k => k.suffix
  | .ang k => k.suffix

/-- A `BaseUnit` object (`/repo/src/colosseum/units.py:27-33`). Two equal records may be two
objects; the code never tests identity of units. -/
structure CUnit where
  kind : UKind
  val : PyNum
deriving DecidableEq, Repr

/-- The module level unit object of a kind, value `1` (`/repo/src/colosseum/units.py:33,167-189`). -/
def UKind.base (k : UKind) : CUnit := ⟨k, .fin (.int 1)⟩

/-- `BaseUnit.UNITS`: the registry of every unit object ever built
(`/repo/src/colosseum/units.py:28,31`). -/
abbrev Registry := List (PyStr × CUnit)

/-- The module level constructions in order (`/repo/src/colosseum/units.py:167-189`). -/
def baseKinds : List UKind :=
  [.len .px, .len .em, .len .ex, .len .ch, .len .pt, .len .pc, .len .inch, .len .cm, .len .mm,
   .len .vh, .len .vmax, .len .vmin, .len .vw, .len .percent,
   .ang .deg, .ang .grad, .ang .rad, .ang .turn]

/-- `BaseUnit.__init__` registers the object (`/repo/src/colosseum/units.py:30-33`). -/
def register (r : Registry) (u : CUnit) : Registry := r ++ [(u.kind.suffix, u)]

/-- The registry right after importing `units` (`/repo/src/colosseum/units.py:167-189`). -/
def baseRegistry : Registry := (baseKinds.map UKind.base).foldl register []

/-- `BaseUnit.__rmul__` with a number: a new unit object of the same kind
(`/repo/src/colosseum/units.py:43-45`; `dup` at lines 75, 88, 105, 122, 139, 155). The registration
side effect is modelled by `register`. -/
def CUnit.rmul (fp : FP) (u : CUnit) (x : PyNum) : CUnit := ⟨u.kind, u.val.mul fp x⟩

/-- `BaseUnit.__neg__` (`/repo/src/colosseum/units.py:47-51`). -/
def CUnit.neg (fp : FP) (u : CUnit) : CUnit :=
  if u.val.isInt then ⟨u.kind, u.val.mul fp (.fin (.int (-1)))⟩
  else ⟨u.kind, u.val.mul fp (.fin (.flt (-1)))⟩

/-- `__eq__` of two unit objects: same class and suffix, equal values
(`/repo/src/colosseum/units.py:78-81,91-96,108-111,125-128,142-145,158-161`). -/
def CUnit.pyEq (a b : CUnit) : Bool := a.kind == b.kind && a.val.pyEq b.val

/-- `BaseUnit.__repr__`; `reprFloat` is Python's `repr` of a finite float
(`/repo/src/colosseum/units.py:35-41`). `int(self.val)` raises for `inf` and `nan`. -/
def CUnit.repr (reprFloat : Rat → PyStr) (u : CUnit) : Res PyStr :=
  match u.val with
  | .inf _ => .error .overflow
  | .nan => .error .value
  | .fin n =>
    let intValue := n.trunc
    let text :=
      if n.val = (intValue : Rat) then intStr intValue
      else match n with
        | .int i => intStr i
        | .flt q => reprFloat q
    .ok (text ++ u.kind.suffix)

/-- The display object the caller passes to layout: `dpi`, size in pixels and the pixel widths of
`thin`/`medium`/`thick` (`/repo/src/colosseum/units.py:102,137,179-182`,
`/repo/src/colosseum/engine.py`; a concrete one is `/repo/tests/utils.py`). -/
structure Display where
  dpi : Num
  contentWidth : Num
  contentHeight : Num
  thin : Num
  medium : Num
  thick : Num
deriving DecidableEq, Repr

/-- The font attributes `FontUnit.lu` reads (`/repo/src/colosseum/units.py:102`). -/
structure Font where
  em : Num
  ex : Num
  ch : Num
deriving DecidableEq, Repr

/-- The keyword arguments of `px`/`lu`. `display` and `font` are always given by the engine; `size`
may be `None` (`/repo/src/colosseum/units.py:55,58`). -/
structure PxCtx where
  display : Display
  font : Font
  size : Option Num
deriving DecidableEq, Repr

/-- `LU_PER_PIXEL` (`/repo/src/colosseum/units.py:24`). -/
def luPerPixel : Num := .int 64

/-- `scale(display)` of a viewport unit (`/repo/src/colosseum/units.py:179-182`). -/
def vhScale (d : Display) : Num := d.contentHeight
/-- See `vhScale` (`/repo/src/colosseum/units.py:180`). -/
def vmaxScale (d : Display) : Num := d.contentWidth.pyMax d.contentHeight
/-- See `vhScale` (`/repo/src/colosseum/units.py:181`). -/
def vminScale (d : Display) : Num := d.contentWidth.pyMin d.contentHeight
/-- See `vhScale` (`/repo/src/colosseum/units.py:182`). -/
def vwScale (d : Display) : Num := d.contentWidth

/-- `round(LU_PER_PIXEL * self.val * (f / 72) * display.dpi)`
(`/repo/src/colosseum/units.py:101-103,120`). -/
def luScaled (fp : FP) (val : PyNum) (f dpi : Num) : Res Int :=
  (((((PyNum.fin luPerPixel).mul fp val).mul fp (.fin (f.div fp (.int 72)))).mul fp (.fin dpi))).round

/-- `round(LU_PER_PIXEL * self.val * self.scale(display) / 100)`
(`/repo/src/colosseum/units.py:137`). -/
def luViewport (fp : FP) (val : PyNum) (s : Num) : Res Int :=
  ((((PyNum.fin luPerPixel).mul fp val).mul fp (.fin s)).div fp (.int 100)).round

/-- `lu()` of a length unit (`/repo/src/colosseum/units.py:55-56,100-103,119-120,136-137,152-153`;
scales at lines 173-182). -/
def luOf (fp : FP) (k : LKind) (val : PyNum) (c : PxCtx) : Res Int :=
  match k with
  | .px => ((PyNum.fin luPerPixel).mul fp val).round
  | .em => luScaled fp val c.font.em c.display.dpi
  | .ex => luScaled fp val c.font.ex c.display.dpi
  | .ch => luScaled fp val c.font.ch c.display.dpi
  | .pt => luScaled fp val (.int 1) c.display.dpi
  | .pc => luScaled fp val (.int 12) c.display.dpi
  | .inch => luScaled fp val (.int 72) c.display.dpi
  | .cm => luScaled fp val (.flt (fp.rnd (283465 / 10000))) c.display.dpi
  | .mm => luScaled fp val (.flt (fp.rnd (283465 / 100000))) c.display.dpi
  | .vh => luViewport fp val (vhScale c.display)
  | .vmax => luViewport fp val (vmaxScale c.display)
  | .vmin => luViewport fp val (vminScale c.display)
  | .vw => luViewport fp val (vwScale c.display)
  | .percent =>
    match c.size with
    | none => .error .type
    | some s =>
      ((((PyNum.fin luPerPixel).mul fp val).div fp (.flt 100)).mul fp (.fin s)).round

/-- `logical_units / LU_PER_PIXEL`, as an `int` when integral
(`/repo/src/colosseum/units.py:60-62`). -/
def pxOfLu (fp : FP) (lu : Int) : Num :=
  let value := fp.rnd ((lu : Rat) / 64)
  let intValue := pyTrunc value
  if value = (intValue : Rat) then .int intValue else .flt value

/-- `Unit.px()` (`/repo/src/colosseum/units.py:58-62`). -/
def pxOf (fp : FP) (k : LKind) (val : PyNum) (c : PxCtx) : Res Num :=
  match luOf fp k val c with
  | .error e => .error e
  | .ok l => .ok (pxOfLu fp l)

/-- `u.px(...)` for any unit object: angle units have no `px` method
(`/repo/src/colosseum/units.py:58,65`). -/
def CUnit.px (fp : FP) (u : CUnit) (c : PxCtx) : Res Num :=
  match u.kind with
  | .len k => pxOf fp k u.val c
  | .ang _ => .error .attribute

/-- `math.pi`, the double nearest to π (Python standard library). -/
def mathPi : Rat := 884279719003555 / 281474976710656

/-- `self.scale` of an angle unit (`/repo/src/colosseum/units.py:186-189`). -/
def AKind.scale (fp : FP) : AKind → Num
  | .deg => .int 1
  | .grad => .flt (fp.rnd (9 / 10))
  | .rad => .flt (fp.rnd (180 / mathPi))
  | .turn => .int 360

/-- `AngleUnit.deg()` (`/repo/src/colosseum/units.py:70-73`). -/
def angleDeg (fp : FP) (k : AKind) (val : PyNum) : Res PyNum :=
  let value := val.mul fp (.fin (k.scale fp))
  match value with
  | .inf _ => .error .overflow
  | .nan => .error .value
  | .fin n => .ok (.fin (if n.val = (n.trunc : Rat) then .int n.trunc else n))

end Colosseum
