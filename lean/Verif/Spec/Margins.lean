import Verif.Spec.Document

/-!
# The horizontal margins of blocks

The rules of CSS 2.1, 10.3.3, in exact arithmetic.
-/

namespace Colosseum

/-- The used left and right margins of a block in a container of width `size`: `inner` is the width of its border box, `l` and `r` are the specified
margins, `none` for `auto`. With `width: auto`, margins that are `auto` are 0. Otherwise margins that are `auto` are 0 when the box does not
fit; when none is `auto` then, the one at the end of the line (the right one for `ltr`) gives way; a single `auto` margin takes up the rest; and two of
them share it. -/
def usedMargins (ltr autoWidth : Bool) (size inner : Rat) (l r : Option Rat) : Rat × Rat :=
  if autoWidth then (l.getD 0, r.getD 0)
  else if size < inner + l.getD 0 + r.getD 0 then
    if ltr then (l.getD 0, size - inner - l.getD 0) else (size - inner - r.getD 0, r.getD 0)
  else
    match l, r with
    | some l, some r => if ltr then (l, size - inner - l) else (size - inner - r, r)
    | some l, none => (l, size - inner - l)
    | none, some r => (size - inner - r, r)
    | none, none => ((size - inner) / 2, (size - inner) / 2)

/-- The width of the border box. -/
def Across.inner (x : Across) : Rat := x.bl.val + x.pl.val + x.w.val + x.pr.val + x.br.val

/-- The margin a value specifies: `none` for `auto`, otherwise the number of pixels of a length. -/
def Val.Margin (v : Val) (fp : FP) (c : PxCtx) : Option Num → Prop
  | Option.none => v = kw "auto"
  | some y => ∃ u, v = .unit u ∧ u.px fp c = .ok y

end Colosseum

namespace Colosseum

/-- How far a relatively positioned box is moved along an axis (CSS 2.1, 9.4.3): `l` and `r` are the offsets at the start and at the end of the
axis, `none` for `auto`. When both are given, the first one counts, but horizontally and with `rtl` the second. -/
def relativeShift (ltr : Bool) (l r : Option Rat) : Rat :=
  match l, r with
  | none, none => 0
  | some l, none => l
  | none, some r => -r
  | some l, some r => if ltr then l else -r

end Colosseum

namespace Colosseum

/-- The offset a value specifies, percentages aside: `none` for `auto`, otherwise the number of pixels of a length. -/
def Val.Nudge (v : Val) (fp : FP) (d : Display) (f : Font) : Option Num → Prop
  | Option.none => v = kw "auto"
  | some y => v.Length fp d f y

end Colosseum

namespace Colosseum

/-- A size that is at most `hi`, and then at least `lo`, where there are such limits (CSS 2.1, 10.4). -/
def limited (lo hi : Option Rat) (v : Rat) : Rat :=
  let v := match hi with
    | some hi => min v hi
    | none => v
  match lo with
  | some lo => max v lo
  | none => v

end Colosseum
