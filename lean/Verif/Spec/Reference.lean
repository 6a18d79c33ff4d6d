import Verif.Spec.Collapse
import Verif.Spec.Margins
import Verif.Spec.Plain

/-!
# Specification: a reference layout of blocks

The positions and sizes of blocks, by formulas in exact arithmetic: no boxes that are changed step by step, no origins, no setters. C84 compares the
engine with it. The rules are those of CSS 2.1, sections 10.3.3, 10.4, 10.6.3 and 10.7, with the deviations of the engine that C46, C47, C64 and C82 are
about: automatic sizes are not limited, except that `min-height` counts for empty blocks, two automatic margins are whole pixels, and margins collapse as
in `Verif/Spec/Collapse.lean`.
-/

namespace Colosseum

/-- The number of pixels of a length, `none` for anything else. -/
def Val.pixels (v : Val) (fp : FP) (d : Display) : Option Rat :=
  match v.px fp ⟨d, dummyFont fp, Option.none⟩ with
  | .ok x => some x.val
  | .error _ => Option.none

namespace CSS

variable (fp : FP) (d : Display) (s : CSS)

/-- The width of a border. -/
def bordered (t : Side) : Rat :=
  let v := s.get (.borderWidth t)
  if v.isKw "thin" then d.thin.val
  else if v.isKw "medium" then d.medium.val
  else if v.isKw "thick" then d.thick.val
  else (v.pixels fp d).getD 0

/-- The width of a padding. -/
def padded (t : Side) : Rat := ((s.get (.padding t)).pixels fp d).getD 0

/-- Border and padding of a side. -/
def edge (t : Side) : Rat := s.bordered fp d t + s.padded fp d t

/-- A margin, `none` for `auto`. -/
def outside (t : Side) : Option Rat := (s.get (.margin t)).pixels fp d

/-- The content width in a container of width `W`. -/
def contentWide (W : Rat) : Rat :=
  match (s.get .width).pixels fp d with
  | none => W - (s.outside fp d .left).getD 0 - s.edge fp d .left - s.edge fp d .right - (s.outside fp d .right).getD 0
  | some w => limited ((s.get .minWidth).pixels fp d) ((s.get .maxWidth).pixels fp d) w

/-- The width of the border box. -/
def wide (W : Rat) : Rat := s.edge fp d .left + s.contentWide fp d W + s.edge fp d .right

/-- The left margin. -/
def shift (W : Rat) : Rat :=
  let auto := ((s.get .width).pixels fp d).isNone
  let x := (usedMargins ((s.get .direction).isKw "ltr") auto W (s.wide fp d W) (s.outside fp d .left) (s.outside fp d .right)).1
  if s.outside fp d .left = none ∧ s.outside fp d .right = none ∧ auto = false ∧ s.wide fp d W ≤ W then ⌊x⌋ else x

end CSS

variable (fp : FP) (d : Display)

/-- The distance between the border boxes of two blocks that follow each other. -/
def between (c c' : Node) : Rat := max (c.edgeBottom fp d : Rat) ((c'.style.outside fp d .top).getD 0)

mutual
/-- The height of the border box. -/
def Node.tall : Node → Rat
  | .mk s _ _ cs => s.edge fp d .top +
    (match (s.get .height).pixels fp d with
      | some h => limited none ((s.get .maxHeight).pixels fp d) h
      | none => if cs.isEmpty then ((s.get .minHeight).pixels fp d).getD 0 else stackTall cs) +
    s.edge fp d .bottom
/-- From the beginning of the border box of the first block to the end of that of the last one. -/
def stackTall : List Node → Rat
  | [] => 0
  | [c] => c.tall
  | c :: c' :: cs => c.tall + between fp d c c' + stackTall (c' :: cs)
end

/-- From the beginning of the border box of the first block to the beginning of that of another one. -/
def topAt : List Node → Nat → Rat
  | c :: c' :: cs, i + 1 => c.tall fp d + between fp d c c' + topAt (c' :: cs) i
  | _, _ => 0

/-- Where the border box and the content box of an element are on the screen. -/
structure Region where
  left : Rat
  top : Rat
  width : Rat
  height : Rat
  contentLeft : Rat
  contentTop : Rat
  contentWidth : Rat
  contentHeight : Rat

/-- The regions of a block in a container of width `W` whose content starts at `x`, with its border box starting at `y`. -/
def Node.region (W x y : Rat) (n : Node) : Region where
  left := x + n.style.shift fp d W
  top := y
  width := n.style.wide fp d W
  height := n.tall fp d
  contentLeft := x + n.style.shift fp d W + n.style.edge fp d .left
  contentTop := y + n.style.edge fp d .top
  contentWidth := n.style.contentWide fp d W
  contentHeight := n.tall fp d - n.style.edge fp d .top - n.style.edge fp d .bottom

/-- The regions of the element at a path. -/
def Node.regionAt (W x y : Rat) : Node → List Nat → Option Region
  | n, [] => some (n.region fp d W x y)
  | n, i :: q => (n.children[i]?).bind fun c =>
    c.regionAt (n.style.contentWide fp d W) (x + n.style.shift fp d W + n.style.edge fp d .left)
      (y + n.style.edge fp d .top + topAt fp d n.children i) q

/-- The regions of the element at a path in a document. The root is below its top margin; by the rules of HTML5 it is as high as the display. -/
def Node.reference (html5 : Bool) (n : Node) (q : List Nat) : Option Region :=
  (n.regionAt fp d d.contentWidth.val 0 (n.edgeTop fp d) q).map fun f =>
    if html5 ∧ q = [] then
      let c := d.contentHeight.val - n.edgeTop fp d - n.edgeBottom fp d
      { f with contentHeight := c, height := n.style.edge fp d .top + c + n.style.edge fp d .bottom }
    else f

/-- The border box and the content box of a box are these regions. -/
structure Box.Fills (b : Box) (f : Region) : Prop where
  left : (b.absBorderBoxLeft fp).val = f.left
  top : (b.absBorderBoxTop fp).val = f.top
  right : ∃ x, b.absBorderBoxRight fp = some x ∧ x.val = f.left + f.width
  bottom : ∃ x, b.absBorderBoxBottom fp = some x ∧ x.val = f.top + f.height
  contentLeft : (b.absContent fp .h).val = f.contentLeft
  contentTop : (b.absContent fp .v).val = f.contentTop
  contentWidth : ∃ x, b.contentWidth = some x ∧ x.val = f.contentWidth
  contentHeight : ∃ x, b.contentHeight = some x ∧ x.val = f.contentHeight

/-- The value is a length. -/
def Val.Sure (v : Val) : Prop := ∃ x, v.Length fp d (dummyFont fp) x

/-- A block in normal flow; all sizes are lengths or the keywords of their properties, percentages aside. -/
structure Node.Regular (m : Node) : Prop where
  block : m.style.get .display = kw "block" ∨ m.style.get .display = kw "list-item"
  content : m.intrinsic.isReplaced = false
  float : m.style.get .float = .none
  position : m.style.get .position = kw "static"
  margin : ∀ t, m.style.get (.margin t) = kw "auto" ∨ (m.style.get (.margin t)).Sure fp d
  border : ∀ t, m.style.get (.borderWidth t) = kw "thin" ∨ m.style.get (.borderWidth t) = kw "medium" ∨ m.style.get (.borderWidth t) = kw "thick" ∨
    (m.style.get (.borderWidth t)).Sure fp d
  padding : ∀ t, (m.style.get (.padding t)).Sure fp d
  size : ∀ p, p = .width ∨ p = .minWidth ∨ p = .height ∨ p = .minHeight → m.style.get p = kw "auto" ∨ (m.style.get p).Sure fp d
  most : ∀ p, p = .maxWidth ∨ p = .maxHeight → m.style.get p = .none ∨ (m.style.get p).Sure fp d

end Colosseum
