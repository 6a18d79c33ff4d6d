import Verif.Spec.Reference

/-!
# Specification: a reference layout of blocks with relative positions and horizontal sizes in per cent

As `Verif/Spec/Reference.lean`, for more documents. Elements may be relatively positioned: such an element keeps its place among its siblings, and it is moved from there with all
that it contains. The engine moves it by its top border and padding in addition (`C50_false_double`), `left` counts before `right` whatever the direction (`C50_false_rtl`), and a block
of automatic height ends where its last child has been moved to (`C46_false_relative`). Widths, the limits of widths, the
left and right margins and the offsets `left` and `right` may be percentages of the width of the container.
-/

namespace Colosseum

namespace Moved

variable (fp : FP) (d : Display)

/-- The number of pixels of a length or of a percentage of `W`, `none` for anything else. -/
def pixelsOf (v : Val) (W : Rat) : Option Rat :=
  match v.px fp ⟨d, dummyFont fp, some (.flt W)⟩ with
  | .ok x => some x.val
  | .error _ => none

/-- A horizontal margin in a container of width `W`, `none` for `auto`. -/
def outside (s : CSS) (t : Side) (W : Rat) : Option Rat := pixelsOf fp d (s.get (.margin t)) W

/-- The content width in a container of width `W`. -/
def contentWide (s : CSS) (W : Rat) : Rat :=
  match pixelsOf fp d (s.get .width) W with
  | none => W - (outside fp d s .left W).getD 0 - s.edge fp d .left - s.edge fp d .right - (outside fp d s .right W).getD 0
  | some w => limited (pixelsOf fp d (s.get .minWidth) W) (pixelsOf fp d (s.get .maxWidth) W) w

/-- The width of the border box. -/
def wide (s : CSS) (W : Rat) : Rat := s.edge fp d .left + contentWide fp d s W + s.edge fp d .right

/-- The left margin. -/
def shift (s : CSS) (W : Rat) : Rat :=
  let auto := (pixelsOf fp d (s.get .width) W).isNone
  let x := (usedMargins ((s.get .direction).isKw "ltr") auto W (wide fp d s W) (outside fp d s .left W) (outside fp d s .right W)).1
  if outside fp d s .left W = none ∧ outside fp d s .right W = none ∧ auto = false ∧ wide fp d s W ≤ W then ⌊x⌋ else x

/-- How far an element is moved to the right. -/
def aside (s : CSS) (W : Rat) : Rat :=
  if (s.get .position).isKw "relative" then relativeShift true (pixelsOf fp d (s.get .left) W) (pixelsOf fp d (s.get .right) W) else 0

/-- How far an element is moved down. -/
def lowered (s : CSS) : Rat :=
  if (s.get .position).isKw "relative" then s.edge fp d .top + relativeShift true ((s.get .top).pixels fp d) ((s.get .bottom).pixels fp d) else 0

mutual
/-- The height of the border box. -/
def tall : Node → Rat
  | .mk s _ _ cs => s.edge fp d .top +
    (match (s.get .height).pixels fp d with
      | some h => limited none ((s.get .maxHeight).pixels fp d) h
      | none => if cs.isEmpty then ((s.get .minHeight).pixels fp d).getD 0 else stack cs) +
    s.edge fp d .bottom
/-- From the place of the border box of the first block to the end of that of the last one, wherever this has been moved to. -/
def stack : List Node → Rat
  | [] => 0
  | [c] => tall c + lowered fp d c.style
  | c :: c' :: cs => tall c + between fp d c c' + stack (c' :: cs)
end

/-- From the place of the border box of the first block to that of another one. -/
def place : List Node → Nat → Rat
  | c :: c' :: cs, i + 1 => tall fp d c + between fp d c c' + place (c' :: cs) i
  | _, _ => 0

/-- The regions of a block in a container of width `W` whose content starts at `x`, with the place of its border box starting at `y`. -/
def region (W x y : Rat) (n : Node) : Region where
  left := x + shift fp d n.style W + aside fp d n.style W
  top := y + lowered fp d n.style
  width := wide fp d n.style W
  height := tall fp d n
  contentLeft := x + shift fp d n.style W + aside fp d n.style W + n.style.edge fp d .left
  contentTop := y + lowered fp d n.style + n.style.edge fp d .top
  contentWidth := contentWide fp d n.style W
  contentHeight := tall fp d n - n.style.edge fp d .top - n.style.edge fp d .bottom

/-- The regions of the element at a path. -/
def regionAt (W x y : Rat) : Node → List Nat → Option Region
  | n, [] => some (region fp d W x y n)
  | n, i :: q => (n.children[i]?).bind fun c =>
    regionAt (region fp d W x y n).contentWidth (region fp d W x y n).contentLeft ((region fp d W x y n).contentTop + place fp d n.children i) c q

/-- The regions of the element at a path in a document. The root is below its top margin; by the rules of HTML5 it is as high as the display. -/
def reference (html5 : Bool) (n : Node) (q : List Nat) : Option Region :=
  (regionAt fp d d.contentWidth.val 0 (n.edgeTop fp d) n q).map fun f =>
    if html5 ∧ q = [] then
      let c := d.contentHeight.val - n.edgeTop fp d - n.edgeBottom fp d
      { f with contentHeight := c, height := n.style.edge fp d .top + c + n.style.edge fp d .bottom }
    else f

/-- The value is a length or a percentage. -/
def Sized (v : Val) : Prop := v.Sure fp d ∨ ∃ a, v = .unit ⟨.len .percent, .fin a⟩

/-- A block that is in normal flow or relatively positioned. Sizes are lengths or the keywords of their properties; widths and their limits,
left and right margins and the offsets `left` and `right` may be percentages. -/
structure Regular (m : Node) : Prop where
  block : m.style.get .display = kw "block" ∨ m.style.get .display = kw "list-item"
  content : m.intrinsic.isReplaced = false
  float : m.style.get .float = .none
  position : m.style.get .position = kw "static" ∨ m.style.get .position = kw "relative" ∧
    (∀ p, p = .top ∨ p = .bottom → m.style.get p = kw "auto" ∨ (m.style.get p).Sure fp d) ∧
    ∀ p, p = .left ∨ p = .right → m.style.get p = kw "auto" ∨ Sized fp d (m.style.get p)
  margin : ∀ t, t = .top ∨ t = .bottom → m.style.get (.margin t) = kw "auto" ∨ (m.style.get (.margin t)).Sure fp d
  beside : ∀ t, t = .left ∨ t = .right → m.style.get (.margin t) = kw "auto" ∨ Sized fp d (m.style.get (.margin t))
  border : ∀ t, m.style.get (.borderWidth t) = kw "thin" ∨ m.style.get (.borderWidth t) = kw "medium" ∨ m.style.get (.borderWidth t) = kw "thick" ∨
    (m.style.get (.borderWidth t)).Sure fp d
  padding : ∀ t, (m.style.get (.padding t)).Sure fp d
  width : ∀ p, p = .width ∨ p = .minWidth → m.style.get p = kw "auto" ∨ Sized fp d (m.style.get p)
  widest : m.style.get .maxWidth = .none ∨ Sized fp d (m.style.get .maxWidth)
  height : ∀ p, p = .height ∨ p = .minHeight → m.style.get p = kw "auto" ∨ (m.style.get p).Sure fp d
  highest : m.style.get .maxHeight = .none ∨ (m.style.get .maxHeight).Sure fp d

end Moved

end Colosseum
