import Verif.Spec.Moved

/-!
# Specification: blocks by CSS 2.1

Sections 8.3.1 (collapsing margins), 8.5.1 (borders), 9.4.3 (relative positions), 10.3.3 and 10.4 (widths), 10.6.3 and 10.7 (heights), for documents of block-level elements, in
normal flow or relatively positioned, whose sizes are lengths or keywords or, for widths and their limits, horizontal margins and horizontal offsets, percentages, in exact arithmetic. Unlike `Spec/Reference` and `Spec/Moved`
this does not follow the engine. The keyword `auto` of `min-width` and `min-height`, which CSS 2.1 does
not have, stands for 0, as in later versions.
-/

namespace Colosseum

namespace Css

/-- Margins that collapse with each other: the largest that is positive and the smallest that is negative, or 0. -/
structure Strut where
  pos : Rat
  neg : Rat
deriving DecidableEq

/-- A single margin. -/
def Strut.of (m : Rat) : Strut := ⟨max m 0, min m 0⟩

/-- No margin. -/
def Strut.zero : Strut := ⟨0, 0⟩

/-- The margins of both. -/
def Strut.join (a b : Strut) : Strut := ⟨max a.pos b.pos, min a.neg b.neg⟩

/-- The width of collapsed margins: "the maximum of the positive adjoining margins" less "the maximum of the absolute values of the negative adjoining margins". -/
def Strut.value (a : Strut) : Rat := a.pos + a.neg

variable (fp : FP) (d : Display)

/-- A border: without a style it has no width. -/
def border (s : CSS) (t : Side) : Rat := if (s.get (.borderStyle t)).isNone || (s.get (.borderStyle t)).isKw "hidden" then 0 else s.bordered fp d t

/-- Border and padding of a side. -/
def edge (s : CSS) (t : Side) : Rat := border fp d s t + s.padded fp d t

/-- There is neither border nor padding on a side. -/
def bare (s : CSS) (t : Side) : Bool := border fp d s t = 0 && s.padded fp d t = 0

/-- A vertical margin. -/
def margin (s : CSS) (t : Side) : Rat := (s.outside fp d t).getD 0

/-- A given height. -/
def height (s : CSS) : Option Rat := (s.get .height).pixels fp d

/-- The least height. -/
def least (s : CSS) : Rat := ((s.get .minHeight).pixels fp d).getD 0

/-- The element establishes a block formatting context. -/
def apart (s : CSS) : Bool := !(s.get .overflow).isKw "visible"

/-- The top margin of the element and that of its first child are adjoining. -/
def openTop (s : CSS) : Bool := !apart s && bare fp d s .top

/-- The bottom margin of the element and that of its last child are adjoining. -/
def openBottom (s : CSS) : Bool := !apart s && bare fp d s .bottom && (height fp d s).isNone && least fp d s = 0

mutual
/-- The top margin and the bottom margin of the element are adjoining. -/
def through : Node → Bool
  | .mk s _ _ cs => !apart s && bare fp d s .top && bare fp d s .bottom && least fp d s = 0 && (height fp d s).getD 0 = 0 && throughAll cs
/-- See `through`. -/
def throughAll : List Node → Bool
  | [] => true
  | c :: cs => through c && throughAll cs
end

mutual
/-- The top margin of an element and those adjoining it inside. -/
def start : Node → Strut
  | .mk s _ _ cs => (Strut.of (margin fp d s .top)).join (if openTop fp d s then leading cs else .zero)
/-- The margins at the beginning of a list. -/
def leading : List Node → Strut
  | [] => .zero
  | c :: cs => if through fp d c then ((start c).join (.of (margin fp d c.style .bottom))).join (leading cs) else start c
end

/-- The margins that what precedes an element meets. -/
def above (c : Node) : Strut := if through fp d c then (start fp d c).join (.of (margin fp d c.style .bottom)) else start fp d c

mutual
/-- The margins that what follows an element meets. -/
def below : Node → Strut
  | .mk s z l cs =>
    if through fp d (.mk s z l cs) then above fp d (.mk s z l cs)
    else (Strut.of (margin fp d s .bottom)).join (if openBottom fp d s then trailing cs else .zero)
/-- The margins at the end of a list. -/
def trailing : List Node → Strut
  | [] => .zero
  | c :: cs => if throughAll fp d cs then (below c).join (trailing cs) else trailing cs
end

/-- How far the next element is away, after the margins that are not yet used; those that are adjoining the top margin of the parent are outside of it. -/
def gap (margins : Option Strut) (m : Strut) : Rat :=
  match margins with
  | none => 0
  | some t => (t.join m).value

/-- The margins at the beginning of the content: outside, or none so far. -/
def begin (op : Bool) : Option Strut := if op then none else some .zero

/-- The content height: "the distance from the top content edge to the bottom edge of the (possibly collapsed) margin of its last in-flow child, if the child's bottom margin does
not collapse with the element's bottom margin", otherwise to the bottom border edge of that child. -/
def ended (op : Bool) : Rat × Option Strut → Rat
  | (y, t) => if op then y else y + gap t .zero

mutual
/-- The height of the border box. -/
def tall : Node → Rat
  | .mk s _ _ cs => edge fp d s .top +
    limited (some (least fp d s)) ((s.get .maxHeight).pixels fp d) ((height fp d s).getD (ended (openBottom fp d s) (run 0 (begin (openTop fp d s)) cs))) +
    edge fp d s .bottom
/-- Where a list of blocks ends, and the margins that are not used by then: from the position and the margins before it. -/
def run (y : Rat) (t : Option Strut) : List Node → Rat × Option Strut
  | [] => (y, t)
  | c :: cs => if through fp d c then run y (t.map fun t => t.join (above fp d c)) cs else run (y + gap t (above fp d c) + tall c) (some (below fp d c)) cs
end

/-- Where a block of the list begins. An element whose margins are adjoining each other is where it would be with a bottom border. -/
def placed (y : Rat) (t : Option Strut) : List Node → Nat → Rat
  | [], _ => y
  | c :: _, 0 => y + gap t (start fp d c)
  | c :: cs, i + 1 =>
    if through fp d c then placed y (t.map fun t => t.join (above fp d c)) cs i else placed (y + gap t (above fp d c) + tall fp d c) (some (below fp d c)) cs i

/-- The content height of the root, whose margins do not collapse, or of any other element. -/
def contentTall (root : Bool) (s : CSS) (cs : List Node) : Rat :=
  limited (some (least fp d s)) ((s.get .maxHeight).pixels fp d)
    ((height fp d s).getD (ended (!root && openBottom fp d s) (run fp d 0 (begin (!root && openTop fp d s)) cs)))

/-- A horizontal margin in a container of width `W`. -/
def beside (W : Rat) (s : CSS) (t : Side) : Rat := (Moved.outside fp d s t W).getD 0

/-- The width that is left for the content in a container of width `W`. -/
def left (W : Rat) (s : CSS) : Rat := W - beside fp d W s .left - edge fp d s .left - edge fp d s .right - beside fp d W s .right

/-- The content width, and whether it follows from the container. -/
def contentWide (W : Rat) (s : CSS) : Rat × Bool :=
  let lo := (Moved.pixelsOf fp d (s.get .minWidth) W).getD 0
  let hi := Moved.pixelsOf fp d (s.get .maxWidth) W
  match Moved.pixelsOf fp d (s.get .width) W with
  | some w => (limited (some lo) hi w, false)
  | none => (limited (some lo) hi (left fp d W s), limited (some lo) hi (left fp d W s) = left fp d W s)

/-- The width of the border box. -/
def wide (W : Rat) (s : CSS) : Rat := edge fp d s .left + (contentWide fp d W s).1 + edge fp d s .right

/-- The direction of the text is from left to right. -/
def ltr (s : CSS) : Bool := (s.get .direction).isKw "ltr"

/-- The left margin. What counts is the direction `dir` of the containing block. -/
def shift (dir : Bool) (W : Rat) (s : CSS) : Rat :=
  (usedMargins dir (contentWide fp d W s).2 W (wide fp d W s) (Moved.outside fp d s .left W) (Moved.outside fp d s .right W)).1

/-- The element is relatively positioned. -/
def relative (s : CSS) : Bool := (s.get .position).isKw "relative"

/-- How far a relatively positioned element is moved to the right; what counts is the direction of the containing block. -/
def aside (dir : Bool) (W : Rat) (s : CSS) : Rat :=
  if relative s then relativeShift dir (Moved.pixelsOf fp d (s.get .left) W) (Moved.pixelsOf fp d (s.get .right) W) else 0

/-- How far it is moved down. -/
def lowered (s : CSS) : Rat := if relative s then relativeShift true ((s.get .top).pixels fp d) ((s.get .bottom).pixels fp d) else 0

/-- The regions of a block in a container of width `W` whose content starts at `x`, with the border box starting at `y` before it is moved. -/
def region (root dir : Bool) (W x y : Rat) (n : Node) : Region where
  left := x + shift fp d dir W n.style + aside fp d dir W n.style
  top := y + lowered fp d n.style
  width := wide fp d W n.style
  height := edge fp d n.style .top + contentTall fp d root n.style n.children + edge fp d n.style .bottom
  contentLeft := x + shift fp d dir W n.style + aside fp d dir W n.style + edge fp d n.style .left
  contentTop := y + lowered fp d n.style + edge fp d n.style .top
  contentWidth := (contentWide fp d W n.style).1
  contentHeight := contentTall fp d root n.style n.children

/-- The regions of the element at a path. -/
def regionAt (root dir : Bool) (W x y : Rat) : Node → List Nat → Option Region
  | n, [] => some (region fp d root dir W x y n)
  | n, i :: q => (n.children[i]?).bind fun c =>
    regionAt false (ltr n.style) (contentWide fp d W n.style).1 (x + shift fp d dir W n.style + aside fp d dir W n.style + edge fp d n.style .left)
      (y + lowered fp d n.style + edge fp d n.style .top + placed fp d 0 (begin (!root && openTop fp d n.style)) n.children i) c q

/-- The regions of the element at a path in a document: the root is below its own top margin, and the direction of the initial containing block is that of the root. -/
def layoutAt (n : Node) (q : List Nat) : Option Region := regionAt fp d true (ltr n.style) d.contentWidth.val 0 (margin fp d n.style .top) n q

/-- Where the engine follows CSS 2.1: an element with its children in a container of width `W` and direction `dir`. -/
structure Fine (root dir : Bool) (W : Rat) (s : CSS) (cs : List Node) : Prop where
  /-- Borders have a style. -/
  border : ∀ t, border fp d s t = s.bordered fp d t
  /-- Vertical margins are whole numbers of pixels and not negative. -/
  whole : ∀ t, t = .top ∨ t = .bottom → ∃ k : Nat, margin fp d s t = k
  /-- The first child has no top margin, or one that disappears in that of the element. -/
  first : ∀ c, cs.head? = some c → margin fp d c.style .top = 0 ∨
    root = false ∧ openTop fp d s = true ∧ margin fp d c.style .top ≤ margin fp d s .top
  /-- The last child has no bottom margin, or it disappears in that of the element, or the height is given. -/
  last : ∀ c, cs.getLast? = some c → (below fp d c).value = 0 ∨ (height fp d s).isSome = true ∨ root = false ∧ openBottom fp d s = true
  /-- The margins of an empty element do not meet. -/
  thick : cs = [] → root = true ∨ ∀ z l, through fp d (.mk s z l cs) = false
  /-- The limits of a given height. -/
  given : ∀ h, height fp d s = some h → least fp d s ≤ limited none ((s.get .maxHeight).pixels fp d) h
  /-- The limits of the height of an empty element. -/
  empty : height fp d s = none → cs = [] → 0 ≤ least fp d s ∧ ∀ hi, (s.get .maxHeight).pixels fp d = some hi → 0 ≤ hi
  /-- An automatic height is within its limits. -/
  full : height fp d s = none → cs ≠ [] → least fp d s ≤ ended (!root && openBottom fp d s) (run fp d 0 (begin (!root && openTop fp d s)) cs) ∧
    ∀ hi, (s.get .maxHeight).pixels fp d = some hi → ended (!root && openBottom fp d s) (run fp d 0 (begin (!root && openTop fp d s)) cs) ≤ hi
  /-- A given width is not negative. -/
  wide : ∀ w, Moved.pixelsOf fp d (s.get .width) W = some w → 0 ≤ limited (Moved.pixelsOf fp d (s.get .minWidth) W) (Moved.pixelsOf fp d (s.get .maxWidth) W) w
  /-- An automatic width is within its limits. -/
  auto : Moved.pixelsOf fp d (s.get .width) W = none → (Moved.pixelsOf fp d (s.get .minWidth) W).getD 0 ≤ left fp d W s ∧
    ∀ hi, Moved.pixelsOf fp d (s.get .maxWidth) W = some hi → left fp d W s ≤ hi
  /-- What is left beside a centred element is an even number of pixels. -/
  even : Moved.outside fp d s .left W = none → Moved.outside fp d s .right W = none → ∀ w, Moved.pixelsOf fp d (s.get .width) W = some w →
    Css.wide fp d W s ≤ W → ∃ k : Int, W - Css.wide fp d W s = 2 * k
  /-- The direction of the element is that of its container, or the margins do not depend on it. -/
  along : ltr s = dir ∨ Moved.pixelsOf fp d (s.get .width) W = none ∨
    (Moved.outside fp d s .left W = none ∨ Moved.outside fp d s .right W = none) ∧ Css.wide fp d W s + beside fp d W s .left + beside fp d W s .right ≤ W
  /-- A relatively positioned element has neither border nor padding at the top, and from right to left only one of its horizontal offsets is given. -/
  moved : relative s = true → edge fp d s .top = 0 ∧ (dir = true ∨ Moved.pixelsOf fp d (s.get .left) W = none ∨ Moved.pixelsOf fp d (s.get .right) W = none)
  /-- The last child is not moved down or up, or the height is given. -/
  still : height fp d s = none → ∀ c, cs.getLast? = some c → lowered fp d c.style = 0

mutual
/-- All elements are so. -/
def Conforming (root dir : Bool) (W : Rat) : Node → Prop
  | .mk s _ _ cs => Fine fp d root dir W s cs ∧ conformingAll (ltr s) (contentWide fp d W s).1 cs
/-- See `Conforming`. -/
def conformingAll (dir : Bool) (W : Rat) : List Node → Prop
  | [] => True
  | c :: cs => Conforming false dir W c ∧ conformingAll dir W cs
end

end Css

end Colosseum
