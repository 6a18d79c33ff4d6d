import Verif.Spec.Document

/-!
# Specification: what a layout is, as a function of the document

The numbers of all boxes of a document, by recursion over the document alone: every number is given once and for all by a formula; there are no boxes that
are filled in step by step, no resets, no origins, no setters that propagate, no limit on the recursion. Unlike `Verif/Spec/Reference.lean` it covers
everything the engine can lay out (percentages, relative positions, inline elements, replaced elements, hidden elements, elements that are left out) and
every arithmetic: sums are written with their brackets, and `Num` tells whole numbers from floats. `none` stands for documents that cannot be laid out.

Sizes in units are converted by `px` of the unit classes, which C05 to C08 are about.
-/

namespace Colosseum

/-- What a number is after another one is assigned to it: equal numbers do not replace each other. -/
def Num.replacing (old new : Num) : Num := if new.val = old.val then old else new

/-- `a - x - y - …`, from left to right. -/
def Num.less (fp : FP) (a : Num) : List Num → Num
  | [] => a
  | x :: xs => (a.sub fp x).less fp xs

/-- `a + x + y + …`, from left to right. -/
def Num.plus (fp : FP) (a : Num) : List Num → Num
  | [] => a
  | x :: xs => (a.add fp x).plus fp xs

/-- An automatic margin that counts as nothing. -/
def MVal.grounded : MVal → Num
  | .auto => .int 0
  | .num x => x

/-- The part of a margin that can collapse. -/
def MVal.collapsible : MVal → Int
  | .num (.int i) => max 0 i
  | _ => 0

/-- The numbers of a box, apart from its origin: the position of the content, its size, margins, borders and padding, and the collapsed margins. -/
structure Figures where
  x : Num
  y : Num
  width : Option Num
  height : Option Num
  margin : Edge MVal
  border : Edge Num
  padding : Edge Num
  above : Int
  below : Int
deriving DecidableEq

/-- The numbers of the boxes of a document. -/
inductive Blueprint
  /-- There is no box. -/
  | absent
  /-- A box and those of the children. -/
  | mk (f : Figures) (ks : List Blueprint)

/-- The numbers of a box. -/
def Box.figures (b : Box) : Figures :=
  ⟨b.h.content, b.v.content, b.contentWidth, b.contentHeight, b.margin, b.border, b.padding, b.collapse.top, b.collapse.bottom⟩

mutual
/-- The numbers of the boxes that the elements of a document have. -/
def Node.drawn : Node → Blueprint
  | .mk _ _ none _ => .absent
  | .mk _ _ (some b) cs => .mk b.figures (drawnAll cs)
/-- See `Node.drawn`. -/
def drawnAll : List Node → List Blueprint
  | [] => []
  | c :: cs => c.drawn :: drawnAll cs
end

/-- A box in which nothing has been written. -/
def Figures.zero : Figures :=
  ⟨.int 0, .int 0, some (.int 0), some (.int 0), .all (.num (.int 0)), .all (.int 0), .all (.int 0), 0, 0⟩

mutual
/-- Elements that are left out. -/
def Node.blank : Node → Blueprint
  | .mk _ _ none _ => .absent
  | .mk _ _ (some _) cs => .mk .zero (blankAll cs)
/-- See `Node.blank`. -/
def blankAll : List Node → List Blueprint
  | [] => []
  | c :: cs => c.blank :: blankAll cs
end

/-- What an element finds around it: the size of the content of its parent as far as it is known, and where that content is; the display is nowhere. -/
structure Surround where
  width : Option Num
  height : Option Num
  corner : Option (Num × Num)

/-! ## Sizes -/

/-- A size in pixels. -/
def Val.inPixels (fp : FP) (d : Display) (size : Option Num) : Val → Option Num
  | .unit u => (u.px fp ⟨d, dummyFont fp, size⟩).toOption
  | _ => Option.none

/-- A margin, border or padding: nothing and zero pixels are the whole number 0. -/
def Val.extent (fp : FP) (d : Display) (size : Option Num) : Val → Option MVal
  | .none => some (.num (.int 0))
  | .str t =>
    if t = lit "auto" then some .auto
    else if t = lit "thin" then some (.num d.thin)
    else if t = lit "medium" then some (.num d.medium)
    else if t = lit "thick" then some (.num d.thick)
    else Option.none
  | .num x => if x.pyEq (.fin (.int 0)) then some (.num (.int 0)) else Option.none
  | .unit u =>
    if u.kind = .len .px ∧ u.val.pyEq (.fin (.int 0)) then some (.num (.int 0))
    else (u.px fp ⟨d, dummyFont fp, size⟩).toOption.map .num
  | _ => Option.none

/-- A border or padding. -/
def Val.thickness (fp : FP) (d : Display) (size : Option Num) (v : Val) : Option Num :=
  (v.extent fp d size).bind fun
    | .num x => some x
    | .auto => Option.none

/-- The margins as they are at first: zero is the whole number 0. -/
def Val.spacing (fp : FP) (d : Display) (size : Option Num) (v : Val) : Option MVal :=
  (v.extent fp d size).map fun
    | .num x => .num ((Num.int 0).replacing x)
    | .auto => .auto

/-- The three kinds of elements that can be laid out. -/
inductive Manner
  | inline | image | block
deriving DecidableEq

/-- A block-level element. -/
def Node.blockish (n : Node) : Bool := ["block", "list-item", "table"].any (n.style.get .display).isKw

/-- The children are put below each other. -/
def Node.piles (n : Node) : Bool :=
  ["block", "list-item", "inline-block", "table-cell", "table-caption"].any (n.style.get .display).isKw && !n.intrinsic.isReplaced &&
  n.children.any Node.blockish

/-- What kind an element is of; none for floats, for absolute and fixed positions, for replaced blocks, and for everything that is neither inline nor a block. -/
def Node.manner (n : Node) : Option Manner :=
  if !(n.style.get .float).isNone || ["absolute", "fixed"].any (n.style.get .position).isKw then none
  else if (n.style.get .display).isKw "inline" then some (if n.intrinsic.isReplaced then .image else .inline)
  else if n.blockish && !n.intrinsic.isReplaced then some .block
  else none

/-! ## Horizontally -/

/-- Margins, borders and padding. The margins at the top and at the bottom, and the borders and paddings at the left and at the right are relative to the
height of the surroundings, the others to the width. -/
def CSS.edges (fp : FP) (d : Display) (s : CSS) (W H : Option Num) : Option (Edge MVal × Edge Num × Edge Num) := do
  let mt ← (s.get (.margin .top)).spacing fp d H
  let mr ← (s.get (.margin .right)).spacing fp d W
  let mb ← (s.get (.margin .bottom)).spacing fp d H
  let ml ← (s.get (.margin .left)).spacing fp d W
  let bt ← (s.get (.borderWidth .top)).thickness fp d W
  let br ← (s.get (.borderWidth .right)).thickness fp d H
  let bb ← (s.get (.borderWidth .bottom)).thickness fp d W
  let bl ← (s.get (.borderWidth .left)).thickness fp d H
  let pt ← (s.get (.padding .top)).thickness fp d W
  let pr ← (s.get (.padding .right)).thickness fp d H
  let pb ← (s.get (.padding .bottom)).thickness fp d W
  let pl ← (s.get (.padding .left)).thickness fp d H
  some (⟨mt, mr, mb, ml⟩, ⟨bt, br, bb, bl⟩, ⟨pt, pr, pb, pl⟩)

/-- The width of a block for which one is given: first not more than the maximum, then not less than the minimum. -/
def CSS.givenWidth (fp : FP) (d : Display) (s : CSS) (W : Option Num) : Option Num := do
  let w ← (s.get .width).inPixels fp d W
  let most ← (if (s.get .maxWidth).isNone then some w else (s.get .maxWidth).inPixels fp d W : Option Num)
  let w := if most.val < w.val then most else w
  let least ← (if (s.get .minWidth).isKw "auto" then some w else (s.get .minWidth).inPixels fp d W : Option Num)
  some (if w.val < least.val then least else w)

/-- What is left of `W` beside a block of width `w` with the given margins at the left and at the right. -/
def leftover (fp : FP) (W w : Num) (b p : Edge Num) (left right : List Num) : Num :=
  W.less fp (left ++ [b.left, p.left, w, p.right, b.right] ++ right)

/-- The horizontal margins of a block of width `w` in `W`: automatic margins are nothing if the block is too wide; otherwise they take what is left, half of
it each if there are two, and if there is none, the margin at the end of the line is ignored. -/
def sideMargins (fp : FP) (ltr : Bool) (W w : Num) (b p : Edge Num) (l r : MVal) : Num × Num :=
  let inner := b.left.plus fp [p.left, w, p.right, b.right]
  match l, r with
  | .auto, .auto =>
    if W.val < inner.val then
      if ltr then (.int 0, (Num.int 0).replacing (leftover fp W w b p [.int 0] []))
      else ((Num.int 0).replacing (leftover fp W w b p [] [.int 0]), .int 0)
    else ((leftover fp W w b p [] []).floorDiv2 fp, (leftover fp W w b p [] []).floorDiv2 fp)
  | .auto, .num r =>
    if W.val < (inner.plus fp [r]).val then
      if ltr then (.int 0, r.replacing (leftover fp W w b p [.int 0] []))
      else ((Num.int 0).replacing (leftover fp W w b p [] [r]), r)
    else (leftover fp W w b p [] [r], r)
  | .num l, .auto =>
    if W.val < (inner.plus fp [l]).val then
      if ltr then (l, (Num.int 0).replacing (leftover fp W w b p [l] []))
      else (l.replacing (leftover fp W w b p [] [.int 0]), .int 0)
    else (l, leftover fp W w b p [l] [])
  | .num l, .num r =>
    if ltr then (l, r.replacing (leftover fp W w b p [l] []))
    else (l.replacing (leftover fp W w b p [] [r]), r)

/-- The width of a replaced element. -/
def CSS.imageWidth (fp : FP) (d : Display) (s : CSS) (z : Intrinsic) (W : Option Num) (b p : Edge Num) (l r : Num) : Option Num :=
  if !(s.get .width).isKw "auto" then (s.get .width).inPixels fp d W
  else match z.width with
    | some w => some w
    | none =>
      if (s.get .height).isKw "auto" then
        match z.height, z.ratio with
        | some h, some q => some (.int (h.mul fp q).round)
        | none, some _ => W.map fun W => W.less fp [l, b.left, p.left, p.right, b.right, r]
        | _, none => some (.int 300)
      else some (.int 300)

/-- Width, left and right margin. -/
def Node.across (fp : FP) (d : Display) (n : Node) (W : Option Num) (m : Edge MVal) (b p : Edge Num) : Manner → Option (Option Num × Num × Num)
  | .inline => some (n.intrinsic.width, m.left.grounded, m.right.grounded)
  | .image => (n.style.imageWidth fp d n.intrinsic W b p m.left.grounded m.right.grounded).map fun w => (some w, m.left.grounded, m.right.grounded)
  | .block =>
    if (n.style.get .width).isKw "auto" then
      W.map fun W => (some (W.less fp [m.left.grounded, b.left, p.left, p.right, b.right, m.right.grounded]), m.left.grounded, m.right.grounded)
    else (n.style.givenWidth fp d W).bind fun w => W.map fun W =>
      (some w, sideMargins fp ((n.style.get .direction).isKw "ltr") W w b p m.left m.right)

/-! ## Vertically -/

/-- The height of a block for which one is given: relative to that of the parent, if one is given for it, and not more than the maximum. -/
def CSS.givenHeight (fp : FP) (d : Display) (s : CSS) (parent : Option CSS) (H : Option Num) : Option Num := do
  let outer ← (match parent with
    | some ps => if (ps.get .height).isKw "auto" then some H else ((ps.get .height).inPixels fp d H).map some
    | none => some H : Option (Option Num))
  let h ← (s.get .height).inPixels fp d outer
  let most ← (if (s.get .maxHeight).isNone then some h else (s.get .maxHeight).inPixels fp d H : Option Num)
  some (if most.val < h.val then most else h)

/-- The height of a replaced element of width `w`. -/
def CSS.imageHeight (fp : FP) (d : Display) (s : CSS) (z : Intrinsic) (H w : Option Num) : Option Num :=
  if !(s.get .height).isKw "auto" then (s.get .height).inPixels fp d H
  else match (s.get .width).isKw "auto", z.height with
    | true, some h => some h
    | _, h =>
      match z.ratio with
      | some q => if q.val ≠ 0 then w.map fun w => w.mul fp q else other h
      | none => other h
where
  /-- Without a ratio. -/
  other (h : Option Num) : Option Num :=
    match h with
    | some h => if h.val ≠ 0 then some h else half
    | none => half
  /-- Half the width, at most 150 pixels. -/
  half : Option Num := w.map fun w => if 150 < (w.floorDiv2 fp).val then .int 150 else w.floorDiv2 fp

/-- Where the border box of the last child ends. -/
def Figures.end (fp : FP) (f : Figures) : Option Num := f.height.map fun h => f.y.plus fp [h, f.padding.bottom, f.border.bottom]

/-- The height of the border box. -/
def Figures.tall (fp : FP) (f : Figures) : Option Num :=
  f.height.map fun h => f.border.top.plus fp [f.padding.top, h, f.padding.bottom, f.border.bottom]

/-- The height of an element of width `w`, with the last child as it is in the list; `some none` is an unknown height. -/
def Node.along (fp : FP) (d : Display) (n : Node) (parent : Option CSS) (H w : Option Num) (kids : List Blueprint) : Manner → Option (Option Num)
  | .inline => some n.intrinsic.height
  | .image => (n.style.imageHeight fp d n.intrinsic H w).map some
  | .block =>
    if !(n.style.get .height).isKw "auto" then (n.style.givenHeight fp d parent H).map some
    else match kids.getLast? with
      | none => if (n.style.get .minHeight).isKw "auto" then some (some (.int 0)) else ((n.style.get .minHeight).inPixels fp d H).map some
      | some .absent => none
      | some (.mk f _) => (f.end fp).map some

/-- The margins at the top and at the bottom. An automatic one at the top of an inline element that is not replaced is an error. -/
def upright (m : Edge MVal) : Manner → Option (Num × MVal)
  | .inline =>
    match m.top with
    | .auto => none
    | .num t => some (t, m.bottom)
  | _ => some (m.top.grounded, .num m.bottom.grounded)

/-- From the top of the content of the parent, or the end of the previous block, to the content. Margins of blocks are not in it. -/
def lowering (fp : FP) (t : Num) (b p : Edge Num) : Manner → Num
  | .block => b.top.plus fp [p.top]
  | _ => t.plus fp [b.top, p.top]

/-! ## Relative positions -/

/-- The offset of a relatively positioned element, from the values of `left` and `right` or `top` and `bottom`. `inherit` stands for the position of the
content of the parent, from `start` to `stop`. -/
def relativeMove (fp : FP) (d : Display) (size start stop : Option Num) (u v : Val) : Option Num :=
  if u.isKw "auto" then
    if v.isKw "auto" then some (.int 0)
    else ((if v.isKw "inherit" then stop else v.inPixels fp d size)).map Num.neg
  else if v.isKw "auto" && u.isKw "inherit" then start
  else u.inPixels fp d size

/-- Both offsets of a relatively positioned element. -/
def CSS.moves (fp : FP) (d : Display) (s : CSS) (r : Surround) : Option (Num × Num) := do
  let dx ← relativeMove fp d r.width (r.corner.map (·.1)) (r.corner.bind fun c => r.width.map fun w => c.1.add fp w) (s.get .left) (s.get .right)
  let dy ← relativeMove fp d r.height (r.corner.map (·.2)) (r.corner.bind fun c => r.height.map fun h => c.2.add fp h) (s.get .top) (s.get .bottom)
  some (dx, dy)

/-! ## Documents -/

/-- The collapsed margin at the top includes that of the first block below. -/
def firstAbove (piles : Bool) (kids : List Blueprint) (own : Int) : Int :=
  match piles, kids with
  | true, .mk f _ :: _ => max own f.above
  | _, _ => own

/-- The collapsed margin at the bottom of a block of automatic height includes that of the last child. -/
def lastBelow (open_ : Bool) (kids : List Blueprint) (own : Int) : Int :=
  match open_, kids.getLast? with
  | true, some (.mk f _) => max own f.below
  | _, _ => own

/-- The distance between a block and what is above it: nothing for the first one. -/
def gapAbove (below : Option Int) (f : Figures) : Option (Option Num) :=
  match below with
  | none => some none
  | some i =>
    match f.margin.top with
    | .num t => some (some (if (i : Rat) < t.val then t else .int i))
    | .auto => none

/-- Move a box down. -/
def Figures.moved (fp : FP) (f : Figures) (dy : Num) : Figures := { f with y := f.y.replacing (f.y.add fp dy) }

mutual
/-- The numbers of the boxes of an element in its surroundings. -/
def Node.plan (fp : FP) (d : Display) (parent : Option CSS) (r : Surround) : Node → Option Blueprint
  | .mk s z l cs =>
    let n := Node.mk s z l cs
    if (s.get .display).isNone then some .absent
    else do
      let k ← n.manner
      let relative := (s.get .position).isKw "relative"
      let (m, b, p) ← s.edges fp d r.width r.height
      let (w, left, right) ← n.across fp d r.width m b p k
      let x := if k = .inline then .int 0 else (Num.int 0).replacing (left.plus fp [b.left, p.left])
      let (top, bottom) ← upright m k
      let down := lowering fp top b p k
      -- a relatively positioned element is moved down and has its height calculated before it is known what is in it
      let y := if relative then (Num.int 0).replacing ((Num.int 0).add fp down) else .int 0
      let guess ← (if relative then n.along fp d parent r.height w (blankAll cs) k else some (some (.int 0)) : Option (Option Num))
      let inner : Surround := ⟨w, guess, some (x, y)⟩
      let kids ← (if n.piles then stackPlans fp d s inner (.int 0) none cs else flowPlans fp d s inner cs : Option (List Blueprint))
      let h ← n.along fp d parent r.height w kids k
      let y := y.replacing (y.add fp down)
      let (x, y) ← (if relative then (s.moves fp d r).map fun (dx, dy) => (x.replacing (x.add fp dx), y.replacing (y.add fp dy))
        else some (x, y) : Option (Num × Num))
      some (.mk
        { x := x, y := y, width := w, height := h, margin := ⟨.num top, .num right, bottom, .num left⟩, border := b, padding := p,
          above := firstAbove n.piles kids m.top.collapsible,
          below := lastBelow (k = .block && (s.get .height).isKw "auto") kids m.bottom.collapsible }
        kids)
/-- Children that are not put below each other. -/
def flowPlans (fp : FP) (d : Display) (s : CSS) (r : Surround) : List Node → Option (List Blueprint)
  | [] => some []
  | c :: cs => do
    let k ← c.plan fp d (some s) r
    let ks ← flowPlans fp d s r cs
    some (k :: ks)
/-- Blocks below each other, from `y` on, below a block with a collapsed margin `below`. What follows the blocks is left out. -/
def stackPlans (fp : FP) (d : Display) (s : CSS) (r : Surround) (y : Num) (below : Option Int) : List Node → Option (List Blueprint)
  | [] => some []
  | c :: cs =>
    if c.blockish then do
      let k ← c.plan fp d (some s) r
      match k with
      | .absent => none
      | .mk f ks =>
        let gap ← gapAbove below f
        let y := gap.elim y (y.add fp)
        let h ← f.tall fp
        let rest ← stackPlans fp d s r (y.add fp h) (some f.below) cs
        some (.mk (f.moved fp y) ks :: rest)
    else if cs.any Node.blockish then none
    else some (blankAll (c :: cs))
end

/-- The numbers of the boxes of a document on a display. The root is moved down by its margin; by the rules of HTML5 it is as high as the display. -/
def Node.blueprint (fp : FP) (d : Display) (html5 : Bool) (parent : Option CSS) (n : Node) : Option Blueprint :=
  match n.plan fp d parent ⟨some d.contentWidth, some d.contentHeight, none⟩ with
  | some (.mk f ks) =>
    let f := f.moved fp (.int f.above)
    some (.mk (if html5 then { f with height := some (d.contentHeight.less fp [.int f.above, .int f.below]) } else f) ks)
  | _ => none

end Colosseum
