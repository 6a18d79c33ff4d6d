import Verif.Model.Declaration

/-!
# `/repo/src/colosseum/dimensions.py`

A document node is a value: style, intrinsic size, optional box (`node.layout`), children.  The parent
pointer of the Python object is implicit in the tree.  `Box.visible` is always `True` and omitted.
`Box.node` is implicit: the functions that walk to the children take the children as an argument.
-/

namespace Colosseum

/-- One value per side. -/
structure Edge (α : Type) where
  top : α
  right : α
  bottom : α
  left : α
deriving DecidableEq, Repr

namespace Edge
/-- Read a side. -/
def get {α : Type} (e : Edge α) : Side → α
  | .top => e.top
  | .right => e.right
  | .bottom => e.bottom
  | .left => e.left
/-- Write a side. -/
def set {α : Type} (e : Edge α) (s : Side) (x : α) : Edge α :=
  match s with
  | .top => { e with top := x }
  | .right => { e with right := x }
  | .bottom => { e with bottom := x }
  | .left => { e with left := x }
/-- The same value on every side. -/
def all {α : Type} (x : α) : Edge α := ⟨x, x, x, x⟩
end Edge

/-- A margin: `AUTO` or a number (`/repo/src/colosseum/dimensions.py:202-205`,
`/repo/src/colosseum/engine.py:187-190,305-314`). -/
inductive MVal
  | auto
  | num (n : Num)
deriving DecidableEq, Repr

/-- `a == b` on margins. -/
def MVal.pyEq : MVal → MVal → Bool
  | .auto, .auto => true
  | .num a, .num b => a.pyEq b
  | _, _ => false

/-- The vertical (`_top`) or horizontal (`_left`) axis. -/
inductive Axis
  | v | h
deriving DecidableEq, Repr

/-- `__origin_x` and `_content_x` of one axis (`/repo/src/colosseum/dimensions.py:193-199`). The
transient `None` origin during `_reset` is not represented. -/
structure AxisPos where
  origin : Num
  content : Num
deriving DecidableEq, Repr

/-- `Box` (`/repo/src/colosseum/dimensions.py:180-231`). -/
structure Box where
  contentWidth : Option Num
  contentHeight : Option Num
  v : AxisPos
  h : AxisPos
  margin : Edge MVal
  collapse : Edge Int
  border : Edge Num
  padding : Edge Num
  dirty : Option Bool
deriving DecidableEq, Repr

/-- `Size` without its node (`/repo/src/colosseum/dimensions.py:16-24`). -/
structure Intrinsic where
  width : Option Num
  height : Option Num
  exactWidth : Bool
  exactHeight : Bool
  ratio : Option Num
  isReplaced : Bool
deriving DecidableEq, Repr

/-- `Size(node)` (`/repo/src/colosseum/dimensions.py:16-24`). -/
def Intrinsic.initial : Intrinsic := ⟨none, none, true, true, none, false⟩

/-- A document node. -/
inductive Node
  | mk (style : CSS) (intrinsic : Intrinsic) (layout : Option Box) (children : List Node)

namespace Node
/-- `node.style`. -/
def style : Node → CSS | mk s _ _ _ => s
/-- `node.intrinsic`. -/
def intrinsic : Node → Intrinsic | mk _ i _ _ => i
/-- `node.layout`. -/
def layout : Node → Option Box | mk _ _ l _ => l
/-- `node.children`. -/
def children : Node → List Node | mk _ _ _ c => c
end Node

namespace Box

/-- Position on an axis. -/
def pos (b : Box) : Axis → AxisPos
  | .v => b.v
  | .h => b.h

/-- Replace the position on an axis. -/
def setPos (b : Box) (a : Axis) (p : AxisPos) : Box :=
  match a with
  | .v => { b with v := p }
  | .h => { b with h := p }

/-- `absolute_content_top` / `absolute_content_left`
(`/repo/src/colosseum/dimensions.py:520-522,532-534`). -/
def absContent (fp : FP) (b : Box) (a : Axis) : Num := (b.pos a).origin.add fp (b.pos a).content

/-- The fields set by `_reset` (`/repo/src/colosseum/dimensions.py:180-231`). -/
def fresh : Box :=
  { contentWidth := some (.int 0), contentHeight := some (.int 0),
    v := ⟨.int 0, .int 0⟩, h := ⟨.int 0, .int 0⟩,
    margin := .all (.num (.int 0)), collapse := .all 0,
    border := .all (.int 0), padding := .all (.int 0), dirty := some true }

/-- `collapse_<side>` setter (`/repo/src/colosseum/dimensions.py:337-367`): only an `int` greater than
the current value is stored. -/
def setCollapse (b : Box) (s : Side) (x : MVal) : Box :=
  match x with
  | .num (.int i) => if b.collapse.get s < i then { b with collapse := b.collapse.set s i } else b
  | _ => b

/-- `margin_<side>` setter (`/repo/src/colosseum/dimensions.py:293-331`). -/
def setMargin (b : Box) (s : Side) (x : MVal) : Box :=
  if x.pyEq (b.margin.get s) then b
  else ({ b with margin := b.margin.set s x } : Box).setCollapse s x

/-! Computed edges (`/repo/src/colosseum/dimensions.py:369-534`). They raise `TypeError` when the
content size is `None`, which is represented by `none`. -/

/-- `border_box_top` (`/repo/src/colosseum/dimensions.py:372-374`). -/
def borderBoxTop (fp : FP) (b : Box) : Num := (b.v.content.sub fp b.padding.top).sub fp b.border.top
/-- `border_box_right` (`/repo/src/colosseum/dimensions.py:376-383`). -/
def borderBoxRight (fp : FP) (b : Box) : Option Num :=
  b.contentWidth.map fun w =>
    ((b.h.content.add fp w).add fp b.padding.right).add fp b.border.right
/-- `border_box_bottom` (`/repo/src/colosseum/dimensions.py:385-392`). -/
def borderBoxBottom (fp : FP) (b : Box) : Option Num :=
  b.contentHeight.map fun w =>
    ((b.v.content.add fp w).add fp b.padding.bottom).add fp b.border.bottom
/-- `border_box_left` (`/repo/src/colosseum/dimensions.py:394-396`). -/
def borderBoxLeft (fp : FP) (b : Box) : Num := (b.h.content.sub fp b.padding.left).sub fp b.border.left
/-- `border_box_width` (`/repo/src/colosseum/dimensions.py:398-406`). -/
def borderBoxWidth (fp : FP) (b : Box) : Option Num :=
  b.contentWidth.map fun w =>
    (((b.border.left.add fp b.padding.left).add fp w).add fp b.padding.right).add fp b.border.right
/-- `border_box_height` (`/repo/src/colosseum/dimensions.py:408-416`). -/
def borderBoxHeight (fp : FP) (b : Box) : Option Num :=
  b.contentHeight.map fun w =>
    (((b.border.top.add fp b.padding.top).add fp w).add fp b.padding.bottom).add fp b.border.bottom
/-- `absolute_border_box_top` (`/repo/src/colosseum/dimensions.py:418-425`). -/
def absBorderBoxTop (fp : FP) (b : Box) : Num :=
  ((b.v.origin.add fp b.v.content).sub fp b.padding.top).sub fp b.border.top
/-- `absolute_border_box_right` (`/repo/src/colosseum/dimensions.py:427-435`). -/
def absBorderBoxRight (fp : FP) (b : Box) : Option Num :=
  b.contentWidth.map fun w =>
    (((b.h.origin.add fp b.h.content).add fp w).add fp b.padding.right).add fp b.border.right
/-- `absolute_border_box_bottom` (`/repo/src/colosseum/dimensions.py:437-445`). -/
def absBorderBoxBottom (fp : FP) (b : Box) : Option Num :=
  b.contentHeight.map fun w =>
    (((b.v.origin.add fp b.v.content).add fp w).add fp b.padding.bottom).add fp b.border.bottom
/-- `absolute_border_box_left` (`/repo/src/colosseum/dimensions.py:447-454`). -/
def absBorderBoxLeft (fp : FP) (b : Box) : Num :=
  ((b.h.origin.add fp b.h.content).sub fp b.padding.left).sub fp b.border.left
/-- `padding_box_top` (`/repo/src/colosseum/dimensions.py:459-461`). -/
def paddingBoxTop (fp : FP) (b : Box) : Num := b.v.content.sub fp b.padding.top
/-- `padding_box_right` (`/repo/src/colosseum/dimensions.py:463-465`). -/
def paddingBoxRight (fp : FP) (b : Box) : Option Num :=
  b.contentWidth.map fun w => (b.h.content.add fp w).add fp b.padding.right
/-- `padding_box_bottom` (`/repo/src/colosseum/dimensions.py:467-469`). -/
def paddingBoxBottom (fp : FP) (b : Box) : Option Num :=
  b.contentHeight.map fun w => (b.v.content.add fp w).add fp b.padding.bottom
/-- `padding_box_left` (`/repo/src/colosseum/dimensions.py:471-473`). -/
def paddingBoxLeft (fp : FP) (b : Box) : Num := b.h.content.sub fp b.padding.left
/-- `padding_box_width` (`/repo/src/colosseum/dimensions.py:475-477`). -/
def paddingBoxWidth (fp : FP) (b : Box) : Option Num :=
  b.contentWidth.map fun w => (b.padding.left.add fp w).add fp b.padding.right
/-- `padding_box_height` (`/repo/src/colosseum/dimensions.py:479-481`). -/
def paddingBoxHeight (fp : FP) (b : Box) : Option Num :=
  b.contentHeight.map fun w => (b.padding.top.add fp w).add fp b.padding.bottom
/-- `absolute_padding_box_top` (`/repo/src/colosseum/dimensions.py:483-485`). -/
def absPaddingBoxTop (fp : FP) (b : Box) : Num :=
  (b.v.origin.add fp b.v.content).sub fp b.padding.top
/-- `absolute_padding_box_right` (`/repo/src/colosseum/dimensions.py:487-494`). -/
def absPaddingBoxRight (fp : FP) (b : Box) : Option Num :=
  b.contentWidth.map fun w => ((b.h.origin.add fp b.h.content).add fp w).add fp b.padding.right
/-- `absolute_padding_box_bottom` (`/repo/src/colosseum/dimensions.py:496-503`). -/
def absPaddingBoxBottom (fp : FP) (b : Box) : Option Num :=
  b.contentHeight.map fun w => ((b.v.origin.add fp b.v.content).add fp w).add fp b.padding.bottom
/-- `absolute_padding_box_left` (`/repo/src/colosseum/dimensions.py:505-507`). -/
def absPaddingBoxLeft (fp : FP) (b : Box) : Num :=
  (b.h.origin.add fp b.h.content).sub fp b.padding.left
/-- `content_bottom` (`/repo/src/colosseum/dimensions.py:512-514`). -/
def contentBottom (fp : FP) (b : Box) : Option Num := b.contentHeight.map fun w => b.v.content.add fp w
/-- `content_right` (`/repo/src/colosseum/dimensions.py:516-518`). -/
def contentRight (fp : FP) (b : Box) : Option Num := b.contentWidth.map fun w => b.h.content.add fp w
/-- `absolute_content_right` (`/repo/src/colosseum/dimensions.py:524-526`). -/
def absContentRight (fp : FP) (b : Box) : Option Num :=
  b.contentWidth.map fun w => (b.h.origin.add fp b.h.content).add fp w
/-- `absolute_content_bottom` (`/repo/src/colosseum/dimensions.py:528-530`). -/
def absContentBottom (fp : FP) (b : Box) : Option Num :=
  b.contentHeight.map fun w => (b.v.origin.add fp b.v.content).add fp w

end Box

mutual
/-- `child.layout._origin_x = v` if the child has a box, with the propagation of the setter
(`/repo/src/colosseum/dimensions.py:246-252,258-264`). -/
def Node.setOrigin (fp : FP) (a : Axis) (v : Num) : Node → Node
  | .mk s i none cs => .mk s i none cs
  | .mk s i (some b) cs =>
    if v.pyEq (b.pos a).origin then .mk s i (some b) cs
    else
      let b' := b.setPos a { b.pos a with origin := v }
      .mk s i (some b') (setOrigins fp a (b'.absContent fp a) cs)
/-- Loop over the children (`/repo/src/colosseum/dimensions.py:250-252`). -/
def setOrigins (fp : FP) (a : Axis) (v : Num) : List Node → List Node
  | [] => []
  | c :: cs => c.setOrigin fp a v :: setOrigins fp a v cs
end

/-- `content_top` / `content_left` setter on a box with the given children
(`/repo/src/colosseum/dimensions.py:273-279,285-291`). -/
def setContent (fp : FP) (a : Axis) (v : Num) (b : Box) (cs : List Node) : Box × List Node :=
  if v.pyEq (b.pos a).content then (b, cs)
  else
    let b' := b.setPos a { b.pos a with content := v }
    (b', setOrigins fp a (b'.absContent fp a) cs)

/-- `node.layout.content_top = v` / `content_left = v` (`/repo/src/colosseum/dimensions.py:273-279,285-291`).
A node without box has no `layout` to write to: `AttributeError`. -/
def Node.move (fp : FP) (a : Axis) (v : Num) : Node → Node × Option Err
  | .mk s i none cs => (.mk s i none cs, some .attribute)
  | .mk s i (some b) cs =>
    let (b, cs) := setContent fp a v b cs
    (.mk s i (some b) cs, none)

/-- `node.layout.margin_<side> = v` (`/repo/src/colosseum/dimensions.py:293-331`). -/
def Node.setMargin (t : Side) (v : MVal) : Node → Node × Option Err
  | .mk s i none cs => (.mk s i none cs, some .attribute)
  | .mk s i (some b) cs => (.mk s i (some (b.setMargin t v)) cs, none)

/-- `node.layout.collapse_<side> = v` (`/repo/src/colosseum/dimensions.py:333-367`). -/
def Node.setCollapse (t : Side) (v : MVal) : Node → Node × Option Err
  | .mk s i none cs => (.mk s i none cs, some .attribute)
  | .mk s i (some b) cs => (.mk s i (some (b.setCollapse t v)) cs, none)

/-- The effect of `Box._reset` on the box and on the origins of the children
(`/repo/src/colosseum/dimensions.py:180-231`): the origin goes from `None` to `0`, so the absolute
position `0 + 0` is always pushed. Also `Box(node)` (lines 165-167). -/
def resetOne (fp : FP) (cs : List Node) : Box × List Node :=
  (Box.fresh, setOrigins fp .h (Box.fresh.absContent fp .h)
    (setOrigins fp .v (Box.fresh.absContent fp .v) cs))

/-- Number of levels of the tree below and including a node. -/
def Node.depth : Node → Nat
  | .mk _ _ _ cs => depths cs + 1
where
  /-- The largest depth in a list. -/
  depths : List Node → Nat
    | [] => 0
    | c :: cs => max c.depth (depths cs)

/-- `Box.reset` (`/repo/src/colosseum/dimensions.py:233-237`), recursion limited by `fuel` levels; a node
without box is left alone together with everything below it. -/
def Node.resetFuel (fp : FP) : Nat → Node → Node
  | 0, n => n
  | _ + 1, .mk s i none cs => .mk s i none cs
  | f + 1, .mk s i (some _) cs =>
    let (b, cs) := resetOne fp cs
    .mk s i (some b) (cs.map (Node.resetFuel fp f))

/-- `Box.reset` (`/repo/src/colosseum/dimensions.py:233-237`). -/
def Node.reset (fp : FP) (n : Node) : Node := n.resetFuel fp n.depth

mutual
/-- `layout.dirty = v` if there is a box (`/repo/src/colosseum/dimensions.py:547-553`). -/
def Node.setDirty (v : Option Bool) : Node → Node
  | .mk s i none cs => .mk s i none cs
  | .mk s i (some b) cs =>
    if v = b.dirty then .mk s i (some b) cs
    else .mk s i (some { b with dirty := v }) (setDirties v cs)
/-- Loop over the children (`/repo/src/colosseum/dimensions.py:551-553`). -/
def setDirties (v : Option Bool) : List Node → List Node
  | [] => []
  | c :: cs => c.setDirty v :: setDirties v cs
end

/-- `node.layout.dirty = v`: `AttributeError` when `layout` is `None`
(`/repo/src/colosseum/dimensions.py:547-553`). -/
def Node.markLayout (v : Option Bool) (n : Node) : Node × Option Err :=
  (n.setDirty v, if n.layout.isNone then some .attribute else none)

/-- The attributes of `Size` that have a setter (`/repo/src/colosseum/dimensions.py:34-92`). -/
inductive SizeAttr
  | width (x : Option Num)
  | height (x : Option Num)
  | exactWidth (x : Bool)
  | exactHeight (x : Bool)
  | ratio (x : Option Num)
  | isReplaced (x : Bool)
deriving DecidableEq, Repr

/-- `a == b` for `None` or a number. -/
def optNumEq : Option Num → Option Num → Bool
  | none, none => true
  | some a, some b => a.pyEq b
  | _, _ => false

/-- A `Size` attribute setter (`/repo/src/colosseum/dimensions.py:38-92`) on the value level: the new
attributes when the value differs, `none` when it does not. -/
def Intrinsic.assign (z : Intrinsic) : SizeAttr → Option Intrinsic
  | .width x => if optNumEq z.width x then none else some { z with width := x }
  | .height x => if optNumEq z.height x then none else some { z with height := x }
  | .exactWidth x => if z.exactWidth = x then none else some { z with exactWidth := x }
  | .exactHeight x => if z.exactHeight = x then none else some { z with exactHeight := x }
  | .ratio x => if optNumEq z.ratio x then none else some { z with ratio := x }
  | .isReplaced x => if z.isReplaced = x then none else some { z with isReplaced := x }

/-- A `Size` attribute setter on the node (`/repo/src/colosseum/dimensions.py:30-92`): a changed value
is stored, then the layout is marked dirty, which raises `AttributeError` when `layout` is `None`. -/
def Node.setSize (n : Node) (x : SizeAttr) : Node × Option Err :=
  match n with
  | .mk s z l cs =>
    match z.assign x with
    | none => (n, none)
    | some z' =>
      match l with
      | none => (.mk s z' none cs, some .attribute)
      | some b => ((Node.mk s z' (some b) cs).setDirty (some true), none)

/-- A style assignment on the node that owns the declaration (`node.style.x = v`), with the
propagation of the dirty flag (`/repo/src/colosseum/declaration.py:669-677`). `f` is an operation on
declarations (`Decl.setAttr`, `Decl.delAttr`, ...). -/
def Node.onStyle (f : Decl → Out) (n : Node) : Node × Option Err :=
  match n with
  | .mk s z l cs =>
    let link := match l with
      | none => Link.noBox
      | some b => Link.box b.dirty
    let (d, e) := f ⟨s, link⟩
    match l, d.link with
    | some b, .box dirty => ((Node.mk d.css z (some b) cs).setDirty dirty, e)
    | l, _ => (.mk d.css z l cs, e)

/-- Apply an operation to the node a list of child indices leads to; no effect where it leads nowhere. -/
def Node.atPath (f : Node → Node) : List Nat → Node → Node
  | [], n => f n
  | i :: p, .mk s z l cs => .mk s z l (cs.modify i (Node.atPath f p))

/-- `node.children.insert(i, c)`. The list of children belongs to the caller's node
(`/repo/tests/utils.py:26-34`); the package reads it (`engine.py:71`, `228`, `235`, `674`, `dimensions.py:235-289`, `551`) and is not told when it changes.
The `parent` attribute is not stored: `engine.py:691` reads it, and there it is taken to be the parent in the tree. -/
def Node.addChild (i : Nat) (c : Node) : Node → Node
  | .mk s z l cs => .mk s z l (cs.take i ++ c :: cs.drop i)

/-- `del node.children[i]`; no effect where there is no such child. The list belongs to the caller's node (`/repo/tests/utils.py:26-34`). -/
def Node.dropChild (i : Nat) : Node → Node
  | .mk s z l cs => .mk s z l (cs.eraseIdx i)

/-- The public writes to the boxes, intrinsic sizes and styles of a document. -/
inductive NodeOp
  | move (a : Axis) (v : Num)
  | margin (t : Side) (v : MVal)
  | collapse (t : Side) (v : MVal)
  | dirty (v : Option Bool)
  | reset
  | size (x : SizeAttr)
  | setStyle (at_ : List Nat) (a : Attr) (v : Val)
  | delStyle (a : Attr)

/-- One operation on the node itself, with the exception it raises. -/
def Node.apply (E : Env) (o : NodeOp) (n : Node) : Node × Option Err :=
  match o with
  | .move a v => n.move E.fp a v
  | .margin t v => n.setMargin t v
  | .collapse t v => n.setCollapse t v
  | .dirty v => n.markLayout v
  | .reset => (n.reset E.fp, if n.layout.isNone then some .attribute else none)
  | .size x => n.setSize x
  | .setStyle at_ a v => n.onStyle fun d => d.setAttr E at_ a v
  | .delStyle a => n.onStyle fun d => (d.delAttr a, none)

end Colosseum
