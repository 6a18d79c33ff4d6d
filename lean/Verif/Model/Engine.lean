import Verif.Model.Dimensions

/-!
# `/repo/src/colosseum/engine.py`

`layoutBox` follows `layout_box` statement by statement.  Differences: the functions return the new
node instead of mutating it, so the state after an exception is not represented here (it is in `Verif/Model/Trace.lean`); recursion is bounded
by a `fuel` argument (`layout` passes the depth of the tree, which is enough: `layoutBox_fuel`).
-/

namespace Colosseum

/-- `value is AUTO` and the other identity tests on keywords: keywords are interned constants once
they went through `Choices.validate`. -/
def Val.isKw (v : Val) (s : String) : Bool := v.pyEq (kw s)

/-- `value is None`. -/
def Val.isNone : Val → Bool
  | .none => true
  | _ => false

/-- `is_block_level_element` (`/repo/src/colosseum/engine.py:24-30`). -/
def isBlockLevel (s : CSS) : Bool :=
  (s.get .display).isKw "block" || (s.get .display).isKw "list-item" || (s.get .display).isKw "table"

/-- `is_block_container` (`/repo/src/colosseum/engine.py:33-41`). -/
def isBlockContainer (s : CSS) (z : Intrinsic) : Bool :=
  ((s.get .display).isKw "block" || (s.get .display).isKw "list-item"
    || (s.get .display).isKw "inline-block" || (s.get .display).isKw "table-cell"
    || (s.get .display).isKw "table-caption") && !z.isReplaced

/-- `is_inline_block_element` (`/repo/src/colosseum/engine.py:53-54`). -/
def isInlineBlock (s : CSS) : Bool := (s.get .display).isKw "inline-block"

/-- `is_inline_element` (`/repo/src/colosseum/engine.py:57-58`). -/
def isInline (s : CSS) : Bool := (s.get .display).isKw "inline"

/-- `is_float_positioned_element` (`/repo/src/colosseum/engine.py:61-62`). -/
def isFloat (s : CSS) : Bool := !(s.get .float).isNone

/-- `is_absolute_positioned_element` (`/repo/src/colosseum/engine.py:65-66`). -/
def isAbsolute (s : CSS) : Bool := (s.get .position).isKw "absolute" || (s.get .position).isKw "fixed"

/-- `node.style.position is RELATIVE`. -/
def isRelative (s : CSS) : Bool := (s.get .position).isKw "relative"

/-- `establishes_inline_formatting_context` (`/repo/src/colosseum/engine.py:69-76`). -/
def establishesInline (s : CSS) (z : Intrinsic) (cs : List Node) : Bool :=
  if isBlockContainer s z then !(cs.any fun c => isBlockLevel c.style) else true

/-- `DummyFont(-1)` (`/repo/src/colosseum/engine.py:90-104,109`). -/
def dummyFont (fp : FP) : Font :=
  { em := .int (-1)
    ex := (Num.flt (fp.rnd (65 / 100))).mul fp (.int (-1))
    ch := (Num.flt (fp.rnd (71 / 100))).mul fp (.int (-1)) }

/-- The object a node's containing block's `layout` attribute is: the display, for the root
(`/repo/src/colosseum/engine.py:83-87,108`), or a box. -/
inductive CB
  | viewport (d : Display)
  | box (b : Box)

/-- `containing_block.layout.content_width`. -/
def CB.width : CB → Option Num
  | .viewport d => some d.contentWidth
  | .box b => b.contentWidth

/-- `containing_block.layout.content_height`. -/
def CB.height : CB → Option Num
  | .viewport d => some d.contentHeight
  | .box b => b.contentHeight

/-- An operation on a `None` operand: `TypeError`. -/
def need {α : Type} : Option α → Res α
  | some a => .ok a
  | none => .error .type

/-- A margin used as a number: `TypeError` when it is `AUTO`. -/
def MVal.toNum : MVal → Res Num
  | .num n => .ok n
  | .auto => .error .type

/-- `value.px(**context)`: `AttributeError` for a value that is not a length
(`/repo/src/colosseum/units.py:58`). -/
def Val.px (fp : FP) (v : Val) (c : PxCtx) : Res Num :=
  match v with
  | .unit u => u.px fp c
  | _ => .error .attribute

/-- `calculate_size` (`/repo/src/colosseum/engine.py:305-314`). -/
def calculateSize (fp : FP) (v : Val) (c : PxCtx) : Res MVal :=
  if v.isKw "auto" then .ok .auto
  else if v.isKw "thin" then .ok (.num c.display.thin)
  else if v.isKw "medium" then .ok (.num c.display.medium)
  else if v.isKw "thick" then .ok (.num c.display.thick)
  else if v.pyEq (.num (.fin (.int 0))) || v.isNone then .ok (.num (.int 0))
  else (v.px fp c).map .num

/-- `calculate_size` of a border or padding, which cannot be `AUTO` in a validated declaration; an
`AUTO` would raise `TypeError` at its first use, here it does at once. -/
def calculateEdge (fp : FP) (v : Val) (c : PxCtx) : Res Num := do
  let m ← calculateSize fp v c
  m.toNum

/-- `context["size"] - a - b - ...`. -/
def subAll (fp : FP) (a : Num) (xs : List Num) : Num := xs.foldl (fun s x => s.sub fp x) a

/-- `a + b + ...`. -/
def addAll (fp : FP) (a : Num) (xs : List Num) : Num := xs.foldl (fun s x => s.add fp x) a

/-- The copying of margins, borders and paddings to the box (`/repo/src/colosseum/engine.py:187-208`);
`hz`/`vt` are the horizontal and vertical contexts. -/
def copyEdges (fp : FP) (s : CSS) (hz vt : PxCtx) (b : Box) : Res Box := do
  let b := b.setMargin .top (← calculateSize fp (s.get (.margin .top)) vt)
  let b := b.setMargin .right (← calculateSize fp (s.get (.margin .right)) hz)
  let b := b.setMargin .bottom (← calculateSize fp (s.get (.margin .bottom)) vt)
  let b := b.setMargin .left (← calculateSize fp (s.get (.margin .left)) hz)
  let bt ← calculateEdge fp (s.get (.borderWidth .top)) hz
  let br ← calculateEdge fp (s.get (.borderWidth .right)) vt
  let bb ← calculateEdge fp (s.get (.borderWidth .bottom)) hz
  let bl ← calculateEdge fp (s.get (.borderWidth .left)) vt
  let pt ← calculateEdge fp (s.get (.padding .top)) hz
  let pr ← calculateEdge fp (s.get (.padding .right)) vt
  let pb ← calculateEdge fp (s.get (.padding .bottom)) hz
  let pl ← calculateEdge fp (s.get (.padding .left)) vt
  pure { b with border := ⟨bt, br, bb, bl⟩, padding := ⟨pt, pr, pb, pl⟩ }

/-- `if node.layout.margin_<side> is AUTO: node.layout.margin_<side> = 0`. -/
def autoMarginToZero (b : Box) (s : Side) : Box :=
  match b.margin.get s with
  | .auto => b.setMargin s (.num (.int 0))
  | .num _ => b

/-- `content_left = margin_left + border_left_width + padding_left`
(`/repo/src/colosseum/engine.py:403-407,544-548`). -/
def placeLeft (fp : FP) (b : Box) (cs : List Node) : Res (Box × List Node) := do
  let ml ← b.margin.left.toNum
  pure (setContent fp .h (addAll fp ml [b.border.left, b.padding.left]) b cs)

/-- `calculate_inline_non_replaced_width` (`/repo/src/colosseum/engine.py:354-363`). -/
def inlineWidth (z : Intrinsic) (b : Box) : Box :=
  { autoMarginToZero (autoMarginToZero b .left) .right with contentWidth := z.width }

/-- `context["size"]` minus everything around the content, left to right
(`/repo/src/colosseum/engine.py:384-392,485-493,516-524`). -/
def remainingWidth (fp : FP) (size : Num) (ml mr : Num) (b : Box) : Num :=
  subAll fp size [ml, b.border.left, b.padding.left, b.padding.right, b.border.right, mr]

/-- The content width chosen by `calculate_inline_replaced_width`
(`/repo/src/colosseum/engine.py:374-400`), after the auto margins were zeroed. -/
def inlineReplacedContentWidth (fp : FP) (s : CSS) (z : Intrinsic) (c : PxCtx) (b : Box) :
    Res Num :=
  if (s.get .width).isKw "auto" then
    if (s.get .height).isKw "auto" then
      match z.width, z.height, z.ratio with
      | some w, _, _ => .ok w
      | none, some h, some r => .ok (.int (h.mul fp r).round)
      | none, none, some _ => do
        let size ← need c.size
        let ml ← b.margin.left.toNum
        let mr ← b.margin.right.toNum
        pure (remainingWidth fp size ml mr b)
      | none, _, none => .ok (.int 300)
    else
      match z.width with
      | some w => .ok w
      | none => .ok (.int 300)
  else (s.get .width).px fp c

/-- `calculate_inline_replaced_width` (`/repo/src/colosseum/engine.py:366-407`). -/
def inlineReplacedWidth (fp : FP) (s : CSS) (z : Intrinsic) (c : PxCtx) (b : Box) (cs : List Node) :
    Res (Box × List Node) := do
  let b := autoMarginToZero (autoMarginToZero b .left) .right
  let w ← inlineReplacedContentWidth fp s z c b
  placeLeft fp { b with contentWidth := some w } cs

/-- The explicit width limited by `max_width` and `min_width`
(`/repo/src/colosseum/engine.py:413-421`). -/
def clampedWidth (fp : FP) (s : CSS) (c : PxCtx) : Res Num := do
  let w ← (s.get .width).px fp c
  let w ←
    if (s.get .maxWidth).isNone then pure w
    else do
      let m ← (s.get .maxWidth).px fp c
      pure (if m.pyLt w then m else w)
  if (s.get .minWidth).isKw "auto" then pure w
  else do
    let m ← (s.get .minWidth).px fp c
    pure (if w.pyLt m then m else w)

/-- `if margin is not AUTO: size += margin`. -/
def addMargin (fp : FP) (size : Num) : MVal → Num
  | .num m => size.add fp m
  | .auto => size

/-- S10.3.3 when `width` is not `AUTO`: zero the auto margins if the box overflows, then solve for the
remaining margin (`/repo/src/colosseum/engine.py:422-478,495-508,526-536`). -/
def solveMargins (fp : FP) (s : CSS) (size w : Num) (b : Box) : Box :=
  let total := addMargin fp (addMargin fp
    (addAll fp b.border.left [b.padding.left, w, b.padding.right, b.border.right])
    b.margin.left) b.margin.right
  let b := if size.pyLt total then autoMarginToZero (autoMarginToZero b .left) .right else b
  match b.margin.left, b.margin.right with
  | .num ml, .num mr =>
    if (s.get .direction).isKw "ltr" then
      b.setMargin .right (.num
        (subAll fp size [ml, b.border.left, b.padding.left, w, b.padding.right, b.border.right]))
    else
      b.setMargin .left (.num
        (subAll fp size [b.border.left, b.padding.left, w, b.padding.right, b.border.right, mr]))
  | .auto, .num mr =>
    b.setMargin .left (.num
      (subAll fp size [b.border.left, b.padding.left, w, b.padding.right, b.border.right, mr]))
  | .num ml, .auto =>
    b.setMargin .right (.num
      (subAll fp size [ml, b.border.left, b.padding.left, w, b.padding.right, b.border.right]))
  | .auto, .auto =>
    let avail := subAll fp size [b.border.left, b.padding.left, w, b.padding.right, b.border.right]
    (b.setMargin .left (.num (avail.floorDiv2 fp))).setMargin .right (.num (avail.floorDiv2 fp))

/-- `calculate_block_non_replaced_normal_flow_width` (`/repo/src/colosseum/engine.py:410-548`). -/
def blockWidth (fp : FP) (s : CSS) (c : PxCtx) (b : Box) (cs : List Node) :
    Res (Box × List Node) :=
  if (s.get .width).isKw "auto" then do
    let b := autoMarginToZero (autoMarginToZero b .left) .right
    let size ← need c.size
    let ml ← b.margin.left.toNum
    let mr ← b.margin.right.toNum
    placeLeft fp { b with contentWidth := some (remainingWidth fp size ml mr b) } cs
  else do
    let w ← clampedWidth fp s c
    let size ← need c.size
    let b := solveMargins fp s size w b
    placeLeft fp { b with contentWidth := some w } cs

/-- `calculate_width_and_margins` (`/repo/src/colosseum/engine.py:320-351`) with the unimplemented
sections (551-583). -/
def widthAndMargins (fp : FP) (s : CSS) (z : Intrinsic) (c : PxCtx) (b : Box) (cs : List Node) :
    Res (Box × List Node) :=
  if isFloat s then .error .notImplemented
  else if isAbsolute s then .error .notImplemented
  else if isInline s then
    if z.isReplaced then inlineReplacedWidth fp s z c b cs
    else .ok (inlineWidth z b, cs)
  else if isBlockLevel s then
    if z.isReplaced then .error .notImplemented
    else blockWidth fp s c b cs
  else if isInlineBlock s then .error .notImplemented
  else .error .generic

/-- `content_top += margin_top + border_top_width + padding_top`
(`/repo/src/colosseum/engine.py:628-630,657-659`). -/
def placeTopInline (fp : FP) (b : Box) (cs : List Node) : Res (Box × List Node) := do
  let mt ← b.margin.top.toNum
  pure (setContent fp .v (b.v.content.add fp (addAll fp mt [b.border.top, b.padding.top])) b cs)

/-- `calculate_inline_non_replaced_height` (`/repo/src/colosseum/engine.py:625-630`). -/
def inlineHeight (fp : FP) (z : Intrinsic) (b : Box) (cs : List Node) : Res (Box × List Node) :=
  placeTopInline fp { b with contentHeight := z.height } cs

/-- Truth value of `None` or a number. -/
def truthy : Option Num → Bool
  | some n => n.val != 0
  | none => false

/-- The content height chosen by `calculate_inline_replaced_height`
(`/repo/src/colosseum/engine.py:641-654`). -/
def inlineReplacedContentHeight (fp : FP) (s : CSS) (z : Intrinsic) (c : PxCtx) (b : Box) :
    Res Num :=
  if (s.get .height).isKw "auto" then
    match (s.get .width).isKw "auto", z.height with
    | true, some h => .ok h
    | _, _ =>
      if truthy z.ratio then do
        let w ← need b.contentWidth
        let r ← need z.ratio
        pure (w.mul fp r)
      else if truthy z.height then need z.height
      else do
        let w ← need b.contentWidth
        pure ((w.floorDiv2 fp).pyMin (.int 150))
  else (s.get .height).px fp c

/-- `calculate_inline_replaced_height` (`/repo/src/colosseum/engine.py:633-659`). -/
def inlineReplacedHeight (fp : FP) (s : CSS) (z : Intrinsic) (c : PxCtx) (b : Box) (cs : List Node) :
    Res (Box × List Node) := do
  let b := autoMarginToZero (autoMarginToZero b .top) .bottom
  let h ← inlineReplacedContentHeight fp s z c b
  placeTopInline fp { b with contentHeight := some h } cs

/-- The explicit height (`/repo/src/colosseum/engine.py:690-700`): percentages refer to the parent's
`height` when that is not `AUTO`; limited by `max_height`. `parent` is `node.parent.style`. -/
def explicitHeight (fp : FP) (s : CSS) (parent : Option CSS) (c : PxCtx) : Res Num := do
  let h ←
    match parent with
    | some p =>
      if (p.get .height).isKw "auto" then (s.get .height).px fp c
      else do
        let ph ← (p.get .height).px fp c
        (s.get .height).px fp { c with size := some ph }
    | none => (s.get .height).px fp c
  if (s.get .maxHeight).isNone then pure h
  else do
    let m ← (s.get .maxHeight).px fp c
    pure (if m.pyLt h then m else h)

/-- The content height chosen by `calculate_block_non_replaced_normal_flow_height` and the box with the
bottom margin of the last child merged in (`/repo/src/colosseum/engine.py:670-700`). -/
def blockContentHeight (fp : FP) (s : CSS) (parent : Option CSS) (c : PxCtx) (b : Box) (cs : List Node) :
    Res (Num × Box) :=
  if (s.get .height).isKw "auto" then
    match cs.getLast? with
    | some last =>
      match last.layout with
      | none => .error .attribute
      | some lb => do
        let h ← need (lb.borderBoxBottom fp)
        pure (h, b.setCollapse .bottom (.num (.int lb.collapse.bottom)))
    | none =>
      if (s.get .minHeight).isKw "auto" then pure (Num.int 0, b)
      else do
        let h ← (s.get .minHeight).px fp c
        pure (h, b)
  else do
    let h ← explicitHeight fp s parent c
    pure (h, b)

/-- `calculate_block_non_replaced_normal_flow_height` (`/repo/src/colosseum/engine.py:662-703`). -/
def blockHeight (fp : FP) (s : CSS) (parent : Option CSS) (c : PxCtx) (b : Box) (cs : List Node) :
    Res (Box × List Node) := do
  let (h, b) ← blockContentHeight fp s parent c (autoMarginToZero (autoMarginToZero b .top) .bottom) cs
  pure (setContent fp .v (b.v.content.add fp (b.border.top.add fp b.padding.top))
    { b with contentHeight := some h } cs)

/-- `calculate_height_and_margins` (`/repo/src/colosseum/engine.py:589-622`) with the unimplemented
sections (706-738). -/
def heightAndMargins (fp : FP) (s : CSS) (z : Intrinsic) (parent : Option CSS) (c : PxCtx) (b : Box)
    (cs : List Node) : Res (Box × List Node) :=
  if isFloat s then .error .notImplemented
  else if isAbsolute s then .error .notImplemented
  else if isInline s then
    if z.isReplaced then inlineReplacedHeight fp s z c b cs
    else inlineHeight fp z b cs
  else if isBlockLevel s then
    if z.isReplaced then .error .notImplemented
    else blockHeight fp s parent c b cs
  else if isInlineBlock s then .error .notImplemented
  else .error .generic

/-- `-containing_block.layout.content_right`: the display has no such attribute. -/
def CB.contentEnd (fp : FP) (cb : CB) (a : Axis) : Res Num :=
  match cb with
  | .viewport _ => .error .attribute
  | .box b =>
    match a with
    | .h => need (b.contentRight fp)
    | .v => need (b.contentBottom fp)

/-- `containing_block.layout.content_left` / `content_top`: the display has no such attribute. -/
def CB.contentStart (cb : CB) (a : Axis) : Res Num :=
  match cb with
  | .viewport _ => .error .attribute
  | .box b => .ok (b.pos a).content

/-- The offset of a relatively positioned node on one axis: `start` is `left`/`top`, `stop` is
`right`/`bottom` (`/repo/src/colosseum/engine.py:267-280,285-298`). -/
def relativeOffset (fp : FP) (cb : CB) (a : Axis) (start stop : Val) (c : PxCtx) : Res Num :=
  if start.isKw "auto" && stop.isKw "auto" then .ok (.int 0)
  else if start.isKw "auto" then
    if stop.isKw "inherit" then (cb.contentEnd fp a).map Num.neg
    else (stop.px fp c).map Num.neg
  else if stop.isKw "auto" then
    if start.isKw "inherit" then cb.contentStart a
    else start.px fp c
  else start.px fp c

/-- Relative positioning (`/repo/src/colosseum/engine.py:264-300`). -/
def applyRelative (fp : FP) (s : CSS) (cb : CB) (hz vt : PxCtx) (b : Box) (cs : List Node) :
    Res (Box × List Node) :=
  if isRelative s then do
    let dx ← relativeOffset fp cb .h (s.get .left) (s.get .right) hz
    let (b, cs) := setContent fp .h (b.h.content.add fp dx) b cs
    let dy ← relativeOffset fp cb .v (s.get .top) (s.get .bottom) vt
    pure (setContent fp .v (b.v.content.add fp dy) b cs)
  else pure (b, cs)

/-- An element of the list `anonymize` builds: a node, or an `AnonymousBlockBox` holding nodes
(`/repo/src/colosseum/engine.py:132-137`). -/
inductive Container
  | anon (nodes : List Node)
  | node (n : Node)

/-- `anonymize` (`/repo/src/colosseum/engine.py:148-162`); `pending` is `anon_block`. A pending
anonymous box at the end is dropped. -/
def anonymizeLoop : Option (List Node) → List Node → List Container
  | _, [] => []
  | pending, n :: ns =>
    if isBlockLevel n.style then
      match pending with
      | some xs => .anon xs :: .node n :: anonymizeLoop none ns
      | none => .node n :: anonymizeLoop none ns
    else
      match pending with
      | some xs => anonymizeLoop (some (xs ++ [n])) ns
      | none => anonymizeLoop (some [n]) ns

/-- `anonymize` (`/repo/src/colosseum/engine.py:148-162`). -/
def anonymize (ns : List Node) : List Container := anonymizeLoop none ns

/-- The loop of an inline formatting context (`/repo/src/colosseum/engine.py:228-229`). -/
def inlineLoop (lay : Node → Res Node) : List Node → Res (List Node)
  | [] => .ok []
  | c :: cs =>
    match lay c with
    | .error e => .error e
    | .ok c' =>
      match inlineLoop lay cs with
      | .error e => .error e
      | .ok cs' => .ok (c' :: cs')

/-- How the margins of a child collapse with what is above it (`/repo/src/colosseum/engine.py:247-250`):
the parent's box and the new offset; `cb` is the child's box. -/
def collapseAbove (fp : FP) (b : Box) (offset : Num) (bottomMargin : Option Int) (cb : Box) : Res (Box × Num) :=
  match bottomMargin with
  | none => .ok (b.setCollapse .top (.num (.int cb.collapse.top)), offset)
  | some m => do
    let mt ← cb.margin.top.toNum
    pure (b, offset.add fp ((Num.int m).pyMax mt))

/-- One step of the block formatting context after the child was laid out
(`/repo/src/colosseum/engine.py:247-259`): the parent's box, the child, the new offset and the new
bottom margin. -/
def stackChild (fp : FP) (b : Box) (offset : Num) (bottomMargin : Option Int) (c : Node) :
    Res (Box × Node × Num × Option Int) :=
  match c with
  | .mk s z (some cb) cs => do
    let (b, offset) ← collapseAbove fp b offset bottomMargin cb
    let (cb', cs') := setContent fp .v (cb.v.content.add fp offset) cb cs
    let h ← need (cb'.borderBoxHeight fp)
    pure (b, .mk s z (some cb') cs', offset.add fp h, some cb'.collapse.bottom)
  | .mk _ _ none _ => .error .attribute

/-- The loop of a block formatting context (`/repo/src/colosseum/engine.py:236-259`): an
`AnonymousBlockBox` has no `style`, so `layout_box` raises `AttributeError` on it. Returns the box of
the parent and the laid out children. -/
def blockLoop (fp : FP) (lay : Box → Node → Res Node) :
    Box → Num → Option Int → List Container → Res (Box × List Node)
  | b, _, _, [] => .ok (b, [])
  | _, _, _, .anon _ :: _ => .error .attribute
  | b, offset, bm, .node c :: rest =>
    match lay b c with
    | .error e => .error e
    | .ok c =>
      match stackChild fp b offset bm c with
      | .error e => .error e
      | .ok (b, c, offset, bm) =>
        match blockLoop fp lay b offset bm rest with
        | .error e => .error e
        | .ok (b, cs) => .ok (b, c :: cs)

/-- Lay out the children (`/repo/src/colosseum/engine.py:226-259`). The block formatting context only
visits the leading block-level children (a later one would be preceded by an anonymous box); the
children it does not visit are unchanged. -/
def layoutChildren (fp : FP) (lay : Box → Node → Res Node) (s : CSS) (z : Intrinsic) (b : Box)
    (cs : List Node) : Res (Box × List Node) :=
  if establishesInline s z cs then
    match inlineLoop (lay b) cs with
    | .error e => .error e
    | .ok cs' => .ok (b, cs')
  else
    match blockLoop fp lay b (.int 0) none (anonymize cs) with
    | .error e => .error e
    | .ok (b', laid) => .ok (b', laid ++ cs.drop laid.length)

/-- The first of the two height calculations of a relatively positioned node
(`/repo/src/colosseum/engine.py:215-217`). -/
def relativeHeight (fp : FP) (s : CSS) (z : Intrinsic) (parent : Option CSS) (c : PxCtx) (b : Box)
    (cs : List Node) : Res (Box × List Node) :=
  if isRelative s then heightAndMargins fp s z parent c b cs else .ok (b, cs)

/-- The part of `layout_box` after the node has a box (`/repo/src/colosseum/engine.py:175-300`); `lay`
lays out a child given the box of this node. -/
def layoutBody (fp : FP) (d : Display) (lay : Box → Node → Res Node) (parent : Option CSS) (cb : CB)
    (s : CSS) (z : Intrinsic) (b : Box) (cs : List Node) : Res (Box × List Node) := do
  let hz : PxCtx := ⟨d, dummyFont fp, cb.width⟩
  let vt : PxCtx := ⟨d, dummyFont fp, cb.height⟩
  let b ← copyEdges fp s hz vt b
  let (b, cs) ← widthAndMargins fp s z hz b cs
  let (b, cs) ← relativeHeight fp s z parent vt b cs
  if isAbsolute s then .error .notImplemented
  else if isFloat s then .error .notImplemented
  else do
    let (b, cs) ← layoutChildren fp lay s z b cs
    let (b, cs) ← heightAndMargins fp s z parent vt b cs
    applyRelative fp s cb hz vt b cs

/-- `layout_box` (`/repo/src/colosseum/engine.py:165-302`). `parent` is `node.parent.style`. -/
def layoutBox (fp : FP) (d : Display) : Nat → Option CSS → CB → Node → Res Node
  | 0, _, _, _ => .error .recursion
  | fuel + 1, parent, cb, .mk s z l cs =>
    if (s.get .display).isNone then .ok (.mk s z none cs)
    else
      let (b, cs) := match l with
        | some b => (b, cs)
        | none => resetOne fp cs
      match layoutBody fp d (fun b n => layoutBox fp d fuel (some s) (.box b) n) parent cb s z b cs with
      | .error e => .error e
      | .ok (b, cs) => .ok (.mk s z (some b) cs)

/-- The adjustments of `layout` to the root box (`/repo/src/colosseum/engine.py:116-129`). -/
def finishRoot (fp : FP) (d : Display) (html5 : Bool) : Node → Res Node
  | .mk _ _ none _ => .error .attribute
  | .mk s z (some b) cs =>
    let (b, cs) := setContent fp .v (b.v.content.add fp (.int b.collapse.top)) b cs
    let b := if html5 then
        { b with contentHeight := some (subAll fp d.contentHeight
            [.int b.collapse.top, .int b.collapse.bottom]) }
      else b
    .ok (.mk s z (some b) cs)

/-- `layout` (`/repo/src/colosseum/engine.py:107-129`). `parent` is `node.parent.style`, `none` for a
root; `html5` is `standard is HTML5`. `node.layout.reset()` raises `AttributeError` when the node has no
box. -/
def layout (fp : FP) (d : Display) (html5 : Bool) (parent : Option CSS) (n : Node) : Res Node :=
  match n.layout with
  | none => .error .attribute
  | some _ =>
    match layoutBox fp d n.depth parent (.viewport d) (n.reset fp) with
    | .error e => .error e
    | .ok n => finishRoot fp d html5 n

end Colosseum
