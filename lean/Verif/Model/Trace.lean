import Verif.Model.Engine

/-!
# `/repo/src/colosseum/engine.py`, with the state after an exception

The same functions as in `Verif/Model/Engine.lean`, one assignment at a time, on the box and the children of a node. A function that raises
leaves the state it has reached. `runLayout_out` shows that forgetting this state gives the functions of `Verif/Model/Engine.lean`.
-/

namespace Colosseum

/-- What the code running on a node sees of it: its box and its children. -/
abbrev Kit := Box × List Node

/-- A piece of code running on a node: the state it leaves and the exception it raises. -/
abbrev Code := Kit → Kit × Option Err

namespace Code

/-- Assignments to the box. -/
def write (f : Box → Box) : Code := fun k => ((f k.1, k.2), none)

/-- `node.layout.content_left = v` / `content_top = v` (`/repo/src/colosseum/dimensions.py:273-279,285-291`). -/
def moveTo (fp : FP) (a : Axis) (v : Box → Num) : Code := fun k => (setContent fp a (v k.1) k.1 k.2, none)

/-- `raise`. -/
def fail (e : Err) : Code := fun k => (k, some e)

/-- Nothing. -/
def skip : Code := fun k => (k, none)

/-- Two pieces of code, one after the other. -/
def seq (s t : Code) : Code := fun k =>
  match s k with
  | (k', some e) => (k', some e)
  | (k', none) => t k'

/-- The value of an expression, which may raise, used by what follows. -/
def eval {α : Type} (x : Kit → Res α) (t : α → Code) : Code := fun k =>
  match x k with
  | .error e => (k, some e)
  | .ok v => t v k

end Code

/-- Sequence of statements. -/
infixr:60 " ⨟ " => Code.seq

/-- `node.layout.margin_<side> = calculate_size(value, context)` (`/repo/src/colosseum/engine.py:187-190`). -/
def runMargin (fp : FP) (v : Val) (c : PxCtx) (t : Side) : Code :=
  .eval (fun _ => calculateSize fp v c) fun x => .write fun b => b.setMargin t x

/-- `node.layout.border_<side>_width = calculate_size(value, context)` (`/repo/src/colosseum/engine.py:192-203`); as in `calculateEdge`, `AUTO`
raises here and not at its first use. -/
def runBorder (fp : FP) (v : Val) (c : PxCtx) (t : Side) : Code :=
  .eval (fun _ => calculateEdge fp v c) fun x => .write fun b => { b with border := b.border.set t x }

/-- `node.layout.padding_<side> = calculate_size(value, context)` (`/repo/src/colosseum/engine.py:205-208`). -/
def runPadding (fp : FP) (v : Val) (c : PxCtx) (t : Side) : Code :=
  .eval (fun _ => calculateEdge fp v c) fun x => .write fun b => { b with padding := b.padding.set t x }

/-- The copying of margins, borders and paddings to the box (`/repo/src/colosseum/engine.py:187-208`). -/
def runEdges (fp : FP) (s : CSS) (hz vt : PxCtx) : Code :=
  runMargin fp (s.get (.margin .top)) vt .top ⨟ runMargin fp (s.get (.margin .right)) hz .right ⨟
  runMargin fp (s.get (.margin .bottom)) vt .bottom ⨟ runMargin fp (s.get (.margin .left)) hz .left ⨟
  runBorder fp (s.get (.borderWidth .top)) hz .top ⨟ runBorder fp (s.get (.borderWidth .right)) vt .right ⨟
  runBorder fp (s.get (.borderWidth .bottom)) hz .bottom ⨟ runBorder fp (s.get (.borderWidth .left)) vt .left ⨟
  runPadding fp (s.get (.padding .top)) hz .top ⨟ runPadding fp (s.get (.padding .right)) vt .right ⨟
  runPadding fp (s.get (.padding .bottom)) hz .bottom ⨟ runPadding fp (s.get (.padding .left)) vt .left

/-- `if node.layout.margin_<side> is AUTO: node.layout.margin_<side> = 0`, for two sides. -/
def runZero (t u : Side) : Code := .write (fun b => autoMarginToZero b t) ⨟ .write fun b => autoMarginToZero b u

/-- `content_left = margin_left + border_left_width + padding_left` (`/repo/src/colosseum/engine.py:403-407,544-548`). -/
def runPlaceLeft (fp : FP) : Code :=
  .eval (fun k => k.1.margin.left.toNum) fun ml => .moveTo fp .h fun b => addAll fp ml [b.border.left, b.padding.left]

/-- `calculate_inline_non_replaced_width` (`/repo/src/colosseum/engine.py:354-363`). -/
def runInlineWidth (z : Intrinsic) : Code := runZero .left .right ⨟ .write fun b => { b with contentWidth := z.width }

/-- `calculate_inline_replaced_width` (`/repo/src/colosseum/engine.py:366-407`). -/
def runInlineReplacedWidth (fp : FP) (s : CSS) (z : Intrinsic) (c : PxCtx) : Code :=
  runZero .left .right ⨟
  .eval (fun k => inlineReplacedContentWidth fp s z c k.1) fun w =>
    .write (fun b => { b with contentWidth := some w }) ⨟ runPlaceLeft fp

/-- `context["size"] - margin_left - border_left_width - ...` (`/repo/src/colosseum/engine.py:516-524`). -/
def autoWidth (fp : FP) (c : PxCtx) (b : Box) : Res Num := do
  let size ← need c.size
  let ml ← b.margin.left.toNum
  let mr ← b.margin.right.toNum
  pure (remainingWidth fp size ml mr b)

/-- `calculate_block_non_replaced_normal_flow_width` (`/repo/src/colosseum/engine.py:410-548`). Between the first assignment to a margin and
the last nothing can raise, so they are one step. -/
def runBlockWidth (fp : FP) (s : CSS) (c : PxCtx) : Code :=
  if (s.get .width).isKw "auto" then
    runZero .left .right ⨟
    .eval (fun k => autoWidth fp c k.1) fun w =>
      .write (fun b => { b with contentWidth := some w }) ⨟ runPlaceLeft fp
  else
    .eval (fun _ => clampedWidth fp s c) fun w =>
    .eval (fun _ => need c.size) fun size =>
      .write (fun b => solveMargins fp s size w b) ⨟ .write (fun b => { b with contentWidth := some w }) ⨟ runPlaceLeft fp

/-- `calculate_width_and_margins` (`/repo/src/colosseum/engine.py:320-351,551-583`). -/
def runWidth (fp : FP) (s : CSS) (z : Intrinsic) (c : PxCtx) : Code :=
  if isFloat s then .fail .notImplemented
  else if isAbsolute s then .fail .notImplemented
  else if isInline s then
    if z.isReplaced then runInlineReplacedWidth fp s z c
    else runInlineWidth z
  else if isBlockLevel s then
    if z.isReplaced then .fail .notImplemented
    else runBlockWidth fp s c
  else if isInlineBlock s then .fail .notImplemented
  else .fail .generic

/-- `content_top += margin_top + border_top_width + padding_top` (`/repo/src/colosseum/engine.py:628-630,657-659`). -/
def runPlaceTop (fp : FP) : Code :=
  .eval (fun k => k.1.margin.top.toNum) fun mt =>
    .moveTo fp .v fun b => b.v.content.add fp (addAll fp mt [b.border.top, b.padding.top])

/-- `calculate_inline_non_replaced_height` (`/repo/src/colosseum/engine.py:625-630`). -/
def runInlineHeight (fp : FP) (z : Intrinsic) : Code :=
  .write (fun b => { b with contentHeight := z.height }) ⨟ runPlaceTop fp

/-- `calculate_inline_replaced_height` (`/repo/src/colosseum/engine.py:633-659`). -/
def runInlineReplacedHeight (fp : FP) (s : CSS) (z : Intrinsic) (c : PxCtx) : Code :=
  runZero .top .bottom ⨟
  .eval (fun k => inlineReplacedContentHeight fp s z c k.1) fun h =>
    .write (fun b => { b with contentHeight := some h }) ⨟ runPlaceTop fp

/-- `calculate_block_non_replaced_normal_flow_height` (`/repo/src/colosseum/engine.py:662-703`). Nothing can raise between the assignment to
`collapse_bottom` and the end. -/
def runBlockHeight (fp : FP) (s : CSS) (parent : Option CSS) (c : PxCtx) : Code :=
  runZero .top .bottom ⨟
  .eval (fun k => blockContentHeight fp s parent c k.1 k.2) fun hb =>
    .write (fun _ => hb.2) ⨟ .write (fun b => { b with contentHeight := some hb.1 }) ⨟
    .moveTo fp .v fun b => b.v.content.add fp (b.border.top.add fp b.padding.top)

/-- `calculate_height_and_margins` (`/repo/src/colosseum/engine.py:589-622,706-738`). -/
def runHeight (fp : FP) (s : CSS) (z : Intrinsic) (parent : Option CSS) (c : PxCtx) : Code :=
  if isFloat s then .fail .notImplemented
  else if isAbsolute s then .fail .notImplemented
  else if isInline s then
    if z.isReplaced then runInlineReplacedHeight fp s z c
    else runInlineHeight fp z
  else if isBlockLevel s then
    if z.isReplaced then .fail .notImplemented
    else runBlockHeight fp s parent c
  else if isInlineBlock s then .fail .notImplemented
  else .fail .generic

/-- Relative positioning (`/repo/src/colosseum/engine.py:264-300`). -/
def runRelative (fp : FP) (s : CSS) (cb : CB) (hz vt : PxCtx) : Code :=
  if isRelative s then
    .eval (fun _ => relativeOffset fp cb .h (s.get .left) (s.get .right) hz) fun dx =>
      .moveTo fp .h (fun b => b.h.content.add fp dx) ⨟
      .eval (fun _ => relativeOffset fp cb .v (s.get .top) (s.get .bottom) vt) fun dy =>
        .moveTo fp .v fun b => b.v.content.add fp dy
  else .skip

/-- The loop of an inline formatting context (`/repo/src/colosseum/engine.py:228-229`): all children, and the exception. -/
def runInlineLoop (lay : Node → Node × Option Err) : List Node → List Node × Option Err
  | [] => ([], none)
  | c :: cs =>
    match lay c with
    | (c, some e) => (c :: cs, some e)
    | (c, none) =>
      let (cs, e) := runInlineLoop lay cs
      (c :: cs, e)

/-- What happens in a block formatting context after a child was laid out (`/repo/src/colosseum/engine.py:247-259`): the parent's box, the
child, and the new offset and bottom margin or the exception. -/
def runStack (fp : FP) (b : Box) (offset : Num) (bottomMargin : Option Int) (c : Node) : Box × Node × Res (Num × Option Int) :=
  match c with
  | .mk s z (some cb) cs =>
    match collapseAbove fp b offset bottomMargin cb with
    | .error e => (b, .mk s z (some cb) cs, .error e)
    | .ok (b, offset) =>
      let (cb, cs) := setContent fp .v (cb.v.content.add fp offset) cb cs
      match cb.borderBoxHeight fp with
      | none => (b, .mk s z (some cb) cs, .error .type)
      | some h => (b, .mk s z (some cb) cs, .ok (offset.add fp h, some cb.collapse.bottom))
  | .mk s z none cs => (b, .mk s z none cs, .error .attribute)

/-- The loop of a block formatting context (`/repo/src/colosseum/engine.py:236-259`): the box of the parent, the children that were come to, and the
exception. -/
def runBlockLoop (fp : FP) (lay : Box → Node → Node × Option Err) :
    Box → Num → Option Int → List Container → Box × List Node × Option Err
  | b, _, _, [] => (b, [], none)
  | b, _, _, .anon _ :: _ => (b, [], some .attribute)
  | b, offset, bm, .node c :: rest =>
    match lay b c with
    | (c, some e) => (b, [c], some e)
    | (c, none) =>
      match runStack fp b offset bm c with
      | (b, c, .error e) => (b, [c], some e)
      | (b, c, .ok (offset, bm)) =>
        let (b, cs, e) := runBlockLoop fp lay b offset bm rest
        (b, c :: cs, e)

/-- Lay out the children (`/repo/src/colosseum/engine.py:226-259`); those that were not come to are unchanged. -/
def runChildren (fp : FP) (lay : Box → Node → Node × Option Err) (s : CSS) (z : Intrinsic) : Code := fun k =>
  if establishesInline s z k.2 then
    let (cs, e) := runInlineLoop (lay k.1) k.2
    ((k.1, cs), e)
  else
    let (b, laid, e) := runBlockLoop fp lay k.1 (.int 0) none (anonymize k.2)
    ((b, laid ++ k.2.drop laid.length), e)

/-- The part of `layout_box` after the node has a box (`/repo/src/colosseum/engine.py:175-300`). -/
def runBody (fp : FP) (d : Display) (lay : Box → Node → Node × Option Err) (parent : Option CSS) (cb : CB) (s : CSS) (z : Intrinsic) : Code :=
  runEdges fp s ⟨d, dummyFont fp, cb.width⟩ ⟨d, dummyFont fp, cb.height⟩ ⨟
  runWidth fp s z ⟨d, dummyFont fp, cb.width⟩ ⨟
  (if isRelative s then runHeight fp s z parent ⟨d, dummyFont fp, cb.height⟩ else .skip) ⨟
  if isAbsolute s then .fail .notImplemented
  else if isFloat s then .fail .notImplemented
  else
    runChildren fp lay s z ⨟
    runHeight fp s z parent ⟨d, dummyFont fp, cb.height⟩ ⨟
    runRelative fp s cb ⟨d, dummyFont fp, cb.width⟩ ⟨d, dummyFont fp, cb.height⟩

/-- `layout_box` (`/repo/src/colosseum/engine.py:165-302`): the node and the exception. -/
def runBox (fp : FP) (d : Display) : Nat → Option CSS → CB → Node → Node × Option Err
  | 0, _, _, n => (n, some .recursion)
  | fuel + 1, parent, cb, .mk s z l cs =>
    if (s.get .display).isNone then (.mk s z none cs, none)
    else
      let k := match l with
        | some b => (b, cs)
        | none => resetOne fp cs
      let (k, e) := runBody fp d (fun b n => runBox fp d fuel (some s) (.box b) n) parent cb s z k
      (.mk s z (some k.1) k.2, e)

/-- The adjustments of `layout` to the root box (`/repo/src/colosseum/engine.py:116-129`). -/
def runFinish (fp : FP) (d : Display) (html5 : Bool) : Node → Node × Option Err
  | .mk s z none cs => (.mk s z none cs, some .attribute)
  | .mk s z (some b) cs =>
    let (b, cs) := setContent fp .v (b.v.content.add fp (.int b.collapse.top)) b cs
    let b := if html5 then
        { b with contentHeight := some (subAll fp d.contentHeight
            [.int b.collapse.top, .int b.collapse.bottom]) }
      else b
    (.mk s z (some b) cs, none)

/-- `layout` (`/repo/src/colosseum/engine.py:107-129`): the document it leaves, whether it returns or raises, and the exception. -/
def runLayout (fp : FP) (d : Display) (html5 : Bool) (parent : Option CSS) (n : Node) : Node × Option Err :=
  match n.layout with
  | none => (n, some .attribute)
  | some _ =>
    match runBox fp d n.depth parent (.viewport d) (n.reset fp) with
    | (n, some e) => (n, some e)
    | (n, none) => runFinish fp d html5 n

end Colosseum
