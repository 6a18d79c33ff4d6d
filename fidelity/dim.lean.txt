import Verif.Model.Dimensions
import Verif.Py.Float64
open Colosseum
def toI (s : String) : Int := if s.startsWith "-" then -(((s.drop 1).toString).toNat! : Int) else (s.toNat! : Int)
def num (s : String) : Num := match s.splitOn "/" with
  | [a, "1"] => .int (toI a)
  | [a, b] => .flt ((toI a : Rat) / (toI b : Rat))
  | _ => .int 0
def opt (s : String) : Option Num := if s == "-" then none else some (num s)
def flag (s : String) : Option Bool := if s == "-" then none else some (s == "T")
def path (s : String) : List Nat := if s == "/" then [] else (((s.drop 1).toString).splitOn ".").map String.toNat!
def side? : String → Option Side
  | "top" => some .top | "right" => some .right | "bottom" => some .bottom | "left" => some .left | _ => none
def onBox (f : Box → Box) : Node → Node
  | .mk s z l cs => .mk s z (l.map f) cs
def sizeOp (a v : String) : Option SizeAttr :=
  match a with
  | "intrinsic.width" => some (.width (opt v)) | "intrinsic.height" => some (.height (opt v)) | "intrinsic.ratio" => some (.ratio (opt v))
  | "intrinsic.exact_width" => some (.exactWidth (v == "T")) | "intrinsic.exact_height" => some (.exactHeight (v == "T"))
  | "intrinsic.is_replaced" => some (.isReplaced (v == "T")) | _ => none
def set (a v : String) (n : Node) : Node :=
  match a.splitOn "_" with
  | ["content", "top"] => (n.move .b64 .v (num v)).1
  | ["content", "left"] => (n.move .b64 .h (num v)).1
  | ["content", "width"] => onBox (fun b => { b with contentWidth := opt v }) n
  | ["content", "height"] => onBox (fun b => { b with contentHeight := opt v }) n
  | ["", "origin", "top"] => n.setOrigin .b64 .v (num v)
  | ["", "origin", "left"] => n.setOrigin .b64 .h (num v)
  | ["dirty"] => (n.markLayout (flag v)).1
  | ["margin", t] => match side? t with | some t => (n.setMargin t (.num (num v))).1 | none => n
  | ["collapse", t] => match side? t with | some t => (n.setCollapse t (.num (num v))).1 | none => n
  | ["padding", t] => match side? t with | some t => onBox (fun b => { b with padding := b.padding.set t (num v) }) n | none => n
  | ["border", t, "width"] => match side? t with | some t => onBox (fun b => { b with border := b.border.set t (num v) }) n | none => n
  | _ => match sizeOp a v with | some x => (n.setSize x).1 | none => n
def at? : List Nat → Node → Option Node
  | [], n => some n
  | i :: p, n => n.children[i]?.bind (at? p)
def eqO (x : Option Num) (v : String) : Bool := optNumEq x (opt v)
def isB (b : Box) (a v : String) : Bool :=
  let f := FP.b64
  match a with
  | "dirty" => b.dirty = flag v
  | "_origin_top" => eqO (some b.v.origin) v | "_origin_left" => eqO (some b.h.origin) v
  | "content_top" => eqO (some b.v.content) v | "content_left" => eqO (some b.h.content) v
  | "content_right" => eqO (b.contentRight f) v | "content_bottom" => eqO (b.contentBottom f) v
  | "content_width" => eqO b.contentWidth v | "content_height" => eqO b.contentHeight v
  | "absolute_content_top" => eqO (some (b.absContent f .v)) v | "absolute_content_left" => eqO (some (b.absContent f .h)) v
  | "absolute_content_right" => eqO (b.absContentRight f) v | "absolute_content_bottom" => eqO (b.absContentBottom f) v
  | "padding_box_top" => eqO (some (b.paddingBoxTop f)) v | "padding_box_left" => eqO (some (b.paddingBoxLeft f)) v
  | "padding_box_right" => eqO (b.paddingBoxRight f) v | "padding_box_bottom" => eqO (b.paddingBoxBottom f) v
  | "padding_box_width" => eqO (b.paddingBoxWidth f) v | "padding_box_height" => eqO (b.paddingBoxHeight f) v
  | "absolute_padding_box_top" => eqO (some (b.absPaddingBoxTop f)) v | "absolute_padding_box_left" => eqO (some (b.absPaddingBoxLeft f)) v
  | "absolute_padding_box_right" => eqO (b.absPaddingBoxRight f) v | "absolute_padding_box_bottom" => eqO (b.absPaddingBoxBottom f) v
  | "border_box_top" => eqO (some (b.borderBoxTop f)) v | "border_box_left" => eqO (some (b.borderBoxLeft f)) v
  | "border_box_right" => eqO (b.borderBoxRight f) v | "border_box_bottom" => eqO (b.borderBoxBottom f) v
  | "border_box_width" => eqO (b.borderBoxWidth f) v | "border_box_height" => eqO (b.borderBoxHeight f) v
  | "absolute_border_box_top" => eqO (some (b.absBorderBoxTop f)) v | "absolute_border_box_left" => eqO (some (b.absBorderBoxLeft f)) v
  | "absolute_border_box_right" => eqO (b.absBorderBoxRight f) v | "absolute_border_box_bottom" => eqO (b.absBorderBoxBottom f) v
  | _ => match a.splitOn "_" with
    | ["collapse", t] => (match side? t with | some t => eqO (some (.int (b.collapse.get t))) v | none => false)
    | ["margin", t] => (match side? t with
      | some t => (match b.margin.get t with | .num x => eqO (some x) v | _ => false)
      | none => false)
    | _ => false
def isN (n : Node) (a v : String) : Bool :=
  let z := n.intrinsic
  match a with
  | "intrinsic.width" => eqO z.width v | "intrinsic.height" => eqO z.height v | "intrinsic.ratio" => eqO z.ratio v
  | "intrinsic.exact_width" => z.exactWidth = (v == "T") | "intrinsic.exact_height" => z.exactHeight = (v == "T")
  | "intrinsic.is_replaced" => z.isReplaced = (v == "T")
  | _ => match n.layout with | some b => isB b a v | none => false
def new (cs : List Node) : Node := .mk CSS.empty .initial (some .fresh) cs
def main : IO Unit := do
  let mut n := new []
  let mut test := ""
  let mut ok := 0
  let mut bad := 0
  for l in ← IO.FS.lines "/root/diff/dim" do
    match l.splitOn " " with
    | ["NEW", k, t] => n := if k == "one" then new [] else new [new [new [], new []], new []]; test := t
    | ["SET", p, a, v] => n := n.atPath (set a v) (path p)
    | ["IS", p, a, v] =>
      if (at? (path p) n).any (isN · a v) then ok := ok + 1 else bad := bad + 1; IO.println s!"BAD {test}: {l}"
    | _ => pure ()
  IO.println s!"{ok} as expected, {bad} not"
