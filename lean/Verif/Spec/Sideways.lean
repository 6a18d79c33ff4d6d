import Verif.Spec.Reads

/-!
# The properties that act in the horizontal direction only
-/

namespace Colosseum

/-- The properties that matter for layout, except the direction of the text and the horizontal offsets. -/
def LH.Upright : LH → Prop
  | .direction => False
  | .top | .bottom => True
  | p => p.Sizing

instance : DecidablePred LH.Upright := fun p => by cases p <;> unfold LH.Upright <;> infer_instance

/-- The style with nothing but those properties. -/
def CSS.upright (s : CSS) : CSS := fun p => if p.Upright then some (s.get p) else none

/-- The style with nothing but the properties that matter for layout, without the direction. -/
def CSS.undirected (s : CSS) : CSS := fun p => if p.Upright ∨ p.Offset then some (s.get p) else none

/-- Two boxes that differ in nothing but their horizontal positions and their left and right margins. -/
structure Box.Slid (b c : Box) : Prop where
  width : c.contentWidth = b.contentWidth
  height : c.contentHeight = b.contentHeight
  v : c.v = b.v
  top : c.margin.top = b.margin.top
  bottom : c.margin.bottom = b.margin.bottom
  collapseTop : c.collapse.top = b.collapse.top
  collapseBottom : c.collapse.bottom = b.collapse.bottom
  border : c.border = b.border
  padding : c.padding = b.padding

/-- Two documents with boxes at the same nodes, which differ in nothing but their horizontal positions and margins. -/
def SlidBoxes (n m : Node) : Prop :=
  ∀ r, match n.boxAt r, m.boxAt r with
    | some b, some c => b.Slid c
    | none, none => True
    | _, _ => False

end Colosseum
