import Verif.Spec.Document

/-!
# The properties that matter for layout
-/

namespace Colosseum

/-- The properties of the visual formatting model that decide about the sizes of boxes and about their places in the normal flow (CSS 2.1, chapters 8
to 10), as far as the engine implements it. -/
def LH.Sizing : LH → Prop
  | .margin _ | .padding _ | .borderWidth _ | .display | .position | .float | .direction | .width | .minWidth | .maxWidth | .height | .minHeight
  | .maxHeight => True
  | _ => False

/-- The offsets of positioned boxes (CSS 2.1, 9.3.2). -/
def LH.Offset : LH → Prop
  | .top | .right | .bottom | .left => True
  | _ => False

instance : DecidablePred LH.Sizing := fun p => by cases p <;> unfold LH.Sizing <;> infer_instance
instance : DecidablePred LH.Offset := fun p => by cases p <;> unfold LH.Offset <;> infer_instance

/-- The style with nothing but the properties that matter for layout, each with its value. -/
def CSS.looks (s : CSS) : CSS := fun p => if p.Sizing ∨ p.Offset then some (s.get p) else none

mutual
/-- The document with other styles. -/
def Node.restyle (f : CSS → CSS) : Node → Node
  | .mk s z l cs => .mk (f s) z l (restyleAll f cs)
/-- The documents with other styles. -/
def restyleAll (f : CSS → CSS) : List Node → List Node
  | [] => []
  | c :: cs => c.restyle f :: restyleAll f cs
end

/-- The document with nothing but the properties that matter for layout. -/
def Node.looks (n : Node) : Node := n.restyle CSS.looks

end Colosseum
