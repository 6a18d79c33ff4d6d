import Verif.Spec.Causal

/-!
# The same element in different company

Two documents that contain the same element within the same ancestors, whatever else the ancestors contain.
-/

namespace Colosseum

/-- `SameWithin n m q r`: the element at `q` in `n` and the one at `r` in `m` are the same, with the same elements below them, and stand within the same
ancestors: the ancestors have, pair by pair, the same styles and the same intrinsic sizes, and both lay out their children below each other or neither
does. Which other children the ancestors have, and which of the children leads to the element, may differ. -/
inductive SameWithin : Node → Node → List Nat → List Nat → Prop
  | here {n : Node} : SameWithin n n [] []
  | deep {s : CSS} {z : Intrinsic} {l : Option Box} {cs ks : List Node} {c k : Node} {i j : Nat} {q r : List Nat} :
      ((Node.mk s z l cs).BlockContext ↔ (Node.mk s z l ks).BlockContext) → cs[i]? = some c → ks[j]? = some k → SameWithin c k q r →
        SameWithin (.mk s z l cs) (.mk s z l ks) (i :: q) (j :: r)

/-- The same box, the origins and the vertical position aside. -/
structure Box.SameBut (b b' : Box) : Prop where
  left : b.h.content = b'.h.content
  width : b.contentWidth = b'.contentWidth
  height : b.contentHeight = b'.contentHeight
  margin : b.margin = b'.margin
  border : b.border = b'.border
  padding : b.padding = b'.padding
  collapse : b.collapse = b'.collapse
  dirty : b.dirty = b'.dirty

end Colosseum
