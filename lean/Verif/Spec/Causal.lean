import Verif.Spec.Document

/-!
# Documents that agree up to some point

Two documents that differ only behind a node, in document order, and what it means for their boxes to agree.
-/

namespace Colosseum

/-- `UpTo n m p`: the nodes at and below `p` and everything that precedes them in document order are the
same in `n` and `m`, and so are the styles of the ancestors of `p`. What follows may differ. -/
inductive UpTo : Node → Node → List Nat → Prop
  | here {s : CSS} {z : Intrinsic} {l : Option Box} {xs cs ks : List Node} {i : Nat} {q : List Nat} :
      i < xs.length → UpTo (.mk s z l (xs ++ cs)) (.mk s z l (xs ++ ks)) (i :: q)
  | deep {s : CSS} {z : Intrinsic} {l : Option Box} {xs cs ks : List Node} {c k : Node} {q : List Nat} :
      UpTo c k q → UpTo (.mk s z l (xs ++ c :: cs)) (.mk s z l (xs ++ k :: ks)) (xs.length :: q)

/-- The same box, the origins aside. -/
structure Box.Same (b b' : Box) : Prop where
  content : ∀ a, (b.pos a).content = (b'.pos a).content
  width : b.contentWidth = b'.contentWidth
  height : b.contentHeight = b'.contentHeight
  margin : b.margin = b'.margin
  border : b.border = b'.border
  padding : b.padding = b'.padding
  collapse : b.collapse = b'.collapse
  dirty : b.dirty = b'.dirty

/-- The same box, the origins, the height and the margin collapsed at the bottom aside. -/
structure Box.SameAbove (b b' : Box) : Prop where
  content : ∀ a, (b.pos a).content = (b'.pos a).content
  width : b.contentWidth = b'.contentWidth
  margin : b.margin = b'.margin
  border : b.border = b'.border
  padding : b.padding = b'.padding
  collapse : ∀ t, t ≠ .bottom → b.collapse.get t = b'.collapse.get t
  dirty : b.dirty = b'.dirty

/-- Both missing, or both there and related. -/
def Both (R : Box → Box → Prop) : Option Box → Option Box → Prop
  | none, none => True
  | some b, some b' => R b b'
  | _, _ => False

end Colosseum
