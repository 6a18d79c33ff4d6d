import Verif.Spec.Reference

/-!
# Specification: blocks that should not matter

An undecorated block around some of the children of a block, or an empty one between them.
-/

namespace Colosseum

/-- A block without decoration: no property but `display` is set. -/
structure Node.Undecorated (m : Node) : Prop where
  block : m.style.get .display = kw "block"
  bare : ∀ p, p ≠ .display → m.style p = none
  content : m.intrinsic.isReplaced = false
  boxed : m.layout ≠ none

/-- The `k` children from the `i`-th on are put into a block `g`. -/
def Node.group (g : List Node → Node) (i k : Nat) : Node → Node
  | .mk s z l cs => .mk s z l (cs.take i ++ g ((cs.drop i).take k) :: cs.drop (i + k))

/-- Where the elements are then. -/
def groupPath (i k : Nat) : List Nat → List Nat
  | [] => []
  | j :: r => if j < i then j :: r else if j < i + k then i :: (j - i) :: r else (j + 1 - k) :: r

/-- Where the elements are when there is a new one before the `i`-th child. -/
def insertPath (i : Nat) : List Nat → List Nat
  | [] => []
  | j :: r => if j < i then j :: r else (j + 1) :: r

/-- Two boxes that are the same on the screen: border box and content box. -/
structure Box.Coincides (fp : FP) (b c : Box) : Prop where
  left : (c.absBorderBoxLeft fp).val = (b.absBorderBoxLeft fp).val
  top : (c.absBorderBoxTop fp).val = (b.absBorderBoxTop fp).val
  right : ∃ x y, b.absBorderBoxRight fp = some x ∧ c.absBorderBoxRight fp = some y ∧ y.val = x.val
  bottom : ∃ x y, b.absBorderBoxBottom fp = some x ∧ c.absBorderBoxBottom fp = some y ∧ y.val = x.val
  contentLeft : (c.absContent fp .h).val = (b.absContent fp .h).val
  contentTop : (c.absContent fp .v).val = (b.absContent fp .v).val
  contentWidth : ∃ x y, b.contentWidth = some x ∧ c.contentWidth = some y ∧ y.val = x.val
  contentHeight : ∃ x y, b.contentHeight = some x ∧ c.contentHeight = some y ∧ y.val = x.val

/-- The second box is the first one, moved down by `t`: border box and content box. -/
structure Box.Down (fp : FP) (t : Rat) (b c : Box) : Prop where
  left : (c.absBorderBoxLeft fp).val = (b.absBorderBoxLeft fp).val
  top : (c.absBorderBoxTop fp).val = (b.absBorderBoxTop fp).val + t
  right : ∃ x y, b.absBorderBoxRight fp = some x ∧ c.absBorderBoxRight fp = some y ∧ y.val = x.val
  bottom : ∃ x y, b.absBorderBoxBottom fp = some x ∧ c.absBorderBoxBottom fp = some y ∧ y.val = x.val + t
  contentLeft : (c.absContent fp .h).val = (b.absContent fp .h).val
  contentTop : (c.absContent fp .v).val = (b.absContent fp .v).val + t
  contentWidth : ∃ x y, b.contentWidth = some x ∧ c.contentWidth = some y ∧ y.val = x.val
  contentHeight : ∃ x y, b.contentHeight = some x ∧ c.contentHeight = some y ∧ y.val = x.val

variable (fp : FP) (d : Display)

/-- The top margin of a block, 0 for `auto`. -/
def Node.marginTop (n : Node) : Rat := (n.style.outside fp d .top).getD 0

/-- There is nothing above the `i`-th child, or its margin is not larger than the collapsed margin of the child above it. -/
def Node.RunsOn (m : Node) (i : Nat) : Prop :=
  i = 0 ∨ ∀ c c', m.children[i - 1]? = some c → m.children[i]? = some c' → c'.marginTop fp d ≤ c.edgeBottom fp d

/-- Where an empty block before the `i`-th child does not separate margins that would collapse: of the margins above and below it one is 0; at the
beginning and at the end also none collapses with that of the parent; and it does not replace a minimal height. -/
structure Node.Open (m : Node) (i : Nat) : Prop where
  middle : ∀ c c', i ≠ 0 → m.children[i - 1]? = some c → m.children[i]? = some c' → c.edgeBottom fp d = 0 ∨ c'.marginTop fp d ≤ 0
  last : ∀ c, i ≠ 0 → m.children[i - 1]? = some c → m.children[i]? = none → c.edgeBottom fp d = 0
  first : ∀ c, i = 0 → m.children[i]? = some c → c.edgeTop fp d = 0 ∧ c.marginTop fp d ≤ 0
  only : m.children = [] → m.style.get .height = kw "auto" → m.style.get .minHeight = kw "auto"

end Colosseum
