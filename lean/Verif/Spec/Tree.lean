import Verif.Model.Dimensions
import Verif.Py.Float64

/-!
# Documents as trees of boxes

What it means for a document to be consistent, in terms of its nodes and of the paths that lead to them.
-/

namespace Colosseum

/-- `Sub m n`: the node `m` is `n` or occurs below it. -/
inductive Sub : Node → Node → Prop
  | refl (n : Node) : Sub n n
  | child {m c n : Node} : c ∈ n.children → Sub m c → Sub m n

/-- The node a list of child indices leads to. -/
def Node.find : Node → List Nat → Option Node
  | n, [] => some n
  | n, i :: p => (n.children[i]?).bind fun c => c.find p

/-- `Shown n bs b`: `b` is the box of a node below `n` that is reached through nodes with boxes, `bs`
being the boxes of the nodes on the way, from `n` to the parent. -/
inductive Shown : Node → List Box → Box → Prop
  | here {n : Node} {b : Box} : n.layout = some b → Shown n [] b
  | step {n c : Node} {b b' : Box} {bs : List Box} : n.layout = some b → c ∈ n.children → Shown c bs b' →
      Shown n (b :: bs) b'

/-- Every box in a document. -/
def EveryBox (P : Box → Prop) (n : Node) : Prop := ∀ m, Sub m n → ∀ b, m.layout = some b → P b

/-- The box is marked dirty. -/
def Box.Dirty (b : Box) : Prop := b.dirty = some true

/-- Where a node is dirty, or has no box to be dirty, the boxes of its children are dirty. -/
def DirtyDown (n : Node) : Prop := ∀ m, Sub m n → (∀ b, m.layout = some b → b.Dirty) →
  ∀ c ∈ m.children, ∀ cb, c.layout = some cb → cb.Dirty

/-- The origin of every displayed box is the absolute position of the content of its parent. -/
def Coherent (fp : FP) (a : Axis) (n : Node) : Prop := ∀ bs p b, Shown n (bs ++ [p]) b →
  (b.pos a).origin.val = (p.absContent fp a).val

/-- The relative position of the content. -/
def Box.offset (b : Box) (a : Axis) : Rat := (b.pos a).content.val

end Colosseum

namespace Colosseum

/-! ## Numbers on the layout grid -/

/-- Sums of such numbers are not rounded: arithmetic is exact, or it is binary floating point and the
number is a multiple of 1/64 not larger than `m` of them. -/
def Fits (fp : FP) (m : Nat) (x : Num) : Prop :=
  fp.Exact ∨ (fp.Laws ∧ ∃ n : Int, x.val = (n : Rat) / 64 ∧ n.natAbs ≤ m)

/-- All numbers of a box fit. -/
structure Box.Fits (fp : FP) (m : Nat) (b : Box) : Prop where
  pos : ∀ a, Colosseum.Fits fp m (b.pos a).origin ∧ Colosseum.Fits fp m (b.pos a).content
  width : ∀ w, b.contentWidth = some w → Colosseum.Fits fp m w
  height : ∀ h, b.contentHeight = some h → Colosseum.Fits fp m h
  border : ∀ t, Colosseum.Fits fp m (b.border.get t)
  padding : ∀ t, Colosseum.Fits fp m (b.padding.get t)

/-! ## Intrinsic sizes -/

/-- `None`, or the same number. -/
def SameNum : Option Num → Option Num → Prop
  | none, none => True
  | some a, some b => a.val = b.val
  | _, _ => False

/-- The attribute already has the value. -/
def Intrinsic.Has (z : Intrinsic) : SizeAttr → Prop
  | .width x => SameNum z.width x
  | .height x => SameNum z.height x
  | .exactWidth x => z.exactWidth = x
  | .exactHeight x => z.exactHeight = x
  | .ratio x => SameNum z.ratio x
  | .isReplaced x => z.isReplaced = x

/-- The attribute gets the value and no other changes. -/
inductive Wrote (z : Intrinsic) : SizeAttr → Intrinsic → Prop
  | width (x : Option Num) : Wrote z (.width x) ⟨x, z.height, z.exactWidth, z.exactHeight, z.ratio, z.isReplaced⟩
  | height (x : Option Num) : Wrote z (.height x) ⟨z.width, x, z.exactWidth, z.exactHeight, z.ratio, z.isReplaced⟩
  | exactWidth (x : Bool) : Wrote z (.exactWidth x) ⟨z.width, z.height, x, z.exactHeight, z.ratio, z.isReplaced⟩
  | exactHeight (x : Bool) : Wrote z (.exactHeight x) ⟨z.width, z.height, z.exactWidth, x, z.ratio, z.isReplaced⟩
  | ratio (x : Option Num) : Wrote z (.ratio x) ⟨z.width, z.height, z.exactWidth, z.exactHeight, x, z.isReplaced⟩
  | isReplaced (x : Bool) : Wrote z (.isReplaced x) ⟨z.width, z.height, z.exactWidth, z.exactHeight, z.ratio, x⟩

/-! ## Collapsed margins -/

/-- An assignment to `margin_<side>` or `collapse_<side>`. -/
inductive Assign
  | margin (t : Side) (v : MVal)
  | collapse (t : Side) (v : MVal)

/-- The integers that count for the collapsed margin of side `t`: those assigned to `collapse_<side>`, and
those assigned to `margin_<side>` when they differ from its value, which is `m` at first. -/
def counted (t : Side) (m : MVal) : List Assign → List Int
  | [] => []
  | .margin t' v :: r =>
    if t' = t ∧ v.pyEq m = false then
      match v with
      | .num (.int i) => i :: counted t v r
      | _ => counted t v r
    else counted t m r
  | .collapse t' v :: r =>
    match v with
    | .num (.int i) => if t' = t then i :: counted t m r else counted t m r
    | _ => counted t m r

end Colosseum
