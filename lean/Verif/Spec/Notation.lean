import Verif.Spec.Reads
import Verif.Spec.Units
import Verif.Spec.Style
import Verif.Model.Engine

/-!
# Lengths that come to the same
-/

namespace Colosseum

/-- Two values that come to the same on a display: the same value, or two lengths whose `px` method gives the same answer with that display and the
engine's font, whatever percentages refer to. -/
def SameMeaning (fp : FP) (d : Display) (v w : Val) : Prop :=
  v = w ∨ ∃ k k' x x', v = .unit ⟨.len k, x⟩ ∧ w = .unit ⟨.len k', x'⟩ ∧
    ∀ size, pxOf fp k x ⟨d, dummyFont fp, size⟩ = pxOf fp k' x' ⟨d, dummyFont fp, size⟩

/-- Two styles with related values of the properties that matter for layout. -/
def StyleRel (R : LH → Val → Val → Prop) (s s' : CSS) : Prop := ∀ p : LH, p.Sizing ∨ p.Offset → R p (s.get p) (s'.get p)

/-- Two documents of the same structure, with the same intrinsic sizes and boxes, whose styles are related. -/
inductive DocRel (R : LH → Val → Val → Prop) : Node → Node → Prop
  | mk {s s' : CSS} {z : Intrinsic} {l : Option Box} {cs cs' : List Node} : StyleRel R s s' → cs.length = cs'.length →
      (∀ x ∈ cs.zip cs', DocRel R x.1 x.2) → DocRel R (.mk s z l cs) (.mk s' z l cs')

/-- The styles outside of the document, if there are any. -/
def ParentRel (R : LH → Val → Val → Prop) : Option CSS → Option CSS → Prop
  | none, none => True
  | some s, some s' => StyleRel R s s'
  | _, _ => False

/-- Two layouts with the same outcome: the same exception, or the same box at every node. -/
def SameOutcome : Res Node → Res Node → Prop
  | .error e, .error e' => e = e'
  | .ok n, .ok m => ∀ r, n.boxAt r = m.boxAt r
  | _, _ => False

/-- The viewport units. -/
def LKind.OfViewport : LKind → Prop
  | .vh | .vw | .vmin | .vmax => True
  | _ => False

/-- A length in a viewport unit that is computed without exceeding the 53 bits of a float. -/
def Val.Modest (d : Display) (v : Val) : Prop :=
  ∀ (k : LKind) (n : Num), v = .unit ⟨.len k, .fin n⟩ → k.OfViewport →
    |64 * n.val * d.contentWidth.val| ≤ 2 ^ 53 ∧ |64 * n.val * d.contentHeight.val| ≤ 2 ^ 53

/-- Two values a property can hold that compare equal, made of numbers Python can hold and not too big for the viewport units. -/
structure EqualValues (fp : FP) (d : Display) (p : LH) (v w : Val) : Prop where
  left : Canonical p v
  right : Canonical p w
  heldLeft : v.Held fp
  heldRight : w.Held fp
  modest : v.Modest d
  equal : v.pyEq w = true

/-- The node with another style. -/
def Node.withStyle (s : CSS) : Node → Node
  | .mk _ z l cs => .mk s z l cs

end Colosseum
