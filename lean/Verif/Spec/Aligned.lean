import Verif.Spec.Document

/-!
# The properties that act in the vertical direction only
-/

namespace Colosseum

/-- The properties that matter for the horizontal part of a layout. -/
def LH.Lengthwise : LH → Prop
  | .display | .position | .float | .direction | .width | .minWidth | .maxWidth | .left | .right => True
  | .margin t | .padding t | .borderWidth t => t = .left ∨ t = .right
  | _ => False

instance : DecidablePred LH.Lengthwise := fun p => by cases p <;> unfold LH.Lengthwise <;> infer_instance

/-- A percentage. -/
def Val.Percentage (v : Val) : Prop := ∃ x, v = .unit ⟨.len .percent, x⟩

/-- Two boxes with the same horizontal position, width, and horizontal margins, borders and paddings. -/
structure Box.Aligned (b c : Box) : Prop where
  width : c.contentWidth = b.contentWidth
  h : c.h = b.h
  marginLeft : c.margin.left = b.margin.left
  marginRight : c.margin.right = b.margin.right
  borderLeft : c.border.left = b.border.left
  borderRight : c.border.right = b.border.right
  paddingLeft : c.padding.left = b.padding.left
  paddingRight : c.padding.right = b.padding.right

/-- Two styles and intrinsic sizes that agree about everything horizontal. The width of a replaced element moreover depends on its intrinsic height and
ratio, and on whether its height is `auto`. A padding in per cent is excluded: the engine takes horizontal ones of the height (see C55). -/
structure SameAcross (s s' : CSS) (z z' : Intrinsic) : Prop where
  same : ∀ p : LH, p.Lengthwise → s'.get p = s.get p
  fixed : ∀ t, t = .left ∨ t = .right → ¬ (s.get (.padding t)).Percentage ∧ ¬ (s.get (.borderWidth t)).Percentage
  width : z'.width = z.width
  replaced : z'.isReplaced = z.isReplaced
  image : z.isReplaced = true → z'.height = z.height ∧ z'.ratio = z.ratio ∧ (s'.get .height = kw "auto" ↔ s.get .height = kw "auto")

mutual
/-- Documents of the same structure, which agree about everything horizontal. -/
def AlignedDocs : Node → Node → Prop
  | .mk s z l cs, .mk s' z' l' cs' => SameAcross s s' z z' ∧
    (match l, l' with
      | some b, some c => b.Aligned c
      | none, none => True
      | _, _ => False) ∧ AlignedAll cs cs'
/-- The same of lists. -/
def AlignedAll : List Node → List Node → Prop
  | [], [] => True
  | c :: cs, c' :: cs' => AlignedDocs c c' ∧ AlignedAll cs cs'
  | _, _ => False
end

end Colosseum
