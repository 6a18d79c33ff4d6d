import Verif.Spec.Style

/-!
# Names of the properties

The names CSS gives the properties, and when two ways of writing a name mean the same one.
-/

namespace Colosseum

/-- The two characters that may stand between the words of a name. -/
def Joint (c : Char) : Prop := c = '-' ∨ c = '_'

/-- The same name up to the choice of hyphens and underscores. -/
def SameName (a b : PyStr) : Prop := List.Forall₂ (fun c d => c = d ∨ (Joint c ∧ Joint d)) a b

/-- The name of a side. -/
def sideName : Side → String
  | .top => "top"
  | .right => "right"
  | .bottom => "bottom"
  | .left => "left"

/-- The CSS name of each property. -/
def cssName : Attr → String
  | .lh (.margin s) => "margin-" ++ sideName s
  | .lh (.padding s) => "padding-" ++ sideName s
  | .lh (.borderWidth s) => "border-" ++ sideName s ++ "-width"
  | .lh (.borderColor s) => "border-" ++ sideName s ++ "-color"
  | .lh (.borderStyle s) => "border-" ++ sideName s ++ "-style"
  | .lh .display => "display"
  | .lh .position => "position"
  | .lh .top => "top"
  | .lh .bottom => "bottom"
  | .lh .left => "left"
  | .lh .right => "right"
  | .lh .float => "float"
  | .lh .clear => "clear"
  | .lh .zIndex => "z-index"
  | .lh .direction => "direction"
  | .lh .unicodeBidi => "unicode-bidi"
  | .lh .width => "width"
  | .lh .minWidth => "min-width"
  | .lh .maxWidth => "max-width"
  | .lh .height => "height"
  | .lh .minHeight => "min-height"
  | .lh .maxHeight => "max-height"
  | .lh .overflow => "overflow"
  | .lh .clip => "clip"
  | .lh .visibility => "visibility"
  | .lh .quotes => "quotes"
  | .lh .pageBreakBefore => "page-break-before"
  | .lh .pageBreakAfter => "page-break-after"
  | .lh .pageBreakInside => "page-break-inside"
  | .lh .orphans => "orphans"
  | .lh .widows => "widows"
  | .lh .color => "color"
  | .lh .backgroundColor => "background-color"
  | .lh .textIndent => "text-indent"
  | .lh .textAlign => "text-align"
  | .lh .textDecoration => "text-decoration"
  | .lh .letterSpacing => "letter-spacing"
  | .lh .wordSpacing => "word-spacing"
  | .lh .textTransform => "text-transform"
  | .lh .whiteSpace => "white-space"
  | .lh .captionSide => "caption-side"
  | .lh .tableLayout => "table-layout"
  | .lh .borderCollapse => "border-collapse"
  | .lh .borderSpacing => "border-spacing"
  | .lh .emptyCells => "empty-cells"
  | .lh .cursor => "cursor"
  | .lh .outlineWidth => "outline-width"
  | .lh .outlineStyle => "outline-style"
  | .lh .outlineColor => "outline-color"
  | .dir .margin => "margin"
  | .dir .padding => "padding"
  | .dir .borderWidth => "border-width"
  | .dir .borderColor => "border-color"
  | .dir .borderStyle => "border-style"
  | .sh (.borderSide s) => "border-" ++ sideName s
  | .sh .border => "border"
  | .sh .outline => "outline"

/-- Alphabetical order: by the first character that differs, a prefix first. -/
inductive Before : PyStr → PyStr → Prop
  | nil (c : Char) (s : PyStr) : Before [] (c :: s)
  | head {c d : Char} {s t : PyStr} : c.toNat < d.toNat → Before (c :: s) (d :: t)
  | tail (c : Char) {s t : PyStr} : Before s t → Before (c :: s) (c :: t)

end Colosseum
