import Verif.Spec.Document
import Verif.Py.Float64

/-!
# Specification: the text of a box, and the levels of elements
-/

namespace Colosseum

/-- A Python number: a float is one of binary64. -/
def Num.Python : Num → Prop
  | .int _ => True
  | .flt q => round53 q = q

/-- What the text of a box shows. -/
structure Box.SameContent (fp : FP) (b c : Box) : Prop where
  width : b.contentWidth = c.contentWidth
  height : b.contentHeight = c.contentHeight
  left : b.absContent fp .h = c.absContent fp .h
  top : b.absContent fp .v = c.absContent fp .v

/-- The kinds of elements: not displayed, block-level, inline-level, parts of tables, and those that CSS 2.1 does not have. -/
inductive Level
  | hidden | block | inline | part | modern
deriving DecidableEq

/-- The values of `display` for each kind (CSS 2.1, 9.2.1, 9.2.2, 17.2). -/
def Level.displays : Level → List Val
  | .hidden => [.none]
  | .block => ["block", "list-item", "table"].map kw
  | .inline => ["inline", "inline-table", "inline-block"].map kw
  | .part => ["table-row-group", "table-header-group", "table-footer-group", "table-row", "table-column-group", "table-column", "table-cell",
      "table-caption"].map kw
  | .modern => ["flex", "inline-flex", "grid", "inline-grid"].map kw

/-- The element is of that kind. -/
def Node.Is (n : Node) (l : Level) : Prop := n.style.get .display ∈ l.displays

end Colosseum
