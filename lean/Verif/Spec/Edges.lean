import Verif.Spec.Document

/-!
# Specification: the edges of a box
-/

namespace Colosseum

/-- The number of pixels a border width asks for: one of the three widths of the display, or a length (CSS 2.1, 8.5.1). -/
def Val.Edge (v : Val) (fp : FP) (d : Display) (f : Font) (x : Num) : Prop :=
  v = kw "thin" ∧ x = d.thin ∨ v = kw "medium" ∧ x = d.medium ∨ v = kw "thick" ∧ x = d.thick ∨ v.Length fp d f x

end Colosseum
