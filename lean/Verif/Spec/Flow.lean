import Verif.Spec.Edges
import Verif.Spec.Mild

/-!
# Specification: documents in normal flow

Blocks one below the other, as wide as there is room for them, that ask for nothing negative.
-/

namespace Colosseum

/-- The value is a length of at least 0. -/
def Val.Room (v : Val) (fp : FP) (d : Display) : Prop := ∃ x, v.Length fp d (dummyFont fp) x ∧ 0 ≤ x.val

/-- A block in normal flow. Its width is automatic, and so is its height unless it is empty. Its borders, paddings and horizontal margins are not
negative. The vertical margins may be. -/
structure Node.Flows (m : Node) (fp : FP) (d : Display) : Prop where
  block : m.style.get .display = kw "block" ∨ m.style.get .display = kw "list-item"
  content : m.intrinsic.isReplaced = false
  static : ¬ m.Relative
  margin : ∀ t, t = .left ∨ t = .right → m.style.get (.margin t) = kw "auto" ∨ (m.style.get (.margin t)).Room fp d
  border : ∀ t, ∃ x, (m.style.get (.borderWidth t)).Edge fp d (dummyFont fp) x ∧ 0 ≤ x.val
  padding : ∀ t, (m.style.get (.padding t)).Room fp d
  width : m.style.get .width = kw "auto"
  height : m.style.get .height = kw "auto" ∧ (m.style.get .minHeight = kw "auto" ∨ (m.style.get .minHeight).Room fp d) ∨
    m.children = [] ∧ (m.style.get .height).Room fp d ∧ (m.style.get .maxHeight = .none ∨ (m.style.get .maxHeight).Room fp d)

/-- A document of blocks in normal flow. -/
def Node.Flowing (n : Node) (fp : FP) (d : Display) : Prop := ∀ m, Sub m n → m.Flows fp d

end Colosseum
