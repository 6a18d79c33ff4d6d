import Verif.Spec.Plain

/-!
# Which documents can be laid out
-/

namespace Colosseum

/-- The width and the height of the content of an inline element that is not replaced are known. -/
def Node.Known (m : Node) : Prop :=
  m.style.get .display = kw "inline" → m.intrinsic.isReplaced = false → m.intrinsic.width ≠ none ∧ m.intrinsic.height ≠ none

/-- What the engine can lay out, given ordinary sizes. -/
structure Node.Viable (m : Node) : Prop where
  /-- It does not float. -/
  float : m.style.get .float = .none
  /-- It is neither absolutely positioned nor fixed. -/
  position : m.style.get .position ≠ kw "absolute" ∧ m.style.get .position ≠ kw "fixed"
  /-- It is an inline element, or a block that is not replaced. -/
  level : m.style.get .display = kw "inline" ∨ m.BlockLevel ∧ m.intrinsic.isReplaced = false
  /-- The top margin of an inline element that is not replaced is not automatic. -/
  top : m.style.get .display = kw "inline" → m.intrinsic.isReplaced = false → m.style.get (.margin .top) ≠ kw "auto"
  /-- No block follows something else than a block. -/
  flow : m.BlockContext → ∃ pre post, m.children = pre ++ post ∧ (∀ c ∈ pre, c.BlockLevel) ∧ ∀ c ∈ post, ¬ c.BlockLevel
  /-- The last child of a block of automatic height without blocks in it is not hidden. -/
  last : m.BlockLevel → ¬ m.BlockContext → m.style.get .height = kw "auto" → ∀ c, m.children.getLast? = some c → ¬ c.Hidden

end Colosseum
