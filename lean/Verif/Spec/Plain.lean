import Verif.Spec.Document

/-!
# Documents made of blocks
-/

namespace Colosseum

/-- A length with a finite value, possibly a percentage. -/
def Val.Finite (v : Val) : Prop := ∃ k a, v = .unit ⟨.len k, .fin a⟩

/-- A style whose sizes are finite lengths or the keywords that the property has. -/
structure CSS.Sized (s : CSS) : Prop where
  offsets : s.get .position = kw "relative" → ∀ o ∈ [LH.top, LH.right, LH.bottom, LH.left], s.get o = kw "auto" ∨ (s.get o).Finite
  width : s.get .width = kw "auto" ∨ (s.get .width).Finite
  height : s.get .height = kw "auto" ∨ (s.get .height).Finite
  minWidth : s.get .minWidth = kw "auto" ∨ (s.get .minWidth).Finite
  minHeight : s.get .minHeight = kw "auto" ∨ (s.get .minHeight).Finite
  maxWidth : s.get .maxWidth = .none ∨ (s.get .maxWidth).Finite
  maxHeight : s.get .maxHeight = .none ∨ (s.get .maxHeight).Finite
  margin : ∀ t, s.get (.margin t) = kw "auto" ∨ (s.get (.margin t)).Finite
  border : ∀ t, s.get (.borderWidth t) = kw "thin" ∨ s.get (.borderWidth t) = kw "medium" ∨ s.get (.borderWidth t) = kw "thick" ∨
    (s.get (.borderWidth t)).Finite
  padding : ∀ t, (s.get (.padding t)).Finite

/-- Such a style with no floating or absolute positioning. -/
structure CSS.Plain (s : CSS) : Prop extends s.Sized where
  float : s.get .float = .none
  position : s.get .position ≠ kw "absolute" ∧ s.get .position ≠ kw "fixed"

/-- A block-level element that is not replaced and has a plain style. -/
def Node.PlainBlock (n : Node) : Prop := n.BlockLevel ∧ n.intrinsic.isReplaced = false ∧ n.style.Plain

/-- `Occurs m n`: `m` is `n` or somewhere below it. -/
inductive Occurs : Node → Node → Prop
  | here (n : Node) : Occurs n n
  | step {m c n : Node} : c ∈ n.children → Occurs m c → Occurs m n

end Colosseum
