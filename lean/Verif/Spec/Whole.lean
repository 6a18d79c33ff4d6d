import Verif.Spec.Document
import Verif.Spec.Reads

/-!
# Specification for C113: documents in whole pixels
-/

namespace Colosseum

/-- A Python `int`, not a `float`. -/
def Num.Integral (x : Num) : Prop := ∃ i, x = .int i

/-- All numbers of a box are `int`s. -/
structure Box.Integral (b : Box) : Prop where
  width : ∀ x, b.contentWidth = some x → x.Integral
  height : ∀ x, b.contentHeight = some x → x.Integral
  origin : ∀ a, (b.pos a).origin.Integral
  content : ∀ a, (b.pos a).content.Integral
  margin : ∀ t x, b.margin.get t = .num x → x.Integral
  border : ∀ t, (b.border.get t).Integral
  padding : ∀ t, (b.padding.get t).Integral

/-- The sizes of the display are `int`s. -/
structure Display.Integral (d : Display) : Prop where
  width : d.contentWidth.Integral
  height : d.contentHeight.Integral
  thin : d.thin.Integral
  medium : d.medium.Integral
  thick : d.thick.Integral

/-- The intrinsic sizes are `int`s, as far as there are any. -/
structure Intrinsic.Integral (z : Intrinsic) : Prop where
  width : ∀ x, z.width = some x → x.Integral
  height : ∀ x, z.height = some x → x.Integral
  ratio : ∀ x, z.ratio = some x → x.Integral

namespace Whole

/-- Whatever length a value is, it comes to the same whole number of pixels in both arithmetics, in every container whose size is an `int`. -/
def Agreed (fp fp' : FP) (d : Display) (v : Val) : Prop :=
  ∀ size : Option Num, (∀ x, size = some x → x.Integral) →
    v.px fp ⟨d, dummyFont fp, size⟩ = v.px fp' ⟨d, dummyFont fp', size⟩ ∧ ∀ x, v.px fp ⟨d, dummyFont fp, size⟩ = .ok x → x.Integral

/-- The sizes and offsets of a style are such values. -/
def Style (fp fp' : FP) (d : Display) (s : CSS) : Prop := ∀ p : LH, p.Sizing ∨ p.Offset → Agreed fp fp' d (s.get p)

/-- What is displayed has a box, and its lengths and its intrinsic sizes are whole numbers. -/
inductive Doc (fp fp' : FP) (d : Display) : Node → Prop
  | hidden {s : CSS} {z : Intrinsic} {l : Option Box} {cs : List Node} : s.get .display = .none → Doc fp fp' d (.mk s z l cs)
  | shown {s : CSS} {z : Intrinsic} {b : Box} {cs : List Node} : Style fp fp' d s → z.Integral → (∀ c ∈ cs, Doc fp fp' d c) →
      Doc fp fp' d (.mk s z (some b) cs)

/-- Keywords and such, a whole number of pixels, or a whole number of inches on a display with a whole number of dots per inch. -/
inductive Plain (d : Display) : Val → Prop
  | other {v : Val} : (∀ u, v ≠ .unit u) → Plain d v
  | pixels (i : Int) : i.natAbs ≤ 2 ^ 53 → Plain d (.unit ⟨.len .px, .fin (.int i)⟩)
  | inches (i j : Int) : d.dpi = .int j → (64 * i).natAbs ≤ 2 ^ 53 → j.natAbs ≤ 2 ^ 53 → (64 * (i * j)).natAbs ≤ 2 ^ 53 →
      Plain d (.unit ⟨.len .inch, .fin (.int i)⟩)

/-- What is displayed has a box, whole numbers for intrinsic sizes, and such lengths. -/
def Simple (d : Display) (n : Node) : Prop :=
  ∀ m, Visible m n → m.layout ≠ none ∧ m.intrinsic.Integral ∧ ∀ p : LH, p.Sizing ∨ p.Offset → Plain d (m.style.get p)

end Whole

end Colosseum
