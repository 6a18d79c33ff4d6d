import Verif.Spec.Reference

/-!
# Specification: mirror images, growth and enlargement

Relations between two documents of the same structure, and what they should mean for the layouts.
-/

namespace Colosseum

mutual
/-- Two documents have the same structure, and the styles of their elements are related. -/
def Node.Along (R : CSS → CSS → Prop) : Node → Node → Prop
  | .mk s _ _ cs, .mk s' _ _ cs' => R s s' ∧ Alongs R cs cs'
/-- The same for lists of documents. -/
def Alongs (R : CSS → CSS → Prop) : List Node → List Node → Prop
  | [], [] => True
  | c :: cs, c' :: cs' => c.Along R c' ∧ Alongs R cs cs'
  | _, _ => False
end

/-! ## Mirror images -/

/-- Left and right exchanged. -/
def Side.opposite : Side → Side
  | .left => .right
  | .right => .left
  | t => t

/-- The second style is the first one with left and right exchanged and with the other direction of text. -/
structure CSS.Mirrored (s s' : CSS) : Prop where
  margin : ∀ t, s'.get (.margin t.opposite) = s.get (.margin t)
  border : ∀ t, s'.get (.borderWidth t.opposite) = s.get (.borderWidth t)
  padding : ∀ t, s'.get (.padding t.opposite) = s.get (.padding t)
  size : ∀ p, p = .width ∨ p = .minWidth ∨ p = .maxWidth ∨ p = .height ∨ p = .minHeight ∨ p = .maxHeight → s'.get p = s.get p
  direction : s'.get .direction = kw "ltr" ↔ s.get .direction ≠ kw "ltr"

/-- Not both margins at the sides are `auto`, or the width is. -/
def CSS.Uncentred (s : CSS) : Prop := s.get .width = kw "auto" ∨ s.get (.margin .left) ≠ kw "auto" ∨ s.get (.margin .right) ≠ kw "auto"

/-- Two boxes, each of them the image of the other in a mirror in the middle of a display of width `W`. -/
structure Box.Image (fp : FP) (W : Rat) (b c : Box) : Prop where
  left : ∃ x, c.absBorderBoxRight fp = some x ∧ (b.absBorderBoxLeft fp).val = W - x.val
  right : ∃ x, b.absBorderBoxRight fp = some x ∧ (c.absBorderBoxLeft fp).val = W - x.val
  top : (c.absBorderBoxTop fp).val = (b.absBorderBoxTop fp).val
  bottom : ∃ x y, b.absBorderBoxBottom fp = some x ∧ c.absBorderBoxBottom fp = some y ∧ y.val = x.val
  content : ∃ x y, b.contentWidth = some x ∧ c.contentWidth = some y ∧ y.val = x.val ∧ (c.absContent fp .h).val = W - x.val - (b.absContent fp .h).val
  inside : ∃ x y, b.contentHeight = some x ∧ c.contentHeight = some y ∧ y.val = x.val ∧ (c.absContent fp .v).val = (b.absContent fp .v).val

/-! ## Growth -/

/-- Two values of a size that are the same, or lengths of which the second is not smaller. -/
def Val.Grown (fp : FP) (d : Display) (v v' : Val) : Prop :=
  v' = v ∨ ∃ x x', v.Length fp d (dummyFont fp) x ∧ v'.Length fp d (dummyFont fp) x' ∧ x.val ≤ x'.val

/-- The same, for margins: different ones are whole numbers of pixels. -/
def Val.GrownWhole (fp : FP) (d : Display) (v v' : Val) : Prop :=
  v' = v ∨ ∃ i i' : Int, v.Length fp d (dummyFont fp) (.int i) ∧ v'.Length fp d (dummyFont fp) (.int i') ∧ i ≤ i'

/-- The second style is the same as the first one sideways, and vertically nothing is smaller. -/
structure CSS.Grown (fp : FP) (d : Display) (s s' : CSS) : Prop where
  margin : ∀ t, t = .top ∨ t = .bottom → (s.get (.margin t)).GrownWhole fp d (s'.get (.margin t))
  border : ∀ t, t = .top ∨ t = .bottom → (s.get (.borderWidth t)).Grown fp d (s'.get (.borderWidth t))
  padding : ∀ t, t = .top ∨ t = .bottom → (s.get (.padding t)).Grown fp d (s'.get (.padding t))
  size : ∀ p, p = .height ∨ p = .minHeight → (s.get p).Grown fp d (s'.get p)
  most : (s.get .maxHeight).Grown fp d (s'.get .maxHeight) ∨ s'.get .maxHeight = .none
  sideways : ∀ t, t = .left ∨ t = .right → s'.get (.margin t) = s.get (.margin t) ∧ s'.get (.borderWidth t) = s.get (.borderWidth t) ∧
    s'.get (.padding t) = s.get (.padding t)
  width : ∀ p, p = .width ∨ p = .minWidth ∨ p = .maxWidth ∨ p = .direction → s'.get p = s.get p

/-- The second box has the same sides as the first one, and its top is not above that of the first one. -/
structure Box.Lower (fp : FP) (b c : Box) : Prop where
  left : (c.absBorderBoxLeft fp).val = (b.absBorderBoxLeft fp).val
  right : ∃ x y, b.absBorderBoxRight fp = some x ∧ c.absBorderBoxRight fp = some y ∧ y.val = x.val
  top : (b.absBorderBoxTop fp).val ≤ (c.absBorderBoxTop fp).val
  inside : (b.absContent fp .v).val ≤ (c.absContent fp .v).val

/-- The height and the bottom of the second box are not smaller. -/
structure Box.Taller (fp : FP) (b c : Box) : Prop where
  height : ∃ x y, b.contentHeight = some x ∧ c.contentHeight = some y ∧ x.val ≤ y.val
  bottom : ∃ x y, b.absBorderBoxBottom fp = some x ∧ c.absBorderBoxBottom fp = some y ∧ x.val ≤ y.val

/-! ## Enlargement -/

/-- Two values of a size that are the same keyword, or lengths of which the second is `k` times the first; whole numbers of pixels stay whole. -/
def Val.Scaled (fp : FP) (d d' : Display) (k : Nat) (v v' : Val) : Prop :=
  v' = v ∧ (∃ s, v = .str s) ∨ v' = v ∧ v = .none ∨
    (∃ i : Int, v.Length fp d (dummyFont fp) (.int i) ∧ v'.Length fp d' (dummyFont fp) (.int (k * i))) ∨
    ∃ x x', v.Length fp d (dummyFont fp) (.flt x) ∧ v'.Length fp d' (dummyFont fp) (.flt x') ∧ x' = k * x

/-- All sizes of the second style are `k` times those of the first one. -/
structure CSS.Scaled (fp : FP) (d d' : Display) (k : Nat) (s s' : CSS) : Prop where
  margin : ∀ t, (s.get (.margin t)).Scaled fp d d' k (s'.get (.margin t))
  border : ∀ t, (s.get (.borderWidth t)).Scaled fp d d' k (s'.get (.borderWidth t))
  padding : ∀ t, (s.get (.padding t)).Scaled fp d d' k (s'.get (.padding t))
  size : ∀ p, p = .width ∨ p = .minWidth ∨ p = .maxWidth ∨ p = .height ∨ p = .minHeight ∨ p = .maxHeight →
    (s.get p).Scaled fp d d' k (s'.get p)
  direction : s'.get .direction = s.get .direction

/-- All sizes of the second display are `k` times those of the first one. -/
structure Display.Scaled (k : Nat) (d d' : Display) : Prop where
  width : d'.contentWidth.val = k * d.contentWidth.val
  height : d'.contentHeight.val = k * d.contentHeight.val
  thin : d'.thin.val = k * d.thin.val
  medium : d'.medium.val = k * d.medium.val
  thick : d'.thick.val = k * d.thick.val

/-- The second box is the first one, enlarged `k` times. -/
structure Box.Scaled (fp : FP) (k : Nat) (b c : Box) : Prop where
  left : (c.absBorderBoxLeft fp).val = k * (b.absBorderBoxLeft fp).val
  top : (c.absBorderBoxTop fp).val = k * (b.absBorderBoxTop fp).val
  right : ∃ x y, b.absBorderBoxRight fp = some x ∧ c.absBorderBoxRight fp = some y ∧ y.val = k * x.val
  bottom : ∃ x y, b.absBorderBoxBottom fp = some x ∧ c.absBorderBoxBottom fp = some y ∧ y.val = k * x.val
  contentLeft : (c.absContent fp .h).val = k * (b.absContent fp .h).val
  contentTop : (c.absContent fp .v).val = k * (b.absContent fp .v).val
  contentWidth : ∃ x y, b.contentWidth = some x ∧ c.contentWidth = some y ∧ y.val = k * x.val
  contentHeight : ∃ x y, b.contentHeight = some x ∧ c.contentHeight = some y ∧ y.val = k * x.val

end Colosseum
