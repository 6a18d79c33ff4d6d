import Verif.Spec.Blueprint

/-!
# Specification: displays of different sizes
-/

namespace Colosseum

/-- A viewport unit. -/
def LKind.ofViewport : LKind → Bool
  | .vw | .vh | .vmin | .vmax => true
  | _ => false

/-- Anything but a length in viewport units. -/
def Val.fixed : Val → Bool
  | .unit ⟨.len k, _⟩ => !k.ofViewport
  | _ => true

/-- A percentage. -/
def Val.isPercent : Val → Bool
  | .unit ⟨.len .percent, _⟩ => true
  | _ => false

/-- Two displays that differ in nothing but their size. -/
structure SameScreen (d d' : Display) : Prop where
  dpi : d'.dpi = d.dpi
  thin : d'.thin = d.thin
  medium : d'.medium = d.medium
  thick : d'.thick = d.thick

mutual
/-- Something holds of every element of a document. -/
def Node.Throughout (P : CSS → Intrinsic → Prop) : Node → Prop
  | .mk s z _ cs => P s z ∧ throughoutAll P cs
/-- See `Node.Throughout`. -/
def throughoutAll (P : CSS → Intrinsic → Prop) : List Node → Prop
  | [] => True
  | c :: cs => c.Throughout P ∧ throughoutAll P cs
end

/-- No viewport units. -/
def CSS.Fixed (s : CSS) : Prop := ∀ p, (s.get p).fixed = true

/-- Nothing vertical is relative to a width: no border or padding at the top or at the bottom is a percentage, and the height of a replaced element is given, or it is
its own because no width is given. -/
def CSS.Steady (s : CSS) (z : Intrinsic) : Prop :=
  (∀ t, t = .top ∨ t = .bottom → (s.get (.borderWidth t)).isPercent = false ∧ (s.get (.padding t)).isPercent = false) ∧
  (z.isReplaced = true → (s.get .height).isKw "auto" = false ∨ (s.get .width).isKw "auto" = true ∧ z.height.isSome = true)

/-- Nothing is relative to the height around. -/
def CSS.Rigid (s : CSS) : Prop :=
  ∀ p ∈ [LH.margin .top, .margin .bottom, .borderWidth .left, .borderWidth .right, .padding .left, .padding .right, .top, .bottom, .height, .minHeight, .maxHeight],
    (s.get p).isPercent = false

/-- The vertical numbers of a box. -/
def Figures.upright (f : Figures) : Figures :=
  ⟨.int 0, f.y, none, f.height, ⟨f.margin.top, .auto, f.margin.bottom, .auto⟩, ⟨f.border.top, .int 0, f.border.bottom, .int 0⟩,
    ⟨f.padding.top, .int 0, f.padding.bottom, .int 0⟩, f.above, f.below⟩

mutual
/-- The vertical numbers of all boxes. -/
def Blueprint.upright : Blueprint → Blueprint
  | .absent => .absent
  | .mk f ks => .mk f.upright (uprightAll ks)
/-- See `Blueprint.upright`. -/
def uprightAll : List Blueprint → List Blueprint
  | [] => []
  | k :: ks => k.upright :: uprightAll ks
end

/-- All numbers but the height of the root. -/
def Blueprint.open : Blueprint → Blueprint
  | .absent => .absent
  | .mk f ks => .mk { f with height := none } ks

end Colosseum
