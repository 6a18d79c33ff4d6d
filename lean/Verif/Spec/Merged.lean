import Verif.Spec.Blueprint
import Verif.Spec.Reads

/-!
# Specification for C117: border and padding taken together
-/

namespace Colosseum

/-- Border and padding of a side together, in a container of the given size. -/
def CSS.rim (fp : FP) (d : Display) (s : CSS) (t : Side) (size : Option Num) : Option Num :=
  ((s.get (.borderWidth t)).thickness fp d size).bind fun b => ((s.get (.padding t)).thickness fp d size).map fun p => b.add fp p

/-- Two styles that differ, as far as layout is concerned, in nothing but how much of the edges is border and how much is padding. -/
structure CSS.Traded (fp : FP) (d : Display) (s s' : CSS) : Prop where
  same : ∀ p : LH, p.Sizing ∨ p.Offset → (∀ t, p ≠ .borderWidth t) → (∀ t, p ≠ .padding t) → s.get p = s'.get p
  rim : ∀ t size, s.rim fp d t size = s'.rim fp d t size

/-- Two documents of the same structure whose styles are such. The boxes they have at first may hold different numbers. -/
inductive Traded (fp : FP) (d : Display) : Node → Node → Prop
  | mk {s s' : CSS} {z : Intrinsic} {l l' : Option Box} {cs cs' : List Node} : s.Traded fp d s' → l.isSome = l'.isSome → cs.length = cs'.length →
      (∀ x ∈ cs.zip cs', Traded fp d x.1 x.2) → Traded fp d (.mk s z l cs) (.mk s' z l' cs')

/-- The edges of a box, with all of border and padding as padding. -/
def Figures.merged (fp : FP) (f : Figures) : Figures :=
  { f with border := .all (.int 0),
           padding := ⟨f.border.top.add fp f.padding.top, f.border.right.add fp f.padding.right, f.border.bottom.add fp f.padding.bottom, f.border.left.add fp f.padding.left⟩ }

mutual
/-- The same for all boxes. -/
def Blueprint.merged (fp : FP) : Blueprint → Blueprint
  | .absent => .absent
  | .mk f ks => .mk (f.merged fp) (mergedAll fp ks)
/-- See `Blueprint.merged`. -/
def mergedAll (fp : FP) : List Blueprint → List Blueprint
  | [] => []
  | k :: ks => k.merged fp :: mergedAll fp ks
end

end Colosseum
