import Verif.Spec.Blueprint
import Verif.Spec.Resize

/-!
# Specification: a taller block, and what it does to the boxes
-/

namespace Colosseum

/-- The same box, lower by `δ`; what is inside moves with it. -/
inductive Blueprint.Lowered (δ : Rat) : Blueprint → Blueprint → Prop
  | mk (f : Figures) (y : Num) (ks : List Blueprint) : y.val = f.y.val + δ → Lowered δ (.mk f ks) (.mk { f with y := y } ks)

/-- A box that is taller by `δ`, and nothing else about it differs: either the boxes inside are related by `B`, or one of them is taller by `δ` in this way, those
before it are the same, and those after it are lower by `δ`. -/
inductive Blueprint.Grown (B : List Blueprint → List Blueprint → Prop) (δ : Rat) : Blueprint → Blueprint → Prop
  | self (f : Figures) (h h' : Num) (ks ks' : List Blueprint) : f.height = some h → h'.val = h.val + δ → B ks ks' →
      Grown B δ (.mk f ks) (.mk { f with height := some h' } ks')
  | inside (f : Figures) (h h' : Num) (pre post post' : List Blueprint) (k k' : Blueprint) : f.height = some h → h'.val = h.val + δ → Grown B δ k k' →
      List.Forall₂ (Lowered δ) post post' → Grown B δ (.mk f (pre ++ k :: post)) (.mk { f with height := some h' } (pre ++ k' :: post'))

/-- Some box is taller by `δ`, with the same boxes inside. -/
abbrev Blueprint.Stretched (δ : Rat) : Blueprint → Blueprint → Prop := Grown Eq δ

/-- The value is `x` pixels, whatever it is relative to. -/
def Val.Always (fp : FP) (d : Display) (v : Val) (x : Num) : Prop := ∀ size, v.inPixels fp d size = some x

/-- Two documents that differ in nothing but one element, for which `B` holds; around it are blocks of automatic height that contain nothing but blocks. The boxes
they have at first may hold different numbers. -/
inductive Node.Amid (B : Node → Node → Prop) : Node → Node → Prop
  | self {n n' : Node} : B n n' → Amid B n n'
  | inside {s : CSS} {z : Intrinsic} {l l' : Option Box} {pre post : List Node} {c c' : Node} : (s.get .display = kw "block" ∨ s.get .display = kw "list-item") →
      (s.get .height).isKw "auto" = true → (∀ b ∈ pre ++ c :: post, b.blockish = true) → Node.Amid B c c' → l.isSome = l'.isSome →
      Node.Amid B (.mk s z l (pre ++ c :: post)) (.mk s z l' (pre ++ c' :: post))

/-- Two blocks that differ in nothing but the height given for them, which is larger by `δ`; no height inside is a percentage of it. -/
inductive Node.Taller (fp : FP) (d : Display) (δ : Rat) : Node → Node → Prop
  | mk {s s' : CSS} {z : Intrinsic} {l l' : Option Box} {cs : List Node} {h h' : Num} : (∀ a, a ≠ .height → s.get a = s'.get a) →
      (s.get .height).Always fp d h → (s'.get .height).Always fp d h' → h'.val = h.val + δ → (s.get .maxHeight).isNone = true → (s.get .position).isKw "relative" = false →
      (Node.mk s z l cs).blockish = true → (∀ c ∈ cs, (c.style.get .height).isPercent = false) → l.isSome = l'.isSome → Node.Taller fp d δ (.mk s z l cs) (.mk s' z l' cs)

/-- Two documents that differ in nothing but the height given for one block, which is larger by `δ`. -/
abbrev Node.Stretched (fp : FP) (d : Display) (δ : Rat) : Node → Node → Prop := Node.Amid (Node.Taller fp d δ)

end Colosseum
