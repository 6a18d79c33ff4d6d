import Verif.Spec.Stretched

/-!
# Specification: children in another order
-/

namespace Colosseum

/-- A box as if it were at the top. -/
def Blueprint.atTop : Blueprint → Blueprint
  | .absent => .absent
  | .mk f ks => .mk { f with y := .int 0 } ks

/-- The same boxes in any order, each of them with all that is inside, apart from how far down they are. -/
def Reordered (ks ks' : List Blueprint) : Prop := (ks.map Blueprint.atTop).Perm (ks'.map Blueprint.atTop)

/-- The value is the whole number 0, whatever it is relative to. -/
def Val.Nil (fp : FP) (d : Display) (v : Val) : Prop := ∀ size, v.extent fp d size = some (.num (.int 0))

/-- No margin at the top, neither of the element nor of what comes first in it. -/
inductive Node.NilAbove (fp : FP) (d : Display) : Node → Prop
  | mk {s : CSS} {z : Intrinsic} {l : Option Box} {cs : List Node} : (s.get (.margin .top)).Nil fp d → (∀ c, cs.head? = some c → NilAbove fp d c) → NilAbove fp d (.mk s z l cs)

/-- No margin at the bottom, neither of the element nor, if its height is automatic, of what comes last in it. -/
inductive Node.NilBelow (fp : FP) (d : Display) : Node → Prop
  | mk {s : CSS} {z : Intrinsic} {l : Option Box} {cs : List Node} : (s.get (.margin .bottom)).Nil fp d →
      ((s.get .height).isKw "auto" = true → ∀ c, cs.getLast? = some c → NilBelow fp d c) → NilBelow fp d (.mk s z l cs)

/-- Two blocks that differ in nothing but the order of their children: these are blocks that are not relatively positioned, and they have no
margins at the top and at the bottom, nor do such margins reach out of them. -/
inductive Node.Shuffled (fp : FP) (d : Display) : Node → Node → Prop
  | mk {s : CSS} {z : Intrinsic} {l l' : Option Box} {cs cs' : List Node} : cs.Perm cs' → (s.get .display = kw "block" ∨ s.get .display = kw "list-item") →
      (s.get .height).isKw "auto" = true → (s.get .position).isKw "relative" = false →
      (∀ c ∈ cs, c.blockish = true ∧ (c.style.get .position).isKw "relative" = false ∧ c.NilAbove fp d ∧ c.NilBelow fp d) → l.isSome = l'.isSome →
      Node.Shuffled fp d (.mk s z l cs) (.mk s z l' cs')

end Colosseum
