import Verif.Spec.Document
import Verif.Spec.Reads

/-!
# Specification for C118: lengths that do not depend on the arithmetic
-/

namespace Colosseum

/-- The properties that layout reads lengths from. -/
def LH.Measure : LH → Prop
  | .margin _ | .padding _ | .borderWidth _ | .width | .minWidth | .maxWidth | .height | .minHeight | .maxHeight | .top | .right | .bottom | .left => True
  | _ => False

/-- If the value is a length, two arithmetics agree on how many pixels it is, in every container whose size is a whole number of layout units, up to
two to the power of 41 pixels. -/
def Val.Agrees (fp gp : FP) (d : Display) (v : Val) : Prop :=
  ∀ u, v = .unit u → ∀ size : Option Num, (∀ x, size = some x → x.OnGrid ∧ |x.val| ≤ 2 ^ 41) →
    u.px fp ⟨d, dummyFont fp, size⟩ = u.px gp ⟨d, dummyFont gp, size⟩

/-- Two arithmetics agree on all lengths of the displayed elements. -/
def Node.Agrees (fp gp : FP) (d : Display) (n : Node) : Prop := ∀ m, Visible m n → ∀ q : LH, q.Measure → (m.style.get q).Agrees fp gp d

end Colosseum
