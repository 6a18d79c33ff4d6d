import Verif.Model.Values
import Mathlib.Order.WithBot

/-!
# Specification for C112: where a number lies on the line
-/

namespace Colosseum

/-- The point of the extended line a number stands for; `nan` stands for none. -/
def PyNum.point : PyNum → Option (WithBot (WithTop Rat))
  | .fin a => some ((a.val : WithTop Rat) : WithBot (WithTop Rat))
  | .inf true => some ⊥
  | .inf false => some ((⊤ : WithTop Rat) : WithBot (WithTop Rat))
  | .nan => none

/-- The number lies before the other. -/
def PyNum.Before (x y : PyNum) : Prop := ∃ p q, x.point = some p ∧ y.point = some q ∧ p < q

/-- The two numbers are the same point. -/
def PyNum.Same (x y : PyNum) : Prop := ∃ p, x.point = some p ∧ y.point = some p

/-- A percentage. -/
def percentage (x : PyNum) : Val := .unit ⟨.len .percent, x⟩

end Colosseum
