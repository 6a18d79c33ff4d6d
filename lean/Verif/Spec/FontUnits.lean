import Verif.Spec.Pixels
import Verif.Spec.Notation

/-!
# Lengths relative to the font
-/

namespace Colosseum

/-- A font whose em is minus one point, whose ex is 65% of the em, and whose ch is 71% of it. -/
def minusFont : Font := ⟨.int (-1), .flt (-65 / 100), .flt (-71 / 100)⟩

/-- A value, and the same value or another one instead of a length in a unit other than a percentage. -/
def Instead (R : LKind → Num → Val → Prop) (v w : Val) : Prop :=
  v = w ∨ ∃ k a, k ≠ .percent ∧ v = .unit ⟨.len k, .fin a⟩ ∧ R k a w

/-- Minus so many points for so many ems. -/
def EmAsPoints (k : LKind) (a : Num) (w : Val) : Prop := k = .em ∧ w = .unit ⟨.len .pt, .fin a.neg⟩

/-- Minus 65% or 71% of so many points for so many exs or chs. -/
def FontAsPoints (k : LKind) (a : Num) (w : Val) : Prop :=
  k = .ex ∧ w = .unit ⟨.len .pt, .fin (.flt (-(65 / 100) * a.val))⟩ ∨ k = .ch ∧ w = .unit ⟨.len .pt, .fin (.flt (-(71 / 100) * a.val))⟩

end Colosseum
