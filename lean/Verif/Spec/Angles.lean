import Verif.Model.Units
import Mathlib.Analysis.Real.Pi.Bounds

/-!
# Specification: angles
-/

namespace Colosseum

/-- How many of a unit make a full circle. -/
noncomputable def AKind.circle : AKind → ℝ
  | .deg => 360
  | .grad => 400
  | .rad => 2 * Real.pi
  | .turn => 1

/-- How many degrees `x` of a unit are. -/
noncomputable def AKind.degrees (k : AKind) (x : ℝ) : ℝ := x / k.circle * 360

end Colosseum
