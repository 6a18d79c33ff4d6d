import Verif.Model.Parser
import Verif.Py.Float64
import Verif.Spec.Literals

/-!
# What lengths mean

Written from CSS 2.1 section 4.3.2 and the CSS value definitions, not from the code.
-/

namespace Colosseum

/-- The unit identifiers of CSS and what they name. -/
def cssUnits : List (String × UKind) :=
  [("px", .len .px), ("em", .len .em), ("ex", .len .ex), ("ch", .len .ch), ("pt", .len .pt),
   ("pc", .len .pc), ("in", .len .inch), ("cm", .len .cm), ("mm", .len .mm), ("vh", .len .vh),
   ("vmax", .len .vmax), ("vmin", .len .vmin), ("vw", .len .vw), ("%", .len .percent),
   ("deg", .ang .deg), ("grad", .ang .grad), ("rad", .ang .rad), ("turn", .ang .turn)]

/-- A number Python can hold: the value of a `float` is one rounding keeps. -/
def PyNum.Held (fp : FP) : PyNum → Prop
  | .fin (.flt q) => fp.rnd q = q
  | _ => True

/-- A value is made of numbers Python can hold. -/
def Val.Held (fp : FP) : Val → Prop
  | .num x => x.Held fp
  | .unit u => u.val.Held fp
  | _ => True

/-- The length (or angle) a value denotes. -/
inductive Denotes (fp : FP) : Val → CUnit → Prop
  | unit (k : LKind) (x : PyNum) : Denotes fp (.unit ⟨.len k, x⟩) ⟨.len k, x⟩
  | number (x : PyNum) : Denotes fp (.num x) ⟨.len .px, x⟩
  | bare (s : PyStr) (x : PyNum) : FloatLit fp s x → Denotes fp (.str s) ⟨.len .px, x⟩
  | suffixed (n : PyStr) (t : String) (k : UKind) (x : PyNum) : (t, k) ∈ cssUnits →
      FloatLit fp n x → Denotes fp (.str (n ++ t.toList)) ⟨k, x⟩

end Colosseum
