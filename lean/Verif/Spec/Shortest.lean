import Verif.Py.Str
import Verif.Py.Lit

/-!
# Specification: numbers with few digits
-/

namespace Colosseum

/-- `v` can be written with `n` significant digits. -/
def DigitsFor (n : Nat) (v : Rat) : Prop := ∃ c k : Int, c.natAbs < 10 ^ n ∧ v = (c : Rat) * (10 : Rat) ^ k

/-- The text of a number has at most `n` significant digits: before the exponent there are at most `n` digits between leading and trailing zeros. -/
def DigitsIn (n : Nat) (s : PyStr) : Prop :=
  ∃ a b d, (s.takeWhile (· != 'e')).filter isDigit = List.replicate a '0' ++ d ++ List.replicate b '0' ∧ d.length ≤ n

end Colosseum
