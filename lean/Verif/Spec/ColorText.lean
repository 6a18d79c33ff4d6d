import Verif.Spec.Literals
import Verif.Model.Values

/-!
# The functional colour notations

CSS Color 3 sections 4.2.1–4.2.5: `rgb(`, `rgba(`, `hsl(` and `hsla(`, components separated by commas, a closing parenthesis.
-/

namespace Colosseum

/-- White space around a component: the blanks around a number and the four ASCII separators. -/
def WhiteSpace (b : PyStr) : Prop := ∀ c ∈ b, c ∈ [' ', '\t', '\n', '\r', '\x0b', '\x0c', '\x1c', '\x1d', '\x1e', '\x1f'] ∨ c ∈ wideSpaces

/-- An integer followed by percent signs; any number of them, also none. -/
def PctLit (t : PyStr) (i : Int) : Prop :=
  ∃ b g m u b' neg ds k, WhiteSpace b ∧ WhiteSpace b' ∧ Blanks u ∧ SignText g neg ∧ DigitPart m ds ∧
    t = b ++ (g ++ m) ++ u ++ List.replicate k '%' ++ b' ∧ i = if neg then -(decimal ds : Int) else (decimal ds : Int)

/-- `i` percent as a float. -/
def fraction (fp : FP) (i : Int) : Num := .flt (fp.rnd (fp.rnd (i : Rat) / 100))

/-- The text of a colour in functional notation. -/
inductive FunctionText (fp : FP) : PyStr → Color → Prop
  | rgb {r g b : PyStr} {r' g' b' : Int} : IntLit r r' → IntLit g g' → IntLit b b' →
      FunctionText fp ("rgb(".toList ++ (r ++ [','] ++ g ++ [','] ++ b) ++ [')']) (.rgb r' g' b' (.fin (.flt 1)))
  | rgba {r g b a : PyStr} {r' g' b' : Int} {a' : PyNum} : IntLit r r' → IntLit g g' → IntLit b b' → FloatLit fp a a' →
      FunctionText fp ("rgba(".toList ++ (r ++ [','] ++ g ++ [','] ++ b ++ [','] ++ a) ++ [')']) (.rgb r' g' b' a')
  | hsl {h s l : PyStr} {h' s' l' : Int} : IntLit h h' → PctLit s s' → PctLit l l' →
      FunctionText fp ("hsl(".toList ++ (h ++ [','] ++ s ++ [','] ++ l) ++ [')']) (.hsl (.int h') (fraction fp s') (fraction fp l') (.fin (.flt 1)))
  | hsla {h s l a : PyStr} {h' s' l' : Int} {a' : PyNum} : IntLit h h' → PctLit s s' → PctLit l l' → FloatLit fp a a' →
      FunctionText fp ("hsla(".toList ++ (h ++ [','] ++ s ++ [','] ++ l ++ [','] ++ a) ++ [')'])
        (.hsl (.int h') (fraction fp s') (fraction fp l') a')

end Colosseum
