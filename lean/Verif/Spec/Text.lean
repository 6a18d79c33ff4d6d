import Verif.Spec.Wide
import Mathlib.Data.List.Forall2

/-!
# Words, blanks and url() texts

Small grammars used by the statements about parsers that take strings.
-/

namespace Colosseum

/-- The blank characters of Python's `str.split()` and `str.strip()`. -/
def blankChars : List Char := [' ', '\t', '\n', '\r', '\x0b', '\x0c', '\x1c', '\x1d', '\x1e', '\x1f'] ++ wideSpaces

/-- A possibly empty run of blanks. -/
def AllBlank (b : PyStr) : Prop := ∀ c ∈ b, c ∈ blankChars

/-- A string without blanks. -/
def NoBlank (w : PyStr) : Prop := ∀ c ∈ w, c ∉ blankChars

/-- `Words s ws`: `s` consists of the non-empty words `ws` separated, and possibly surrounded, by
blanks. -/
inductive Words : PyStr → List PyStr → Prop
  | nil (b : PyStr) : AllBlank b → Words b []
  | last (b w b' : PyStr) : AllBlank b → NoBlank w → w ≠ [] → AllBlank b' → Words (b ++ w ++ b') [w]
  | cons (b w b' rest : PyStr) (ws : List PyStr) : AllBlank b → NoBlank w → w ≠ [] → AllBlank b' →
      b' ≠ [] → Words rest ws → Words (b ++ w ++ b' ++ rest) (w :: ws)

/-- The text of `url(...)` with the address `x`: quoted with either quote, or bare when `x` neither
starts with a quote nor has blanks at its ends. Blanks may stand around the notation and around the
address. -/
inductive UrlText : PyStr → PyStr → Prop
  | quoted (q : Char) (b0 b1 x b2 b3 : PyStr) : (q = '\'' ∨ q = '"') →
      AllBlank b0 → AllBlank b1 → AllBlank b2 → AllBlank b3 →
      UrlText (b0 ++ lit "url(" ++ b1 ++ [q] ++ x ++ [q] ++ b2 ++ lit ")" ++ b3) x
  | bare (b0 b1 x b2 b3 : PyStr) :
      (∀ c, x.head? = some c → c ∉ blankChars ∧ c ≠ '\'' ∧ c ≠ '"') →
      (∀ c, x.getLast? = some c → c ∉ blankChars) →
      AllBlank b0 → AllBlank b1 → AllBlank b2 → AllBlank b3 →
      UrlText (b0 ++ lit "url(" ++ b1 ++ x ++ b2 ++ lit ")" ++ b3) x

/-- `Tidy p t`: `t` is `p` with the blanks at its ends removed and every other run of blanks made a
single space. -/
def Tidy (p t : PyStr) : Prop := ∃ ws, Words p ws ∧ t = List.intercalate [' '] ws

/-- `RectText s parts`: `s` is `rect(...)` between blanks, with four components separated by commas, or
four words separated by blanks, inside the parentheses. -/
def RectText (s : PyStr) (parts : List PyStr) : Prop :=
  ∃ b body b', AllBlank b ∧ AllBlank b' ∧ s = b ++ lit "rect(" ++ body ++ lit ")" ++ b' ∧
    ')' ∉ body ∧ ¬ lit "rect(" <:+: body ∧ parts.length = 4 ∧
    ((∃ ps, body = List.intercalate [','] ps ∧ (∀ p ∈ ps, ',' ∉ p) ∧ List.Forall₂ Tidy ps parts) ∨
      (',' ∉ body ∧ Words body parts))

end Colosseum
