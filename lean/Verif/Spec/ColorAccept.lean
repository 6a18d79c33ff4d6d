import Verif.Spec.ColorText

/-!
# The strings that are taken as colours

What the parser accepts: more than CSS does (see C11 and C68).
-/

namespace Colosseum

/-- Two characters that stand for a number to the base 16: two digits, or one digit with a sign before it or a blank beside it. -/
inductive HexPair : Char → Char → Int → Prop
  | digits {a b : Char} {x y : Nat} : HexChar a x → HexChar b y → HexPair a b (16 * x + y)
  | plus {b : Char} {y : Nat} : HexChar b y → HexPair '+' b y
  | minus {b : Char} {y : Nat} : HexChar b y → HexPair '-' b (-y)
  | before {a b : Char} {y : Nat} : Blanks [a] → HexChar b y → HexPair a b y
  | after {a b : Char} {x : Nat} : HexChar a x → Blanks [b] → HexPair a b x

/-- The text of a colour after the pound sign: three or four digits, or three or four pairs. -/
inductive HexText (fp : FP) : PyStr → Color → Prop
  | short {r g b : Char} {r' g' b' : Nat} : HexChar r r' → HexChar g g' → HexChar b b' →
      HexText fp [r, g, b] (.rgb (17 * r') (17 * g') (17 * b') (.fin (.flt 1)))
  | shortAlpha {r g b a : Char} {r' g' b' a' : Nat} : HexChar r r' → HexChar g g' → HexChar b b' → HexChar a a' →
      HexText fp [r, g, b, a] (.rgb (17 * r') (17 * g') (17 * b') (.fin (.flt (fp.rnd ((17 * a' : Rat) / 255)))))
  | long {r1 r2 g1 g2 b1 b2 : Char} {r g b : Int} : HexPair r1 r2 r → HexPair g1 g2 g → HexPair b1 b2 b →
      HexText fp [r1, r2, g1, g2, b1, b2] (.rgb r g b (.fin (.flt 1)))
  | longAlpha {r1 r2 g1 g2 b1 b2 a1 a2 : Char} {r g b a : Int} : HexPair r1 r2 r → HexPair g1 g2 g → HexPair b1 b2 b → HexPair a1 a2 a →
      HexText fp [r1, r2, g1, g2, b1, b2, a1, a2] (.rgb r g b (.fin (.flt (fp.rnd ((a : Rat) / 255)))))

/-- The text of a colour in functional notation, with any two characters `x` and `y` in place of the parentheses (the first one is not an `a` where
that would make the name another one). -/
inductive LooseText (fp : FP) : PyStr → Color → Prop
  | rgb {x y : Char} {r g b : PyStr} {r' g' b' : Int} : x ≠ 'a' → IntLit r r' → IntLit g g' → IntLit b b' →
      LooseText fp ("rgb".toList ++ [x] ++ (r ++ [','] ++ g ++ [','] ++ b) ++ [y]) (.rgb r' g' b' (.fin (.flt 1)))
  | rgba {x y : Char} {r g b a : PyStr} {r' g' b' : Int} {a' : PyNum} : IntLit r r' → IntLit g g' → IntLit b b' → FloatLit fp a a' →
      LooseText fp ("rgba".toList ++ [x] ++ (r ++ [','] ++ g ++ [','] ++ b ++ [','] ++ a) ++ [y]) (.rgb r' g' b' a')
  | hsl {x y : Char} {h s l : PyStr} {h' s' l' : Int} : x ≠ 'a' → IntLit h h' → PctLit s s' → PctLit l l' →
      LooseText fp ("hsl".toList ++ [x] ++ (h ++ [','] ++ s ++ [','] ++ l) ++ [y]) (.hsl (.int h') (fraction fp s') (fraction fp l') (.fin (.flt 1)))
  | hsla {x y : Char} {h s l a : PyStr} {h' s' l' : Int} {a' : PyNum} : IntLit h h' → PctLit s s' → PctLit l l' → FloatLit fp a a' →
      LooseText fp ("hsla".toList ++ [x] ++ (h ++ [','] ++ s ++ [','] ++ l ++ [','] ++ a) ++ [y])
        (.hsl (.int h') (fraction fp s') (fraction fp l') a')

end Colosseum
