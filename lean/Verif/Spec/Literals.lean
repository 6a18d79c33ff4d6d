import Verif.Spec.Colors
import Mathlib.Data.Nat.Digits.Defs

/-!
# Numeric literals

The grammar of the texts `float()` and `int()` accept, as in the documentation of these functions
(Python library reference, "Built-in Functions", `float`): digits may be those of any script.
-/

namespace Colosseum

/-- The decimal digit `d` of any script. -/
def DigitChar (c : Char) (d : Nat) : Prop := d < 10 ∧ ∃ z ∈ scriptZeros, c.toNat = z.toNat + d

/-- A digit to the base 16: one of ASCII, or a decimal digit of any script. -/
def HexChar (c : Char) (x : Nat) : Prop := (c, x) ∈ hexTable ∨ DigitChar c x

/-- `(["_"] digit)*` with its digits. -/
inductive DigitTail : PyStr → List Nat → Prop
  | nil : DigitTail [] []
  | digit {c : Char} {d : Nat} {s : PyStr} {ds : List Nat} : DigitChar c d → DigitTail s ds → DigitTail (c :: s) (d :: ds)
  | grouped {c : Char} {d : Nat} {s : PyStr} {ds : List Nat} : DigitChar c d → DigitTail s ds → DigitTail ('_' :: c :: s) (d :: ds)

/-- `digitpart ::= digit (["_"] digit)*`. -/
inductive DigitPart : PyStr → List Nat → Prop
  | mk {c : Char} {d : Nat} {s : PyStr} {ds : List Nat} : DigitChar c d → DigitTail s ds → DigitPart (c :: s) (d :: ds)

/-- The number with the given decimal digits, most significant first. -/
def decimal (ds : List Nat) : Nat := Nat.ofDigits 10 ds.reverse

/-- `number ::= [digitpart] "." digitpart | digitpart ["."]`. -/
inductive NumberText : PyStr → Rat → Prop
  | whole {s : PyStr} {ds : List Nat} : DigitPart s ds → NumberText s (decimal ds)
  | dot {s : PyStr} {ds : List Nat} : DigitPart s ds → NumberText (s ++ ['.']) (decimal ds)
  | fraction {f : PyStr} {fs : List Nat} : DigitPart f fs → NumberText ('.' :: f) (decimal fs / 10 ^ fs.length)
  | both {s f : PyStr} {ds fs : List Nat} : DigitPart s ds → DigitPart f fs →
      NumberText (s ++ '.' :: f) (decimal ds + decimal fs / 10 ^ fs.length)

/-- `sign ::= "+" | "-"`, or nothing; whether it is a minus. -/
inductive SignText : PyStr → Bool → Prop
  | none : SignText [] false
  | plus : SignText ['+'] false
  | minus : SignText ['-'] true

/-- `floatnumber ::= number [exponent]`, `exponent ::= ("e" | "E") [sign] digitpart`. -/
inductive FloatNumber : PyStr → Rat → Prop
  | plain {s : PyStr} {q : Rat} : NumberText s q → FloatNumber s q
  | exponent {s g x : PyStr} {q : Rat} {c : Char} {neg : Bool} {xs : List Nat} : NumberText s q → c = 'e' ∨ c = 'E' → SignText g neg →
      DigitPart x xs → FloatNumber (s ++ c :: (g ++ x)) (q * (10 : Rat) ^ (if neg then -(decimal xs : Int) else (decimal xs : Int)))

/-- `absfloatvalue ::= floatnumber | infinity | nan` behind a sign: the nearest float, or a special value; letters may be of either case. -/
inductive FloatBody (fp : FP) (neg : Bool) : PyStr → PyNum → Prop
  | number {s : PyStr} {q : Rat} : FloatNumber s q → FloatBody fp neg s (.fin (.flt (fp.rnd (if neg then -q else q))))
  | inf {s : PyStr} : s.map Char.toLower = "inf".toList ∨ s.map Char.toLower = "infinity".toList → FloatBody fp neg s (.inf neg)
  | nan {s : PyStr} : s.map Char.toLower = "nan".toList → FloatBody fp neg s .nan

/-- A float literal, possibly between blanks. -/
def FloatLit (fp : FP) (s : PyStr) (x : PyNum) : Prop :=
  ∃ b g m b' neg, Blanks b ∧ Blanks b' ∧ SignText g neg ∧ FloatBody fp neg m x ∧ s = b ++ (g ++ m) ++ b'

/-- An integer literal, possibly between blanks. -/
def IntLit (s : PyStr) (i : Int) : Prop :=
  ∃ b g m b' neg ds, Blanks b ∧ Blanks b' ∧ SignText g neg ∧ DigitPart m ds ∧ s = b ++ (g ++ m) ++ b' ∧
    i = if neg then -(decimal ds : Int) else (decimal ds : Int)

end Colosseum
