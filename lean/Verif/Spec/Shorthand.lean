import Verif.Spec.Style
import Verif.Spec.Text
import Verif.Lemmas.Accept
import Verif.Model.Declaration

/-!
# Specification of the shorthand properties

`border`, `border_<side>` and `outline` take up to three parts: a width, a style and a colour.
-/

namespace Colosseum

/-- What a property makes of a value: the keyword it writes, or its parsed form. -/
def Accepts (E : Env) (a : List Nat) (p : LH) (v w : Val) : Prop :=
  KeywordOf p v w ∨ ∃ k, kindOf p = some k ∧ k.parse E a v = .ok w

/-- An element of a `Cursor` as a value. -/
def CurItem.val : CurItem → Val
  | .opt s => .str s
  | .uri r s => .uri r s

/-- The parts of a shorthand value: the words of a non-empty text, the elements of a non-empty
sequence (a tuple, a list, a `Cursor`). -/
inductive PartsOf : Val → List Val → Prop
  | text (s : PyStr) (ws : List PyStr) : s ≠ [] → Words s ws → PartsOf (.str s) (ws.map .str)
  | seq (t : Bool) (xs : List Val) : xs ≠ [] → PartsOf (.seq t xs) xs
  | cursor (xs : List CurItem) : xs ≠ [] → PartsOf (.cursor xs) (xs.map CurItem.val)

/-- The order in which the kinds of parts are recognised: `inherit` is an outline colour, `none` a
border style. -/
def partOrder : SH → List Part
  | .outline => [.color, .style, .width]
  | _ => [.width, .style, .color]

/-- The properties a part of a shorthand stands for. -/
def partProps : SH → Part → List LH
  | .outline, .width => [.outlineWidth]
  | .outline, .style => [.outlineStyle]
  | .outline, .color => [.outlineColor]
  | .borderSide s, .width => [.borderWidth s]
  | .borderSide s, .style => [.borderStyle s]
  | .borderSide s, .color => [.borderColor s]
  | .border, .width => [.borderWidth .top, .borderWidth .right, .borderWidth .bottom, .borderWidth .left]
  | .border, .style => [.borderStyle .top, .borderStyle .right, .borderStyle .bottom, .borderStyle .left]
  | .border, .color => [.borderColor .top, .borderColor .right, .borderColor .bottom, .borderColor .left]

/-- A length of infinite magnitude, such as `float("inf") * px`. -/
def Boundless (x : Val) : Prop := ∃ k b, x = .unit ⟨.len k, .inf b⟩

/-- An angle such as `90 * deg`. -/
def IsAngle (w : Val) : Prop := ∃ k x, w = .unit ⟨.ang k, x⟩

/-- The part `x` is of kind `k`, with value `w`: the properties of `k` accept it, those of the kinds
recognised earlier do not. -/
def FallsTo (E : Env) (s : SH) (x : Val) (k : Part) (w : Val) : Prop :=
  ∃ pre post, partOrder s = pre ++ k :: post ∧
    (∀ j ∈ pre, ∀ p ∈ partProps s j, ¬ ∃ a w, Accepts E a p x w) ∧
    ∀ p ∈ partProps s k, ∃ a, Accepts E a p x w

end Colosseum
