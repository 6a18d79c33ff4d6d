import Verif.Model.Values
import Verif.Spec.Text
import Verif.Py.Float64

/-!
# Specification for printing a value and assigning the text

When two values are the same up to the identity of objects, and which values have a text that can be read.
-/

namespace Colosseum

/-- The same number: equal, or both not a number. -/
def EqualNum (x y : PyNum) : Prop := x.pyEq y = true ∨ x = .nan ∧ y = .nan

/-- The same unit object: same unit, same magnitude. -/
def SameUnit (u v : CUnit) : Prop := u.kind = v.kind ∧ EqualNum u.val v.val

/-- The same item of a cursor. -/
inductive SameItem : CurItem → CurItem → Prop
  | opt (s : PyStr) : SameItem (.opt s) (.opt s)
  | uri (r r' : Ref) (x : PyStr) : SameItem (.uri r x) (.uri r' x)

/-- The same value up to the identity of objects. -/
inductive SameVal : Val → Val → Prop
  | word (s : PyStr) : SameVal (.str s) (.str s)
  | int (i : Int) : SameVal (.num (.fin (.int i))) (.num (.fin (.int i)))
  | unit (u v : CUnit) : SameUnit u v → SameVal (.unit u) (.unit v)
  | rgb (r r' : Ref) (x y z : Int) (a a' : PyNum) : EqualNum a a' → SameVal (.color r (.rgb x y z a)) (.color r' (.rgb x y z a'))
  | rect (a b c d a' b' c' d' : CUnit) : SameUnit a a' → SameUnit b b' → SameUnit c c' → SameUnit d d' →
      SameVal (.rect a b c d) (.rect a' b' c' d')
  | one (r r' : Ref) (h h' : CUnit) : SameUnit h h' → SameVal (.borderSpacing r h none) (.borderSpacing r' h' none)
  | two (r r' : Ref) (h h' v v' : CUnit) : SameUnit h h' → SameUnit v v' →
      SameVal (.borderSpacing r h (some v)) (.borderSpacing r' h' (some v'))
  | quotes (q : List (QVal × QVal)) : SameVal (.quotes q) (.quotes q)
  | cursor (xs ys : List CurItem) : List.Forall₂ SameItem xs ys → SameVal (.cursor xs) (.cursor ys)

/-- A number a binary64 float can hold: every float, and the integers that are floats. -/
def Num.Binary64 (n : Num) : Prop := FP.b64.rnd n.val = n.val

/-- A unit with a finite magnitude that a float can hold. -/
def CUnit.Readable (u : CUnit) : Prop := ∃ n, u.val = .fin n ∧ n.Binary64

/-- A quote text without spaces. -/
def QuoteReadable : QVal → Prop
  | .str s => ' ' ∉ s
  | .other _ _ => False

/-- The values whose text can be read again. -/
inductive Readable : Val → Prop
  | word (s : PyStr) : Readable (.str s)
  | int (i : Int) : Readable (.num (.fin (.int i)))
  | unit (u : CUnit) : u.Readable → Readable (.unit u)
  | rgb (r : Ref) (x y z : Int) (a : PyNum) : (∀ n, a = .fin n → n.Binary64) → Readable (.color r (.rgb x y z a))
  | rect (a b c d : CUnit) : a.Readable → b.Readable → c.Readable → d.Readable → Readable (.rect a b c d)
  | spacing (r : Ref) (h : CUnit) (v : Option CUnit) : h.Readable → (∀ w, v = some w → w.Readable) →
      Readable (.borderSpacing r h v)
  | quotes (q : List (QVal × QVal)) : (∀ p ∈ q, QuoteReadable p.1 ∧ QuoteReadable p.2) → Readable (.quotes q)
  | cursor (xs : List CurItem) : xs ≠ [] → (∀ r x, CurItem.uri r x ∈ xs → ',' ∉ x) → Readable (.cursor xs)

end Colosseum
