import Verif.Model.Units

/-!
# Python values that reach colosseum's parsers and the wrapper classes

`/repo/src/colosseum/{colors,wrappers,shapes}.py`.
-/

namespace Colosseum

/-- Object identity. `shared n` are module level objects, `heap p` objects created by the call
labelled `p`; a call that creates several objects appends an index to its label. -/
inductive Ref
  | shared (n : Nat)
  | heap (p : List Nat)
deriving DecidableEq, Repr

/-- `rgb` and `hsl` objects (`/repo/src/colosseum/colors.py:5-32`). The channels of an `rgb` are
integers, which is all the parser produces. -/
inductive Color
  | rgb (r g b : Int) (a : PyNum)
  | hsl (h s l : Num) (a : PyNum)
deriving DecidableEq, Repr

/-- A value produced by `ast.literal_eval`: a string, or something else of which only the text and
the result of `len` (`none`: `TypeError`) matter. -/
inductive QVal
  | str (s : PyStr)
  | other (text : PyStr) (len : Option Nat)
deriving DecidableEq, Repr

/-- An element of a `Cursor` (`/repo/src/colosseum/parser.py:443-478`): an option keyword or a
`Uri` object. -/
inductive CurItem
  | opt (s : PyStr)
  | uri (r : Ref) (s : PyStr)
deriving DecidableEq, Repr

/-- A Python value. `bool` is not modelled (it would be an `int`). -/
inductive Val
  /-- `None` -/
  | none
  /-- the `default` sentinel, `/repo/src/colosseum/constants.py:89` -/
  | dflt
  | str (s : PyStr)
  | num (x : PyNum)
  /-- a `BaseUnit` object, `/repo/src/colosseum/units.py:27` -/
  | unit (u : CUnit)
  /-- an `rgb`/`hsl` object, compared by identity, `/repo/src/colosseum/colors.py:5-54` -/
  | color (r : Ref) (c : Color)
  /-- a `Uri` object, compared by identity, `/repo/src/colosseum/wrappers.py:158-172` -/
  | uri (r : Ref) (s : PyStr)
  /-- a `Rect` object, fields in constructor order, `/repo/src/colosseum/shapes.py:4-8` -/
  | rect (a b c d : CUnit)
  /-- a `BorderSpacing` object, compared by identity, `/repo/src/colosseum/wrappers.py:4-40` -/
  | borderSpacing (r : Ref) (h : CUnit) (v : Option CUnit)
  /-- a `Quotes` object, `/repo/src/colosseum/wrappers.py:43-85` -/
  | quotes (q : List (QVal × QVal))
  /-- a `Cursor` object, `/repo/src/colosseum/wrappers.py:238-239` -/
  | cursor (xs : List CurItem)
  /-- a `tuple` or `list` -/
  | seq (isTuple : Bool) (xs : List Val)
  /-- any other object: not a number, string, sequence or colosseum value, no `split` method, not
  iterable, equal only to itself -/
  | obj (n : Nat)
deriving Repr

/-- Equality of two cursor items: strings by content, `Uri` objects by identity. -/
def CurItem.pyEq : CurItem → CurItem → Bool
  | .opt a, .opt b => a == b
  | .uri r _, .uri s _ => r == s
  | _, _ => false

/-- Element-wise equality of two `Cursor` lists (`list.__eq__`). -/
def curListEq : List CurItem → List CurItem → Bool
  | [], [] => true
  | a :: as, b :: bs => a.pyEq b && curListEq as bs
  | _, _ => false

/-- `a == b`. `PixelUnit.__eq__` (`/repo/src/colosseum/units.py:91-96`), the other unit classes
(lines 78-161), `Rect.__eq__` (`/repo/src/colosseum/shapes.py:10-17`), `Quotes.__eq__`
(`/repo/src/colosseum/wrappers.py:70-71`); colours, uris and border spacings define no `__eq__`.
The code never compares two plain sequences, which are unequal here. -/
def Val.pyEq : Val → Val → Bool
  | .none, .none => true
  | .dflt, .dflt => true
  | .str a, .str b => a == b
  | .num a, .num b => a.pyEq b
  | .unit a, .unit b => a.pyEq b
  | .unit a, .num b => a.kind == .len .px && b.isInt && a.val.pyEq b
  | .num b, .unit a => a.kind == .len .px && b.isInt && a.val.pyEq b
  | .color r _, .color s _ => r == s
  | .uri r _, .uri s _ => r == s
  | .rect a b c d, .rect a' b' c' d' => a.pyEq a' && b.pyEq b' && c.pyEq c' && d.pyEq d'
  | .borderSpacing r _ _, .borderSpacing s _ _ => r == s
  | .quotes a, .quotes b => a == b
  | .cursor a, .cursor b => curListEq a b
  | .obj a, .obj b => a == b
  | _, _ => false

/-- The exception raised by formatting a unit in an f-string: `BaseUnit.__repr__` calls
`int(self.val)` (`/repo/src/colosseum/units.py:36`). -/
def CUnit.fmtErr (u : CUnit) : Option Err :=
  match u.val with
  | .fin _ => .none
  | .inf _ => some .overflow
  | .nan => some .value

mutual
/-- The exception raised by formatting a value in an f-string, if any
(`/repo/src/colosseum/units.py:35-41`, `/repo/src/colosseum/shapes.py:19-23`,
`/repo/src/colosseum/wrappers.py:17-30`). -/
def Val.fmtErr : Val → Option Err
  | .unit u => u.fmtErr
  | .rect a b c d => a.fmtErr <|> b.fmtErr <|> c.fmtErr <|> d.fmtErr
  | .borderSpacing _ h v => h.fmtErr <|> v.bind CUnit.fmtErr
  | .seq _ xs => fmtErrList xs
  | _ => Option.none
/-- See `Val.fmtErr` (`list.__repr__` formats the elements in order). -/
def fmtErrList : List Val → Option Err
  | [] => Option.none
  | v :: vs => v.fmtErr <|> fmtErrList vs
end

/-- `raise X(f"... {v} ...")`. -/
def raiseFmt {α : Type} (e : Err) (v : Val) : Res α :=
  match v.fmtErr with
  | some e' => .error e'
  | .none => .error e

/-- The parts of the Python runtime the model takes as parameters: floating point, `repr` of a
float, and `ast.literal_eval` outside simple string literals (on a source text, and on `repr(x)`
for a non-string `x`). -/
structure Env where
  fp : FP
  reprFloat : Rat → PyStr
  literalEvalOther : PyStr → Res QVal
  evalReprOther : Val → Res QVal

end Colosseum
