import Verif.Model.Parser

/-!
# `/repo/src/colosseum/validators.py` and `Choices.validate` of `/repo/src/colosseum/constants.py`
-/

namespace Colosseum

/-- `except ValueError as error: raise ValidationError(...)`; other exceptions pass. -/
def toValidation {α : Type} : Res α → Res α
  | .error e => if e.isValueError then .error .validation else .error e
  | .ok a => .ok a

/-- `numeric_type` of `_numeric_validator` (`/repo/src/colosseum/validators.py:11`). -/
inductive NumType
  | int
  | float
deriving DecidableEq, Repr

/-- `int(v)` or `float(v)` (`/repo/src/colosseum/validators.py:13`): `ValueError` for a string that
is not a literal, `TypeError` for other objects. -/
def coerce (fp : FP) (t : NumType) (v : Val) : Res PyNum :=
  match t, v with
  | .int, .num x => x.trunc.map fun i => .fin (.int i)
  | .int, .str s =>
    match parseInt s with
    | some i => .ok (.fin (.int i))
    | none => .error .value
  | .float, .num x => .ok (x.toFloat fp)
  | .float, .str s =>
    match parseFloat fp s with
    | some x => .ok x
    | none => .error .value
  | _, _ => .error .type

/-- `min_value is not None and num_value < min_value` (`/repo/src/colosseum/validators.py:18`). -/
def belowMin (x : PyNum) : Option Num → Bool
  | none => false
  | some m => x.pyLt (.fin m)

/-- `max_value is not None and num_value > max_value` (`/repo/src/colosseum/validators.py:22`). -/
def aboveMax (x : PyNum) : Option Num → Bool
  | none => false
  | some m => (PyNum.fin m).pyLt x

/-- `_numeric_validator` (`/repo/src/colosseum/validators.py:11-26`), used by `is_number` (29-47) and
`is_integer` (53-71). -/
def numericValidator (fp : FP) (t : NumType) (lo hi : Option Num) (v : Val) : Res Val :=
  match coerce fp t v with
  | .error .overflow => .error .overflow
  | .error _ => raiseFmt .validation v
  | .ok x =>
    if belowMin x lo then .error .validation
    else if aboveMax x hi then .error .validation
    else .ok (.num x)

/-- `is_number` without bounds (`/repo/src/colosseum/validators.py:29-45`). -/
def isNumber (fp : FP) (v : Val) : Res Val := numericValidator fp .float none none v

/-- `is_integer` without bounds (`/repo/src/colosseum/validators.py:53-69`). -/
def isInteger (fp : FP) (v : Val) : Res Val := numericValidator fp .int none none v

/-- `is_length` (`/repo/src/colosseum/validators.py:77-83`). -/
def isLength (fp : FP) (v : Val) : Res Val := (toValidation (units fp v)).map .unit

/-- `is_percentage` (`/repo/src/colosseum/validators.py:89-103`). -/
def isPercentage (fp : FP) (v : Val) : Res Val :=
  match toValidation (units fp v) with
  | .error e => .error e
  | .ok u =>
    if u.kind = .len .percent then
      if u.val.pyLt (.fin (.int 0)) then raiseFmt .validation (.unit u)
      else .ok (.unit u)
    else raiseFmt .validation (.unit u)

/-- `is_color` (`/repo/src/colosseum/validators.py:109-115`). -/
def isColor (fp : FP) (at_ : List Nat) (v : Val) : Res Val := toValidation (color fp at_ v)

/-- `is_border_spacing` (`/repo/src/colosseum/validators.py:121-132`). -/
def isBorderSpacing (fp : FP) (at_ : List Nat) (v : Val) : Res Val :=
  toValidation (borderSpacing fp at_ v)

/-- `is_rect` (`/repo/src/colosseum/validators.py:138-145`). -/
def isRect (fp : FP) (v : Val) : Res Val := toValidation (rect fp v)

/-- `is_quote` (`/repo/src/colosseum/validators.py:151-158`). -/
def isQuote (E : Env) (v : Val) : Res Val :=
  match quotes E v with
  | .ok q => .ok q
  | .error e => if e.isValueError then raiseFmt .validation v else .error e

/-- `is_uri` (`/repo/src/colosseum/validators.py:176-183`). -/
def isUri (at_ : List Nat) (v : Val) : Res Val := toValidation (uri at_ v)

/-- `is_cursor` (`/repo/src/colosseum/validators.py:189-200`). -/
def isCursor (at_ : List Nat) (v : Val) : Res Val := toValidation (cursor at_ v)

/-- The validators that occur in a `Choices` (`/repo/src/colosseum/constants.py:105-716`). -/
inductive Validator
  | length | percentage | color | integer | number | borderSpacing | rect | quote | cursor
deriving DecidableEq, Repr

/-- Call a validator (`/repo/src/colosseum/constants.py:26`). -/
def Validator.run (E : Env) (at_ : List Nat) (v : Val) : Validator → Res Val
  | .length => isLength E.fp v
  | .percentage => isPercentage E.fp v
  | .color => isColor E.fp at_ v
  | .integer => isInteger E.fp v
  | .number => isNumber E.fp v
  | .borderSpacing => isBorderSpacing E.fp at_ v
  | .rect => isRect E.fp v
  | .quote => isQuote E v
  | .cursor => isCursor at_ v

/-- A `Choices` object (`/repo/src/colosseum/constants.py:18-21`). `self.constants` is a set in
Python; a list here (that the order does not matter is theorem `C60_...`). -/
structure Choices where
  constants : List Val
  validators : List Validator
  defaults : List Val

/-- The loop over validators (`/repo/src/colosseum/constants.py:24-29`): the first that does not raise
`ValidationError` decides; `none` when all raise it. -/
def tryValidators (E : Env) (at_ : List Nat) (v : Val) : List Validator → Option (Res Val)
  | [] => none
  | w :: ws =>
    match w.run E at_ v with
    | .ok r => some (.ok r)
    | .error .validation => tryValidators E at_ v ws
    | .error e => some (.error e)

/-- `if value == "none": value = None` (`/repo/src/colosseum/constants.py:31-32`). -/
def noneOf (v : Val) : Val := if v.pyEq (.str (lit "none")) then .none else v

/-- `for const in ...: if value == const: return const` (`/repo/src/colosseum/constants.py:34-40`). -/
def findConst (v : Val) (cs : List Val) : Option Val := cs.find? fun c => v.pyEq c

/-- `Choices.validate` (`/repo/src/colosseum/constants.py:23-42`). -/
def Choices.validate (c : Choices) (E : Env) (at_ : List Nat) (v : Val) : Res Val :=
  match tryValidators E at_ v c.validators with
  | some r => r
  | none =>
    match findConst (noneOf v) c.constants with
    | some k => .ok k
    | none =>
      match findConst (noneOf v) c.defaults with
      | some k => .ok k
      | none => .error .value

end Colosseum
