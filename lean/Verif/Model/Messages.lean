import Verif.Model.Print

/-!
# Error messages of the setters

`Choices.__str__` (`/repo/src/colosseum/constants.py:44-53`) and the messages of the setters
(`/repo/src/colosseum/declaration.py:111-116,197-203`).
-/

namespace Colosseum

/-- The `description` of a validator (`/repo/src/colosseum/validators.py:50,74,86,106,118,135,148,161,203-207`). -/
def Validator.description : Validator → PyStr
  | .length => lit "<length>"
  | .percentage => lit "<percentage>"
  | .color => lit "<color>"
  | .integer => lit "<integer>"
  | .number => lit "<number>"
  | .borderSpacing => lit "<length> <length>?"
  | .rect => lit "<rect>"
  | .quote => lit "[<string> <string>]+"
  | .cursor => lit "[ [<uri> ,]* [ auto | crosshair | default | pointer | move | e-resize | ne-resize | nw-resize | n-resize | se-resize | sw-resize | s-resize | w-resize | text | wait | help | progress ] ]"

/-- `str(c).lower().replace("_", "-")` (`/repo/src/colosseum/constants.py:45`); see `lower`. -/
def Printer.constant (P : Printer) (c : Val) : Res PyStr := (P.str c).map fun s => replaceChar '_' '-' (lower s)

/-- An item of `explicit_defaulting_constants` as a text (`/repo/src/colosseum/constants.py:49-51`): texts are added as they are; anything else could not
be sorted. -/
def defaultText : Val → Res PyStr
  | .str s => .ok s
  | _ => .error .type

/-- The texts added to the set `choices`, in order (`/repo/src/colosseum/constants.py:45-51`). -/
def Printer.texts (P : Printer) (c : Choices) : Res (List PyStr) := do
  let xs ← c.constants.mapM P.constant
  let ds ← c.defaults.mapM defaultText
  pure (xs ++ c.validators.map Validator.description ++ ds)

/-- Add a text to a set of texts, kept in order. -/
def addText (x : PyStr) : List PyStr → List PyStr
  | [] => [x]
  | y :: ys => if x = y then y :: ys else if strLe x y then x :: y :: ys else y :: addText x ys

/-- `sorted(choices)` (`/repo/src/colosseum/constants.py:53`). -/
def sortedSet : List PyStr → List PyStr
  | [] => []
  | x :: xs => addText x (sortedSet xs)

/-- `Choices.__str__` (`/repo/src/colosseum/constants.py:44-53`). -/
def Printer.choices (P : Printer) (c : Choices) : Res PyStr := do
  let xs ← P.texts c
  pure (List.intercalate (lit ", ") (sortedSet xs))

/-- The message of the `ValueError` of the setter of a single property (`/repo/src/colosseum/declaration.py:201-203`). -/
def Printer.refusal (P : Printer) (p : LH) (v : Val) : Res PyStr := do
  let t ← P.str v
  let c ← P.choices p.choices
  pure (lit "Invalid value '" ++ t ++ lit "' for CSS property '" ++ p.name ++ lit "'; Valid values are: " ++ c)

/-- The message the setter of a single property gives to its `ValueError`, if it raises one (`/repo/src/colosseum/declaration.py:197-203`); an error
while making the message replaces it. -/
def Printer.setMessage (P : Printer) (E : Env) (at_ : List Nat) (p : LH) (v : Val) : Option (Res PyStr) :=
  match p.choices.validate E at_ v with
  | .error e => if e.isValueError then some (P.refusal p v) else none
  | .ok _ => none

/-- The message the setter of a shorthand property gives to its `ValueError`, if it raises one itself (`/repo/src/colosseum/declaration.py:111-116`); it
only replaces a `ValidationError` of the parser. -/
def Printer.shorthandMessage (P : Printer) (E : Env) (at_ : List Nat) (s : SH) (v : Val) : Option (Res PyStr) :=
  match parseShorthand E at_ s v with
  | .error .validation => some ((P.str v).map fun t => lit "Invalid value '" ++ t ++ lit "' for CSS property '" ++ s.name ++ lit "'!")
  | _ => none

end Colosseum
