import Verif.Model.Declaration

/-!
# The functions that define properties: `validated_property` and `unvalidated_property` of `/repo/src/colosseum/declaration.py`

`Model/Declaration` follows the 70 properties of the class `CSS`. Here the two functions take any choices and any initial value, as they do in the code; one
attribute is followed. `C` is the type of the object (`self`) as far as a computed initial value looks at it.
-/

namespace Colosseum

/-- The attribute `value` of an object given as an initial value (`/repo/src/colosseum/declaration.py:174-181`): missing, not callable, or a method. -/
inductive Member (C : Type)
  | missing
  | plain
  | method (run : C → Res Val)

/-- The argument `initial` (`/repo/src/colosseum/declaration.py:143,168`): a value, none of which has an attribute `value`
(`/repo/src/colosseum/units.py`, `colors.py`, `shapes.py`, `wrappers.py`), or some other object. -/
inductive Given (C : Type)
  | val (v : Val)
  | obj (n : Nat) (value : Member C)

/-- The argument as it is passed to `choices.validate`. -/
def Given.asVal {C : Type} : Given C → Val
  | .val v => v
  | .obj n _ => .obj n

/-- The body of `validated_property` (`/repo/src/colosseum/declaration.py:170-186`). -/
def defineValidated {C : Type} (E : Env) (at_ : List Nat) (ch : Choices) (g : Given C) : Res (Given C) :=
  match ch.validate E at_ g.asVal with
  | .ok w => .ok (.val w)
  | .error e =>
    if e.isValueError then
      match g with
      | .val v => raiseFmt .value v
      | .obj _ .missing => .error .value
      | .obj _ .plain => .error .value
      | .obj n (.method f) => .ok (.obj n (.method f))
    else .error e

/-- The body of `unvalidated_property` (`/repo/src/colosseum/declaration.py:143-145`): the exception of `validate` is not caught. -/
def defineUnvalidated (E : Env) (at_ : List Nat) (ch : Choices) (v : Val) : Res Val := ch.validate E at_ v

/-- The attribute `_name` of one object and what its `dirty` refers to. -/
structure Cell where
  stored : Option Val
  link : Link

/-- `self.dirty = True` (`/repo/src/colosseum/declaration.py:674-677`). -/
def Cell.markDirty (c : Cell) : Cell × Option Err :=
  match c.link with
  | .unbound => (c, none)
  | .noBox => (c, some .attribute)
  | .box _ => ({ c with link := .box (some true) }, none)

/-- Getter of `validated_property` (`/repo/src/colosseum/declaration.py:188-195`): an `AttributeError` of the method `value` is caught, and the object
itself is taken. -/
def Cell.get {C : Type} (c : Cell) (init : Given C) (self : C) : Res Val :=
  match init with
  | .val v => .ok (c.stored.getD v)
  | .obj n (.method f) =>
    match f self with
    | .ok v => .ok (c.stored.getD v)
    | .error .attribute => .ok (c.stored.getD (.obj n))
    | .error e => .error e
  | .obj n .missing => .ok (c.stored.getD (.obj n))
  | .obj _ .plain => .error .type

/-- `value != getattr(self, "_name", initial)` (`/repo/src/colosseum/declaration.py:151,205`). An object is the initial value of a validated property only if
the choices refused it, so no value the choices return is equal to it. -/
def Cell.differs {C : Type} (c : Cell) (init : Given C) (w : Val) : Bool :=
  match c.stored with
  | some v => !w.pyEq v
  | none =>
    match init with
    | .val v => !w.pyEq v
    | .obj _ _ => true

/-- `if value != …: setattr(…); self.dirty = True` (`/repo/src/colosseum/declaration.py:151-153,205-207`). -/
def Cell.put {C : Type} (c : Cell) (init : Given C) (w : Val) : Cell × Option Err :=
  if c.differs init w then Cell.markDirty { c with stored := some w } else (c, none)

/-- Setter of `validated_property` (`/repo/src/colosseum/declaration.py:197-207`). -/
def Cell.set {C : Type} (E : Env) (at_ : List Nat) (ch : Choices) (init : Given C) (c : Cell) (v : Val) : Cell × Option Err :=
  match ch.validate E at_ v with
  | .error e =>
    if e.isValueError then
      match v.fmtErr with
      | some e' => (c, some e')
      | none => (c, some .value)
    else (c, some e)
  | .ok w => c.put init w

/-- Deleter (`/repo/src/colosseum/declaration.py:155-161,209-215`). -/
def Cell.del (c : Cell) : Cell :=
  match c.stored with
  | none => c
  | some _ => (Cell.markDirty { c with stored := none }).1

/-- A use of the attribute: an assignment or a deletion. -/
inductive Use
  | set (v : Val)
  | del

/-- A sequence of uses of a validated attribute; an exception ends a use, not the sequence. -/
def Cell.run {C : Type} (E : Env) (ch : Choices) (init : Given C) : Nat → Cell → List Use → Cell
  | _, c, [] => c
  | i, c, .set v :: us => Cell.run E ch init (i + 1) (c.set E [i] ch init v).1 us
  | i, c, .del :: us => Cell.run E ch init (i + 1) c.del us

/-- A sequence of uses of an unvalidated attribute (setter: `/repo/src/colosseum/declaration.py:150-153`). -/
def Cell.runRaw (init : Val) : Cell → List Use → Cell
  | c, [] => c
  | c, .set v :: us => Cell.runRaw init (c.put (.val init : Given Unit) v).1 us
  | c, .del :: us => Cell.runRaw init c.del us

/-- The initial value of a property of `CSS` as an argument: `OtherProperty` (`/repo/src/colosseum/constants.py:56-72`) and `TextAlignInitialValue`
(`/repo/src/colosseum/constants.py:432-444`) are objects with a method `value`. -/
def LH.given (p : LH) : Given CSS :=
  match p.initial with
  | .const v => .val v
  | .other q => .obj 0 (.method fun c => .ok (c.get q))
  | .textAlign => .obj 1 (.method fun c =>
      let direction := c.get .direction
      if direction.pyEq (kw "ltr") then .ok (kw "left")
      else if direction.pyEq (kw "rtl") then .ok (kw "right")
      else .error .value)

/-- The definitions of flexbox and grid properties that are commented out (`/repo/src/colosseum/declaration.py:593-663`), with their choices
(`/repo/src/colosseum/constants.py:646-716`) and initial values. -/
def commentedOut : List (String × Choices × Val) :=
  let row := kw "row"
  let column := kw "column"
  let int (n : Int) : Val := .num (.fin (.int n))
  let aligned : Choices := ⟨[kw "auto", kw "flex-start", kw "flex-end", kw "center", kw "baseline", kw "stretch"], [], []⟩
  let justified := [kw "flex-start", kw "flex-end", kw "center", kw "space-between", kw "space-around"]
  let number : Choices := ⟨[], [.number], []⟩
  let none : Choices := ⟨[.none], [], []⟩
  let auto : Choices := ⟨[kw "auto"], [], []⟩
  [("flex_direction", ⟨[row, kw "row-reverse", column, kw "column-reverse"], [], []⟩, row),
   ("flex_wrap", ⟨[kw "no-wrap", kw "wrap", kw "wrap-reverse"], [], []⟩, kw "no-wrap"),
   ("order", ⟨[], [.integer], []⟩, int 0),
   ("flex_grow", number, int 0),
   ("flex_shrink", number, int 1),
   ("flex_basis", ⟨[kw "content", kw "auto"], [.length, .percentage], []⟩, kw "auto"),
   ("justify_content", ⟨justified, [], []⟩, kw "flex-start"),
   ("align_items", aligned, kw "stretch"),
   ("align_self", aligned, kw "auto"),
   ("align_content", ⟨justified ++ [kw "stretch"], [], []⟩, kw "stretch"),
   ("grid_template_columns", none, .none),
   ("grid_template_rows", none, .none),
   ("grid_template_areas", none, .none),
   ("grid_auto_columns", auto, kw "auto"),
   ("grid_auto_rows", auto, kw "auto"),
   ("grid_auto_flow", ⟨[row, column, kw "dense"], [], []⟩, row),
   ("grid_row_start", auto, kw "auto"),
   ("grid_column_start", auto, kw "auto"),
   ("grid_row_end", auto, kw "auto"),
   ("grid_column_end", auto, kw "auto"),
   ("grid_row_gap", gridGapChoices, int 0),
   ("grid_column_gap", gridGapChoices, int 0)]

end Colosseum
