import Verif.Model.Print

/-!
# `Shorthand` objects

`/repo/src/colosseum/wrappers.py:88-155` and the getter of the shorthand properties
(`/repo/src/colosseum/declaration.py:100-109`).
-/

namespace Colosseum

/-- `repr` of a pair of quotes. -/
def Printer.tuple (P : Printer) (p : QVal × QVal) : PyStr := lit "(" ++ P.qval p.1 ++ lit ", " ++ P.qval p.2 ++ lit ")"

/-- `repr` of an item of a `Cursor` (`/repo/src/colosseum/wrappers.py:164-165`). -/
def Printer.cursorItem (P : Printer) : CurItem → PyStr
  | .opt s => P.strRepr s
  | .uri _ x => uriShow x

/-- `BorderSpacing.__repr__` (`/repo/src/colosseum/wrappers.py:17-22`). -/
def borderSpacingRepr (reprFloat : Rat → PyStr) (h : CUnit) (v : Option CUnit) : Res PyStr :=
  match v with
  | none => do
    let h ← h.repr reprFloat
    pure (lit "BorderSpacing(" ++ h ++ lit ")")
  | some w => do
    let h ← h.repr reprFloat
    let w ← w.repr reprFloat
    pure (lit "BorderSpacing(" ++ h ++ lit ", " ++ w ++ lit ")")

/-- `repr(v)`: as `str(v)` for units, colours, urls and rectangles, which define no other text
(`/repo/src/colosseum/units.py:35-41`, `/repo/src/colosseum/colors.py:14,31`, `/repo/src/colosseum/shapes.py:19-23`,
`/repo/src/colosseum/wrappers.py:17-22,55-57,164-168,200-207`). -/
def Printer.repr (P : Printer) : Val → Res PyStr
  | .str s => .ok (P.strRepr s)
  | .borderSpacing _ h v => borderSpacingRepr P.reprFloat h v
  | .quotes q => .ok (lit "Quotes([" ++ List.intercalate (lit ", ") (q.map P.tuple) ++ lit "])")
  | .cursor [] => .ok (lit "Cursor()")
  | .cursor xs => .ok (lit "Cursor([" ++ List.intercalate (lit ", ") (xs.map P.cursorItem) ++ lit "])")
  | v => P.str v

/-- The subclass of `Shorthand` a property uses (`/repo/src/colosseum/wrappers.py:134-155`). -/
def SH.className : SH → PyStr
  | .outline => lit "Outline"
  | .border => lit "Border"
  | .borderSide .top => lit "BorderTop"
  | .borderSide .right => lit "BorderRight"
  | .borderSide .bottom => lit "BorderBottom"
  | .borderSide .left => lit "BorderLeft"

/-- `VALID_KEYS` (`/repo/src/colosseum/wrappers.py:134-155`). -/
def SH.validKeys (s : SH) : List PyStr := s.keys.map fun x => x.2.name

/-- A `Shorthand` object: its class and its `__dict__`. -/
structure Wrapped where
  cls : SH
  dict : List (PyStr × Val)

/-- `getattr(self, name)`, `none` for `AttributeError`; names of methods aside. -/
def Wrapped.attr (o : Wrapped) (n : PyStr) : Option Val := o.dict.lookup n

/-- `Shorthand.__init__(**kwargs)` (`/repo/src/colosseum/wrappers.py:91-100`) of a subclass, all of which define `VALID_KEYS`; the names of the
keyword arguments are distinct. -/
def Wrapped.make (s : SH) (kwargs : List (PyStr × Val)) : Res Wrapped :=
  if kwargs.all fun x => s.validKeys.contains x.1 then .ok ⟨s, kwargs⟩ else .error .value

/-- `Shorthand.to_dict` (`/repo/src/colosseum/wrappers.py:124-131`). -/
def Wrapped.toDict (o : Wrapped) : List (PyStr × Val) :=
  o.cls.validKeys.filterMap fun k => (o.attr k).map fun v => (k, v)

/-- `==` of two `OrderedDict`s. -/
def dictEq : List (PyStr × Val) → List (PyStr × Val) → Bool
  | [], [] => true
  | (k, v) :: r, (k', v') :: r' => k == k' && v.pyEq v' && dictEq r r'
  | _, _ => false

/-- `Shorthand.__eq__` (`/repo/src/colosseum/wrappers.py:102-103`). -/
def Wrapped.pyEq (o o' : Wrapped) : Bool := o'.cls == o.cls && dictEq o.toDict o'.toDict

/-- The texts of a dictionary in order; the first value that has none raises. -/
def textsOf (f : PyStr → Val → Res PyStr) : List (PyStr × Val) → Res (List PyStr)
  | [] => .ok []
  | (k, v) :: r => do
    let t ← f k v
    let ts ← textsOf f r
    pure (t :: ts)

/-- `Shorthand.__str__` (`/repo/src/colosseum/wrappers.py:117-122`). -/
def Printer.wrapped (P : Printer) (o : Wrapped) : Res PyStr := do
  let ts ← textsOf (fun _ v => P.str v) o.toDict
  pure (List.intercalate (lit " ") ts)

/-- `s.format(**properties)`: `s` itself when it has no braces; `other` stands for the result when there are some. -/
def formatText (other : PyStr → Res PyStr) (s : PyStr) : Res PyStr :=
  if '{' ∈ s ∨ '}' ∈ s then other s else .ok s

/-- `Shorthand.__repr__` (`/repo/src/colosseum/wrappers.py:105-115`): the text is passed through `format` a second time. -/
def Printer.wrappedRepr (P : Printer) (other : PyStr → Res PyStr) (o : Wrapped) : Res PyStr := do
  let ts ← textsOf (fun k v => do let t ← P.repr v; pure (k ++ lit "=" ++ t)) o.toDict
  formatText other (o.cls.className ++ lit "(" ++ List.intercalate (lit ", ") ts ++ lit ")")

/-- What a shorthand property reads as: `""` (here `none`) or an object. -/
abbrev ShRead := Option Wrapped

/-- Getter of a shorthand property (`/repo/src/colosseum/declaration.py:100-109`): the stored values of the keys, in the order of the keys. -/
def CSS.shorthand (c : CSS) (s : SH) : Res ShRead :=
  match c.readSH s with
  | [] => .ok none
  | xs => (Wrapped.make s (xs.map fun x => (x.1.name, x.2))).map some

/-- `==` of two things a shorthand property reads as. -/
def ShRead.pyEq : ShRead → ShRead → Bool
  | none, none => true
  | some o, some o' => o.pyEq o'
  | _, _ => false

/-- `str` of what a shorthand property reads as. -/
def Printer.read (P : Printer) : ShRead → Res PyStr
  | none => .ok []
  | some o => P.wrapped o

end Colosseum
