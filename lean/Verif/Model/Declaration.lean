import Verif.Model.Constants

/-!
# `/repo/src/colosseum/declaration.py` and the shorthand parsers of `/repo/src/colosseum/parser.py`
-/

namespace Colosseum

/-- The `_name` attributes of a `CSS` object (`/repo/src/colosseum/declaration.py:151,206`). Only
single properties are ever stored: directional and shorthand setters store nothing themselves. -/
abbrev CSS := LH → Option Val

/-- `CSS()` (`/repo/src/colosseum/declaration.py:280-282`). -/
def CSS.empty : CSS := fun _ => none

/-- `setattr(self, "_name", v)`. -/
def CSS.store (c : CSS) (p : LH) (v : Val) : CSS := fun q => if q = p then some v else c q

/-- `delattr(self, "_name")` when present. -/
def CSS.erase (c : CSS) (p : LH) : CSS := fun q => if q = p then none else c q

/-- `initial` as a value, for the properties whose initial is a constant; the others are `None`
here and are never read through this function. -/
def LH.constInit (p : LH) : Val :=
  match p.initial with
  | .const v => v
  | _ => .none

/-- Getter of a property with a constant initial value
(`/repo/src/colosseum/declaration.py:188-195`). -/
def CSS.get (c : CSS) (p : LH) : Val := (c p).getD p.constInit

/-- Getter (`/repo/src/colosseum/declaration.py:188-195`), with `OtherProperty.value`
(`/repo/src/colosseum/constants.py:68-72`) and `TextAlignInitialValue.value`
(`/repo/src/colosseum/constants.py:435-444`). The initial value is computed even when a value is
stored. -/
def CSS.read (c : CSS) (p : LH) : Res Val :=
  match p.initial with
  | .const v => .ok ((c p).getD v)
  | .other q => .ok ((c p).getD (c.get q))
  | .textAlign =>
    let direction := c.get .direction
    if direction.pyEq (kw "ltr") then .ok ((c p).getD (kw "left"))
    else if direction.pyEq (kw "rtl") then .ok ((c p).getD (kw "right"))
    else .error .value

/-- What `CSS.dirty` refers to (`/repo/src/colosseum/declaration.py:669-677`): no node, a node whose
`layout` is `None`, or a node whose box has the given dirty flag. -/
inductive Link
  | unbound
  | noBox
  | box (dirty : Option Bool)
deriving DecidableEq, Repr

/-- A declaration together with the box it is attached to. -/
structure Decl where
  css : CSS
  link : Link

/-- State after an operation and the exception it raised, if any. -/
abbrev Out := Decl × Option Err

/-- Statement sequencing: the next statement runs only if nothing was raised. -/
def Out.andThen (o : Out) (f : Decl → Out) : Out :=
  match o with
  | (d, none) => f d
  | (d, some e) => (d, some e)

/-- `self.dirty = True` (`/repo/src/colosseum/declaration.py:674-677`). -/
def Decl.markDirty (d : Decl) : Out :=
  match d.link with
  | .unbound => (d, none)
  | .noBox => (d, some .attribute)
  | .box _ => ({ d with link := .box (some true) }, none)

/-- `value != getattr(self, "_name", initial)` (`/repo/src/colosseum/declaration.py:205`): an
`OtherProperty` or `TextAlignInitialValue` object differs from every value. -/
def differs (c : CSS) (p : LH) (w : Val) : Bool :=
  match c p with
  | some v => !w.pyEq v
  | none =>
    match p.initial with
    | .const v => !w.pyEq v
    | _ => true

/-- Setter of a single property (`/repo/src/colosseum/declaration.py:197-207`). -/
def Decl.set (E : Env) (at_ : List Nat) (d : Decl) (p : LH) (v : Val) : Out :=
  match p.choices.validate E at_ v with
  | .error e =>
    if e.isValueError then
      match v.fmtErr with
      | some e' => (d, some e')
      | none => (d, some .value)
    else (d, some e)
  | .ok w =>
    if differs d.css p w then Decl.markDirty { d with css := d.css.store p w }
    else (d, none)

/-- Deleter of a single property (`/repo/src/colosseum/declaration.py:209-215`): an `AttributeError`
of `self.dirty = True` is swallowed too. -/
def Decl.del (d : Decl) (p : LH) : Decl :=
  match d.css p with
  | none => d
  | some _ => (Decl.markDirty { d with css := d.css.erase p }).1

/-- The single property a directional property proxies on a side
(`/repo/src/colosseum/declaration.py:226-229`). -/
def Dir.side : Dir → Side → LH
  | .margin, s => .margin s
  | .padding, s => .padding s
  | .borderWidth, s => .borderWidth s
  | .borderColor, s => .borderColor s
  | .borderStyle, s => .borderStyle s

/-- Set the four sides in order top, right, bottom, left. -/
def Decl.setSides (E : Env) (at_ : List Nat) (d : Decl) (k : Dir) (t r b l : Val) : Out :=
  ((((d.set E (0 :: at_) (k.side .top) t).andThen
      fun d => d.set E (1 :: at_) (k.side .right) r).andThen
      fun d => d.set E (2 :: at_) (k.side .bottom) b).andThen
      fun d => d.set E (3 :: at_) (k.side .left) l)

/-- Setter of a directional property (`/repo/src/colosseum/declaration.py:232-263`). -/
def Decl.setDir (E : Env) (at_ : List Nat) (d : Decl) (k : Dir) (v : Val) : Out :=
  match v with
  | .seq true [a, b, c, e] => d.setSides E at_ k a b c e
  | .seq true [a, b, c] => d.setSides E at_ k a b c b
  | .seq true [a, b] => d.setSides E at_ k a b a b
  | .seq true [a] => d.setSides E at_ k a a a a
  | .seq true _ => (d, some .value)
  | v => d.setSides E at_ k v v v v

/-- Deleter of a directional property (`/repo/src/colosseum/declaration.py:265-269`). -/
def Decl.delDir (d : Decl) (k : Dir) : Decl :=
  (((d.del (k.side .top)).del (k.side .right)).del (k.side .bottom)).del (k.side .left)

/-- Getter of a directional property (`/repo/src/colosseum/declaration.py:224-230`): top, right,
bottom, left. -/
def CSS.readDir (c : CSS) (k : Dir) : Res (Val × Val × Val × Val) := do
  let t ← c.read (k.side .top)
  let r ← c.read (k.side .right)
  let b ← c.read (k.side .bottom)
  let l ← c.read (k.side .left)
  pure (t, r, b, l)

/-- What a part of a shorthand value denotes. -/
inductive Part
  | width | style | color
deriving DecidableEq, Repr

/-- Attempt order and choices of the parts of a shorthand: `outline`
(`/repo/src/colosseum/parser.py:258-262`) tries colour, style, width; `border`
(`/repo/src/colosseum/parser.py:325-329`) tries width, style, colour. -/
def SH.tries : SH → List (Part × Choices)
  | .outline => [(.color, outlineColorChoices), (.style, outlineStyleChoices),
      (.width, outlineWidthChoices)]
  | _ => [(.width, borderWidthChoices), (.style, borderStyleChoices), (.color, borderColorChoices)]

/-- `_parse_outline_property_part` / `_parse_border_property_part`
(`/repo/src/colosseum/parser.py:250-274,316-343`): the first choices object that accepts the value,
the dictionary being an association list. -/
def parsePart (E : Env) (at_ : List Nat) (v : Val) (dict : List (Part × Val)) :
    List (Part × Choices) → Res (List (Part × Val))
  | [] => raiseFmt .value v
  | (k, c) :: rest =>
    match c.validate E at_ v with
    | .error e => if e.isValueError then parsePart E at_ v dict rest else .error e
    | .ok w => if dict.any (fun x => x.1 == k) then .error .value else .ok (dict ++ [(k, w)])

/-- The loop over the parts (`/repo/src/colosseum/parser.py:303-308,371-378`): more than three parts
are refused when the fourth is reached. -/
def parseParts (E : Env) (at_ : List Nat) (tries : List (Part × Choices)) :
    Nat → List (Part × Val) → List Val → Res (List (Part × Val))
  | _, dict, [] => .ok dict
  | idx, dict, v :: vs =>
    if idx > 2 then .error .value
    else
      match parsePart E (idx :: at_) v dict tries with
      | .error e => .error e
      | .ok dict => parseParts E at_ tries (idx + 1) dict vs

/-- `parser.border`, `parser.border_<side>`, `parser.outline`
(`/repo/src/colosseum/parser.py:277-310,346-400`). `if value:` is false for `None`, `0`, `""` and
empty sequences, all of which are refused just as the other non-sequences. -/
def parseShorthand (E : Env) (at_ : List Nat) (s : SH) (v : Val) : Res (List (Part × Val)) :=
  match v with
  | .str [] => .error .value
  | .str t => parseParts E at_ s.tries 0 [] ((splitWs t).map fun w => .str (strip w))
  | v =>
    match asSeq v with
    | some [] => .error .value
    | some xs => parseParts E at_ s.tries 0 [] xs
    | none => raiseFmt .value v

/-- `wrapper.VALID_KEYS` in order (`/repo/src/colosseum/wrappers.py:134-155`). -/
def SH.keys : SH → List (Part × Attr)
  | .outline => [(.color, .lh .outlineColor), (.style, .lh .outlineStyle), (.width, .lh .outlineWidth)]
  | .border => [(.width, .dir .borderWidth), (.style, .dir .borderStyle), (.color, .dir .borderColor)]
  | .borderSide s => [(.width, .lh (.borderWidth s)), (.style, .lh (.borderStyle s)),
      (.color, .lh (.borderColor s))]

/-- `setattr(self, name, v)` for a single or directional property. -/
def Decl.setBasic (E : Env) (at_ : List Nat) (d : Decl) (a : Attr) (v : Val) : Out :=
  match a with
  | .lh p => d.set E at_ p v
  | .dir k => d.setDir E at_ k v
  | .sh _ => (d, none)

/-- `delattr(self, name)` for a single or directional property. -/
def Decl.delBasic (d : Decl) (a : Attr) : Decl :=
  match a with
  | .lh p => d.del p
  | .dir k => d.delDir k
  | .sh _ => d

/-- The value of a key in the dictionary of a shorthand. -/
def lookupPart (k : Part) (dict : List (Part × Val)) : Option Val :=
  (dict.find? fun x => x.1 == k).map (·.2)

/-- The loop of the shorthand setter (`/repo/src/colosseum/declaration.py:120-124`). -/
def applyParts (E : Env) (at_ : List Nat) (dict : List (Part × Val)) :
    List (Part × Attr) → Decl → Out
  | [], d => (d, none)
  | (k, a) :: rest, d =>
    (match lookupPart k dict with
      | some w => d.setBasic E at_ a w
      | none => (d.delBasic a, none)).andThen (applyParts E at_ dict rest)

/-- Setter of a shorthand property (`/repo/src/colosseum/declaration.py:111-128`). -/
def Decl.setSH (E : Env) (at_ : List Nat) (d : Decl) (s : SH) (v : Val) : Out :=
  match parseShorthand E at_ s v with
  | .error .validation => (d, some .value)
  | .error e => (d, some e)
  | .ok dict => (applyParts E (9 :: at_) dict s.keys d).andThen Decl.markDirty

/-- The loop of the shorthand deleter (`/repo/src/colosseum/declaration.py:130-137`): `self.dirty =
True` runs for every key, an `AttributeError` is swallowed. -/
def delKeys : List (Part × Attr) → Decl → Decl
  | [], d => d
  | (_, a) :: rest, d => delKeys rest ((d.delBasic a).markDirty).1

/-- Deleter of a shorthand property (`/repo/src/colosseum/declaration.py:130-137`). -/
def Decl.delSH (d : Decl) (s : SH) : Decl := delKeys s.keys d

/-- Getter of a shorthand property (`/repo/src/colosseum/declaration.py:100-109`): the stored values
in key order; `""` when there are none. Directional keys (`border`) are never stored. -/
def CSS.readSH (c : CSS) (s : SH) : List (Attr × Val) :=
  s.keys.filterMap fun (_, a) =>
    match a with
    | .lh p => (c p).map fun v => (a, v)
    | _ => none

/-- `setattr(self, name, v)` for any property. -/
def Decl.setAttr (E : Env) (at_ : List Nat) (d : Decl) (a : Attr) (v : Val) : Out :=
  match a with
  | .lh p => d.set E at_ p v
  | .dir k => d.setDir E at_ k v
  | .sh s => d.setSH E at_ s v

/-- `delattr(self, name)` for any property; no deleter raises. -/
def Decl.delAttr (d : Decl) (a : Attr) : Decl :=
  match a with
  | .lh p => d.del p
  | .dir k => d.delDir k
  | .sh s => d.delSH s

/-- `name.replace("-", "_")` (`/repo/src/colosseum/declaration.py:691,712,718,725`). -/
def normName (n : PyStr) : PyStr := replaceChar '-' '_' n

/-- One iteration of `update` (`/repo/src/colosseum/declaration.py:690-698`). -/
def Decl.updateOne (E : Env) (at_ : List Nat) (d : Decl) (n : PyStr) (v : Val) : Out :=
  match attrOfName (normName n) with
  | none => (d, some .name)
  | some a =>
    match v with
    | .none => (d.delAttr a, none)
    | v => d.setAttr E at_ a v

/-- `CSS.update` (`/repo/src/colosseum/declaration.py:688-698`); the keyword arguments are given in
order. The `i`-th assignment is labelled `i :: at_`. -/
def Decl.updateFrom (E : Env) (at_ : List Nat) : Nat → Decl → List (PyStr × Val) → Out
  | _, d, [] => (d, none)
  | i, d, (n, v) :: r => (d.updateOne E (i :: at_) n v).andThen fun d => Decl.updateFrom E at_ (i + 1) d r

/-- `CSS.update` (`/repo/src/colosseum/declaration.py:688-698`). -/
def Decl.update (E : Env) (at_ : List Nat) (d : Decl) (kvs : List (PyStr × Val)) : Out :=
  Decl.updateFrom E at_ 0 d kvs

/-- `CSS.__setitem__` (`/repo/src/colosseum/declaration.py:717-722`). -/
def Decl.setItem (E : Env) (at_ : List Nat) (d : Decl) (n : PyStr) (v : Val) : Out :=
  match attrOfName (normName n) with
  | none => (d, some .key)
  | some a => d.setAttr E at_ a v

/-- `CSS.__delitem__` (`/repo/src/colosseum/declaration.py:724-732`). -/
def Decl.delItem (d : Decl) (n : PyStr) : Out :=
  match attrOfName (normName n) with
  | none => (d, some .key)
  | some a => (d.delAttr a, none)

/-- The value `CSS.__getitem__` returns. -/
inductive Got
  | one (v : Val)
  | four (t r b l : Val)
  | parts (xs : List (Attr × Val))

/-- The getter of any property. -/
def CSS.readAttr (c : CSS) (a : Attr) : Res Got :=
  match a with
  | .lh p => (c.read p).map .one
  | .dir k => (c.readDir k).map fun (t, r, b, l) => .four t r b l
  | .sh s => .ok (.parts (c.readSH s))

/-- `CSS.__getitem__` (`/repo/src/colosseum/declaration.py:711-715`). -/
def CSS.getItem (c : CSS) (n : PyStr) : Res Got :=
  match attrOfName (normName n) with
  | none => .error .key
  | some a => c.readAttr a

/-- The loop of `copy` (`/repo/src/colosseum/declaration.py:704-708`) over the stored properties in
some order of the set `_CSS_PROPERTIES`: `AttributeError` of a setter is swallowed, any other
exception ends the copy. `i` labels the objects created. -/
def copyLoop (E : Env) (at_ : List Nat) (src : CSS) : Nat → List LH → Decl → Out
  | _, [], d => (d, none)
  | i, p :: ps, d =>
    match src p with
    | none => copyLoop E at_ src (i + 1) ps d
    | some v =>
      match d.set E (i :: at_) p v with
      | (d', none) => copyLoop E at_ src (i + 1) ps d'
      | (d', some .attribute) => copyLoop E at_ src (i + 1) ps d'
      | (d', some e) => (d', some e)

/-- `CSS.copy(node)` (`/repo/src/colosseum/declaration.py:700-709`): `order` is the order in which the
set is iterated (the names that are not single properties have no stored value and are skipped). -/
def CSS.copy (E : Env) (at_ : List Nat) (order : List LH) (src : CSS) (link : Link) : Out :=
  copyLoop E at_ src 0 order ⟨CSS.empty, link⟩

/-- `CSS.keys()` (`/repo/src/colosseum/declaration.py:743-748`), as a list without order. -/
def CSS.keys (c : CSS) : List LH := allLH.filter fun p => (c p).isSome

/-- `CSS.items()` (`/repo/src/colosseum/declaration.py:734-741`), in the order of `allLH`. -/
def CSS.items (c : CSS) : List (LH × Val) :=
  allLH.filterMap fun p => (c p).map fun v => (p, v)

/-- Lexicographic comparison of strings by code point. -/
def strLe : PyStr → PyStr → Bool
  | [], _ => true
  | _ :: _, [] => false
  | a :: as, b :: bs => if a = b then strLe as bs else decide (a.toNat < b.toNat)

/-- Insert into a list sorted by name. -/
def insertByName (x : PyStr × Val) : List (PyStr × Val) → List (PyStr × Val)
  | [] => [x]
  | y :: ys => if strLe x.1 y.1 then x :: y :: ys else y :: insertByName x ys

/-- `sorted(non_default)` (`/repo/src/colosseum/declaration.py:761`): names are distinct, so the values
are never compared. -/
def sortByName : List (PyStr × Val) → List (PyStr × Val)
  | [] => []
  | x :: xs => insertByName x (sortByName xs)

/-- The `(name, value)` pairs rendered by `CSS.__str__`, in order
(`/repo/src/colosseum/declaration.py:753-761`). -/
def CSS.rendered (c : CSS) : List (PyStr × Val) :=
  sortByName (c.items.map fun (p, v) => (replaceChar '_' '-' p.name, v))

/-- `"; ".join(f"{name}: {value}" ...)`; `showVal` is `str` of a value
(`/repo/src/colosseum/declaration.py:761`). -/
def CSS.show (showVal : Val → PyStr) (c : CSS) : PyStr :=
  go (c.rendered.map fun (n, v) => n ++ lit ": " ++ showVal v)
where
  /-- `"; ".join` -/
  go : List PyStr → PyStr
    | [] => []
    | [a] => a
    | a :: b :: r => a ++ lit "; " ++ go (b :: r)

end Colosseum
