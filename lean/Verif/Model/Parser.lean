import Verif.Model.Colors

/-!
# `/repo/src/colosseum/parser.py`, except the border and outline shorthands

`E : Env` supplies floating point and `ast.literal_eval`; `at : List Nat` labels the objects the call
creates.
-/

namespace Colosseum

/-- The loop of `units` over the registry: the first entry whose suffix ends the string and whose
prefix is a float (`/repo/src/colosseum/parser.py:26-31`). -/
def unitsLoop (fp : FP) (s : PyStr) : Registry → Option CUnit
  | [] => none
  | (suf, u) :: r =>
    if endsWith s suf then
      match parseFloat fp (dropSuffix s suf) with
      | some x => some (u.rmul fp x)
      | none => unitsLoop fp s r
    else unitsLoop fp s r

/-- `units` of a string with a given registry (`/repo/src/colosseum/parser.py:25-36`). -/
def unitsStr (fp : FP) (reg : Registry) (s : PyStr) : Option CUnit :=
  match unitsLoop fp s reg with
  | some u => some u
  | none =>
    match parseFloat fp s with
    | some x => some ((UKind.len .px).base.rmul fp x)
    | none => none

/-- `parser.units` with the current registry (`/repo/src/colosseum/parser.py:11-38`): the result and
the unit object that was built and registered, if any. -/
def unitsIn (fp : FP) (reg : Registry) (v : Val) : Res CUnit × Option CUnit :=
  match v with
  | .unit u =>
    match u.kind with
    | .len _ => (.ok u, none)
    | .ang _ => (raiseFmt .value v, none)
  | .num x => let u := (UKind.len .px).base.rmul fp x; (.ok u, some u)
  | .str s =>
    match unitsStr fp reg s with
    | some u => (.ok u, some u)
    | none => (.error .value, none)
  | v => (raiseFmt .value v, none)

/-- `parser.units` (`/repo/src/colosseum/parser.py:11-38`) with the registry as it is after import.
That later registries give the same result is theorem `C01_units_history_independent`. -/
def units (fp : FP) (v : Val) : Res CUnit := (unitsIn fp baseRegistry v).1

/-- An operation that builds and registers a unit object: parsing, `x * u`, `-u`
(`/repo/src/colosseum/units.py:30-51`, `/repo/src/colosseum/parser.py:11-38`). -/
inductive UnitOp
  | parse (v : Val)
  | rmul (x : PyNum) (u : CUnit)
  | neg (u : CUnit)

/-- The registry after an operation (`/repo/src/colosseum/units.py:31`). -/
def UnitOp.step (fp : FP) (reg : Registry) : UnitOp → Registry
  | .parse v =>
    match (unitsIn fp reg v).2 with
    | some u => register reg u
    | none => reg
  | .rmul x u => register reg (u.rmul fp x)
  | .neg u => register reg (u.neg fp)

/-- The registry after a history of operations since import. -/
def registryAfter (fp : FP) (ops : List UnitOp) : Registry := ops.foldl (UnitOp.step fp) baseRegistry

/-- `int(s)` as used in the colour parser. -/
def intOf (s : PyStr) : Res Int :=
  match parseInt s with
  | some i => .ok i
  | none => .error .value

/-- `float(s)` as used in the colour parser. -/
def floatOf (fp : FP) (s : PyStr) : Res PyNum :=
  match parseFloat fp s with
  | some x => .ok x
  | none => .error .value

/-- `int(s, 16)`. -/
def hexOf (s : PyStr) : Res Int :=
  match parseHex s with
  | some i => .ok i
  | none => .error .value

/-- `int(s.strip().rstrip("%")) / 100.0` (`/repo/src/colosseum/parser.py:87-88,100-101`). -/
def pctOf (fp : FP) (s : PyStr) : Res Num :=
  match intOf (rstripPercent (strip s)) with
  | .ok i => .ok ((Num.int i).div fp (.flt 100))
  | .error e => .error e

/-- `pound_sign_color` (`/repo/src/colosseum/parser.py:114-151`). -/
def poundSignColor (fp : FP) (s : PyStr) : Res Color :=
  match s with
  | [_, r, g, b] => do
    let r ← hexOf [r, r]
    let g ← hexOf [g, g]
    let b ← hexOf [b, b]
    pure (.rgb r g b (.fin (.flt 1)))
  | [_, r, g, b, a] => do
    let r ← hexOf [r, r]
    let g ← hexOf [g, g]
    let b ← hexOf [b, b]
    let a ← hexOf [a, a]
    pure (.rgb r g b (.fin ((Num.int a).div fp (.int 255))))
  | [_, r1, r2, g1, g2, b1, b2] => do
    let r ← hexOf [r1, r2]
    let g ← hexOf [g1, g2]
    let b ← hexOf [b1, b2]
    pure (.rgb r g b (.fin (.flt 1)))
  | [_, r1, r2, g1, g2, b1, b2, a1, a2] => do
    let r ← hexOf [r1, r2]
    let g ← hexOf [g1, g2]
    let b ← hexOf [b1, b2]
    let a ← hexOf [a1, a2]
    pure (.rgb r g b (.fin ((Num.int a).div fp (.int 255))))
  | _ => .error .value

/-- `rgba(...)` strings (`/repo/src/colosseum/parser.py:64-72`). -/
def rgbaColor (fp : FP) (s : PyStr) : Res Color :=
  match splitOn ',' (sliceInner 5 s) with
  | [r, g, b, a] => do
    let r ← intOf r
    let g ← intOf g
    let b ← intOf b
    let a ← floatOf fp a
    pure (.rgb r g b a)
  | _ => .error .value

/-- `rgb(...)` strings (`/repo/src/colosseum/parser.py:73-79`). -/
def rgbColor (s : PyStr) : Res Color :=
  match splitOn ',' (sliceInner 4 s) with
  | [r, g, b] => do
    let r ← intOf r
    let g ← intOf g
    let b ← intOf b
    pure (.rgb r g b (.fin (.flt 1)))
  | _ => .error .value

/-- `hsla(...)` strings (`/repo/src/colosseum/parser.py:81-92`). -/
def hslaColor (fp : FP) (s : PyStr) : Res Color :=
  match splitOn ',' (sliceInner 5 s) with
  | [h, sat, l, a] => do
    let h ← intOf h
    let sat ← pctOf fp sat
    let l ← pctOf fp l
    let a ← floatOf fp a
    pure (.hsl (.int h) sat l a)
  | _ => .error .value

/-- `hsl(...)` strings (`/repo/src/colosseum/parser.py:94-104`). -/
def hslColor (fp : FP) (s : PyStr) : Res Color :=
  match splitOn ',' (sliceInner 4 s) with
  | [h, sat, l] => do
    let h ← intOf h
    let sat ← pctOf fp sat
    let l ← pctOf fp l
    pure (.hsl (.int h) sat l (.fin (.flt 1)))
  | _ => .error .value

/-- `parser.color` of a string (`/repo/src/colosseum/parser.py:61-111`): `value[0]` of the empty
string raises `IndexError`. -/
def colorStr (fp : FP) (ref : Ref) (s : PyStr) : Res Val :=
  match s with
  | [] => .error .index
  | c :: _ =>
    if c == '#' then (poundSignColor fp s).map (.color ref)
    else if startsWith s (lit "rgba") then (rgbaColor fp s).map (.color ref)
    else if startsWith s (lit "rgb") then (rgbColor s).map (.color ref)
    else if startsWith s (lit "hsla") then (hslaColor fp s).map (.color ref)
    else if startsWith s (lit "hsl") then (hslColor fp s).map (.color ref)
    else
      match namedColor (lower s) with
      | some v => .ok v
      | none => .error .value

/-- `parser.color` (`/repo/src/colosseum/parser.py:41-111`). -/
def color (fp : FP) (at_ : List Nat) (v : Val) : Res Val :=
  match v with
  | .color r c => .ok (.color r c)
  | .str s => colorStr fp (.heap at_) s
  | v => raiseFmt .value v

/-- The elements of a value that is a `Sequence` other than a string (`tuple`, `list`, `Cursor`). -/
def asSeq : Val → Option (List Val)
  | .seq _ xs => some xs
  | .cursor xs => some (xs.map fun
      | .opt s => .str s
      | .uri r s => .uri r s)
  | _ => none

/-- The elements an iteration over a value yields, `none` for `TypeError`. -/
def iterVal : Val → Option (List Val)
  | .str s => some (s.map fun c => .str [c])
  | v => asSeq v

/-- `parser.border_spacing` (`/repo/src/colosseum/parser.py:154-179`). -/
def borderSpacing (fp : FP) (at_ : List Nat) (v : Val) : Res Val :=
  let values : Res (List Val) :=
    match asSeq v with
    | some xs => .ok xs
    | none =>
      match v with
      | .num _ => .ok [v]
      | .str s => .ok ((splitWs s).map fun w => .str (strip w))
      | _ => .error .attribute
  match values with
  | .error e => .error e
  | .ok [h] => do
    let h ← units fp h
    pure (.borderSpacing (.heap at_) h none)
  | .ok [h, w] => do
    let h ← units fp h
    let w ← units fp w
    pure (.borderSpacing (.heap at_) h (some w))
  | .ok _ => raiseFmt .value v

/-- The comma or blank separated components of `rect(...)`, `None` when the text is not of that form
(`/repo/src/colosseum/parser.py:184-198`). -/
def rectParts (s : PyStr) : Option (List PyStr) :=
  let value := joinWith ' ' ((splitWs s).map strip)
  if startsWith value (lit "rect(") && endsWith value (lit ")")
      && countSub (lit "rect(") 0 value == 1 && countChar ')' value == 1 then
    let value := removeSub (lit "rect(") 0 value
    let value := strip (value.filter (· != ')'))
    if countChar ',' value = 3 then some (splitOn ',' value)
    else if countChar ',' value = 0 && countChar ' ' value = 3 then some (splitOn ' ' value)
    else none
  else none

/-- `parser.rect` (`/repo/src/colosseum/parser.py:182-204`); `value.split` of a non-string raises
`AttributeError`. The four values are passed positionally to `Rect(top, right, left, bottom)`
(`/repo/src/colosseum/shapes.py:4`). -/
def rect (fp : FP) (v : Val) : Res Val :=
  match v with
  | .str s =>
    match rectParts s with
    | some [a, b, c, d] => do
      let a ← units fp (.str (strip a))
      let b ← units fp (.str (strip b))
      let c ← units fp (.str (strip c))
      let d ← units fp (.str (strip d))
      pure (.rect a b c d)
    | _ => .error .value
  | _ => .error .attribute

/-- The character that `\c` stands for in a Python string literal, for the escapes of one letter. -/
def simpleEscape : Char → Option Char
  | '\\' => some '\\'
  | '\'' => some '\''
  | '"' => some '"'
  | 'a' => some '\x07'
  | 'b' => some '\x08'
  | 'f' => some '\x0c'
  | 'n' => some '\n'
  | 'r' => some '\r'
  | 't' => some '\t'
  | 'v' => some '\x0b'
  | _ => none

/-- The number of hexadecimal digits after `\x`, `\u` and `\U`. -/
def hexWidth : Char → Option Nat
  | 'x' => some 2
  | 'u' => some 4
  | 'U' => some 8
  | _ => none

/-- The value of a hexadecimal digit in a Python string literal: those of ASCII only, unlike in `int(s, 16)`. -/
def escapeVal (c : Char) : Option Nat := if c.toNat < 128 then hexVal c else none

/-- The value of hexadecimal digits. -/
def hexNumber (ds : PyStr) : Option Nat :=
  ds.foldl (fun a c => match a, escapeVal c with
    | some n, some v => some (16 * n + v)
    | _, _ => none) (some 0)

/-- The first character of the inside of a string literal quoted with `q`, and the rest. `none` for a quote, line break or null character, and for the
escapes that are not modelled: octal numbers, names, line breaks, surrogates and letters without meaning. -/
def litChar (q : Char) : PyStr → Option (Char × PyStr)
  | [] => none
  | c :: r =>
    if c == q || c == '\n' || c == '\r' || c == '\x00' then none
    else if c != '\\' then some (c, r)
    else
      match r with
      | [] => none
      | e :: r =>
        match simpleEscape e with
        | some d => some (d, r)
        | none =>
          match hexWidth e with
          | none => none
          | some k =>
            if r.length < k then none
            else
              match hexNumber (r.take k) with
              | none => none
              | some n => if n.isValidChar then some (Char.ofNat n, r.drop k) else none

/-- The inside of a string literal; the number is at least its length. -/
def litBody (q : Char) : Nat → PyStr → Option PyStr
  | _, [] => some []
  | 0, _ :: _ => none
  | k + 1, s =>
    match litChar q s with
    | none => none
    | some (c, r) => (litBody q k r).map (c :: ·)

/-- The value of a Python string literal: a quote, the inside, the same quote. -/
def simpleLit (s : PyStr) : Option PyStr :=
  match s with
  | q :: r =>
    if q == '\'' || q == '"' then
      match r.reverse with
      | q' :: b => if q' == q then litBody q b.length b.reverse else none
      | [] => none
    else none
  | [] => none

/-- `ast.literal_eval(s)` (`/repo/src/colosseum/parser.py:232-233`), `SyntaxError` reported as
`ValueError` as lines 239-240 do. Everything but string literals without prefix, on one line and with the escapes of `litChar`
is left to the environment. -/
def literalEval (E : Env) (s : PyStr) : Res QVal :=
  match simpleLit s with
  | some b => .ok (.str b)
  | none => E.literalEvalOther s

/-- `ast.literal_eval(repr(v))` (`/repo/src/colosseum/parser.py:219,232-233`): the identity on
strings. -/
def evalRepr (E : Env) : Val → Res QVal
  | .str s => .ok (.str s)
  | v => E.evalReprOther v

/-- `len(x)`. -/
def QVal.len : QVal → Option Nat
  | .str s => some s.length
  | .other _ n => n

/-- `len(opening) == 0 or len(closing) == 0` raises (`/repo/src/colosseum/parser.py:236-237`). -/
def checkQuoteLen (v : Val) (o c : QVal) : Res Unit :=
  match o.len with
  | none => .error .type
  | some 0 => raiseFmt .value v
  | some _ =>
    match c.len with
    | none => .error .type
    | some 0 => raiseFmt .value v
    | some _ => .ok ()

/-- The loop over pairs (`/repo/src/colosseum/parser.py:226-240`). -/
def quotePairs (v : Val) : List (Res QVal) → Res (List (QVal × QVal))
  | o :: c :: rest =>
    match o with
    | .error e => .error e
    | .ok o =>
      match c with
      | .error e => .error e
      | .ok c =>
        match checkQuoteLen v o c with
        | .error e => .error e
        | .ok () =>
          match quotePairs v rest with
          | .error e => .error e
          | .ok ps => .ok ((o, c) :: ps)
  | _ => .ok []

/-- `[repr(item) for sublist in value for item in sublist]` (`/repo/src/colosseum/parser.py:219`): the items themselves, `TypeError` for a
sublist that is not iterable, and the exception of the first item whose `repr` raises. -/
def flatten2 : List Val → Res (List Val)
  | [] => .ok []
  | v :: vs =>
    match iterVal v with
    | none => .error .type
    | some xs =>
      match fmtErrList xs with
      | some e => .error e
      | none =>
        match flatten2 vs with
        | .error e => .error e
        | .ok ys => .ok (xs ++ ys)

/-- The check on the number of tokens and the pair loop (`/repo/src/colosseum/parser.py:223-244`). -/
def quotesOf (v : Val) (values : List (Res QVal)) : Res Val :=
  if 0 < values.length && values.length % 2 == 0 then
    match quotePairs v values with
    | .error e => .error e
    | .ok ps => .ok (.quotes ps)
  else .error .value

/-- `parser.quotes` (`/repo/src/colosseum/parser.py:207-244`). -/
def quotes (E : Env) (v : Val) : Res Val :=
  match v with
  | .str s => quotesOf v ((splitWs s).map fun w => literalEval E (strip w))
  | v =>
    match asSeq v with
    | some xs =>
      match flatten2 xs with
      | .error e => .error e
      | .ok ys => quotesOf v (ys.map (evalRepr E))
    | none => raiseFmt .value v

/-- The address of `parser.uri` of a string (`/repo/src/colosseum/parser.py:417-437`). -/
def uriStr (s : PyStr) : Res PyStr :=
  let value := strip s
  if startsWith value (lit "url(") && endsWith value (lit ")") then
    let value := strip (sliceInner 4 value)
    if startsWith value (lit "'") && endsWith value (lit "'") then .ok (sliceInner 1 value)
    else if startsWith value (lit "\"") && endsWith value (lit "\"") then .ok (sliceInner 1 value)
    else .ok value
  else .error .value

/-- `parser.uri` (`/repo/src/colosseum/parser.py:406-437`). -/
def uri (at_ : List Nat) (v : Val) : Res Val :=
  match v with
  | .str s => (uriStr s).map (.uri (.heap at_))
  | _ => .error .value

/-- `CURSOR_OPTIONS` (`/repo/src/colosseum/constants.py:557-593`). -/
def cursorOptions : List PyStr :=
  [lit "auto", lit "crosshair", lit "default", lit "pointer", lit "move", lit "e-resize",
   lit "ne-resize", lit "nw-resize", lit "n-resize", lit "se-resize", lit "sw-resize",
   lit "s-resize", lit "w-resize", lit "text", lit "wait", lit "progress", lit "help"]

/-- The loop of `parser.cursor` (`/repo/src/colosseum/parser.py:450-476`). `has` is
`has_cursor_option`; `option_count` is `1` exactly when `has` holds, so a second option is the case
`has`. `i` numbers the `Uri` objects created; `whole` is the argument, formatted in messages. -/
def cursorLoop (at_ : List Nat) (whole : Val) : Nat → Bool → List Val → Res (List CurItem)
  | _, _, [] => .ok []
  | i, has, v :: vs =>
    match v with
    | .str s =>
      if cursorOptions.contains s then
        if has then raiseFmt .value whole
        else
          match cursorLoop at_ whole i true vs with
          | .error e => .error e
          | .ok r => .ok (.opt s :: r)
      else if has then raiseFmt .value whole
      else
        match uriStr s with
        | .error _ => .error .value
        | .ok u =>
          match cursorLoop at_ whole (i + 1) has vs with
          | .error e => .error e
          | .ok r => .ok (.uri (.heap (i :: at_)) u :: r)
    | v => if has then raiseFmt .value whole else raiseFmt .value v

/-- `parser.cursor` (`/repo/src/colosseum/parser.py:443-478`). -/
def cursor (at_ : List Nat) (v : Val) : Res Val :=
  let values : Option (List Val) :=
    match v with
    | .str s => some ((splitOn ',' s).map fun w => .str (strip w))
    | v => asSeq v
  match values with
  | none => .error .type
  | some vs =>
    match cursorLoop at_ v 0 false vs with
    | .error e => .error e
    | .ok r => .ok (.cursor r)

end Colosseum
