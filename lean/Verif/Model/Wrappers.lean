import Verif.Model.Parser

/-!
# Accessors and text forms of `/repo/src/colosseum/{wrappers,shapes}.py`
-/

namespace Colosseum

/-- `Rect(top, right, left, bottom)` with its attributes
(`/repo/src/colosseum/shapes.py:4-8`). -/
structure RectShape where
  top : CUnit
  right : CUnit
  left : CUnit
  bottom : CUnit
deriving DecidableEq, Repr

/-- The shape held by a `Rect` value: constructor arguments in order
(`/repo/src/colosseum/shapes.py:4-8`, properties at lines 25-39). -/
def Val.shape : Val → Option RectShape
  | .rect a b c d => some { top := a, right := b, left := c, bottom := d }
  | _ => Option.none

/-- `Rect.__str__` (`/repo/src/colosseum/shapes.py:19-23`). -/
def rectStr (reprFloat : Rat → PyStr) (a b c d : CUnit) : Res PyStr := do
  let a ← a.repr reprFloat
  let b ← b.repr reprFloat
  let c ← c.repr reprFloat
  let d ← d.repr reprFloat
  pure (lit "rect(" ++ a ++ lit ", " ++ b ++ lit ", " ++ c ++ lit ", " ++ d ++ lit ")")

/-- `Uri.__str__` (`/repo/src/colosseum/wrappers.py:164-168`). -/
def uriShow (url : PyStr) : PyStr := lit "url(\"" ++ url ++ lit "\")"

/-- `BorderSpacing.horizontal` (`/repo/src/colosseum/wrappers.py:32-35`). -/
def Val.horizontal : Val → Option CUnit
  | .borderSpacing _ h _ => some h
  | _ => Option.none

/-- `BorderSpacing.vertical` (`/repo/src/colosseum/wrappers.py:37-40`). -/
def Val.vertical : Val → Option CUnit
  | .borderSpacing _ h v => some (v.getD h)
  | _ => Option.none

/-- `BorderSpacing.__str__` (`/repo/src/colosseum/wrappers.py:24-30`). -/
def borderSpacingStr (reprFloat : Rat → PyStr) (h : CUnit) (v : Option CUnit) : Res PyStr :=
  match v with
  | some w => do
    let h ← h.repr reprFloat
    let w ← w.repr reprFloat
    pure (h ++ lit " " ++ w)
  | none => h.repr reprFloat

/-- `xs[i]` for a Python list, `none` for `IndexError`. -/
def pyIndex {α : Type} (xs : List α) (i : Int) : Option α :=
  if 0 ≤ i then xs[i.toNat]?
  else if -(xs.length : Int) ≤ i then xs[(xs.length + i).toNat]?
  else none

/-- `Quotes.opening` (`/repo/src/colosseum/wrappers.py:73-78`). -/
def quotesOpening (q : List (QVal × QVal)) (level : Int) : Res QVal :=
  match pyIndex q level with
  | some (o, _) => .ok o
  | none => .error .index

/-- `Quotes.closing` (`/repo/src/colosseum/wrappers.py:80-85`). -/
def quotesClosing (q : List (QVal × QVal)) (level : Int) : Res QVal :=
  match pyIndex q level with
  | some (_, c) => .ok c
  | none => .error .index

/-- An operation of the `list` interface on an `ImmutableList`
(`/repo/src/colosseum/wrappers.py:175-236`). `sort` and `reverse` carry no arguments because they are
disabled. -/
inductive ListOp (α : Type)
  | get (i : Int)
  | copy
  | hash
  | setItem (i : Int) (x : α)
  | append (x : α)
  | extend (xs : List α)
  | insert (i : Int) (x : α)
  | pop (i : Option Int)
  | remove (x : α)
  | reverse
  | sort
  | delItem (i : Int)
  | clear
  | iadd (xs : List α)
  | imul (n : Int)

/-- The position a Python index denotes in a list of length `n`. -/
def pyPos (n : Nat) (i : Int) : Option Nat :=
  if 0 ≤ i then (if i < n then some i.toNat else none)
  else if -(n : Int) ≤ i then some (n + i).toNat
  else none

/-- One operation: the list afterwards and whether it raised. Disabled operations
(`/repo/src/colosseum/wrappers.py:194-195,214-236`) raise `TypeError`; `__delitem__`, `clear`, `__iadd__` and `__imul__` are inherited from `list`
(`/repo/src/colosseum/wrappers.py:175-236`). -/
def ListOp.step {α : Type} (xs : List α) : ListOp α → List α × Res Unit
  | .get i => (xs, if (pyIndex xs i).isSome then .ok () else .error .index)
  | .copy => (xs, .ok ())
  | .hash => (xs, .ok ())
  | .delItem i =>
    match pyPos xs.length i with
    | some k => (xs.eraseIdx k, .ok ())
    | none => (xs, .error .index)
  | .clear => ([], .ok ())
  | .iadd ys => (xs ++ ys, .ok ())
  | .imul n => ((List.replicate n.toNat xs).flatten, .ok ())
  | _ => (xs, .error .type)

/-- The list after a history of operations. -/
def listAfter {α : Type} (xs : List α) (ops : List (ListOp α)) : List α :=
  ops.foldl (fun l o => (o.step l).1) xs

end Colosseum
