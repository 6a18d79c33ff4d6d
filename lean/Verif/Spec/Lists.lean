import Verif.Spec.Text
import Verif.Spec.Colors
import Verif.Model.Values

/-!
# Specification of quote and cursor values

From CSS 2.1 sections 12.3.1 (quotes) and 18.1 (cursor), with the Python notations of the docstrings in
`/repo/src/colosseum/parser.py:207-214`.
-/

namespace Colosseum

/-- A number in hexadecimal digits. -/
inductive HexNumber : PyStr → Nat → Prop
  | nil : HexNumber [] 0
  | digit (ds : PyStr) (n : Nat) (c : Char) (v : Nat) : HexNumber ds n → (c, v) ∈ hexTable → HexNumber (ds ++ [c]) (16 * n + v)

/-- The letters that stand for a character after a backslash. -/
def pyEscapes : List (Char × Char) :=
  [('\\', '\\'), ('\'', '\''), ('"', '"'), ('a', '\x07'), ('b', '\x08'), ('t', '\t'), ('n', '\n'), ('v', '\x0b'), ('f', '\x0c'), ('r', '\r')]

/-- `Quoted q t x`: between quotes `q`, the text `t` is Python notation for the string `x` (Python language reference, section 2.4.1). -/
inductive Quoted (q : Char) : PyStr → PyStr → Prop
  | nil : Quoted q [] []
  | char (c : Char) (t x : PyStr) : c ≠ q → c ≠ '\\' → c ≠ '\n' → c ≠ '\r' → c ≠ '\x00' → Quoted q t x → Quoted q (c :: t) (c :: x)
  | escape (e c : Char) (t x : PyStr) : (e, c) ∈ pyEscapes → Quoted q t x → Quoted q ('\\' :: e :: t) (c :: x)
  | hex (e : Char) (k : Nat) (ds : PyStr) (c : Char) (t x : PyStr) : (e, k) ∈ [('x', 2), ('u', 4), ('U', 8)] → ds.length = k → HexNumber ds c.toNat →
      Quoted q t x → Quoted q ('\\' :: e :: (ds ++ t)) (c :: x)

/-- A quoted word: a quote, the text, the same quote. -/
def QuotedWord (w x : PyStr) : Prop := ∃ q t, (q = '\'' ∨ q = '"') ∧ w = q :: t ++ [q] ∧ Quoted q t x

/-- The texts of a sequence of groups of strings and of single characters. -/
inductive QuoteGroups : List Val → List PyStr → Prop
  | nil : QuoteGroups [] []
  | group (t : Bool) (ys : List PyStr) (xs : List Val) (items : List PyStr) :
      QuoteGroups xs items → QuoteGroups (.seq t (ys.map .str) :: xs) (ys ++ items)
  | char (c : Char) (xs : List Val) (items : List PyStr) :
      QuoteGroups xs items → QuoteGroups (.str [c] :: xs) ([c] :: items)

/-- The texts of a quotes value, in order. -/
inductive QuoteItems : Val → List PyStr → Prop
  | words (s : PyStr) (ws items : List PyStr) : Words s ws → List.Forall₂ QuotedWord ws items →
      QuoteItems (.str s) items
  | groups (t : Bool) (xs : List Val) (items : List PyStr) : QuoteGroups xs items →
      QuoteItems (.seq t xs) items

/-- The cursor keywords of CSS 2.1 section 18.1. -/
def cssCursors : List String :=
  ["auto", "crosshair", "default", "pointer", "move", "e-resize", "ne-resize", "nw-resize", "n-resize",
   "se-resize", "sw-resize", "s-resize", "w-resize", "text", "wait", "help", "progress"]

/-- A string of the form `url(...)`, possibly between blanks. -/
def UrlForm (s : PyStr) : Prop :=
  ∃ b body b', AllBlank b ∧ AllBlank b' ∧ s = b ++ lit "url(" ++ body ++ lit ")" ++ b'

/-- A cursor keyword, possibly between blanks. -/
def CursorWord (s w : PyStr) : Prop :=
  (∃ k ∈ cssCursors, w = k.toList) ∧ ∃ b b', AllBlank b ∧ AllBlank b' ∧ s = b ++ w ++ b'

/-- A cursor list: urls, then at most one keyword. -/
def CursorList (items : List PyStr) : Prop :=
  ∃ urls kw, items = urls ++ kw ∧ kw.length ≤ 1 ∧ (∀ u ∈ urls, UrlForm u) ∧
    ∀ k ∈ kw, ∃ w, CursorWord k w

/-- What is kept of an item of a cursor list: the keyword, or a url object with the address. -/
inductive CursorItem : PyStr → CurItem → Prop
  | keyword (s w : PyStr) : CursorWord s w → CursorItem s (.opt w)
  | url (s : PyStr) (r : Ref) (x : PyStr) : UrlForm s → (∀ y, UrlText s y → x = y) →
      CursorItem s (.uri r x)

end Colosseum
