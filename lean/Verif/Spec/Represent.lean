import Verif.Spec.Units
import Verif.Spec.Lists
import Verif.Spec.Print

/-!
# Specification of the representation of values

The expressions the docstrings of `/repo/src/colosseum/wrappers.py:4-11,45-53` show: a call of the class of the value with its parts.
-/

namespace Colosseum

/-- Texts with a comma and a blank between them. -/
inductive Commas : List PyStr → PyStr → Prop
  | one (t : PyStr) : Commas [t] t
  | more (t : PyStr) (ts : List PyStr) (s : PyStr) : Commas ts s → Commas (t :: ts) (t ++ ", ".toList ++ s)

/-- A text for a unit: it denotes the same unit, and it contains no comma or parenthesis. -/
def WritesUnit (t : PyStr) (u : CUnit) : Prop := ',' ∉ t ∧ ')' ∉ t ∧ ∃ w, Denotes .b64 (.str t) w ∧ SameUnit u w

/-- A text for a pair of strings. -/
def WritesPair (t : PyStr) (p : PyStr × PyStr) : Prop := ∃ a b, QuotedWord a p.1 ∧ QuotedWord b p.2 ∧ t = ['('] ++ a ++ ", ".toList ++ b ++ [')']

/-- A text for an item of a cursor. -/
inductive WritesItem : PyStr → CurItem → Prop
  | word (t s : PyStr) : QuotedWord t s → WritesItem t (.opt s)
  | url (r : Ref) (x : PyStr) : WritesItem ("url(\"".toList ++ x ++ "\")".toList) (.uri r x)

/-- A text for a value. -/
inductive Writes : PyStr → Val → Prop
  | word (t s : PyStr) : QuotedWord t s → Writes t (.str s)
  | spacing (r : Ref) (h : CUnit) (v : Option CUnit) (ts : List PyStr) (s : PyStr) : List.Forall₂ WritesUnit ts (h :: v.toList) → Commas ts s →
      Writes ("BorderSpacing(".toList ++ s ++ [')']) (.borderSpacing r h v)
  | quotes (ps : List (PyStr × PyStr)) (ts : List PyStr) (s : PyStr) : List.Forall₂ WritesPair ts ps → Commas ts s →
      Writes ("Quotes([".toList ++ s ++ "])".toList) (.quotes (ps.map fun p => (.str p.1, .str p.2)))
  | cursor (xs : List CurItem) (ts : List PyStr) (s : PyStr) : List.Forall₂ WritesItem ts xs → Commas ts s →
      Writes ("Cursor([".toList ++ s ++ "])".toList) (.cursor xs)
  | noCursor : Writes "Cursor()".toList (.cursor [])

/-- Values whose representation is a call or a quoted word: lengths are finite and floats can hold them, quotes are strings. -/
inductive Writable : Val → Prop
  | word (s : PyStr) : Writable (.str s)
  | spacing (r : Ref) (h : CUnit) (v : Option CUnit) : h.Readable → (∀ w, v = some w → w.Readable) → Writable (.borderSpacing r h v)
  | quotes (ps : List (PyStr × PyStr)) : ps ≠ [] → Writable (.quotes (ps.map fun p => (.str p.1, .str p.2)))
  | cursor (xs : List CurItem) : Writable (.cursor xs)

/-- No url of a cursor contains a double quote. -/
def NoQuoteInUrl (v : Val) : Prop := ∀ xs r x, v = .cursor xs → CurItem.uri r x ∈ xs → '"' ∉ x

end Colosseum
