import Verif.Spec.Forget
import Verif.Spec.Style
import Verif.Spec.Units
import Verif.Spec.ColorAccept

/-!
# What can be assigned to each property

One relation between the values a program may assign and the values a property then holds, kind by kind: the grammars of lengths, colours, whole numbers,
border spacings, rectangles, quotes and cursors put together. Identities of objects are left open.
-/

namespace Colosseum

/-- The whole number a value stands for: an `int`, a float without its fraction, or the text of an integer. -/
inductive WholeNumber : Val → Int → Prop
  | int (i : Int) : WholeNumber (.num (.fin (.int i))) i
  | float (q : Rat) (i : Int) : |(i : Rat)| ≤ |q| → |q - i| < 1 → 0 ≤ q * i → WholeNumber (.num (.fin (.flt q))) i
  | text (s : PyStr) (i : Int) : IntLit s i → WholeNumber (.str s) i

/-- What is found in a stored cursor list. -/
def CurItem.value : CurItem → Val
  | .opt s => .str s
  | .uri r s => .uri r s

/-- The members of a tuple or list; a stored cursor is a list, too. -/
inductive Members : Val → List Val → Prop
  | seq (t : Bool) (xs : List Val) : Members (.seq t xs) xs
  | cursor (xs : List CurItem) : Members (.cursor xs) (xs.map CurItem.value)

/-- The items of a border spacing: a number, the words of a text, or the members of a sequence. -/
inductive SpacingParts : Val → List Val → Prop
  | num (x : PyNum) : SpacingParts (.num x) [.num x]
  | text (s : PyStr) (ws : List PyStr) : Words s ws → SpacingParts (.str s) (ws.map .str)
  | members (v : Val) (xs : List Val) : Members v xs → SpacingParts v xs

/-- What a word of a text comes to among quotes: the string it is Python notation of; anything else is up to `ast.literal_eval`. -/
inductive QuoteToken (E : Env) : PyStr → QVal → Prop
  | literal (w x : PyStr) : QuotedWord w x → QuoteToken E w (.str x)
  | other (w : PyStr) (q : QVal) : (∀ x, ¬ QuotedWord w x) → E.literalEvalOther w = .ok q → QuoteToken E w q

mutual
/-- The lengths and angles in a value, in the order in which they are printed. -/
def Val.lengths : Val → List CUnit
  | .unit u => [u]
  | .rect a b c d => [a, b, c, d]
  | .borderSpacing _ h w => h :: w.toList
  | .seq _ xs => lengthsOf xs
  | _ => []
/-- The lengths and angles in the members of a sequence. -/
def lengthsOf : List Val → List CUnit
  | [] => []
  | v :: vs => v.lengths ++ lengthsOf vs
end

/-- Finite. -/
def CUnit.isFinite (u : CUnit) : Bool :=
  match u.val with
  | .fin _ => true
  | _ => false

/-- What a member of a group comes to among quotes: strings are themselves; anything else is up to `repr`, which needs finite lengths, and `ast.literal_eval`. -/
inductive QuoteMember (E : Env) : Val → QVal → Prop
  | text (s : PyStr) : QuoteMember E (.str s) (.str s)
  | other (v : Val) (q : QVal) : (∀ s, v ≠ .str s) → (∀ u ∈ v.lengths, u.isFinite = true) → E.evalReprOther v = .ok q → QuoteMember E v q

/-- The members of a group of quotes; those of a text are its characters. -/
inductive GroupMembers : Val → List Val → Prop
  | chars (s : PyStr) : GroupMembers (.str s) (s.map fun c => .str [c])
  | members (v : Val) (xs : List Val) : Members v xs → GroupMembers v xs

/-- The quotes in a value, in order: the words of a text, or the members of the groups in a sequence. -/
inductive Quotations (E : Env) : Val → List QVal → Prop
  | text (s : PyStr) (ws : List PyStr) (qs : List QVal) : Words s ws → List.Forall₂ (QuoteToken E) ws qs → Quotations E (.str s) qs
  | groups (v : Val) (xs : List Val) (gs : List (List Val)) (qs : List QVal) : Members v xs → List.Forall₂ GroupMembers xs gs →
      List.Forall₂ (QuoteMember E) gs.flatten qs → Quotations E v qs

/-- `t` is `p` without the blanks at its ends. -/
def Trimmed (p t : PyStr) : Prop :=
  ∃ b b', AllBlank b ∧ AllBlank b' ∧ p = b ++ t ++ b' ∧ (∀ c, t.head? = some c → c ∉ blankChars) ∧ ∀ c, t.getLast? = some c → c ∉ blankChars

/-- The address inside `url(...)`: what is between matching quotes, or else everything. A lone quote counts as matching itself. -/
inductive Address : PyStr → PyStr → Prop
  | quoted (q : Char) (x : PyStr) : q = '\'' ∨ q = '"' → Address ([q] ++ x ++ [q]) x
  | lone (q : Char) : q = '\'' ∨ q = '"' → Address [q] []
  | bare (x : PyStr) : (∀ q, q = '\'' ∨ q = '"' → x.head? = some q → x.getLast? ≠ some q) → Address x x

/-- A text of the form `url(...)`, blanks around it and around the address, and its address. -/
def UrlMeans (s x : PyStr) : Prop :=
  ∃ p body, Trimmed s ("url(".toList ++ p ++ ")".toList) ∧ Trimmed p body ∧ Address body x

/-- An entry of a cursor list: a keyword or a url. -/
inductive CursorEntry : PyStr → CurItem → Prop
  | keyword (k : String) : k ∈ cssCursors → CursorEntry k.toList (.opt k.toList)
  | url (s x : PyStr) (r : Ref) : UrlMeans s x → CursorEntry s (.uri r x)

/-- The texts of the entries of a cursor list: what is between the commas of a text, without blanks at the ends, or the members of a sequence. -/
inductive CursorParts : Val → List PyStr → Prop
  | text (ps ts : List PyStr) : ps ≠ [] → (∀ p ∈ ps, ',' ∉ p) → List.Forall₂ Trimmed ps ts → CursorParts (.str (List.intercalate [','] ps)) ts
  | members (v : Val) (ts : List PyStr) : Members v (ts.map .str) → CursorParts v ts

/-- `Meaning E k v w`: as a value of kind `k`, `v` stands for `w`. -/
inductive Meaning (E : Env) : Kind → Val → Val → Prop
  | length (v : Val) (u : CUnit) : Denotes E.fp v u → Meaning E .length v (.unit u)
  | color (r : Ref) (c : Color) : Meaning E .color (.color r c) (.color r c)
  | hexColor (s : PyStr) (r : Ref) (c : Color) : HexText E.fp s c → Meaning E .color (.str ('#' :: s)) (.color r c)
  | colorFunction (s : PyStr) (r : Ref) (c : Color) : LooseText E.fp s c → Meaning E .color (.str s) (.color r c)
  | colorName (s : PyStr) (r : Ref) (name : String) (n : Nat) : (name, n) ∈ cssColors → SpelledAs s name.toList →
      Meaning E .color (.str s) (.color r (.rgb (rgbBytes n).1 (rgbBytes n).2.1 (rgbBytes n).2.2 (.fin (.flt 1))))
  | integer (v : Val) (i : Int) : WholeNumber v i → Meaning E .integer v (.num (.fin (.int i)))
  | oneSpacing (v a : Val) (r : Ref) (h : CUnit) : SpacingParts v [a] → Denotes E.fp a h → Meaning E .spacing v (.borderSpacing r h none)
  | twoSpacings (v a b : Val) (r : Ref) (h w : CUnit) : SpacingParts v [a, b] → Denotes E.fp a h → Denotes E.fp b w →
      Meaning E .spacing v (.borderSpacing r h (some w))
  | rect (s a b c d : PyStr) (ua ub uc ud : CUnit) : RectText s [a, b, c, d] → Denotes E.fp (.str a) ua → Denotes E.fp (.str b) ub →
      Denotes E.fp (.str c) uc → Denotes E.fp (.str d) ud → Meaning E .rect (.str s) (.rect ua ub uc ud)
  | quotes (v : Val) (ps : List (QVal × QVal)) : ps ≠ [] → (∀ p ∈ ps, p.1.nonEmpty ∧ p.2.nonEmpty) → Quotations E v (ps.flatMap fun p => [p.1, p.2]) →
      Meaning E .quotes v (.quotes ps)
  | cursor (v : Val) (ts : List PyStr) (xs : List CurItem) : CursorParts v ts → List.Forall₂ CursorEntry ts xs →
      (∀ x ∈ xs.dropLast, ∃ r s, x = .uri r s) → Meaning E .cursor v (.cursor xs)

/-- The numbers in a value, and in the members of a sequence, are such as Python can hold. -/
def Val.Sound (fp : FP) (v : Val) : Prop := v.Held fp ∧ ∀ xs, Members v xs → ∀ x ∈ xs, x.Held fp

/-- `Takes E p v w`: property `p` takes the value `v`, and then holds `w`. -/
def Takes (E : Env) (p : LH) (v w : Val) : Prop := KeywordOf p v w ∨ ∃ k, kindOf p = some k ∧ Meaning E k v w

/-- A value is a text or a sequence. -/
def Val.Iterable (v : Val) : Prop := (∃ s, v = .str s) ∨ ∃ xs, Members v xs

instance (v : Val) : Decidable v.Iterable :=
  match v with
  | .str s => isTrue (Or.inl ⟨s, rfl⟩)
  | .seq t xs => isTrue (Or.inr ⟨xs, .seq t xs⟩)
  | .cursor xs => isTrue (Or.inr ⟨_, .cursor xs⟩)
  | .none | .dflt | .num _ | .unit _ | .color _ _ | .uri _ _ | .rect _ _ _ _ | .borderSpacing _ _ _ | .quotes _ | .obj _ =>
    isFalse (by rintro (⟨s, h⟩ | ⟨xs, h⟩) <;> cases h)

/-- The exception of a message that shows a value: `OverflowError` if the first length that is not finite is infinite, for then the message cannot be
written; else `ValueError`, the exception the message is for, or the one `int(nan)` raises. -/
def Val.complaint (v : Val) : Err :=
  match v.lengths.find? fun u => !u.isFinite with
  | some ⟨_, .inf _⟩ => .overflow
  | _ => .value

/-- The item that is complained about by itself: the first one of one or two that is no length, for border spacings; a member of a list that is no text,
after urls only, for cursors. -/
inductive Culprit (E : Env) : Kind → Val → Val → Prop
  | spacing (v a : Val) (xs ys : List Val) : SpacingParts v (xs ++ a :: ys) → xs.length + ys.length ≤ 1 → (∀ x ∈ xs, ∃ u, Denotes E.fp x u) →
      (∀ u, ¬ Denotes E.fp a u) → Culprit E .spacing v a
  | cursor (v a : Val) (xs ys : List Val) : Members v (xs ++ a :: ys) → (∀ x ∈ xs, ∃ s t, x = .str s ∧ UrlMeans s t) → (∀ s, a ≠ .str s) → Culprit E .cursor v a

/-- What a word of a text among quotes comes to: a quote, or an exception of `ast.literal_eval`. -/
inductive TokenOutcome (E : Env) : PyStr → Res QVal → Prop
  | quote (w : PyStr) (q : QVal) : QuoteToken E w q → TokenOutcome E w (.ok q)
  | fault (w : PyStr) (e : Err) : (∀ x, ¬ QuotedWord w x) → E.literalEvalOther w = .error e → TokenOutcome E w (.error e)

/-- What a member of a group of quotes comes to: a quote, or an exception of `ast.literal_eval`. -/
inductive MemberOutcome (E : Env) : Val → Res QVal → Prop
  | quote (v : Val) (q : QVal) : QuoteMember E v q → MemberOutcome E v (.ok q)
  | fault (v : Val) (e : Err) : (∀ s, v ≠ .str s) → (∀ u ∈ v.lengths, u.isFinite = true) → E.evalReprOther v = .error e → MemberOutcome E v (.error e)

/-- What the quotes in a value come to, in order. -/
inductive QuoteOutcomes (E : Env) : Val → List (Res QVal) → Prop
  | text (s : PyStr) (ws : List PyStr) (rs : List (Res QVal)) : Words s ws → List.Forall₂ (TokenOutcome E) ws rs → QuoteOutcomes E (.str s) rs
  | groups (v : Val) (xs : List Val) (gs : List (List Val)) (rs : List (Res QVal)) : Members v xs → List.Forall₂ GroupMembers xs gs →
      List.Forall₂ (MemberOutcome E) gs.flatten rs → QuoteOutcomes E v rs

/-- The exception of a pair of quotes: the one of its first half, else the one of its second half, else the one of `len`. -/
inductive PairFault : Res QVal → Res QVal → Err → Prop
  | opening (e : Err) (c : Res QVal) : PairFault (.error e) c e
  | closing (o : QVal) (e : Err) : PairFault (.ok o) (.error e) e
  | unsizedOpening (t : PyStr) (c : QVal) : PairFault (.ok (.other t none)) (.ok c) .type
  | unsizedClosing (o : QVal) (t : PyStr) : o.nonEmpty → PairFault (.ok o) (.ok (.other t none)) .type

/-- The exceptions other than `ValueError` that a kind of values has for some values. -/
inductive Mistake (E : Env) : Kind → Val → Err → Prop
  | noColor : Mistake E .color (.str []) .index
  | infinite (b : Bool) : Mistake E .integer (.num (.inf b)) .overflow
  | spacing (v : Val) : ¬ v.Iterable → (∀ x, v ≠ .num x) → Mistake E .spacing v .attribute
  | rect (v : Val) : (∀ s, v ≠ .str s) → Mistake E .rect v .attribute
  | cursor (v : Val) : ¬ v.Iterable → Mistake E .cursor v .type
  | part (k : Kind) (v a : Val) : Culprit E k v a → a.complaint = .overflow → Mistake E k v .overflow
  | group (v g : Val) (xs ys : List Val) : Members v (xs ++ g :: ys) → (∀ x ∈ xs, x.Iterable ∧ ∀ u ∈ x.lengths, u.isFinite = true) → ¬ g.Iterable →
      Mistake E .quotes v .type
  | pair (v : Val) (ps : List (QVal × QVal)) (o c : Res QVal) (rest : List (Res QVal)) (e : Err) :
      QuoteOutcomes E v ((ps.flatMap fun p => [.ok p.1, .ok p.2]) ++ o :: c :: rest) → rest.length % 2 = 0 → (∀ p ∈ ps, p.1.nonEmpty ∧ p.2.nonEmpty) →
      PairFault o c e → e ≠ .value → e ≠ .validation → Mistake E .quotes v e

/-- The exception an assignment to `p` raises for a value `p` does not take: the one of `Mistake`, or else that of the message about the value. -/
def Refuses (E : Env) (p : LH) (v : Val) (e : Err) : Prop :=
  (∃ k, kindOf p = some k ∧ Mistake E k v e) ∨ ((∀ k e', kindOf p = some k → ¬ Mistake E k v e') ∧ e = v.complaint)

end Colosseum
