import Verif.Model.Shorthand
import Verif.Model.Messages
import Verif.Model.Factories
import Verif.Py.Float64
import Verif.Py.Repr
open Colosseum
instance : Inhabited Val := ⟨.none⟩
def dec (s : String) : PyStr := if s == "-" then [] else (s.splitOn ",").map fun x => Char.ofNat x.toNat!
def toI (s : String) : Int := if s.startsWith "-" then -(((s.drop 1).toString).toNat! : Int) else (s.toNat! : Int)
partial def pV : List String → Val × List String
  | [] => (.none, [])
  | s :: r =>
    let x := (s.drop 1).toString
    if s.startsWith "s" then (.str (dec x), r)
    else if s == "n" then (.none, r)
    else if s.startsWith "i" then (.num (.fin (.int (toI x))), r)
    else if s.startsWith "f" then match x.splitOn "/" with
      | [a, b] => (.num (.fin (.flt ((toI a : Rat) / (toI b : Rat)))), r)
      | _ => (.none, r)
    else if s.startsWith "u" then
      let (v, r) := pV r
      match v, baseKinds.find? (fun k => k.suffix == x.toList) with
      | .num q, some k => (.unit (k.base.rmul .b64 q), r)
      | _, _ => (.none, r)
    else
      let rec go (r : List String) (acc : List Val) : List Val × List String :=
        match r with
        | [] => (acc.reverse, [])
        | "." :: r => (acc.reverse, r)
        | r => let (v, r) := pV r; go r (v :: acc)
      let (xs, r) := go r []
      if s == "q" then
        let rec pairs : List Val → List (QVal × QVal)
          | .str a :: .str b :: r => (.str a, .str b) :: pairs r
          | _ => []
        (.quotes (pairs xs), r)
      else (.seq (s == "U") xs, r)
partial def many (r : List String) : List Val := match r with
  | [] => []
  | r => let (v, r) := pV r; v :: many r
def E : Env := ⟨FP.b64, pyRepr .b64, fun _ => .error .value, fun _ => .error .value⟩
def P : Printer := ⟨pyRepr .b64, fun c => c.toNat < 127 && c.toNat ≥ 32, fun _ => .error .value⟩
def ename : Option Err → String
  | none => "ok"
  | some .key => "KeyError"
  | some .name => "NameError"
  | some e => if e.isValueError then "ValueError" else "other"
def attr! (s : String) : Attr := (attrOfName s.toList).getD (.lh .width)
def txt : Res PyStr → String
  | .ok s => String.ofList s
  | .error _ => "ERROR"
def gotEq : Res Got → Val → Bool
  | .ok (.one v), w => v.pyEq w
  | .ok (.four a b c d), .seq true [a', b', c', d'] => a.pyEq a' && b.pyEq b' && c.pyEq c' && d.pyEq d'
  | .ok (.parts []), .str [] => true
  | _, _ => false
def showGot (c : CSS) (n : String) : String :=
  match attr! n with
  | .sh s => txt ((c.shorthand s).bind P.read)
  | a => match c.readAttr a with
    | .ok (.one v) => txt (P.str v)
    | .ok (.four a b c d) => "(" ++ ", ".intercalate ([a, b, c, d].map fun x => txt (P.repr x)) ++ ")"
    | _ => "ERROR"
partial def splitSemi (r : List String) : List (List String) :=
  let rec go : List String → List String → List (List String)
    | [], _ => []
    | ";" :: r, acc => acc.reverse :: go r []
    | x :: r, acc => go r (x :: acc)
  go r []
def validatorOf : String → Option Validator
  | "is_length" => some .length | "is_percentage" => some .percentage | "is_color" => some .color | "is_integer" => some .integer | "is_number" => some .number
  | _ => none
structure S where
  d : Decl := ⟨CSS.empty, .unbound⟩
  ch : Choices := ⟨[], [], []⟩
  init : Given Unit := .val .none
  cell : Cell := ⟨none, .unbound⟩
  off : Bool := false
def step (i : Nat) (s : S) (w : List String) : S × Bool :=
  let at_ := [i]
  match w with
  | ["NEW"] => ({ s with d := ⟨CSS.empty, .box (some true)⟩ }, true)
  | ["CLEAN", x] => ({ s with d := { s.d with link := .box (if x == "None" then none else some (x == "True")) } }, true)
  | ["DIRTY", x] => (s, decide (s.d.link = .box (if x == "None" then none else some (x == "True"))))
  | "SET" :: e :: n :: v => let (d, r) := s.d.setAttr E at_ (attr! n) (pV v).1; ({ s with d := d }, ename r == e)
  | "SETITEM" :: e :: n :: v => let (d, r) := s.d.setItem E at_ n.toList (pV v).1; ({ s with d := d }, ename r == e)
  | ["DELITEM", e, n] => let (d, r) := s.d.delItem n.toList; ({ s with d := d }, ename r == e)
  | ["DEL", _, n] => ({ s with d := s.d.delAttr (attr! n) }, true)
  | ["GETITEM", e, n] => (s, (match s.d.css.getItem n.toList with | .ok _ => "ok" | .error r => ename (some r)) == e)
  | "UPDATE" :: e :: r =>
    let (d, r) := s.d.update E at_ ((splitSemi r).map fun l => (l.head!.toList, (pV l.tail!).1)); ({ s with d := d }, ename r == e)
  | "EQ" :: n :: v => (s, gotEq (s.d.css.getItem n.toList) (pV v).1)
  | ["STR", n, t] => (s, showGot s.d.css n == String.ofList (dec (t.drop 1).toString))
  | ["REPR", n, t] => (s, (match s.d.css.readAttr (attr! n) with | .ok (.one v) => txt (P.repr v) | _ => "") == String.ofList (dec (t.drop 1).toString))
  | ["CSSSTR", t] => (s, txt (P.css s.d.css) == String.ofList (dec (t.drop 1).toString))
  | "SPACE" :: x :: v => (s, match s.d.css.get .borderSpacing with
    | .borderSpacing _ h y => (Val.unit (if x == "horizontal" then h else y.getD h)).pyEq (pV v).1
    | _ => false)
  | "KEYS" :: ks => (s, (s.d.css.keys.map fun p => String.ofList p.name).mergeSort (fun a b => decide (a ≤ b)) == ks)
  | "ITEMS" :: r => (s, (splitSemi r).length == s.d.css.items.length && (splitSemi r).all fun l =>
      s.d.css.items.any fun x => String.ofList x.1.name == l.head! && x.2.pyEq (pV l.tail!).1)
  | "CHOICES" :: _ =>
    match (" ".intercalate w).splitOn "|" with
    | [_, c, v, df, ini] =>
      let ws (x : String) := (x.splitOn " ").filter (· ≠ "")
      match (ws v).mapM validatorOf with
      | none => ({ s with off := true }, true)
      | some vs =>
        let ch : Choices := ⟨many (ws c), vs, many (ws df)⟩
        match defineValidated E at_ ch (.val (pV (ws ini)).1 : Given Unit) with
        | .ok g => ({ s with ch := ch, init := g, cell := ⟨none, .unbound⟩, off := false }, true)
        | .error _ => (s, false)
    | _ => (s, false)
  | "VSET" :: e :: v => if s.off then (s, true) else let (c, r) := s.cell.set E at_ s.ch s.init (pV v).1; ({ s with cell := c }, ename r == e)
  | "VEQ" :: _ :: v => (s, s.off || match s.cell.get s.init () with | .ok x => x.pyEq (pV v).1 | .error _ => false)
  | ["VSTR", t] => (s, s.off || (match s.cell.get s.init () with | .ok x => txt (P.str x) | .error _ => "") == String.ofList (dec (t.drop 1).toString))
  | "MSG" :: t :: "|" :: v => (s, s.off || "Invalid value '" ++ txt (P.str (pV v).1) ++ "' for CSS property 'prop'; Valid values are: " ++ txt (P.choices s.ch) ==
      String.ofList (dec (t.drop 1).toString))
  | _ => (s, false)
def main : IO Unit := do
  let ls ← IO.FS.lines "/root/diff/decl"
  let mut s : S := {}
  let mut ok := 0
  let mut bad := 0
  let mut test := ""
  let mut i := 0
  for l in ls do
    let w := (l.splitOn " ").filter (· ≠ "")
    i := i + 1
    if w.head! == "TEST" then test := l; s := {}
    else
      let (s', g) := step i s w
      s := s'
      if s.off then pure ()
      else if g then ok := ok + 1
      else bad := bad + 1; IO.println s!"BAD {test}: {l}"
  IO.println s!"{ok} as expected, {bad} not"
