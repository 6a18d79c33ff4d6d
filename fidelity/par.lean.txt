import Verif.Model.Declaration
import Verif.Py.Float64
open Colosseum
instance : Inhabited Val := ⟨.none⟩
def dec (s : String) : PyStr := if s == "-" then [] else (s.splitOn ",").map fun x => Char.ofNat x.toNat!
def toI (s : String) : Int := if s.startsWith "-" then -(((s.drop 1).toString).toNat! : Int) else (s.toNat! : Int)
partial def pV : List String → Val × List String
  | [] => (.none, [])
  | s :: r =>
    let x := (s.drop 1).toString
    if s.startsWith "s" then (.str (dec x), r)
    else if s == "n" then (.none, r)
    else if s.startsWith "i" then (.num (.fin (.int (toI x))), r)
    else if s.startsWith "f" then match x.splitOn "/" with
      | [a, b] => (.num (.fin (.flt ((toI a : Rat) / (toI b : Rat)))), r)
      | _ => (.none, r)
    else if s.startsWith "u" then
      let (v, r) := pV r
      match v, baseKinds.find? (fun k => k.suffix == x.toList) with
      | .num q, some k => (.unit (k.base.rmul .b64 q), r)
      | _, _ => (.none, r)
    else
      let rec go (r : List String) (acc : List Val) : List Val × List String :=
        match r with
        | [] => (acc.reverse, [])
        | "." :: r => (acc.reverse, r)
        | r => let (v, r) := pV r; go r (v :: acc)
      let (xs, r) := go r []
      (.seq (s == "U") xs, r)
def E : Env := ⟨FP.b64, fun _ => [], fun _ => .error .value, fun _ => .error .value⟩
def run (f : String) (v : Val) : Res Unit :=
  match f with
  | "units" => (units .b64 v).map fun _ => ()
  | "color" => (Colosseum.color .b64 [] v).map fun _ => ()
  | "rect" => (Colosseum.rect .b64 v).map fun _ => ()
  | "quotes" => (Colosseum.quotes E v).map fun _ => ()
  | "border_spacing" => (Colosseum.borderSpacing .b64 [] v).map fun _ => ()
  | "uri" => (Colosseum.uri [] v).map fun _ => ()
  | "cursor" => (Colosseum.cursor [] v).map fun _ => ()
  | "outline" => (parseShorthand E [] .outline v).map fun _ => ()
  | "border" => (parseShorthand E [] .border v).map fun _ => ()
  | "border_top" => (parseShorthand E [] (.borderSide .top) v).map fun _ => ()
  | "border_left" => (parseShorthand E [] (.borderSide .left) v).map fun _ => ()
  | "border_right" => (parseShorthand E [] (.borderSide .right) v).map fun _ => ()
  | _ => (parseShorthand E [] (.borderSide .bottom) v).map fun _ => ()
def main : IO Unit := do
  let ls ← IO.FS.lines "/root/diff/par"
  let mut ok := 0
  let mut bad := 0
  for l in ls do
    match l.splitOn " | " with
    | [a, b] =>
      let ws := a.splitOn " "
      let (v, _) := pV (b.splitOn " ")
      let r := run ws[0]! v
      let good := match r, ws[1]! with
        | .ok _, "ok" => if ws[2]! == "?" then true else
            let (w, _) := pV (ws.drop 2)
            match units .b64 v, w with
            | .ok u, .unit w => u.pyEq w
            | _, _ => false
        | .error e, "ValueError" => e.isValueError
        | _, _ => false
      if good then ok := ok + 1 else bad := bad + 1; IO.println s!"BAD {l}"
    | _ => pure ()
  IO.println s!"{ok} as expected, {bad} not"
