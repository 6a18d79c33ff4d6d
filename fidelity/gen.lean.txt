import Verif.Py.Lit
import Verif.Py.Float64
open Colosseum
def dec (s : String) : PyStr := if s == "-" then [] else (s.splitOn ",").map fun x => Char.ofNat x.toNat!
def toI (s : String) : Int := if s.startsWith "-" then -(((s.drop 1).toString).toNat! : Int) else (s.toNat! : Int)
def decN (s : String) : PyNum :=
  let r := (s.drop 1).toString
  if s.startsWith "i" then .fin (.int (toI r))
  else if s == "I-" then .inf true else if s == "I+" then .inf false else if s == "N" then .nan
  else match r.splitOn "/" with
    | [a, b] => .fin (.flt ((toI a : Rat) / (toI b : Rat)))
    | _ => .nan
def decO (s : String) : Option PyNum := if s == "x" then none else some (decN s)
def decL (s : String) : List PyStr := if s == "empty" then [] else (s.splitOn "|").map dec
def fin : PyNum → Num | .fin n => n | _ => .int 0
def check (l : String) : Bool :=
  match l.splitOn " " with
  | ["F", a, b] => parseFloat .b64 (dec a) == decO b
  | ["I", a, b] => (parseInt (dec a)).map (fun i => PyNum.fin (.int i)) == decO b
  | ["H", a, b] => (parseHex (dec a)).map (fun i => PyNum.fin (.int i)) == decO b
  | ["S", a, b] => splitWs (dec a) == decL b
  | ["T", a, b] => strip (dec a) == dec b
  | ["P", a, b] => rstripPercent (dec a) == dec b
  | ["L", a, b] => lower (dec a) == dec b
  | ["+", a, b, c] => PyNum.fin ((fin (decN a)).add .b64 (fin (decN b))) == decN c
  | ["m", a, b, c] => PyNum.fin ((fin (decN a)).sub .b64 (fin (decN b))) == decN c
  | ["*", a, b, c] => PyNum.fin ((fin (decN a)).mul .b64 (fin (decN b))) == decN c
  | ["/", a, b, c] => PyNum.fin ((fin (decN a)).div .b64 (fin (decN b))) == decN c
  | ["2", a, c] => PyNum.fin ((fin (decN a)).floorDiv2 .b64) == decN c
  | ["r", a, c] => PyNum.fin (.int ((fin (decN a)).round)) == decN c
  | ["t", a, c] => PyNum.fin (.int ((fin (decN a)).trunc)) == decN c
  | ["M", a, b, c] => PyNum.fin ((fin (decN a)).pyMax (fin (decN b))) == decN c
  | ["n", a, b, c] => PyNum.fin ((fin (decN a)).pyMin (fin (decN b))) == decN c
  | ["<", a, b, c] => ((fin (decN a)).pyLt (fin (decN b))) == (c == "i1")
  | ["s", a, b] => if a == "-" then true else match decN b with | .fin (.int i) => intStr i == dec a | _ => true
  | [op, a, b] =>
    let r := (op.drop 1).toString
    if op.startsWith "O" then splitOn (Char.ofNat r.toNat!) (dec a) == decL b
    else if op.startsWith "C" then (decN b == .fin (.int (countSub (dec r) 0 (dec a))))
    else if op.startsWith "R" then (removeSub (dec r) 0 (dec a) == dec b)
    else false
  | _ => false
def main : IO Unit := do
  let ls ← IO.FS.lines "/root/diff/cases"
  let mut n := 0
  let mut bad := 0
  for l in ls do
    n := n + 1
    if !check l then
      bad := bad + 1
      if bad < 40 then IO.println l
  IO.println s!"{n} cases, {bad} bad"
