import Verif.Model.Units
import Verif.Model.Values
import Verif.Py.Float64
import Verif.Py.Repr
open Colosseum
def dec (s : String) : PyStr := if s == "-" then [] else (s.splitOn ",").map fun x => Char.ofNat x.toNat!
def toI (s : String) : Int := if s.startsWith "-" then -(((s.drop 1).toString).toNat! : Int) else (s.toNat! : Int)
def num (s : String) : Num :=
  let x := (s.drop 1).toString
  if s.startsWith "i" then .int (toI x) else match x.splitOn "/" with
    | [a, b] => .flt ((toI a : Rat) / (toI b : Rat))
    | _ => .int 0
def unit? (k v : String) : Option CUnit := (baseKinds.find? fun x => x.suffix == k.toList).map fun x => ⟨x, .fin (num v)⟩
def val (k v : String) : Val := if k == "-" then .num (.fin (num v)) else match unit? k v with | some u => .unit u | none => .none
def same (a b : Num) : Bool := a.val == b.val
def check : List String → Bool
  | ["STR", k, v, t] => match unit? k v with | some u => (match u.repr (pyRepr .b64) with | .ok s => s == dec t | _ => false) | none => false
  | ["EQ", k, v, k', v'] => (val k v).pyEq (val k' v')
  | ["NE", k, v, k', v'] => !(val k v).pyEq (val k' v')
  | ["DEG", k, v, e] => match unit? k v with
    | some ⟨.ang a, x⟩ => (match angleDeg .b64 a x with | .ok (.fin n) => same n (num e) | _ => false)
    | _ => false
  | [f, k, v, a, b, c, x, y, z, s, e] => match unit? k v with
    | some ⟨.len l, q⟩ =>
      let ctx : PxCtx := ⟨⟨num a, num b, num c, .int 1, .int 3, .int 5⟩, ⟨num x, num y, num z⟩, if s == "-" then none else some (num s)⟩
      if f == "LU" then (match luOf .b64 l q ctx with | .ok n => same (.int n) (num e) | _ => false)
      else (match pxOf .b64 l q ctx with | .ok n => same n (num e) | _ => false)
    | _ => false
  | _ => false
def main : IO Unit := do
  let mut ok := 0
  let mut bad := 0
  for l in ← IO.FS.lines "/root/diff/unit" do
    if check (l.splitOn " ") then ok := ok + 1 else bad := bad + 1; IO.println s!"BAD {l}"
  IO.println s!"{ok} as expected, {bad} not"
