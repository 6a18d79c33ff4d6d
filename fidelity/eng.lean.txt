import Verif.Model.Engine
import Verif.Py.Float64
instance : Inhabited (Except Colosseum.Err Colosseum.Node) := ⟨.error .value⟩
open Colosseum
instance : Inhabited Node := ⟨.mk CSS.empty .initial none []⟩
def dec (s : String) : PyStr := if s == "-" then [] else (s.splitOn ",").map fun x => Char.ofNat x.toNat!
def toI (s : String) : Int := if s.startsWith "-" then -(((s.drop 1).toString).toNat! : Int) else (s.toNat! : Int)
def decQ (s : String) : Option Rat :=
  if s == "none" then none else
  match ((s.drop 1).toString).splitOn "/" with
    | [a, b] => some ((toI a : Rat) / (toI b : Rat))
    | _ => none
def decV (s : String) : Val :=
  let r := (s.drop 1).toString
  if s.startsWith "s" then .str (dec r) else if s.startsWith "i" then .num (.fin (.int (toI r))) else .num (.fin (.flt ((decQ s).getD 0)))
def decN (s : String) : Num :=
  let r := (s.drop 1).toString
  if s.startsWith "i" then .int (toI r) else .flt ((decQ s).getD 0)
inductive Doc | mk (ps : List (PyStr × Val)) (zs : List (String × String)) (cs : List Doc)
deriving Inhabited
inductive Ref' | text | mk (qs : List (Option Rat)) (cs : List Ref')
deriving Inhabited
partial def pDoc (ls : List String) : Doc × List String := Id.run do
  let mut ls := ls.tail!
  let mut ps := #[]
  let mut zs := #[]
  let mut cs := #[]
  while true do
    match ls with
    | [] => break
    | l :: r =>
      if l.startsWith "P" then
        match l.splitOn " " with
        | [_, a, b] => ps := ps.push (dec a, decV b)
        | _ => pure ()
        ls := r
      else if l.startsWith "Z" then
        match l.splitOn " " with
        | [_, a, b] => zs := zs.push (a, b)
        | _ => pure ()
        ls := r
      else if l == "B" then
        let (c, r) := pDoc ls
        cs := cs.push c
        ls := r
      else
        ls := r
        break
  return (.mk ps.toList zs.toList cs.toList, ls)
partial def pRef (ls : List String) : Ref' × List String := Id.run do
  let l := ls.head!
  if l == "X" then return (.text, ls.tail!)
  let qs := (l.splitOn " ").tail!.map decQ
  let mut ls := ls.tail!
  let mut cs := #[]
  while true do
    match ls with
    | [] => break
    | l :: r =>
      if l == "r" then ls := r; break
      else
        let (c, r) := pRef ls
        cs := cs.push c
        ls := r
  return (.mk qs cs.toList, ls)
def E : Env := ⟨FP.b64, fun _ => [], fun _ => .error .value, fun _ => .error .value⟩
def zset (z : Intrinsic) (x : String × String) : Intrinsic :=
  let a := match x.1 with
    | "width" => z.assign (.width (some (decN x.2)))
    | "height" => z.assign (.height (some (decN x.2)))
    | "ratio" => z.assign (.ratio (some (decN x.2)))
    | "is_replaced" => z.assign (.isReplaced (x.2 == "True"))
    | _ => none
  a.getD z
partial def build : Doc → Except Err Node
  | .mk ps zs cs => do
    let (d, e) := (Decl.mk CSS.empty .unbound).update E [] ps
    match e with
    | some e => throw e
    | none => pure ()
    let (d, e) := CSS.copy E [] allLH d.css (.box (some true))
    match e with
    | some e => throw e
    | none => pure ()
    let ks ← cs.mapM build
    return .mk d.css (zs.foldl zset .initial) (some .fresh) ks
def near (a : Option Rat) (b : Option Num) : Bool :=
  match a, b with
  | some a, some b => let d := a - b.val; (if d < 0 then -d else d) ≤ 1/20
  | none, none => true
  | _, _ => false
partial def same : Ref' → Node → Bool
  | .mk qs cs, n =>
    match n.layout with
    | none => false
    | some b =>
      let fp := FP.b64
      let xs : List (Option Num) := [b.contentWidth, b.contentHeight, some (b.absContent fp .h), some (b.absContent fp .v),
        b.paddingBoxWidth fp, b.paddingBoxHeight fp, some (b.absPaddingBoxLeft fp), some (b.absPaddingBoxTop fp),
        b.borderBoxWidth fp, b.borderBoxHeight fp, some (b.absBorderBoxLeft fp), some (b.absBorderBoxTop fp)]
      (qs.zip xs).all (fun x => near x.1 x.2) && cs.length == n.children.length && (cs.zip n.children).all fun x => same x.1 x.2
  | .text, _ => false
def disp : Display := ⟨.int 96, .int 1024, .int 768, .int 1, .int 5, .int 10⟩
partial def go (ls : List String) (ok bad : Nat) : IO (Nat × Nat) := do
  match ls with
  | [] => return (ok, bad)
  | l :: r =>
    match l.splitOn " " with
    | ["T", name, path] =>
      let (d, r) := pDoc r
      let (f, r) := pRef r
      let res : Bool × String := match build d with
        | .error e => (false, "style " ++ reprStr e)
        | .ok n => match layout FP.b64 disp true none n with
          | .error e => (false, "layout " ++ reprStr e)
          | .ok m => (same f (if path == "1" then m.children.head! else m), "boxes")
      if res.1 then go r (ok + 1) bad
      else
        IO.println s!"BAD {name}, {res.2}"
        go r ok (bad + 1)
    | _ => go r ok bad
def main : IO Unit := do
  let ls ← IO.FS.lines "/root/diff/eng"
  let (ok, bad) ← go ((ls.toList).filter (· ≠ "")) 0 0
  IO.println s!"{ok} as expected, {bad} not"
