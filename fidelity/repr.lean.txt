import Verif.Py.Repr
open Colosseum
#eval show IO Unit from do
  let ls ← IO.FS.lines "/tmp/rp/in.txt"
  let mut out := ""
  for l in ls do
    match l.splitOn " " with
    | [a, b] => out := out ++ String.ofList (pyRepr .b64 (mkRat a.toInt! b.toNat!)) ++ "\n"
    | _ => pure ()
  IO.FS.writeFile "/tmp/rp/out.txt" out
