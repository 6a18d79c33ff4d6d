import Verif.Model.Print
open Colosseum

def chars (s : String) : PyStr := ((s.splitOn " ").filter (· ≠ "")).map fun w => Char.ofNat w.toNat!

def main : IO Unit := do
  let P : Printer := ⟨fun _ => [], fun c => [c], fun _ => .ok []⟩
  let mut n := 0
  let mut bad := 0
  for l in ← IO.FS.lines "/root/diff/strrepr.txt" do
    match l.splitOn "|" with
    | [a, b] =>
      n := n + 1
      if P.strRepr (chars a) ≠ chars b then
        bad := bad + 1
        IO.println l
    | _ => pure ()
  IO.println s!"{n} cases, {bad} differ"
