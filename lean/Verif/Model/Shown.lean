import Verif.Model.Print
import Verif.Model.Engine

/-!
# The text of a box, and classifications the engine does not use
-/

namespace Colosseum

/-- `str(x)` of a number or `None`. -/
def Printer.optNum (P : Printer) : Option Num → PyStr
  | none => lit "None"
  | some x => P.num (.fin x)

/-- `Box.__repr__` (`/repo/src/colosseum/dimensions.py:169-170`). -/
def Printer.box (P : Printer) (fp : FP) (b : Box) : PyStr :=
  lit "<Box (" ++ P.optNum b.contentWidth ++ lit "x" ++ P.optNum b.contentHeight ++ lit " @ " ++ P.num (.fin (b.absContent fp .h)) ++ lit "," ++
    P.num (.fin (b.absContent fp .v)) ++ lit ")>"

/-- `is_inline_level_element` (`/repo/src/colosseum/engine.py:44-50`). -/
def isInlineLevel (s : CSS) : Bool :=
  (s.get .display).isKw "inline" || (s.get .display).isKw "inline-table" || (s.get .display).isKw "inline-block"

/-- `establishes_table_formatting_context` (`/repo/src/colosseum/engine.py:79-80`). -/
def establishesTable (_ : Node) : Bool := false

end Colosseum
