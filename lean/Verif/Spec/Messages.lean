import Verif.Spec.Style

/-!
# Specification of the values an error message lists
-/

namespace Colosseum

/-- How the documentation writes the values of a property besides keywords. -/
def notations : LH → List String
  | .margin _ | .padding _ | .top | .right | .bottom | .left | .width | .minWidth | .maxWidth | .height | .minHeight | .maxHeight | .textIndent =>
    ["<length>", "<percentage>"]
  | .borderWidth _ | .outlineWidth | .letterSpacing | .wordSpacing => ["<length>"]
  | .borderColor _ | .outlineColor | .color | .backgroundColor => ["<color>"]
  | .zIndex | .orphans | .widows => ["<integer>"]
  | .borderSpacing => ["<length> <length>?"]
  | .clip => ["<rect>"]
  | .quotes => ["[<string> <string>]+"]
  | .cursor => ["[ [<uri> ,]* [ auto | crosshair | default | pointer | move | e-resize | ne-resize | nw-resize | n-resize | se-resize | sw-resize | s-resize | w-resize | text | wait | help | progress ] ]"]
  | _ => []

/-- A text stands for a value of the property: it is a keyword, or the notation of other values. -/
def Stands (p : LH) (x : PyStr) : Prop := ∃ s, (s ∈ keywordNames p ∨ s ∈ notations p) ∧ x = s.toList

end Colosseum
