import Verif.Spec.Blueprint

/-!
# Specification: a document without the percentages that are relative to the height of a parent in the flow
-/

namespace Colosseum

/-- Zero pixels instead of a percentage. -/
def Val.nothing : Val → Val
  | .unit ⟨.len .percent, .fin _⟩ => .unit ⟨.len .px, .fin (.int 0)⟩
  | v => v

/-- A percentage. -/
def Val.isShare : Val → Bool
  | .unit ⟨.len .percent, .fin _⟩ => true
  | _ => false

/-- The properties, apart from `height`, whose percentages are relative to a height. -/
def LH.ofHeight : LH → Bool
  | .margin .top | .margin .bottom | .borderWidth .left | .borderWidth .right | .padding .left | .padding .right | .top | .bottom | .minHeight | .maxHeight => true
  | _ => false

/-- Is the value of a property of an element replaced, given the style of the parent? Nothing is replaced in the root and in the children of relatively positioned
elements. The height is replaced if the parent has none, or a percentage, unless the element is relatively positioned itself. -/
def levels (parent : Option CSS) (s : CSS) (p : LH) : Bool :=
  match parent with
  | none => false
  | some q =>
    !(q.get .position).isKw "relative" &&
      (p.ofHeight || p = .height && !(s.get .position).isKw "relative" && ((q.get .height).isKw "auto" || (q.get .height).isShare))

/-- The style with zero instead of these percentages. -/
def CSS.level (parent : Option CSS) (s : CSS) : CSS := fun p => if levels parent s p then (s p).map Val.nothing else s p

mutual
/-- The document with zero instead of these percentages. -/
def Node.level (parent : Option CSS) : Node → Node
  | .mk s z l cs => .mk (s.level parent) z l (levelAll s cs)
/-- See `Node.level`. -/
def levelAll (parent : CSS) : List Node → List Node
  | [] => []
  | c :: cs => c.level (some parent) :: levelAll parent cs
end

end Colosseum
