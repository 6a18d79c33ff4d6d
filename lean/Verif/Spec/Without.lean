import Verif.Spec.Document

/-!
# Specification: a document without some of its hidden elements
-/

namespace Colosseum

/-- A list from which some hidden elements are dropped, the others being related to those that are kept. -/
inductive Dropping (R : Node → Node → Prop) : List Node → List Node → Prop
  | nil : Dropping R [] []
  | keep {c c' : Node} {cs cs' : List Node} : R c c' → Dropping R cs cs' → Dropping R (c :: cs) (c' :: cs')
  | drop {c : Node} {cs cs' : List Node} : c.Hidden → Dropping R cs cs' → Dropping R (c :: cs) cs'

/-- `Without n m`: the document `m` is `n` without some hidden elements; what is inside the hidden ones that stay is arbitrary. A block of automatic height
keeps its last child, which is where its height ends. -/
inductive Without : Node → Node → Prop
  | hidden {n m : Node} : n.Hidden → m.Hidden → (n.layout = none ↔ m.layout = none) → Without n m
  | shown {s : CSS} {z : Intrinsic} {l l' : Option Box} {cs cs' : List Node} : s.get .display ≠ .none → Dropping Without cs cs' →
      cs.length = cs'.length ∨ ¬ (Node.mk s z l cs).BlockLevel ∨ s.get .height ≠ kw "auto" ∨ (∀ c, cs.getLast? = some c → ¬ c.Hidden) →
      Without (.mk s z l cs) (.mk s z l' cs')

open Classical in
/-- How many elements of a list are not hidden. -/
noncomputable def shownIn (cs : List Node) : Nat := (cs.filter fun c => decide ¬ c.Hidden).length

/-- `SamePlace n m q r`: the path `q` in `n` and the path `r` in `m` lead to the same place if hidden elements do not count: on each step, to the first
child that is not hidden, or the second, and so on. -/
inductive SamePlace : Node → Node → List Nat → List Nat → Prop
  | here (n m : Node) : SamePlace n m [] []
  | step {n m c c' : Node} {i j : Nat} {q r : List Nat} : ¬ n.Hidden → ¬ m.Hidden → n.children[i]? = some c → m.children[j]? = some c' →
      ¬ c.Hidden → ¬ c'.Hidden → shownIn (n.children.take i) = shownIn (m.children.take j) → SamePlace c c' q r → SamePlace n m (i :: q) (j :: r)

end Colosseum
