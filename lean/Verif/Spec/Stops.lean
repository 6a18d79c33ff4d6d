import Verif.Spec.Viable

/-!
# Why a document cannot be laid out
-/

namespace Colosseum

/-- Something that the engine refuses to lay out (`NotImplementedError`): it floats, is absolutely positioned or fixed, or is a block that is replaced
or an inline block. -/
def Node.Unsupported (m : Node) : Prop :=
  m.style.get .float ≠ .none ∨ m.style.get .position = kw "absolute" ∨ m.style.get .position = kw "fixed" ∨
  m.BlockLevel ∧ m.intrinsic.isReplaced = true ∨ m.style.get .display = kw "inline-block"

/-- Neither an inline element, nor a block, nor an inline block. -/
def Node.Foreign (m : Node) : Prop :=
  m.style.get .display ≠ kw "inline" ∧ ¬ m.BlockLevel ∧ m.style.get .display ≠ kw "inline-block"

/-- An inline element that is not replaced with an automatic margin at the top. -/
def Node.Unplaced (m : Node) : Prop :=
  m.style.get .display = kw "inline" ∧ m.intrinsic.isReplaced = false ∧ m.style.get (.margin .top) = kw "auto"

/-- Nothing in it keeps the engine from laying it out. -/
def Node.Fine (n : Node) : Prop := ∀ m, Reached m n → ¬ m.Hidden → m.Viable

/-- Nothing keeps the engine from beginning with the children of an element. -/
structure Node.Opens (n : Node) : Prop where
  shown : ¬ n.Hidden
  supported : ¬ n.Unsupported
  known : ¬ n.Foreign
  placed : n.Unplaced → ¬ n.Relative

/-- `Stops n e`: what the engine comes to first, in the order of the document, that it cannot lay out, makes it raise `e`. -/
inductive Stops : Node → Err → Prop
  /-- `NotImplementedError` for what it refuses to lay out. -/
  | unsupported {n : Node} : ¬ n.Hidden → n.Unsupported → Stops n .notImplemented
  /-- `Exception` for an element of another kind. -/
  | foreign {n : Node} : ¬ n.Hidden → ¬ n.Unsupported → n.Foreign → Stops n .generic
  /-- `TypeError` for an automatic top margin of an inline element, before its children if it is relatively positioned. -/
  | early {n : Node} : ¬ n.Hidden → ¬ n.Unsupported → n.Unplaced → n.Relative → Stops n .type
  /-- Whatever a child raises, if those before it raise nothing; where blocks are stacked, only the blocks at the beginning count. -/
  | child {n c : Node} {e : Err} {pre post : List Node} : n.Opens → n.children = pre ++ c :: post → (∀ x ∈ pre, x.Fine) →
      (n.BlockContext → ∀ x ∈ pre ++ [c], x.BlockLevel) → Stops c e → Stops n e
  /-- `AttributeError` where a block follows something else than a block, after the blocks before that. -/
  | stray {n c b : Node} {pre post : List Node} : n.Opens → n.BlockContext → n.children = pre ++ c :: post → (∀ x ∈ pre, x.Fine ∧ x.BlockLevel) →
      ¬ c.BlockLevel → b ∈ post → b.BlockLevel → Stops n .attribute
  /-- `TypeError` for an automatic top margin of an inline element that is not relatively positioned, after its children. -/
  | late {n : Node} : n.Opens → n.Unplaced → (∀ c ∈ n.children, c.Fine) → Stops n .type
  /-- `AttributeError` for a block of automatic height, without blocks in it, that ends with a hidden element. -/
  | last {n c : Node} : n.Opens → n.BlockLevel → ¬ n.BlockContext → n.style.get .height = kw "auto" → (∀ c ∈ n.children, c.Fine) →
      n.children.getLast? = some c → c.Hidden → Stops n .attribute

end Colosseum
