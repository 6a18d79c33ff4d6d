import Verif.Spec.Document

/-!
# Specification: documents of moderate size

What is asked is asked of the document and of the display, not of the result of the layout.
-/

namespace Colosseum

/-- The number of nodes of a document. -/
def Node.count : Node → Nat
  | .mk _ _ _ cs => counts cs + 1
where
  /-- The number of nodes in a list of documents. -/
  counts : List Node → Nat
    | [] => 0
    | c :: cs => c.count + counts cs

/-- If the value is a length at all, it is not a percentage, and at most `M` pixels long. -/
def Val.Mild (v : Val) (fp : FP) (d : Display) (M : Nat) : Prop :=
  ∀ u, v = .unit u → u.kind ≠ .len .percent ∧ ∀ x, u.px fp ⟨d, dummyFont fp, Option.none⟩ = .ok x → |x.val| ≤ M

/-- At most 100 percent. -/
def Val.Share (v : Val) : Prop := ∃ a : Num, v = .unit ⟨.len .percent, .fin a⟩ ∧ |a.val| ≤ 100

/-- From 0 to 100 percent. -/
def Val.Part (v : Val) : Prop := ∃ a : Num, v = .unit ⟨.len .percent, .fin a⟩ ∧ 0 ≤ a.val ∧ a.val ≤ 100

/-- The lengths in the style of an element are at most `M` pixels, and so is its content. Of the percentages only those of the widths of blocks are
allowed, up to 100, and of the left and right margins, from 0 to 100. -/
structure Node.Mild (n : Node) (fp : FP) (d : Display) (M : Nat) : Prop where
  margin : ∀ t, (n.style.get (.margin t)).Mild fp d M ∨ (t = .left ∨ t = .right) ∧ (n.style.get (.margin t)).Part
  border : ∀ t, (n.style.get (.borderWidth t)).Mild fp d M
  padding : ∀ t, (n.style.get (.padding t)).Mild fp d M
  width : ∀ p, p = .width ∨ p = .minWidth ∨ p = .maxWidth → (n.style.get p).Mild fp d M ∨ n.BlockLevel ∧ (n.style.get p).Share
  height : ∀ p, p = .height ∨ p = .minHeight ∨ p = .maxHeight → (n.style.get p).Mild fp d M
  offset : ∀ p, p = .left ∨ p = .right ∨ p = .top ∨ p = .bottom → (n.style.get p).Mild fp d M ∧ n.style.get p ≠ kw "inherit"
  grid : n.intrinsic.OnGrid
  content : (∀ x, n.intrinsic.width = some x → |x.val| ≤ M) ∧ ∀ x, n.intrinsic.height = some x → |x.val| ≤ M

/-- The sizes of the display are at most `M` pixels. -/
structure Display.Mild (d : Display) (M : Nat) : Prop where
  grid : d.OnGrid
  size : |d.contentWidth.val| ≤ M ∧ |d.contentHeight.val| ≤ M
  border : |d.thin.val| ≤ M ∧ |d.medium.val| ≤ M ∧ |d.thick.val| ≤ M

/-- All displayed elements of the document, and the display, are mild. -/
def Node.MildDoc (n : Node) (fp : FP) (d : Display) (M : Nat) : Prop := d.Mild M ∧ ∀ m, Visible m n → m.Mild fp d M

/-- A document whose lengths and whose number of elements are not too large: for example ten thousand elements and lengths up to ten thousand pixels. -/
structure Node.Moderate (n : Node) (fp : FP) (d : Display) (M : Nat) : Prop where
  boxed : AllBoxed n
  mild : n.MildDoc fp d M
  least : 300 ≤ M
  size : M * n.count ≤ 2 ^ 37
  spread : M * n.count * n.count ≤ 2 ^ 40

end Colosseum
