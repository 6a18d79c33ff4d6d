import Verif.Spec.Tree
import Verif.Model.Engine

/-!
# What a document is, apart from its layout
-/

namespace Colosseum

mutual
/-- The document without any layout boxes. -/
def Node.strip : Node → Node
  | .mk s z _ cs => .mk s z none (stripAll cs)
/-- The documents without any layout boxes. -/
def stripAll : List Node → List Node
  | [] => []
  | c :: cs => c.strip :: stripAll cs
end

/-- The same structure, styles and intrinsic sizes. -/
def SameDoc (n m : Node) : Prop := n.strip = m.strip

/-- `display: none`. -/
def Node.Hidden (n : Node) : Prop := n.style.get .display = .none

/-- `Visible m n`: `m` occurs in `n` and neither it nor any node on the way is hidden. -/
inductive Visible : Node → Node → Prop
  | here {n : Node} : ¬ n.Hidden → Visible n n
  | step {m c n : Node} : ¬ n.Hidden → c ∈ n.children → Visible m c → Visible m n

/-- Every visible node has a box. -/
def AllBoxed (n : Node) : Prop := ∀ m, Visible m n → m.layout ≠ none

/-- The box of the node at a path, provided all nodes on the way have boxes. -/
def Node.boxAt : Node → List Nat → Option Box
  | n, [] => n.layout
  | n, i :: p => if n.layout.isSome then (n.children[i]?).bind fun c => c.boxAt p else none

/-- A block-level element (CSS 2.1, 9.2.1). -/
def Node.BlockLevel (n : Node) : Prop :=
  n.style.get .display = kw "block" ∨ n.style.get .display = kw "list-item" ∨ n.style.get .display = kw "table"

/-- The children are laid out below each other: the node is a block container, not replaced, with a
block-level child (CSS 2.1, 9.2.1, 9.4.1). -/
def Node.BlockContext (n : Node) : Prop :=
  (n.style.get .display = kw "block" ∨ n.style.get .display = kw "list-item" ∨ n.style.get .display = kw "inline-block"
    ∨ n.style.get .display = kw "table-cell" ∨ n.style.get .display = kw "table-caption") ∧
  n.intrinsic.isReplaced = false ∧ ∃ c ∈ n.children, c.BlockLevel

/-- `Reached m n`: laying out `n` comes to `m`. Hidden nodes are not entered, and where blocks are stacked
only the block-level children are visited. -/
inductive Reached : Node → Node → Prop
  | here (n : Node) : Reached n n
  | step {m c n : Node} : ¬ n.Hidden → c ∈ n.children → (n.BlockContext → c.BlockLevel) → Reached m c → Reached m n

/-- Where blocks are stacked, all children are block-level. -/
def NoStray (n : Node) : Prop := ∀ m, Visible m n → m.BlockContext → ∀ c ∈ m.children, c.BlockLevel

end Colosseum

namespace Colosseum

/-- `Within w ps n w' ps' m`: laying out `n` comes to `m`. `w` is the width available to `n` and `ps` the style of
its parent; `w'` and `ps'` are those of `m`: the content width of the box of its parent and the parent's style. -/
inductive Within : Option Num → Option CSS → Node → Option Num → Option CSS → Node → Prop
  | here (w : Option Num) (ps : Option CSS) (n : Node) : Within w ps n w ps n
  | step {w w' : Option Num} {ps ps' : Option CSS} {n c m : Node} {b : Box} : ¬ n.Hidden → n.layout = some b →
      c ∈ n.children → (n.BlockContext → c.BlockLevel) → Within b.contentWidth (some n.style) c w' ps' m → Within w ps n w' ps' m

/-! ## Widths -/

/-- The seven horizontal measures of a box, from left to right. -/
structure Across where
  (ml bl pl w pr br mr : Num)

/-- The measures of a box whose width and horizontal margins have been computed. -/
def Box.Measures (b : Box) (x : Across) : Prop :=
  b.margin.left = .num x.ml ∧ b.border.left = x.bl ∧ b.padding.left = x.pl ∧ b.contentWidth = some x.w ∧
  b.padding.right = x.pr ∧ b.border.right = x.br ∧ b.margin.right = .num x.mr

/-- Their sum. -/
def Across.sum (x : Across) : Rat := x.ml.val + x.bl.val + x.pl.val + x.w.val + x.pr.val + x.br.val + x.mr.val

/-- All of them are on the grid of layout units and not too large. -/
def Across.AllFit (fp : FP) (m : Nat) (x : Across) : Prop :=
  Fits fp m x.ml ∧ Fits fp m x.bl ∧ Fits fp m x.pl ∧ Fits fp m x.w ∧ Fits fp m x.pr ∧ Fits fp m x.br ∧ Fits fp m x.mr

/-! ## Layout units -/

/-- A whole number of layout units, of which there are 64 in a pixel. -/
def Num.OnGrid (x : Num) : Prop := ∃ n : Int, x.val = (n : Rat) / 64

/-- All numbers of a box are on the grid. -/
structure Box.OnGrid (b : Box) : Prop where
  width : ∀ x, b.contentWidth = some x → x.OnGrid
  height : ∀ x, b.contentHeight = some x → x.OnGrid
  origin : ∀ a, (b.pos a).origin.OnGrid
  content : ∀ a, (b.pos a).content.OnGrid
  margin : ∀ t x, b.margin.get t = .num x → x.OnGrid
  border : ∀ t, (b.border.get t).OnGrid
  padding : ∀ t, (b.padding.get t).OnGrid

/-- The sizes of a display are on the grid. -/
def Display.OnGrid (d : Display) : Prop :=
  d.contentWidth.OnGrid ∧ d.contentHeight.OnGrid ∧ d.thin.OnGrid ∧ d.medium.OnGrid ∧ d.thick.OnGrid

/-- The intrinsic sizes are on the grid, and no height is computed from a ratio. -/
def Intrinsic.OnGrid (z : Intrinsic) : Prop :=
  (∀ x, z.width = some x → x.OnGrid) ∧ (∀ x, z.height = some x → x.OnGrid) ∧ z.ratio = none

/-! ## Heights -/

/-- `Within`, without the root when `html5` is set: that standard stretches the root afterwards. -/
def Inside (html5 : Bool) (w : Option Num) (ps : Option CSS) (n : Node) (w' : Option Num) (ps' : Option CSS) (m : Node) : Prop :=
  match html5 with
  | false => Within w ps n w' ps' m
  | true => ∃ b c, ¬ n.Hidden ∧ n.layout = some b ∧ c ∈ n.children ∧ (n.BlockContext → c.BlockLevel) ∧
      Within b.contentWidth (some n.style) c w' ps' m

/-- A length that is not a percentage, and its number of pixels. -/
def Val.Length (v : Val) (fp : FP) (d : Display) (f : Font) (x : Num) : Prop :=
  ∃ k val, v = .unit ⟨.len k, val⟩ ∧ k ≠ .percent ∧ pxOf fp k val ⟨d, f, Option.none⟩ = .ok x

end Colosseum

namespace Colosseum

/-! ## Stacks of blocks -/

/-- `position: relative`. -/
def Node.Relative (n : Node) : Prop := n.style.get .position = kw "relative"

/-- The vertical measures of a box from top to bottom, and its collapsed bottom margin. -/
structure Down where
  (mt bt pt h pb bb : Num)
  (cb : Int)

/-- The measures of a box whose height and vertical margins have been computed. -/
def Box.Stands (b : Box) (x : Down) : Prop :=
  b.margin.top = .num x.mt ∧ b.border.top = x.bt ∧ b.padding.top = x.pt ∧ b.contentHeight = some x.h ∧
  b.padding.bottom = x.pb ∧ b.border.bottom = x.bb ∧ b.collapse.bottom = x.cb

/-- The height of the border box. -/
def Down.height (x : Down) : Rat := x.bt.val + x.pt.val + x.h.val + x.pb.val + x.bb.val

/-- All of them are on the grid of layout units and not too large. -/
def Down.AllFit (fp : FP) (m : Nat) (x : Down) : Prop :=
  Fits fp m x.mt ∧ Fits fp m x.bt ∧ Fits fp m x.pt ∧ Fits fp m x.h ∧ Fits fp m x.pb ∧ Fits fp m x.bb ∧ Fits fp m (.int x.cb)

/-- The space above a block: none above the first one, otherwise the larger of the collapsed bottom margin above and its own
top margin. -/
def Down.gap (bm : Option Int) (x : Down) : Rat :=
  match bm with
  | none => 0
  | some m => max (m : Rat) x.mt.val

/-- Where the border boxes of a stack of blocks start: `off` is where the block above ends and `bm` its collapsed bottom margin. -/
def flowTops (off : Rat) (bm : Option Int) : List Down → List Rat
  | [] => []
  | x :: xs => (off + x.gap bm) :: flowTops (off + x.gap bm + x.height) (some x.cb) xs

end Colosseum

namespace Colosseum

/-- No number of a box is larger than `q` pixels. -/
structure Box.Below (q : Nat) (b : Box) : Prop where
  width : ∀ x, b.contentWidth = some x → |x.val| ≤ q
  height : ∀ x, b.contentHeight = some x → |x.val| ≤ q
  content : ∀ a, |(b.pos a).content.val| ≤ q
  margin : ∀ t x, b.margin.get t = .num x → |x.val| ≤ q
  border : ∀ t, |(b.border.get t).val| ≤ q
  padding : ∀ t, |(b.padding.get t).val| ≤ q
  collapse : ∀ t, |(b.collapse.get t : Rat)| ≤ q

end Colosseum
