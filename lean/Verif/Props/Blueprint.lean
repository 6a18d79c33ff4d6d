import Verif.Lemmas.Blueprint
import Verif.Props.Viable

/-!
# C91: the layout of a document is its blueprint

`Node.blueprint` (`Verif/Spec/Blueprint.lean`) computes the numbers of all boxes from the document by recursion. The engine writes them into boxes step by
step, after a reset, and moves boxes that it has already placed; it arrives at the same numbers, whatever the arithmetic and whatever the boxes held before,
and it fails exactly when there is no blueprint.
-/

namespace Colosseum

/-- **C91.** For every document in which all visible elements have boxes, every display and every arithmetic: the layout succeeds if and only if there is a
blueprint, and then the boxes, including those of elements that are left out, are those of the blueprint. -/
theorem C91_blueprint {fp : FP} {d : Display} {html5 : Bool} {p : Option CSS} {n : Node} (hb : AllBoxed n) :
    (layout fp d html5 p n).toOption.map Node.drawn = n.blueprint fp d html5 p :=
  (Blue.layout_yields fp d html5 p n hb).eq

/-- The figures at a path. -/
def Blueprint.at : Blueprint → List Nat → Option Figures
  | .absent, _ => none
  | .mk f _, [] => some f
  | .mk _ ks, i :: q => (ks[i]?).bind fun k => k.at q

theorem drawn_at (n : Node) (q : List Nat) : n.drawn.at q = (n.boxAt q).map Box.figures := by
  induction q generalizing n with
  | nil =>
    obtain ⟨s, z, l, cs⟩ := n
    cases l <;> rfl
  | cons i q ih =>
    obtain ⟨s, z, l, cs⟩ := n
    cases l with
    | none => rfl
    | some b =>
      simp only [Node.drawn, Blueprint.at, Blue.drawnAll_map, Node.boxAt, Node.layout, Node.children, Option.isSome_some, if_true, List.getElem?_map]
      cases cs[i]? with
      | none => rfl
      | some c => exact ih c

/-- **C91.** The same, box by box: after a layout every box shows the figures at its place in the blueprint. -/
theorem C91_boxes {fp : FP} {d : Display} {html5 : Bool} {p : Option CSS} {n n' : Node} (hb : AllBoxed n) (h : layout fp d html5 p n = .ok n') (q : List Nat) :
    (n'.boxAt q).map Box.figures = (n.blueprint fp d html5 p).bind fun k => k.at q := by
  rw [← C91_blueprint hb, h]
  exact (drawn_at n' q).symm

mutual
/-- Every element has a box, hidden or not. -/
def Node.full : Node → Bool
  | .mk _ _ l cs => l.isSome && fullAll cs
/-- See `Node.full`. -/
def fullAll : List Node → Bool
  | [] => true
  | c :: cs => c.full && fullAll cs
end

theorem fullAll_mem {cs : List Node} (h : fullAll cs = true) : ∀ c ∈ cs, c.full = true := by
  induction cs with
  | nil => intro c hc; cases hc
  | cons c cs ih =>
    simp only [fullAll, Bool.and_eq_true] at h
    intro c' hc
    rcases List.mem_cons.1 hc with rfl | hc
    · exact h.1
    · exact ih h.2 c' hc

theorem full_boxed (n : Node) (h : n.full = true) : AllBoxed n := by
  induction n using Node.ind with
  | h s z l cs ih =>
    simp only [Node.full, Bool.and_eq_true] at h
    exact allBoxed_mk.2 fun _ => ⟨by intro e; rw [e] at h; exact absurd h.1 (by simp), fun c hc => ih c hc (fullAll_mem h.2 c hc)⟩

/-- Blocks with margins that collapse, percentages, relative positions inside relative positions, inline elements, a picture, hidden elements and, after the
last block, an element that is left out. -/
def plot : Node :=
  block [(.margin .top, px 10), (.padding .left, px 2)] [
    block [(.margin .top, px 25), (.margin .bottom, px 7), (.width, pct 50), (.margin .left, kw "auto")] [
      absent, span [(.margin .top, px 3), (.padding .top, px 1)] 20 10,
      picture [(.margin .top, kw "auto"), (.position, kw "relative"), (.left, px 7), (.maxHeight, px 20)] 30 40],
    block [(.margin .top, px 9), (.borderWidth .top, px 4), (.position, kw "relative"), (.top, pct 10), (.right, px 5)] [
      block [(.position, kw "relative"), (.top, kw "inherit"), (.left, kw "auto"), (.height, px 30)] []],
    span [(.float, kw "left"), (.margin .left, px 50)] 4 4]

/-- Position and size at a path. -/
def Blueprint.place (k : Blueprint) (q : List Nat) : Option (List (Option Rat)) :=
  (k.at q).map fun f => [some f.x.val, some f.y.val, f.width.map Num.val, f.height.map Num.val]

/-- It meets the hypothesis, and there is something in its blueprint. -/
example : AllBoxed plot ∧
    ((plot.blueprint .b64 screen false none).map fun k => [[], [0], [0, 0], [0, 1], [0, 2], [1], [1, 0], [2]].map k.place) =
      some [some [some 2, some 25, some 638, some 0], some [some 319, some 0, some 319, some 40], none, some [some 0, some 4, some 20, some 10],
        some [some 7, some 0, some 30, some 40], some [some (-5), some 57, some 638, some 34], some [some 0, some 4, some 638, some 30],
        some [some 0, some 0, some 0, some 0]] :=
  ⟨full_boxed plot (by decide +kernel), by decide +kernel⟩

/-- By the rules of HTML5 its root is as high as the display without the margin. -/
example : ((plot.blueprint .b64 screen true none).bind fun k => k.place []) = some [some 2, some 25, some 638, some 455] := by decide +kernel

/-- A document without blueprint: something floats before the last block. -/
example : AllBoxed (block [] [block [(.float, kw "left")] [], block [] []]) ∧
    (block [] [block [(.float, kw "left")] [], block [] []]).blueprint .b64 screen false none matches none :=
  ⟨full_boxed _ (by decide +kernel), by decide +kernel⟩

/-- A block that was hidden when its content was laid out last and that is shown again. -/
def reshown : Node :=
  .mk (styled [(.display, kw "block")]) .initial none [.mk (styled [(.display, kw "block")]) .initial (some { Box.fresh with collapse := ⟨50, 0, 0, 0⟩ }) []]

/-- The hypothesis of `C91_blueprint` is needed: where a visible element has no box, what its content held before is not forgotten. -/
theorem C91_reshown : ∃ (d : Display) (n : Node), ¬ AllBoxed n ∧
    (layout .b64 d false none n).toOption.map Node.drawn ≠ n.blueprint .b64 d false none := by
  refine ⟨screen, block [] [reshown], fun h => ?_, fun h => ?_⟩
  · have h1 := (allBoxed_mk.1 h nofun).2 reshown (List.mem_cons_self ..)
    exact (allBoxed_mk.1 h1 nofun).1 rfl
  · have h2 := congrArg (Option.bind · fun k => k.place []) h
    exact absurd h2 (by decide +kernel)

end Colosseum
