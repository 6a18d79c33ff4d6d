import Verif.Lemmas.Level
import Verif.Lemmas.Sample
import Verif.Props.Blueprint

/-!
# C108: percentages that are relative to a height
-/

namespace Colosseum

theorem level_boxed (n : Node) : ∀ lp, AllBoxed n → AllBoxed (n.level lp) := by
  induction n using Node.ind with
  | h s z l cs ih =>
    intro lp h
    rw [level_mk]
    refine allBoxed_mk.2 fun hd => ?_
    rw [levels_other (q := .display) s rfl nofun] at hd
    obtain ⟨h1, h2⟩ := allBoxed_mk.1 h hd
    refine ⟨h1, fun c hc => ?_⟩
    obtain ⟨c', hc', rfl⟩ := List.mem_map.1 hc
    exact ih c' hc' _ (h2 c' hc')

/-- **C108.** In any document, the percentages in the children of elements that are not relatively positioned that are relative to a height — those of `top`, `bottom`,
`min_height` and `max_height`, of the margins at the top and at the bottom and of the borders and paddings at the left and at the right, and those of `height` where the
parent has no height of its own — can all be replaced by 0: no number of any box changes, and the document can be laid out if and only if it could before. -/
theorem C108_level (fp : FP) (L : fp.Laws) (d : Display) (html5 : Bool) (p : Option CSS) (n : Node) (hb : AllBoxed n) :
    (layout fp d html5 p (n.level none)).toOption.map Node.drawn = (layout fp d html5 p n).toOption.map Node.drawn := by
  rw [C91_blueprint hb, C91_blueprint (level_boxed n none hb)]
  unfold Node.blueprint
  rw [level_plan L d n none p p _ (.inl ⟨rfl, rfl⟩)]

/-- C108, box by box. -/
theorem C108_boxes (fp : FP) (L : fp.Laws) (d : Display) (html5 : Bool) (p : Option CSS) (n n' : Node) (hb : AllBoxed n)
    (h : layout fp d html5 p n = .ok n') : ∃ m', layout fp d html5 p (n.level none) = .ok m' ∧
      ∀ q, (m'.boxAt q).map Box.figures = (n'.boxAt q).map Box.figures := by
  have e := C108_level fp L d html5 p n hb
  rw [h] at e
  cases hm : layout fp d html5 p (n.level none) with
  | error x =>
    rw [hm] at e
    cases e
  | ok m' =>
    refine ⟨m', rfl, fun q => ?_⟩
    rw [hm] at e
    have e' : m'.drawn = n'.drawn := Option.some.inj e
    rw [← drawn_at, ← drawn_at, e']

/-- A document with such percentages, and one of a height where the parent has a height of its own, which is kept. -/
def slanted : Node :=
  block [(.height, px 200)] [
    block [(.padding .left, pct 10), (.padding .top, pct 10), (.margin .top, pct 5), (.position, kw "relative"), (.top, pct 50), (.height, pct 50)] [],
    block [] [block [(.height, pct 30), (.minHeight, pct 20)] []]]

/-- Seven percentages, of which five are replaced: not the height of the first child and not the padding at its top. -/
example : AllBoxed slanted ∧
    [(0, LH.padding .left), (0, .padding .top), (0, .margin .top), (0, .top), (0, .height)].map (fun (i, p) =>
      (((slanted.level none).children)[i]?).map fun c => (c.style.get p).isShare) = [some false, some true, some false, some false, some true] ∧
    (laidBox .b64 screen slanted [0]).map (fun b => (b.padding.left, b.padding.top, b.contentHeight)) = some (.int 0, .int 64, some (.int 100)) := by
  refine ⟨full_boxed _ (by decide +kernel), by decide +kernel, by decide +kernel⟩

/-- In the children of relatively positioned elements these percentages do count: without relative positioning around it, the second block is not moved by half of 100 pixels. -/
theorem C108_relative :
    (laidBox .b64 screen (block [] [block [(.height, px 100), (.position, kw "relative")] [block [(.position, kw "relative"), (.top, pct 50)] []]]) [0, 0]).map
      (fun b => b.v.content) = some (.int 50) ∧
    (laidBox .b64 screen (block [] [block [(.height, px 100)] [block [(.position, kw "relative"), (.top, pct 50)] []]]) [0, 0]).map
      (fun b => b.v.content) = some (.int 0) := by decide +kernel

end Colosseum
