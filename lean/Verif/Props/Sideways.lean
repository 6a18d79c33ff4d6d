import Verif.Lemmas.Sideways
import Verif.Lemmas.Sample

/-!
# C86: direction and horizontal offsets act in the horizontal direction only
-/

namespace Colosseum

open Sideways

theorem parents_upright {p q : Option CSS} {f : CSS → CSS} (hf : ∀ s s', f s = f s' → s.get .height = s'.get .height) (h : p.map f = q.map f) :
    Parents p q := by
  cases p <;> cases q
  · trivial
  · cases h
  · cases h
  · exact hf _ _ (Option.some.inj h)

/-- C86. Two documents that differ in `direction`, `left` and `right` (and in properties that do not matter for layout) only: if both can be laid out,
every node has boxes of the same sizes at the same height, with the same borders, paddings and vertical margins. -/
theorem C86_sideways (fp : FP) (d : Display) (html5 : Bool) (p q : Option CSS) (n m n' m' : Node) (hp : p.map CSS.upright = q.map CSS.upright)
    (h : n.restyle CSS.upright = m.restyle CSS.upright) (hn : layout fp d html5 p n = .ok n') (hm : layout fp d html5 q m = .ok m') : SlidBoxes n' m' := by
  have := layout_agree fp d html5 (parents_upright (fun s s' e => (styles_upright e).same .height trivial) hp)
    (twin_of_restyle (fun s s' e => styles_upright e) n m h)
  rw [hn, hm] at this
  exact fun r => twin_slidBoxes r n' m' this

/-- C86, for documents that differ in `direction` only: the layouts moreover fail with the same exception, or both succeed. -/
theorem C86_direction (fp : FP) (d : Display) (html5 : Bool) (p q : Option CSS) (n m : Node) (hp : p.map CSS.undirected = q.map CSS.undirected)
    (h : n.restyle CSS.undirected = m.restyle CSS.undirected) :
    (∃ e, layout fp d html5 p n = .error e ∧ layout fp d html5 q m = .error e) ∨
      ∃ n' m', layout fp d html5 p n = .ok n' ∧ layout fp d html5 q m = .ok m' ∧ SlidBoxes n' m' := by
  have := layout_agree fp d html5 (parents_upright (fun s s' e => (styles_undirected e).same .height trivial) hp)
    (twin_of_restyle (fun s s' e => styles_undirected e) n m h)
  cases hn : layout fp d html5 p n with
  | error e =>
    cases hm : layout fp d html5 q m with
    | error e' =>
      rw [hn, hm] at this
      exact .inl ⟨e, rfl, congrArg Except.error (this rfl).symm⟩
    | ok m' => rw [hn, hm] at this; cases this
  | ok n' =>
    cases hm : layout fp d html5 q m with
    | error e' => rw [hn, hm] at this; cases this
    | ok m' =>
      rw [hn, hm] at this
      exact .inr ⟨n', m', rfl, rfl, fun r => twin_slidBoxes r n' m' this⟩

/-- A document, the same with text from right to left, and the same with a horizontal offset. -/
def westward : Node := block [(.width, px 200)] [block [(.width, px 50), (.height, px 10), (.margin .top, px 7), (.position, kw "relative")] [block [(.height, px 3)] []]]
def eastward : Node :=
  block [(.width, px 200), (.direction, kw "rtl")]
    [block [(.width, px 50), (.height, px 10), (.margin .top, px 7), (.position, kw "relative"), (.direction, kw "rtl")] [block [(.height, px 3)] []]]
def pushed : Node :=
  block [(.width, px 200)] [block [(.width, px 50), (.height, px 10), (.margin .top, px 7), (.position, kw "relative"), (.left, px 20)] [block [(.height, px 3)] []]]

theorem same_undirected : westward.restyle CSS.undirected = eastward.restyle CSS.undirected := by
  have e : ∀ s s' : CSS, (∀ p, s.undirected p = s'.undirected p) → s.undirected = s'.undirected := fun s s' h => funext h
  simp only [westward, eastward, block, node, Node.restyle, restyleAll]
  congr 1
  · apply e; intro p; cases p <;> rfl
  · congr 2
    apply e; intro p; cases p <;> rfl

theorem same_upright : westward.restyle CSS.upright = pushed.restyle CSS.upright := by
  have e : ∀ s s' : CSS, (∀ p, s.upright p = s'.upright p) → s.upright = s'.upright := fun s s' h => funext h
  simp only [westward, pushed, block, node, Node.restyle, restyleAll]
  congr 3
  apply e; intro p; cases p <;> rfl

example : SlidBoxes (laidDoc .b64 screen westward) (laidDoc .b64 screen pushed) :=
  C86_sideways .b64 screen false none none westward pushed _ _ rfl same_upright (laidDoc_ok (by decide +kernel)) (laidDoc_ok (by decide +kernel))

example : (laidBox .b64 screen westward [0]).map (fun b => (b.h, b.v, b.contentWidth)) =
      some (⟨.int 0, .int 0⟩, ⟨.int 7, .int 0⟩, some (.int 50)) ∧
    (laidBox .b64 screen eastward [0]).map (fun b => (b.h, b.v, b.contentWidth)) =
      some (⟨.int 440, .int 150⟩, ⟨.int 7, .int 0⟩, some (.int 50)) ∧
    (laidBox .b64 screen pushed [0]).map (fun b => (b.h, b.v, b.contentWidth)) =
      some (⟨.int 0, .int 20⟩, ⟨.int 7, .int 0⟩, some (.int 50)) := by decide +kernel

/-- The vertical offsets, in contrast, change the height of the parent. -/
def lowered : Node :=
  block [(.width, px 200)] [block [(.width, px 50), (.height, px 10), (.margin .top, px 7), (.position, kw "relative"), (.top, px 20)] [block [(.height, px 3)] []]]

theorem C86_vertical_matters : ¬ ∀ (n m n' m' : Node), n.restyle (fun s p => if p = .top ∨ p = .bottom then none else some (s.get p)) =
    m.restyle (fun s p => if p = .top ∨ p = .bottom then none else some (s.get p)) → layout .b64 screen false none n = .ok n' →
    layout .b64 screen false none m = .ok m' → n'.layout.map Box.contentHeight = m'.layout.map Box.contentHeight := by
  intro h
  have e : ∀ f g : CSS, (∀ p, f p = g p) → f = g := fun s s' h => funext h
  have := h westward lowered (laidDoc .b64 screen westward) (laidDoc .b64 screen lowered) (by
    simp only [westward, lowered, block, node, Node.restyle, restyleAll]
    congr 3
    apply e; intro p; cases p <;> rfl) (laidDoc_ok (by decide +kernel)) (laidDoc_ok (by decide +kernel))
  revert this
  decide +kernel

end Colosseum
