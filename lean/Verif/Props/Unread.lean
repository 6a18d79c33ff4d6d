import Verif.Lemmas.Restyle
import Verif.Lemmas.Sample

/-!
# C66: properties that do not matter for layout
-/

namespace Colosseum

/-- C66. Two documents of the same structure, with the same intrinsic sizes and boxes, whose styles agree in the sizing properties and in the offsets,
are laid out in the same way: either both layouts fail with the same exception, or the resulting documents have the same boxes (and still agree in the
properties that matter). Colours, outlines, border styles, text, table and page properties have no influence. -/
theorem C66_looks (fp : FP) (d : Display) (html5 : Bool) (p q : Option CSS) (n m : Node) (hp : p.map CSS.looks = q.map CSS.looks) (h : n.looks = m.looks) :
    (layout fp d html5 p n).map Node.looks = (layout fp d html5 q m).map Node.looks := by
  have h1 := restyle_layoutDoc (keeps_looks fp d) html5 p n
  have h2 := restyle_layoutDoc (keeps_looks fp d) html5 q m
  have e : ∀ x : Res Node, x.map Node.looks = x.map (Node.restyle CSS.looks) := fun _ => rfl
  rw [e, e, ← h1, ← h2, hp]
  rw [show n.restyle CSS.looks = m.restyle CSS.looks from h]

theorem boxAt_looks : ∀ (r : List Nat) (n : Node), n.looks.boxAt r = n.boxAt r := by
  intro r
  induction r with
  | nil => intro n; exact restyle_layout _ n
  | cons i r ih =>
    rintro ⟨s, z, l, cs⟩
    have e : (Node.mk s z l cs).looks = .mk s.looks z l (cs.map Node.looks) := restyle_mk ..
    rw [e]
    simp only [Node.boxAt, Node.layout, Node.children, List.getElem?_map]
    cases l with
    | none => rfl
    | some b =>
      cases cs[i]? with
      | none => rfl
      | some c => exact ih c

/-- C66, box by box: every node has the same box in both documents. -/
theorem C66_boxes (fp : FP) (d : Display) (html5 : Bool) (p q : Option CSS) (n m n' : Node) (hp : p.map CSS.looks = q.map CSS.looks) (h : n.looks = m.looks)
    (hn : layout fp d html5 p n = .ok n') : ∃ m', layout fp d html5 q m = .ok m' ∧ ∀ r, n'.boxAt r = m'.boxAt r := by
  have := C66_looks fp d html5 p q n m hp h
  rw [hn] at this
  cases hm : layout fp d html5 q m with
  | error e => rw [hm] at this; cases this
  | ok m' =>
    rw [hm] at this
    have this : n'.looks = m'.looks := Except.ok.inj this
    exact ⟨m', rfl, fun r => by rw [← boxAt_looks, this, boxAt_looks]⟩

/-- A document, and the same in colour and with an outline. -/
def plainDoc : Node := block [(.width, px 50)] [block [(.height, px 10), (.margin .left, px 4)] []]
def paintedDoc : Node :=
  block [(.width, px 50), (.color, .color (.heap []) (.rgb 255 0 0 (.fin (.int 1))))] [block [(.height, px 10), (.outlineWidth, px 30), (.margin .left, px 4)] []]

example : plainDoc.looks = paintedDoc.looks := by
  have e : ∀ s s' : CSS, (∀ p, s.looks p = s'.looks p) → s.looks = s'.looks := fun s s' h => funext h
  simp only [plainDoc, paintedDoc, block, node, Node.looks, Node.restyle, restyleAll]
  congr 1
  · apply e; intro p; cases p <;> rfl
  · congr 2
    apply e; intro p; cases p <;> rfl

example : (laidBox .b64 screen plainDoc [0]).map (fun b => (b.h.content, b.contentWidth)) = some (.int 4, some (.int 46)) ∧
    laidBox .b64 screen plainDoc [0] = laidBox .b64 screen paintedDoc [0] := by decide +kernel

end Colosseum
