import Verif.Lemmas.Aligned
import Verif.Lemmas.Sample

/-!
# C87: heights, vertical offsets and vertical edges act in the vertical direction only
-/

namespace Colosseum

theorem aligned_boxes : ∀ (r : List Nat) (n m : Node), AlignedDocs n m →
    match n.boxAt r, m.boxAt r with
    | some b, some c => b.Aligned c
    | none, none => True
    | _, _ => False := by
  intro r
  induction r with
  | nil =>
    rintro ⟨s, z, l, cs⟩ ⟨s', z', l', cs'⟩ h
    simp only [AlignedDocs] at h
    simp only [Node.boxAt, Node.layout]
    cases l <;> cases l'
    · trivial
    · exact h.2.1
    · exact h.2.1
    · exact h.2.1
  | cons i r ih =>
    rintro ⟨s, z, l, cs⟩ ⟨s', z', l', cs'⟩ h
    simp only [AlignedDocs] at h
    have h4 := Aligned.all_iff.1 h.2.2
    simp only [Node.boxAt, Node.layout, Node.children]
    cases l <;> cases l'
    · trivial
    · exact h.2.1.elim
    · exact h.2.1.elim
    · simp only [Option.isSome_some, if_true]
      rcases Nat.lt_or_ge i cs.length with hi | hi
      · have hi' : i < cs'.length := h4.length_eq ▸ hi
        rw [List.getElem?_eq_getElem hi, List.getElem?_eq_getElem hi']
        exact ih _ _ (List.forall₂_iff_get.1 h4 |>.2 i hi hi')
      · have hi' : cs'.length ≤ i := h4.length_eq ▸ hi
        rw [List.getElem?_eq_none hi, List.getElem?_eq_none hi']
        trivial

/-- C87. Two documents that differ in heights, vertical offsets, vertical margins, borders and paddings (and in properties that do not matter for
layout) only, laid out as HTML5 or not and below any parents: if both can be laid out, every node has boxes at the same horizontal position with the same
width and the same horizontal margins, borders and paddings. What is missing: documents with left or right paddings in per cent (see
`C87_false_padding`). -/
theorem C87_aligned_partial (fp : FP) (d : Display) (html5 html5' : Bool) (p q : Option CSS) (n m n' m' : Node) (h : AlignedDocs n m)
    (hn : layout fp d html5 p n = .ok n') (hm : layout fp d html5' q m = .ok m') (r : List Nat) :
    match n'.boxAt r, m'.boxAt r with
    | some b, some c => b.Aligned c
    | none, none => True
    | _, _ => False := aligned_boxes r n' m' (Aligned.layout_joint fp d html5 html5' p q h n' m' hn hm)

/-- A document, and the same with other heights, vertical offsets and edges. -/
def flat : Node := block [(.width, px 200)] [block [(.width, px 50), (.padding .left, px 7), (.position, kw "relative"), (.left, px 4)] [block [] []]]
def tall : Node :=
  block [(.width, px 200), (.height, px 300), (.borderWidth .top, px 9)]
    [block [(.width, px 50), (.padding .left, px 7), (.position, kw "relative"), (.left, px 4), (.top, px 20), (.padding .bottom, px 8)]
      [block [(.height, pct 50), (.margin .top, px 11)] []]]

/-- A test for values that are not percentages. -/
def Val.lacksPercent : Val → Bool
  | .unit u => u.kind != .len .percent
  | _ => true

theorem flat_tall : AlignedDocs flat tall := by
  simp only [flat, tall, block, node, AlignedDocs, AlignedAll, and_true]
  have np : ∀ (s : CSS) (t : Side), (s.get (.padding t)).lacksPercent = true ∧ (s.get (.borderWidth t)).lacksPercent = true →
      ¬ (s.get (.padding t)).Percentage ∧ ¬ (s.get (.borderWidth t)).Percentage := by
    rintro s t ⟨h1, h2⟩
    constructor
    · rintro ⟨x, hx⟩; rw [hx] at h1; cases h1
    · rintro ⟨x, hx⟩; rw [hx] at h2; cases h2
  refine ⟨⟨?_, ?_, rfl, rfl, fun h => by cases h⟩, Aligned.refl _, ⟨?_, ?_, rfl, rfl, fun h => by cases h⟩, Aligned.refl _, ⟨?_, ?_, rfl, rfl, fun h => by cases h⟩,
    Aligned.refl _⟩
  · intro p hp; cases p <;> first | rfl | exact hp.elim | (rcases hp with rfl | rfl <;> rfl)
  · intro t ht; apply np; rcases ht with rfl | rfl <;> exact ⟨rfl, rfl⟩
  · intro p hp; cases p <;> first | rfl | exact hp.elim | (rcases hp with rfl | rfl <;> rfl)
  · intro t ht; apply np; rcases ht with rfl | rfl <;> exact ⟨rfl, rfl⟩
  · intro p hp; cases p <;> first | rfl | exact hp.elim | (rcases hp with rfl | rfl <;> rfl)
  · intro t ht; apply np; rcases ht with rfl | rfl <;> exact ⟨rfl, rfl⟩

example : (layout .b64 screen true none flat).isOk = true ∧ (layout .b64 screen false none tall).isOk = true ∧
    (laidBox .b64 screen flat [0]).map (fun b => (b.h, b.v, b.contentWidth)) = some (⟨.int 0, .int 11⟩, ⟨.int 0, .int 0⟩, some (.int 50)) ∧
    (laidBox .b64 screen tall [0]).map (fun b => (b.h, b.v, b.contentWidth)) = some (⟨.int 0, .int 11⟩, ⟨.int 20, .int 20⟩, some (.int 50)) := by
  decide +kernel

/-- C87 is false for a left padding in per cent, which is taken of the height of the containing block: with another height of the parent the child is
at another place. -/
theorem C87_false_padding : ¬ ∀ (n m n' m' : Node), n.restyle (fun s p => if p = .height then none else some (s.get p)) =
    m.restyle (fun s p => if p = .height then none else some (s.get p)) → layout .b64 screen false none n = .ok n' →
    layout .b64 screen false none m = .ok m' → (n'.boxAt [0]).map Box.h = (m'.boxAt [0]).map Box.h := by
  intro h
  have e : ∀ f g : CSS, (∀ p, f p = g p) → f = g := fun s s' h => funext h
  have := h (block [(.height, px 100), (.position, kw "relative")] [block [(.padding .left, pct 10)] []])
    (block [(.height, px 200), (.position, kw "relative")] [block [(.padding .left, pct 10)] []]) _ _ (by
      simp only [block, node, Node.restyle, restyleAll]
      congr 1
      apply e; intro p; cases p <;> rfl) (laidDoc_ok (by decide +kernel)) (laidDoc_ok (by decide +kernel))
  revert this
  decide +kernel

end Colosseum
