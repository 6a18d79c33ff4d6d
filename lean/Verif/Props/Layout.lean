import Verif.Lemmas.Reach
import Verif.Lemmas.Sample
import Verif.Props.Boxes

/-!
# What a layout changes and what it depends on
-/

namespace Colosseum

/-! ## C42: only boxes are written -/

/-- C42. A layout leaves the structure of the document, the styles and the intrinsic sizes alone. -/
theorem C42_document (fp : FP) (d : Display) (html5 : Bool) (p : Option CSS) (n n' : Node) (h : layout fp d html5 p n = .ok n') :
    SameDoc n' n := layout_strip h

theorem find_strip (n : Node) : ∀ q, n.strip.find q = (n.find q).map Node.strip := by
  induction n using Node.ind with
  | h s z l cs ih =>
    intro q
    cases q with
    | nil => simp [Node.find]
    | cons i q =>
      rw [strip_mk]
      simp only [Node.find, Node.children, List.getElem?_map]
      cases hc : cs[i]? with
      | none => rfl
      | some c => exact ih c (List.mem_of_getElem? hc) q

/-- C42, path by path: the node at every path is still there, with its style, its intrinsic size and as many
children as before. -/
theorem C42_paths (fp : FP) (d : Display) (html5 : Bool) (p : Option CSS) (n n' : Node) (h : layout fp d html5 p n = .ok n')
    (q : List Nat) :
    (n'.find q).map (fun m => (m.style, m.intrinsic, m.children.length)) =
      (n.find q).map fun m => (m.style, m.intrinsic, m.children.length) := by
  have e : ∀ m : Node, (m.find q).map (fun m => (m.style, m.intrinsic, m.children.length)) =
      (m.strip.find q).map fun m => (m.style, m.intrinsic, m.children.length) := by
    intro m
    rw [find_strip]
    cases m.find q with
    | none => rfl
    | some k => simp [strip_style, strip_intrinsic, strip_children]
  rw [e n', e n, layout_strip h]

/-- A layout that changes boxes. -/
example : laidBox .exact screen (block [(.padding .left, px 10)] [block [(.height, px 20)] []]) [0] ≠
    (block [(.padding .left, px 10)] [block [(.height, px 20)] []]).boxAt [0] := by decide +kernel

/-! ## C43: layouts do not depend on earlier layouts -/

theorem root_boxed {fp : FP} {d : Display} {html5 : Bool} {p : Option CSS} {n n' m : Node} (h : layout fp d html5 p n = .ok n')
    (hs : SameDoc n m) (hm : AllBoxed m) : m.layout ≠ none := by
  refine hm m (.here ?_)
  rw [← hidden_strip, ← hs, hidden_strip]
  intro hh
  obtain ⟨k, h1, h2, _⟩ := layout_ok h
  have hb := layoutBox_boxedUp fp d _ _ _ _ _ h1 k (.here k)
  obtain ⟨s, z, b, cs, b', rfl, _, _⟩ := finishRoot_ok h2
  have : (Node.mk s z (some b) cs).Hidden := by
    rw [← hidden_strip, layoutBox_strip _ _ _ _ _ _ _ h1, strip_reset, hidden_strip]
    exact hh
  cases hb.2 this

/-- C43. Two documents with the same nodes, styles and intrinsic sizes and with boxes at the same places, among them
all displayed nodes, are laid out to the same boxes, whatever those boxes contain before. -/
theorem C43_contents_partial (fp : FP) (d : Display) (html5 : Bool) (p : Option CSS) (n m n' : Node) (hs : SameDoc n m)
    (hp : ∀ q, (n.boxAt q).isSome = (m.boxAt q).isSome) (hb : AllBoxed n) (h : layout fp d html5 p n = .ok n') :
    ∃ m', layout fp d html5 p m = .ok m' ∧ ∀ q, n'.boxAt q = m'.boxAt q := by
  have hsh := shape_of_boxAt hs hp true
  obtain ⟨m', h1, h2⟩ := layout_alike hsh hb (root_boxed h hs (allBoxed_shape hsh hb)) h
  exact ⟨m', h1, boxAt_alike h2⟩

/-- C43. Where stacked children are all blocks, it does not matter either which hidden nodes have boxes. -/
theorem C43_blocks_partial (fp : FP) (d : Display) (html5 : Bool) (p : Option CSS) (n m n' : Node) (hs : SameDoc n m)
    (hn : AllBoxed n) (hm : AllBoxed m) (hx : NoStray n) (h : layout fp d html5 p n = .ok n') :
    ∃ m', layout fp d html5 p m = .ok m' ∧ ∀ q, n'.boxAt q = m'.boxAt q := by
  obtain ⟨m', h1, h2⟩ := layout_alike (shape_of_noStray hs hn hm hx) hn (root_boxed h hs hm) h
  exact ⟨m', h1, boxAt_alike h2⟩

/-- C43. Laying out again changes nothing, however often. -/
theorem C43_again_partial (fp : FP) (d : Display) (html5 : Bool) (p : Option CSS) (n n' : Node) (hb : AllBoxed n)
    (h : layout fp d html5 p n = .ok n') :
    ∃ n'', layout fp d html5 p n' = .ok n'' ∧ (∀ q, n''.boxAt q = n'.boxAt q) ∧ AllBoxed n' := by
  have hsh := layout_shape h hb
  have hb' := allBoxed_shape hsh hb
  obtain ⟨n'', h1, h2⟩ := layout_alike hsh hb (root_boxed h (layout_strip h).symm hb') h
  exact ⟨n'', h1, fun q => (boxAt_alike h2 q).symm, hb'⟩

/-- The document used below: a block with a hidden and a displayed child, both with boxes. -/
def family (b : Option Box) : Node :=
  block [(.padding .left, px 10), (.height, px 50)] [.mk (styled [(.display, .none)]) .initial b [], node [] []]

example : AllBoxed (family none) ∧ NoStray (family none) ∧
    (∃ b, laidBox .exact screen (family none) [1] = some b ∧ b.h.origin = .int 10) := by
  refine ⟨?_, ?_, ?_⟩
  · intro m hm
    cases hm with
    | here => simp [family, block, node, Node.layout]
    | @step c _ _ hc hr =>
      simp only [family, block, node, Node.children, List.mem_cons, List.not_mem_nil, or_false] at hc
      rcases hc with rfl | rfl
      · exfalso
        cases hr with
        | here h => exact h (by simp [Node.Hidden, Node.style, styled, CSS.get, CSS.store])
        | step h _ _ => exact h (by simp [Node.Hidden, Node.style, styled, CSS.get, CSS.store])
      · cases hr with
        | here => simp [Node.layout]
        | step _ hc _ => cases hc
  · have hnb : ∀ m, Visible m (family none) → ¬ m.BlockContext := by
      intro m hm hb
      obtain ⟨_, _, c, hc, hl⟩ := hb
      rw [← blockLevel_iff] at hl
      cases hm with
      | here =>
        simp only [family, block, node, Node.children, List.mem_cons, List.not_mem_nil, or_false] at hc
        rcases hc with rfl | rfl
        · revert hl; decide +kernel
        · revert hl; decide +kernel
      | @step k _ _ hk hr =>
        simp only [family, block, node, Node.children, List.mem_cons, List.not_mem_nil, or_false] at hk
        rcases hk with rfl | rfl
        · cases hr with
          | here => cases hc
          | step _ h _ => cases h
        · cases hr with
          | here => cases hc
          | step _ h _ => cases h
    exact fun m hm hb => absurd hb (hnb m hm)
  · refine ⟨(laidBox .exact screen (family none) [1]).get (by decide +kernel), ?_, ?_⟩
    · exact (Option.some_get _).symm
    · decide +kernel

/-- The claim fails without a box at a displayed node: the box made during the layout has its origin at the
display's, not at its parent's content. -/
theorem C43_false_missing_box : ∃ n m : Node, SameDoc n m ∧ n.layout = m.layout ∧
    laidBox .exact screen n [0] ≠ laidBox .exact screen m [0] ∧ (laidBox .exact screen n [0]).isSome ∧
    (laidBox .exact screen m [0]).isSome := by
  refine ⟨block [(.padding .left, px 10)] [block [] []],
    block [(.padding .left, px 10)] [.mk (styled [(.display, kw "block")]) .initial none []], rfl, rfl, ?_⟩
  decide +kernel

/-- The claim fails for a hidden node after a stacked block: without its box, which an earlier layout may have
removed, the layout raises `AttributeError`. -/
theorem C43_false_hidden_box : ∃ n m : Node, SameDoc n m ∧ n.layout = m.layout ∧ AllBoxed n ∧ AllBoxed m ∧
    (laidBox .exact screen n []).isSome ∧ layout .exact screen false none m = .error .attribute := by
  refine ⟨block [] [block [(.height, px 10)] [], .mk (styled [(.display, .none)]) .initial (some .fresh) []],
    block [] [block [(.height, px 10)] [], hidden []], rfl, rfl, ?_, ?_, ?_, ?_⟩
  · rw [block, node, allBoxed_mk]
    refine fun _ => ⟨by simp, fun c hc => ?_⟩
    simp only [List.mem_cons, List.not_mem_nil, or_false] at hc
    rcases hc with rfl | rfl
    · rw [block, node, allBoxed_mk]; exact fun _ => ⟨by simp, fun c hc => by cases hc⟩
    · rw [allBoxed_mk]; exact fun _ => ⟨by simp, fun c hc => by cases hc⟩
  · rw [block, node, allBoxed_mk]
    refine fun _ => ⟨by simp, fun c hc => ?_⟩
    simp only [List.mem_cons, List.not_mem_nil, or_false] at hc
    rcases hc with rfl | rfl
    · rw [block, node, allBoxed_mk]; exact fun _ => ⟨by simp, fun c hc => by cases hc⟩
    · rw [hidden, allBoxed_mk]; exact fun h => absurd (by simp [styled, CSS.get, CSS.store]) h
  · decide +kernel
  · rfl

/-! ## C49: absolute positions -/

/-- C49. After laying out a document in which every displayed node has a box, the origin of every displayed box is
the absolute position of its parent's content, and the root's origin is that of the display. -/
theorem C49_origins_partial (fp : FP) (d : Display) (html5 : Bool) (p : Option CSS) (n n' : Node) (hb : AllBoxed n)
    (h : layout fp d html5 p n = .ok n') (a : Axis) :
    (∀ bs q b, Shown n' (bs ++ [q]) b → (b.pos a).origin.val = (q.absContent fp a).val) ∧
    ∃ b, n'.layout = some b ∧ (b.pos a).origin = .int 0 := layout_coherent h hb a

/-- C49. So the absolute position of every displayed node is the sum of the relative positions from the root down to
it, where these are on the grid of layout units and not too large for the sums to be exact. -/
theorem C49_sum_partial (fp : FP) (d : Display) (html5 : Bool) (p : Option CSS) (n n' : Node) (hb : AllBoxed n)
    (h : layout fp d html5 p n = .ok n') (a : Axis) (bs : List Box) (b : Box) (hs : Shown n' bs b) (m : Nat)
    (hL : fp.Exact ∨ fp.Laws) (hf : ∀ x ∈ b :: bs, Fits fp m (x.pos a).content) (hm : (bs.length + 2) * m ≤ 2 ^ 53) :
    (b.absContent fp a).val = ((bs ++ [b]).map fun x => (x.pos a).content.val).sum := by
  obtain ⟨h1, r, hr, h0⟩ := layout_coherent h hb a
  have := C40_sum fp a n' m h1 bs b r hr hs hf (by
    rw [h0]
    rcases hL with hL | hL
    · exact Or.inl hL
    · exact Or.inr ⟨hL, 0, by simp [Num.val], by simp⟩) hm
  rw [this, h0, Num.val_int]
  simp [sumOffsets, Box.offset]

/-- Three levels, with paddings and margins. -/
example : (laidBox .b64 screen (block [(.padding .left, px 10)] [block [(.margin .left, px 7), (.width, px 100)]
    [block [(.padding .left, px 1), (.height, px 5)] []]]) [0, 0]).map (fun b => (b.h.origin, b.h.content)) =
    some (.int 17, .int 1) := by decide +kernel

/-- A document with a hidden child is laid out, the child is displayed (the assignment stores the value and then raises
`AttributeError`, because the node has no box) and the document is laid out again: the child's origin is 0 although its
parent's content starts at 10. -/
theorem C49_false_redisplayed : ∃ n n1 n2 n3 : Node, AllBoxed n ∧ layout .b64 screen false none n = .ok n1 ∧
    n2 = n1.doAt exampleEnv [0] (.setStyle [] (.lh .display) (kw "block")) ∧ layout .b64 screen false none n2 = .ok n3 ∧
    ¬ Coherent .b64 .h n3 := by
  let n := block [(.padding .left, px 10), (.height, px 50)] [hidden []]
  let n1 := laidDoc .b64 screen n
  let n2 := n1.doAt exampleEnv [0] (.setStyle [] (.lh .display) (kw "block"))
  let n3 := laidDoc .b64 screen n2
  refine ⟨n, n1, n2, n3, ?_, laidDoc_ok (by decide +kernel), rfl, laidDoc_ok (by decide +kernel), ?_⟩
  · show AllBoxed (block [(.padding .left, px 10), (.height, px 50)] [hidden []])
    rw [block, node, allBoxed_mk]
    refine fun _ => ⟨by simp, fun c hc => ?_⟩
    simp only [List.mem_cons, List.not_mem_nil, or_false] at hc
    subst hc
    rw [hidden, allBoxed_mk]; exact fun h => absurd (by simp [styled, CSS.get, CSS.store]) h
  · intro h
    have h1 : (n3.boxAt []).map (fun b => (b.absContent .b64 .h).val) = some 10 := by decide +kernel
    have h2 : (n3.boxAt [0]).map (fun b => (b.pos .h).origin.val) = some 0 := by decide +kernel
    obtain ⟨q, hq, eq⟩ := Option.map_eq_some_iff.1 h1
    obtain ⟨b, hb, eb⟩ := Option.map_eq_some_iff.1 h2
    have := h [] _ _ (shown_child 0 hq hb)
    rw [eq, eb] at this
    norm_num at this

/-! ## C53: what cannot be laid out is refused -/

/-- C53. If a layout succeeds, then no node it came to that is not hidden is floated, absolutely positioned or fixed, and
each is an inline element or a block-level element that is not replaced. -/
theorem C53_refused (fp : FP) (d : Display) (html5 : Bool) (p : Option CSS) (n n' m : Node) (h : layout fp d html5 p n = .ok n')
    (hm : Reached m n) (hh : ¬ m.Hidden) :
    m.style.get .float = .none ∧ m.style.get .position ≠ kw "absolute" ∧ m.style.get .position ≠ kw "fixed" ∧
    (m.style.get .display = kw "inline" ∨ m.BlockLevel ∧ m.intrinsic.isReplaced = false) := layout_supported h hm hh

/-- Where stacked children are all blocks, that is every displayed node. -/
theorem C53_all_partial (fp : FP) (d : Display) (html5 : Bool) (p : Option CSS) (n n' m : Node) (h : layout fp d html5 p n = .ok n')
    (hx : NoStray n) (hm : Visible m n) :
    m.style.get .float = .none ∧ m.style.get .position ≠ kw "absolute" ∧ m.style.get .position ≠ kw "fixed" ∧
    (m.style.get .display = kw "inline" ∨ m.BlockLevel ∧ m.intrinsic.isReplaced = false) := by
  have key : ∀ {m n : Node}, NoStray n → Visible m n → Reached m n ∧ ¬ m.Hidden := by
    intro m n hx hm
    induction hm with
    | here h => exact ⟨.here _, h⟩
    | @step c n hn hc _ ih =>
      obtain ⟨h1, h2⟩ := ih fun k hk => hx k (.step hn hc hk)
      exact ⟨.step hn hc (fun hb => hx _ (.here hn) hb c hc) h1, h2⟩
  obtain ⟨h1, h2⟩ := key hx hm
  exact layout_supported h h1 h2

/-- A successful layout that comes to a grandchild. -/
example : (laidBox .exact screen (block [] [block [] [node [] []]]) [0, 0]).isSome = false ∧
    (laidBox .exact screen (block [] [block [(.height, px 3)] [node [] []]]) [0, 0]).isSome = true := by decide +kernel

/-- A floated element after a block is not refused: the layout succeeds without laying it out. -/
theorem C53_false_skipped : ∃ n m : Node, Visible m n ∧ m.style.get .float = kw "left" ∧
    (laidBox .exact screen n []).isSome := by
  refine ⟨block [(.height, px 50)] [block [] [], node [(.float, kw "left")] []], node [(.float, kw "left")] [],
    .step ?_ (by simp [block, node, Node.children]) (.here ?_), ?_, ?_⟩
  · rw [Node.Hidden, ← hidden_iff]; decide +kernel
  · rw [Node.Hidden, ← hidden_iff]; decide +kernel
  · rfl
  · decide +kernel

/-! ## C48: hidden elements -/

/-- C48. After a layout a node it came to has a box unless it is hidden. -/
theorem C48_boxes (fp : FP) (d : Display) (html5 : Bool) (p : Option CSS) (n n' m : Node) (h : layout fp d html5 p n = .ok n')
    (hm : Reached m n') : m.layout = none ↔ m.Hidden := layout_boxedUp h m hm

/-- A block with a hidden and a displayed child: the hidden one loses its box, the other keeps it. -/
example : (laidBox .exact screen (family (some .fresh)) [0]).isSome = false ∧
    (laidBox .exact screen (family (some .fresh)) [1]).isSome = true := by decide +kernel

/-- A hidden node after a stacked block is not come to: it keeps its box, and the block around it, whose last child it is,
gets the height 0 although its first child is 10 high. -/
theorem C48_false_after_block : ∃ n : Node, laidBox .exact screen n [1] = some Box.fresh ∧
    (n.children[1]?).map Node.style = some (styled [(.display, .none)]) ∧
    (laidBox .exact screen n [0]).map Box.contentHeight = some (some (.int 10)) ∧
    (laidBox .exact screen n []).map Box.contentHeight = some (some (.int 0)) := by
  refine ⟨block [] [block [(.height, px 10)] [], .mk (styled [(.display, .none)]) .initial (some .fresh) []], ?_⟩
  refine ⟨?_, rfl, ?_, ?_⟩ <;> decide +kernel

end Colosseum
