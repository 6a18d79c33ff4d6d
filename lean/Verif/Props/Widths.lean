import Verif.Lemmas.Grid
import Verif.Lemmas.Sample

/-!
# The widths of blocks
-/

namespace Colosseum

/-! ## C44: blocks fill their containers -/

/-- C44. Every block-level node `m` that a layout came to has a box, its width and horizontal margins are numbers, and
the horizontal measures add up to the width `w` of its container (the content width of its parent, or that of the
display for the root), unless its width is fixed and both margins are `auto`; then they fall short by less than 2. `Fits`
asks for measures on the grid of layout units that are not too large to be added exactly, or for exact arithmetic. -/
theorem C44_fills_partial (fp : FP) (d : Display) (html5 : Bool) (p ps : Option CSS) (n n' m : Node) (w : Option Num)
    (h : layout fp d html5 p n = .ok n') (hm : Within (some d.contentWidth) p n' w ps m) (hb : m.BlockLevel) :
    ∃ b x size, m.layout = some b ∧ b.Measures x ∧ w = some size ∧ ∀ k, 7 * k ≤ 2 ^ 53 → Fits fp k size → x.AllFit fp k →
      x.sum = size.val ∨ m.style.get .width ≠ kw "auto" ∧ m.style.get (.margin .left) = kw "auto" ∧
        m.style.get (.margin .right) = kw "auto" ∧ x.sum ≤ size.val ∧ size.val < x.sum + 2 := by
  have hh : ¬ m.Hidden := by
    intro hh
    have e : m.style.get .display = .none := hh
    unfold Node.BlockLevel at hb
    rw [e] at hb
    simp [kw] at hb
  obtain ⟨b, y, b0, b1, b2, cs, cs2, h1, h2, h3, h4⟩ := (layout_ran_any h hm hh).wide
  have c := copyEdges_copied h2
  obtain ⟨size, x, e1, e2, e3, e4, e5⟩ := blockWidth_fills (widthAndMargins_block h3 ((blockLevel_iff m).2 hb))
  obtain ⟨k1, k2, k3, k4, k5, k6, k7⟩ := e2
  refine ⟨b, x, size, h1, ⟨h4.2.symm.trans k1, ?_, ?_, h4.1.symm.trans k4, ?_, ?_, h4.3.symm.trans k7⟩, e1, ?_⟩
  · rw [← h4.4]; exact k2
  · rw [← h4.5]; exact k3
  · rw [← h4.5]; exact k5
  · rw [← h4.4]; exact k6
  · intro k hk hs hf
    rcases e5 k hk hs hf with e | ⟨a1, a2, a3, a4⟩
    · exact Or.inl e
    · obtain ⟨u, u1, u2⟩ := c.ml
      obtain ⟨v, v1, v2⟩ := c.mr
      exact Or.inr ⟨a1, (calculateSize_auto u1).1 ((same_auto u2).1 a2), (calculateSize_auto v1).1 ((same_auto v2).1 a3), a4⟩

/-- A block 100 wide with a margin, a border and a padding in a block that has a padding: the right margin takes up
the rest of the 620 pixels. -/
example : (laidBox .b64 screen (block [(.padding .left, px 20)] [block [(.width, px 100), (.margin .left, px 7),
    (.borderWidth .left, px 3), (.padding .right, px 11)] [block [(.height, px 5)] []]]) [0]).map (fun b => (b.margin.left, b.contentWidth, b.margin.right)) =
    some (.num (.int 7), some (.int 100), .num (.int 499)) := by decide +kernel

/-- Both margins `auto`: 101 pixels are left, and each margin gets 50. -/
example : (laidBox .b64 screen (block [(.width, px 201)] [block [(.width, px 100), (.margin .left, kw "auto"), (.margin .right, kw "auto")]
    [block [(.height, px 5)] []]]) [0]).map (fun b => (b.margin.left, b.contentWidth, b.margin.right)) =
    some (.num (.int 50), some (.int 100), .num (.int 50)) := by decide +kernel

/-- C44. Where the display and the intrinsic sizes are given in layout units, all measures are on the grid of layout units,
so it is enough that none of them is larger than 2^44 pixels. -/
theorem C44_grid_partial (fp : FP) (L : fp.Laws) (d : Display) (html5 : Bool) (p ps : Option CSS) (n n' m : Node) (w : Option Num)
    (hd : d.OnGrid) (hbx : AllBoxed n) (hz : ∀ k, Visible k n → k.intrinsic.OnGrid)
    (h : layout fp d html5 p n = .ok n') (hm : Within (some d.contentWidth) p n' w ps m) (hb : m.BlockLevel) :
    ∃ b x size, m.layout = some b ∧ b.Measures x ∧ w = some size ∧
      (|size.val| ≤ 2 ^ 44 → (∀ y ∈ [x.ml, x.bl, x.pl, x.w, x.pr, x.br, x.mr], |y.val| ≤ 2 ^ 44) →
        x.sum = size.val ∨ m.style.get .width ≠ kw "auto" ∧ m.style.get (.margin .left) = kw "auto" ∧
          m.style.get (.margin .right) = kw "auto" ∧ x.sum ≤ size.val ∧ size.val < x.sum + 2) := by
  obtain ⟨b, x, size, h1, h2, h3, h4⟩ := C44_fills_partial fp d html5 p ps n n' m w h hm hb
  have g := layout_onGrid L hd hbx hz h
  obtain ⟨k1, k2⟩ := within_shown hm
  obtain ⟨bs, hs⟩ := k1 b h1
  have gb := g bs b hs
  have gs : size.OnGrid := by
    rcases k2 with e | ⟨bs', b', hs', e⟩
    · rw [h3] at e; cases e; exact hd.1
    · exact (g bs' b' hs').width size (e.symm.trans h3)
  refine ⟨b, x, size, h1, h2, h3, fun hs hx => ?_⟩
  obtain ⟨e1, e2, e3, e4, e5, e6, e7⟩ := h2
  have fit : ∀ y : Num, y.OnGrid → |y.val| ≤ 2 ^ 44 → Fits fp (2 ^ 50) y := fun y hy hv => hy.fits L (k := 2 ^ 44) (by push_cast; exact hv)
  refine h4 (2 ^ 50) (by norm_num) (fit _ gs hs) ⟨fit _ (gb.margin .left _ e1) (hx _ (by simp)), fit _ ?_ (hx _ (by simp)), fit _ ?_ (hx _ (by simp)),
    fit _ (gb.width _ e4) (hx _ (by simp)), fit _ ?_ (hx _ (by simp)), fit _ ?_ (hx _ (by simp)), fit _ (gb.margin .right _ e7) (hx _ (by simp))⟩
  · rw [← e2]; exact gb.border .left
  · rw [← e3]; exact gb.padding .left
  · rw [← e5]; exact gb.padding .right
  · rw [← e6]; exact gb.border .right

/-- The display used in the examples is on the grid. -/
theorem screen_onGrid : screen.OnGrid := ⟨onGrid_int _, onGrid_int _, onGrid_int _, onGrid_int _, onGrid_int _⟩

/-- Fractional lengths: 0.1 pixels are 6 layout units; in the 640 pixels of the display 40954 are left. -/
example : (laidBox .b64 screen (block [(.margin .left, .unit ⟨.len .px, .fin (.flt (3602879701896397 / 36028797018963968))⟩)] []) []).map
    (fun b => (b.margin.left, b.contentWidth)) = some (.num (.flt (6 / 64)), some (.flt (40954 / 64))) := by decide +kernel

/-- For huge lengths the rounding of the subtractions is seen: with a left margin of half a pixel and a left padding of
2^53 pixels, the measures do not add up to the 640 pixels of the display. -/
theorem C44_false_rounding : ∃ n : Node, (laidBox .b64 screen n []).map (fun b => (b.margin.right, b.border, b.padding)) =
      some (.num (.int 0), ⟨.int 0, .int 0, .int 0, .int 0⟩, ⟨.int 0, .int 0, .int 0, .int (2 ^ 53)⟩) ∧
    ∃ ml w : Rat, (laidBox .b64 screen n []).map (fun b => (b.margin.left, b.contentWidth)) = some (.num (.flt ml), some (.flt w)) ∧
      ml + w + 2 ^ 53 ≠ 640 := by
  refine ⟨block [(.margin .left, .unit ⟨.len .px, .fin (.flt (1 / 2))⟩), (.padding .left, px (2 ^ 53))] [], by decide +kernel,
    1 / 2, -9007199254740352, by decide +kernel, by norm_num⟩

end Colosseum
