import Verif.Lemmas.Margins
import Verif.Lemmas.Sample
import Verif.Props.Widths

/-!
# Horizontal margins and positions of blocks
-/

namespace Colosseum

/-- A block-level node is not hidden. -/
theorem blockLevel_shown {m : Node} (hb : m.BlockLevel) : ¬ m.Hidden := by
  intro hh
  have e : m.style.get .display = .none := hh
  unfold Node.BlockLevel at hb
  rw [e] at hb
  simp [kw] at hb

/-! ## C64: the horizontal margins of blocks -/

/-- C64. The left and right margins of a block are those of CSS 2.1, 10.3.3. `l` and `r` are the specified margins, `w` is the width of the container.
Missing: numbers too large for exact sums; when two `auto` margins share the rest, each is rounded down to whole pixels (`C64_false_half`); and what counts is the direction of the
block itself instead of that of its container (`C64_false_direction`). -/
theorem C64_margins_partial (fp : FP) (d : Display) (html5 : Bool) (p ps : Option CSS) (n n' m : Node) (w : Option Num) (l r : Option Num)
    (h : layout fp d html5 p n = .ok n') (hm : Within (some d.contentWidth) p n' w ps m) (hb : m.BlockLevel)
    (hl : (m.style.get (.margin .left)).Margin fp ⟨d, dummyFont fp, w⟩ l) (hr : (m.style.get (.margin .right)).Margin fp ⟨d, dummyFont fp, w⟩ r) :
    ∃ b x size, m.layout = some b ∧ b.Measures x ∧ w = some size ∧
      ∀ k u, 7 * k ≤ 2 ^ 53 → Fits fp k size → x.AllFit fp k → (∀ y, l = some y → Fits fp k y) → (∀ y, r = some y → Fits fp k y) →
        u = usedMargins ((m.style.get .direction).isKw "ltr") ((m.style.get .width).isKw "auto") size.val x.inner (l.map Num.val) (r.map Num.val) →
        (l ≠ none ∨ r ≠ none ∨ m.style.get .width = kw "auto" ∨ size.val < x.inner) ∧ x.ml.val = u.1 ∧ x.mr.val = u.2 ∨
        l = none ∧ r = none ∧ m.style.get .width ≠ kw "auto" ∧ x.inner ≤ size.val ∧ x.ml.val = ⌊u.1⌋ ∧ x.mr.val = ⌊u.2⌋ := by
  obtain ⟨b, y, b0, b1, b2, cs, cs2, h1, h2, h3, h4⟩ := (layout_ran_any h hm (blockLevel_shown hb)).wide
  have c := copyEdges_copied h2
  have h3 := widthAndMargins_block h3 ((blockLevel_iff m).2 hb)
  obtain ⟨size, x, e1, e2, e3, e4, _⟩ := blockWidth_fills h3
  obtain ⟨k1, k2, k3, k4, k5, k6, k7⟩ := e2
  refine ⟨b, x, size, h1, ⟨h4.2.symm.trans k1, ?_, ?_, h4.1.symm.trans k4, ?_, ?_, h4.3.symm.trans k7⟩, e1, ?_⟩
  · rw [← h4.4]; exact k2
  · rw [← h4.5]; exact k3
  · rw [← h4.5]; exact k5
  · rw [← h4.4]; exact k6
  intro k u hk hs hf fl fr hu
  have E := hs.kind
  obtain ⟨xl, c1, c2⟩ := c.ml
  obtain ⟨xr, c3, c4⟩ := c.mr
  obtain ⟨o1, f1⟩ := margin_copied E hl c1 c2
  obtain ⟨o2, f2⟩ := margin_copied E hr c3 c4
  have ol : ∀ q, b2.margin.left.opt = some q → x.ml.val = q := by
    intro q hq; rw [k1] at hq; exact Option.some.inj hq
  have or : ∀ q, b2.margin.right.opt = some q → x.mr.val = q := by
    intro q hq; rw [k7] at hq; exact Option.some.inj hq
  rcases blockWidth_cases h3 with ⟨hw, hmg⟩ | ⟨hw, cw, size', g1, g2, g3, hmg⟩
  · refine Or.inl ⟨Or.inr (Or.inr (Or.inl hw)), ?_⟩
    obtain ⟨a1, a2⟩ := autoZero_opts b1
    rw [← hmg, o1] at a1
    rw [← hmg, o2] at a2
    rw [hu]
    unfold usedMargins
    rw [if_pos ((isKw_iff _ _).2 hw)]
    exact ⟨ol _ a1, or _ a2⟩
  · rw [e1] at g2
    cases g2
    rw [k4] at g3
    cases g3
    obtain ⟨f_ml, f_bl, f_pl, f_w, f_pr, f_br, f_mr⟩ := hf
    have hi : x.inner = b1.border.left.val + b1.padding.left.val + x.w.val + b1.padding.right.val + b1.border.right.val := by
      rw [← e3, ← e4, k2, k3, k5, k6]; rfl
    have q := solveMargins_used (s := m.style) hk hs f_w (b := b1) (by rw [← e3, k2]; exact f_bl) (by rw [← e3, k6]; exact f_br)
      (by rw [← e4, k3]; exact f_pl) (by rw [← e4, k5]; exact f_pr) (f1 k fl) (f2 k fr) x.inner hi u _ (by
        rw [hu, o1, o2]
        congr 1
        cases hx : (m.style.get .width).isKw "auto" with
        | false => rfl
        | true => exact absurd ((isKw_iff _ _).1 hx) hw) rfl
    rw [← hmg] at q
    rcases q with ⟨q0, q1, q2⟩ | ⟨q1, q2, q3, q4, q5⟩
    · refine Or.inl ⟨?_, ol _ q1, or _ q2⟩
      rcases q0 with q0 | q0 | q0
      · refine Or.inl fun e => q0 ?_
        rw [e] at o1
        exact opt_auto o1
      · refine Or.inr (Or.inl fun e => q0 ?_)
        rw [e] at o2
        exact opt_auto o2
      · exact Or.inr (Or.inr (Or.inr q0))
    · right
      rw [q1] at o1; rw [q2] at o2
      refine ⟨?_, ?_, hw, q3, ol _ q4, or _ q5⟩
      · cases l with
        | none => rfl
        | some _ => cases o1
      · cases r with
        | none => rfl
        | some _ => cases o2

/-- C64 in IEEE double arithmetic: it is enough that no number is larger than 2^44 pixels. -/
theorem C64_grid_partial (fp : FP) (L : fp.Laws) (d : Display) (html5 : Bool) (p ps : Option CSS) (n n' m : Node) (w : Option Num) (l r : Option Num)
    (hd : d.OnGrid) (hbx : AllBoxed n) (hz : ∀ k, Visible k n → k.intrinsic.OnGrid)
    (h : layout fp d html5 p n = .ok n') (hm : Within (some d.contentWidth) p n' w ps m) (hb : m.BlockLevel)
    (hl : (m.style.get (.margin .left)).Margin fp ⟨d, dummyFont fp, w⟩ l) (hr : (m.style.get (.margin .right)).Margin fp ⟨d, dummyFont fp, w⟩ r) :
    ∃ b x size, m.layout = some b ∧ b.Measures x ∧ w = some size ∧
      ∀ u, |size.val| ≤ 2 ^ 44 → (∀ y ∈ [x.ml, x.bl, x.pl, x.w, x.pr, x.br, x.mr], |y.val| ≤ 2 ^ 44) →
        (∀ y, l = some y → |y.val| ≤ 2 ^ 44) → (∀ y, r = some y → |y.val| ≤ 2 ^ 44) →
        u = usedMargins ((m.style.get .direction).isKw "ltr") ((m.style.get .width).isKw "auto") size.val x.inner (l.map Num.val) (r.map Num.val) →
        (l ≠ none ∨ r ≠ none ∨ m.style.get .width = kw "auto" ∨ size.val < x.inner) ∧ x.ml.val = u.1 ∧ x.mr.val = u.2 ∨
        l = none ∧ r = none ∧ m.style.get .width ≠ kw "auto" ∧ x.inner ≤ size.val ∧ x.ml.val = ⌊u.1⌋ ∧ x.mr.val = ⌊u.2⌋ := by
  obtain ⟨b, x, size, h1, h2, h3, h4⟩ := C64_margins_partial fp d html5 p ps n n' m w l r h hm hb hl hr
  have g := layout_onGrid L hd hbx hz h
  obtain ⟨k1, k2⟩ := within_shown hm
  obtain ⟨bs, hs⟩ := k1 b h1
  have gb := g bs b hs
  have gs : size.OnGrid := by
    rcases k2 with e | ⟨bs', b', hs', e⟩
    · rw [h3] at e; cases e; exact hd.1
    · exact (g bs' b' hs').width size (e.symm.trans h3)
  refine ⟨b, x, size, h1, h2, h3, fun u hs hx bl br hu => ?_⟩
  obtain ⟨e1, e2, e3, e4, e5, e6, e7⟩ := h2
  have fit : ∀ y : Num, y.OnGrid → |y.val| ≤ 2 ^ 44 → Fits fp (2 ^ 50) y := fun y hy hv => hy.fits L (k := 2 ^ 44) (by push_cast; exact hv)
  have spec : ∀ {v : Val} {q : Option Num}, v.Margin fp ⟨d, dummyFont fp, w⟩ q → (∀ y, q = some y → |y.val| ≤ 2 ^ 44) →
      ∀ y, q = some y → Fits fp (2 ^ 50) y := by
    intro v q hv hq y hy
    subst hy
    obtain ⟨u, rfl, hu⟩ := hv
    exact fit y (px_onGrid L (v := .unit u) hu) (hq y rfl)
  refine h4 (2 ^ 50) u (by norm_num) (fit _ gs hs) ⟨fit _ (gb.margin .left _ e1) (hx _ (by simp)), fit _ ?_ (hx _ (by simp)), fit _ ?_ (hx _ (by simp)),
    fit _ (gb.width _ e4) (hx _ (by simp)), fit _ ?_ (hx _ (by simp)), fit _ ?_ (hx _ (by simp)), fit _ (gb.margin .right _ e7) (hx _ (by simp))⟩
    (spec hl bl) (spec hr br) hu
  · rw [← e2]; exact gb.border .left
  · rw [← e3]; exact gb.padding .left
  · rw [← e5]; exact gb.padding .right
  · rw [← e6]; exact gb.border .right

/-- The same block in a container of 200 pixels, with `ltr` and `rtl`: the specified margins are 10 and 20, and 100 pixels are to be distributed. -/
example : (laidBox .b64 screen (block [(.width, px 200)] [block [(.width, px 100), (.margin .left, px 10), (.margin .right, px 20)] []]) [0]).map
      (fun b => (b.margin.left, b.margin.right)) = some (.num (.int 10), .num (.int 90)) ∧
    (laidBox .b64 screen (block [(.width, px 200)] [block [(.direction, kw "rtl"), (.width, px 100), (.margin .left, px 10), (.margin .right, px 20)] []]) [0]).map
      (fun b => (b.margin.left, b.margin.right)) = some (.num (.int 80), .num (.int 20)) := by decide +kernel

/-- A block that does not fit, with an `auto` margin. -/
example : (laidBox .b64 screen (block [(.width, px 200)] [block [(.width, px 300), (.margin .left, kw "auto"), (.margin .right, px 20)] []]) [0]).map
      (fun b => (b.margin.left, b.margin.right)) = some (.num (.int 0), .num (.int (-100))) := by decide +kernel

example : usedMargins true false 200 300 none (some 20) = (0, -100) := by decide +kernel

/-- Two `auto` margins do not share an odd rest equally with CSS: 50 instead of 50.5. -/
theorem C64_false_half : (laidBox .b64 screen (block [(.width, px 201)] [block [(.width, px 100), (.margin .left, kw "auto"), (.margin .right, kw "auto")] []]) [0]).map
      (fun b => (b.margin.left, b.margin.right)) = some (.num (.int 50), .num (.int 50)) ∧
    usedMargins true false 201 100 none none = (101 / 2, 101 / 2) := by decide +kernel

/-- The margin that gives way depends on the direction of the block and not on that of its container, which is `ltr` here. -/
theorem C64_false_direction : (laidBox .b64 screen (block [(.width, px 200)] [block [(.direction, kw "rtl"), (.width, px 100)] []]) [0]).map
      (fun b => (b.margin.left, b.margin.right)) = some (.num (.int 100), .num (.int 0)) ∧
    usedMargins true false 200 100 (some 0) (some 0) = (0, 100) := by decide +kernel

/-! ## C65: the horizontal position of blocks -/

/-- C65. The content of a block that is not relatively positioned starts behind its left margin, border and padding. Missing: numbers too large for
exact sums. -/
theorem C65_left_partial (fp : FP) (d : Display) (html5 : Bool) (p ps : Option CSS) (n n' m : Node) (w : Option Num)
    (h : layout fp d html5 p n = .ok n') (hm : Within (some d.contentWidth) p n' w ps m) (hb : m.BlockLevel) (hr : ¬ m.Relative) :
    ∃ b ml, m.layout = some b ∧ b.margin.left = .num ml ∧
      ∀ k, 3 * k ≤ 2 ^ 53 → Fits fp k ml → Fits fp k b.border.left → Fits fp k b.padding.left →
        (b.pos .h).content.val = ml.val + b.border.left.val + b.padding.left.val := by
  obtain ⟨b, ml, h1, h2, h3⟩ := (layout_ran_any h hm (blockLevel_shown hb)).across ((blockLevel_iff m).2 hb)
  refine ⟨b, ml, h1, h2, fun k hk f1 f2 f3 => ?_⟩
  rcases h3 with ⟨_, e⟩ | ⟨e, _⟩
  · refine Eq.trans (show _ = b.h.content.val from rfl) (e.trans ?_)
    rw [(Fits.addAll _ f1 (m := k) (by
      intro x hx
      simp only [List.mem_cons, List.not_mem_nil, or_false] at hx
      rcases hx with rfl | rfl <;> assumption) (by simp; omega)).1]
    simp
    ring
  · exact absurd e hr

/-- C65. In every arithmetic, and for numbers of any size: it starts at the sum of the three as the arithmetic adds them, from the outside inwards. -/
theorem C65_added (fp : FP) (d : Display) (html5 : Bool) (p ps : Option CSS) (n n' m : Node) (w : Option Num)
    (h : layout fp d html5 p n = .ok n') (hm : Within (some d.contentWidth) p n' w ps m) (hb : m.BlockLevel) (hr : ¬ m.Relative) :
    ∃ b ml, m.layout = some b ∧ b.margin.left = .num ml ∧ (b.pos .h).content.val = ((ml.add fp b.border.left).add fp b.padding.left).val := by
  obtain ⟨b, ml, h1, h2, h3⟩ := (layout_ran_any h hm (blockLevel_shown hb)).across ((blockLevel_iff m).2 hb)
  refine ⟨b, ml, h1, h2, ?_⟩
  rcases h3 with ⟨_, e⟩ | ⟨e, _⟩
  · exact Eq.trans (show _ = b.h.content.val from rfl) e
  · exact absurd e hr

/-- With a border of 2^53 pixels and a padding of a pixel and a half, the padding is rounded. -/
theorem C65_false_huge : ∃ n : Node, ∃ x y z : Rat, (laidBox .b64 screen n []).map (fun b => (b.margin.left, b.border.left.val, b.padding.left.val, b.h.content.val)) =
    some (.num (.int 0), x, y, z) ∧ z ≠ x + y :=
  ⟨block [(.borderWidth .left, px (2 ^ 53)), (.padding .left, .unit ⟨.len .px, .fin (.flt (3 / 2))⟩)] [], 2 ^ 53, 3 / 2, 2 ^ 53 + 2, by decide +kernel, by norm_num⟩

/-- C50, horizontally: a relatively positioned block is moved by its offsets from where it would be otherwise. `l` and `r` are its specified `left` and
`right`, `ltr` tells whether the direction of its container is from left to right. Missing: numbers too large for exact sums; both offsets given in a container from right to left
(`C50_false_rtl`). -/
theorem C50_left_partial (fp : FP) (d : Display) (html5 ltr : Bool) (p ps : Option CSS) (n n' m : Node) (w : Option Num) (l r : Option Num)
    (h : layout fp d html5 p n = .ok n') (hm : Within (some d.contentWidth) p n' w ps m) (hb : m.BlockLevel) (hr : m.Relative)
    (hl : (m.style.get .left).Margin fp ⟨d, dummyFont fp, w⟩ l) (hrt : (m.style.get .right).Margin fp ⟨d, dummyFont fp, w⟩ r)
    (hd : l = none ∨ r = none ∨ ltr = true) :
    ∃ b ml, m.layout = some b ∧ b.margin.left = .num ml ∧
      ∀ k, 4 * k ≤ 2 ^ 53 → Fits fp k ml → Fits fp k b.border.left → Fits fp k b.padding.left → (∀ y, l = some y → Fits fp k y) → (∀ y, r = some y → Fits fp k y) →
        (b.pos .h).content.val = ml.val + b.border.left.val + b.padding.left.val + relativeShift ltr (l.map Num.val) (r.map Num.val) := by
  obtain ⟨b, ml, h1, h2, h3⟩ := (layout_ran_any h hm (blockLevel_shown hb)).across ((blockLevel_iff m).2 hb)
  refine ⟨b, ml, h1, h2, fun k hk f1 f2 f3 fl fr => ?_⟩
  rcases h3 with ⟨e, _⟩ | ⟨_, cb, dx, x, k1, k2, k3⟩
  · exact absurd hr e
  obtain ⟨s1, s2⟩ := relativeOffset_shift hl hrt k1
  obtain ⟨a1, a2⟩ := Fits.addAll [b.border.left, b.padding.left] f1 (m := k) (by
    intro x hx
    simp only [List.mem_cons, List.not_mem_nil, or_false] at hx
    rcases hx with rfl | rfl <;> assumption) (by simp; omega)
  refine Eq.trans (show _ = b.h.content.val from rfl) (k3.trans ?_)
  rw [((a2.of_val k2).add (s2 k f1.kind fl fr) (by simp; omega)).1, k2, a1, s1]
  have e : relativeShift true (l.map Num.val) (r.map Num.val) = relativeShift ltr (l.map Num.val) (r.map Num.val) := by
    rcases hd with rfl | rfl | rfl
    · cases r <;> rfl
    · cases l <;> rfl
    · rfl
  rw [e]
  simp
  ring

/-- A block with a margin, a border and a padding; and the same moved 30 pixels to the left by `right`. -/
example : (laidBox .b64 screen (block [] [block [(.margin .left, px 4), (.borderWidth .left, px 2), (.padding .left, px 1)] []]) [0]).map
      (fun b => b.h.content) = some (.int 7) ∧
    (laidBox .b64 screen (block [] [block [(.position, kw "relative"), (.right, px 30), (.margin .left, px 4), (.borderWidth .left, px 2), (.padding .left, px 1)] []]) [0]).map
      (fun b => b.h.content) = some (.int (-23)) := by decide +kernel

/-- In a container with `direction: rtl`, with both offsets given, `right` should count (CSS 2.1, 9.4.3), but `left` does. -/
theorem C50_false_rtl : (laidBox .b64 screen (block [(.direction, kw "rtl")] [block [(.position, kw "relative"), (.direction, kw "rtl"), (.left, px 5), (.right, px 30)] []]) [0]).map
      (fun b => b.h.content) = some (.int 5) ∧ relativeShift false (some 5) (some 30) = -30 := by decide +kernel

end Colosseum
