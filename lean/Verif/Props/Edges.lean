import Verif.Lemmas.Edges

/-!
# C79: borders, paddings and margins are what the style says
-/

namespace Colosseum

/-- C79. Each border of a displayed element is as wide as its style says: `thin`, `medium` and `thick` are the widths the display gives, and a length is its
number of pixels. -/
theorem C79_border (fp : FP) (L : fp.Laws) (d : Display) (html5 : Bool) (p ps : Option CSS) (n n' m : Node) (w : Option Num) (t : Side)
    (h : layout fp d html5 p n = .ok n') (hm : Within (some d.contentWidth) p n' w ps m) (hh : ¬ m.Hidden) :
    ∃ b, m.layout = some b ∧ ∀ x, (m.style.get (.borderWidth t)).Edge fp d (dummyFont fp) x → b.border.get t = x := by
  obtain ⟨b, y, b0, b1, b2, cs, cs2, h1, h2, h3, h4⟩ := (layout_ran_any h hm hh).wide
  have c := copyEdges_copied h2
  refine ⟨b, h1, fun x hx => ?_⟩
  rw [← h4.border, (width_edges h3).1]
  cases t
  · exact calculateEdge_edge L hx c.bt
  · exact calculateEdge_edge L hx c.br
  · exact calculateEdge_edge L hx c.bb
  · exact calculateEdge_edge L hx c.bl

/-- C79. Each padding that is a length is its number of pixels. -/
theorem C79_padding (fp : FP) (L : fp.Laws) (d : Display) (html5 : Bool) (p ps : Option CSS) (n n' m : Node) (w : Option Num) (t : Side)
    (h : layout fp d html5 p n = .ok n') (hm : Within (some d.contentWidth) p n' w ps m) (hh : ¬ m.Hidden) :
    ∃ b, m.layout = some b ∧ ∀ x, (m.style.get (.padding t)).Length fp d (dummyFont fp) x → b.padding.get t = x := by
  obtain ⟨b, y, b0, b1, b2, cs, cs2, h1, h2, h3, h4⟩ := (layout_ran_any h hm hh).wide
  have c := copyEdges_copied h2
  refine ⟨b, h1, fun x hx => ?_⟩
  have hx : (m.style.get (.padding t)).Edge fp d (dummyFont fp) x := Or.inr (Or.inr (Or.inr hx))
  rw [← h4.padding, (width_edges h3).2]
  cases t
  · exact calculateEdge_edge L hx c.pt
  · exact calculateEdge_edge L hx c.pr
  · exact calculateEdge_edge L hx c.pb
  · exact calculateEdge_edge L hx c.pl

/-- C79. A top or bottom margin that is a length is its number of pixels, and one that is `auto` is 0, unless the element is inline and not replaced. -/
theorem C79_vertical (fp : FP) (L : fp.Laws) (d : Display) (html5 : Bool) (p ps : Option CSS) (n n' m : Node) (w : Option Num) (t : Side)
    (ht : t = .top ∨ t = .bottom) (h : layout fp d html5 p n = .ok n') (hm : Within (some d.contentWidth) p n' w ps m) (hh : ¬ m.Hidden) :
    ∃ b, m.layout = some b ∧
      (∀ x, (m.style.get (.margin t)).Length fp d (dummyFont fp) x → ∃ y, b.margin.get t = .num y ∧ y.val = x.val) ∧
      (m.style.get (.margin t) = kw "auto" → m.BlockLevel ∨ m.intrinsic.isReplaced = true → ∃ y, b.margin.get t = .num y ∧ y.val = 0) := by
  obtain ⟨b, sz, h1, hv⟩ := (layout_ran_any h hm hh).vertical
  obtain ⟨y, y1, y2, y3⟩ := hv t ht
  refine ⟨b, h1, fun x hx => ?_, fun ha hb => ?_⟩
  · rw [calculateSize_length L hx sz] at y1
    obtain rfl := Except.ok.inj y1
    rcases y2 with y2 | ⟨y2, _⟩
    · cases hg : b.margin.get t with
      | auto => rw [hg] at y2; exact y2.elim
      | num z =>
        rw [hg] at y2
        exact ⟨z, rfl, Eq.symm y2⟩
    · cases y2
  · have e := (calculateSize_auto y1).2 ha
    subst e
    rcases y2 with y2 | ⟨_, y2⟩
    · exfalso
      have := (same_auto y2).1 rfl
      obtain ⟨z, hz⟩ := y3 (hb.imp (fun hb => block_not_inline ((blockLevel_iff _).2 hb)) id)
      rw [this] at hz; cases hz
    · exact y2

/-- C79. The left and right margins of an inline element: a length is its number of pixels, `auto` is 0. -/
theorem C79_inline (fp : FP) (L : fp.Laws) (d : Display) (html5 : Bool) (p ps : Option CSS) (n n' m : Node) (w : Option Num) (t : Side)
    (ht : t = .left ∨ t = .right) (h : layout fp d html5 p n = .ok n') (hm : Within (some d.contentWidth) p n' w ps m)
    (hi : m.style.get .display = kw "inline") :
    ∃ b y, m.layout = some b ∧ b.margin.get t = .num y ∧
      (∀ x, (m.style.get (.margin t)).Length fp d (dummyFont fp) x → y.val = x.val) ∧ (m.style.get (.margin t) = kw "auto" → y.val = 0) := by
  obtain ⟨b, sz, b0, b1, b2, cs, cs2, h1, h2, h3, h4⟩ := (layout_ran_any h hm (inline_shown hi)).wide
  have c := copyEdges_copied h2
  have e2 : b2.margin.get t = (autoMarginToZero (autoMarginToZero b1 .left) .right).margin.get t := inline_sides h3 ((isKw_iff _ _).2 hi) t
  have eb : b.margin.get t = b2.margin.get t := by
    rcases ht with rfl | rfl
    · exact h4.left.symm
    · exact h4.right.symm
  obtain ⟨v, v1, v2⟩ : ∃ x, calculateSize fp (m.style.get (.margin t)) ⟨d, dummyFont fp, w⟩ = .ok x ∧ (b1.margin.get t).Same x := by
    rcases ht with rfl | rfl
    · exact c.ml
    · exact c.mr
  obtain ⟨y, hy⟩ : ∃ y, (autoMarginToZero (autoMarginToZero b1 .left) .right).margin.get t = .num y := by
    obtain ⟨ml, mr, k1, k2, _⟩ := autoZero_both b1
    rcases ht with rfl | rfl
    · exact ⟨ml, k1⟩
    · exact ⟨mr, k2⟩
  have hk := zeroed_kept b1 t .left .right
  rw [hy] at hk
  refine ⟨b, y, h1, eb.trans (e2.trans hy), fun x hx => ?_, fun ha => ?_⟩
  · rw [calculateSize_length L hx w] at v1
    obtain rfl := Except.ok.inj v1
    obtain ⟨z, hz, hv⟩ := same_num v2
    rcases hk with hk | ⟨hk, _⟩
    · rw [hz] at hk
      cases hk
      exact hv
    · rw [hz] at hk; cases hk
  · have e := (calculateSize_auto v1).2 ha
    subst e
    have e := (same_auto v2).2 rfl
    rw [e] at hk
    rcases hk with hk | ⟨_, z, hz, h0⟩
    · cases hk
    · cases hz; exact h0

/-- A framed paragraph: two keywords, two lengths, an automatic margin. -/
private def framed : Node :=
  block [] [block [(.borderWidth .left, kw "thick"), (.borderWidth .top, kw "thin"), (.borderWidth .right, px 7), (.padding .bottom, px 3), (.margin .top, px 4),
    (.margin .bottom, kw "auto")] []]

example : (laidBox .b64 screen framed [0]).map (fun b => (b.border.left, b.border.top, b.border.right, b.padding.bottom)) =
    some (screen.thick, screen.thin, .int 7, .int 3) := by decide +kernel
example : (laidBox .b64 screen framed [0]).map (fun b => (b.margin.top, b.margin.bottom)) = some (.num (.int 4), .num (.int 0)) := by decide +kernel
example : screen.thin ≠ screen.medium ∧ screen.medium ≠ screen.thick := by decide +kernel

/-- C79 is false of the border style. A border whose style is `none`, as it is at first, should be 0 wide (CSS 2.1, 8.5.3). It takes the room its width asks
for. -/
theorem C79_false_style : (block [(.borderWidth .left, px 5)] []).style.get (.borderStyle .left) = .none ∧
    (laidBox .b64 screen (block [(.borderWidth .left, px 5)] []) []).map (fun b => (b.border.left, b.contentWidth)) =
      some (.int 5, some (.int 635)) := by
  constructor
  · rfl
  · decide +kernel

end Colosseum
