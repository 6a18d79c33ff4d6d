import Verif.Lemmas.Inline
import Verif.Lemmas.Margins

/-!
# C72: inline elements
-/

namespace Colosseum

theorem widthAndMargins_inline {fp : FP} {s : CSS} {z : Intrinsic} {c : PxCtx} {b b' : Box} {cs cs' : List Node}
    (h : widthAndMargins fp s z c b cs = .ok (b', cs')) (hi : isInline s = true) (hr : z.isReplaced = false) : b' = inlineWidth z b := by
  unfold widthAndMargins at h
  split at h
  · cases h
  split at h
  · cases h
  rw [hr] at h
  cases h; rfl

theorem heightAndMargins_inline {fp : FP} {s : CSS} {z : Intrinsic} {parent : Option CSS} {c : PxCtx} {b b' : Box} {cs cs' : List Node}
    (h : heightAndMargins fp s z parent c b cs = .ok (b', cs')) (hi : isInline s = true) (hr : z.isReplaced = false) :
    inlineHeight fp z b cs = .ok (b', cs') := by
  unfold heightAndMargins at h
  split at h
  · cases h
  split at h
  · cases h
  rw [hr] at h
  exact h

theorem placeTopInline_ok {fp : FP} {b b' : Box} {cs cs' : List Node} (h : placeTopInline fp b cs = .ok (b', cs')) :
    ∃ mt, b'.margin.top = .num mt ∧ b'.contentHeight = b.contentHeight ∧
      b'.top.val = (b.top.add fp (addAll fp mt [b'.border.top, b'.padding.top])).val := by
  unfold placeTopInline at h
  obtain ⟨mt, hm, h⟩ := bind_eq_ok.1 h
  have hm : b.margin.top = .num mt := by
    cases hx : b.margin.top with
    | auto => rw [hx] at hm; cases hm
    | num y => rw [hx] at hm; cases hm; rfl
  have e := setContent_wide fp .v (b.v.content.add fp (addAll fp mt [b.border.top, b.padding.top])) b cs
  have e2 := setContent_v_top fp (b.v.content.add fp (addAll fp mt [b.border.top, b.padding.top])) b cs
  have e3 := setContent_margin fp .v (b.v.content.add fp (addAll fp mt [b.border.top, b.padding.top])) b cs
  have e4 := setContent_contentHeight fp .v (b.v.content.add fp (addAll fp mt [b.border.top, b.padding.top])) b cs
  rw [← (ok_pair h).1] at e e2 e3 e4
  refine ⟨mt, by rw [e3, hm], e4, ?_⟩
  rw [← e.border, ← e.padding]
  exact e2

theorem inline_shown {m : Node} (hi : m.style.get .display = kw "inline") : ¬ m.Hidden := fun e => by
  have e : m.style.get .display = .none := e
  rw [e] at hi
  simp [kw] at hi

theorem placeLeft_left {fp : FP} {b b' : Box} {cs cs' : List Node} (h : placeLeft fp b cs = .ok (b', cs')) :
    ∃ ml, b'.margin.left = .num ml ∧ b'.h.content.val = (addAll fp ml [b'.border.left, b'.padding.left]).val := by
  unfold placeLeft at h
  obtain ⟨ml, hm, h⟩ := bind_eq_ok.1 h
  have hm : b.margin.left = .num ml := by
    cases hx : b.margin.left with
    | auto => rw [hx] at hm; cases hm
    | num y => rw [hx] at hm; cases hm; rfl
  have e := setContent_wide fp .h (addAll fp ml [b.border.left, b.padding.left]) b cs
  have e' := setContent_content fp .h (addAll fp ml [b.border.left, b.padding.left]) b cs
  rw [← (ok_pair h).1] at e e'
  refine ⟨ml, e.left.symm.trans hm, ?_⟩
  rw [← e.border, ← e.padding]
  exact e'

theorem copyEdges_h {fp : FP} {s : CSS} {hz vt : PxCtx} {b b' : Box} (h : copyEdges fp s hz vt b = .ok b') : b'.h = b.h := by
  unfold copyEdges at h
  simp only [bind_eq_ok] at h
  obtain ⟨x1, _, x2, _, x3, _, x4, _, y1, _, y2, _, y3, _, y4, _, z1, _, z2, _, z3, _, z4, _, h⟩ := h
  cases h
  show ((((b.setMargin .top x1).setMargin .right x2).setMargin .bottom x3).setMargin .left x4).h = b.h
  rw [setMargin_h, setMargin_h, setMargin_h, setMargin_h]

/-- C72. An inline element that is not replaced is as wide as its content, and its automatic left and right margins are 0. -/
theorem C72_width (fp : FP) (d : Display) (html5 : Bool) (p ps : Option CSS) (n n' m : Node) (w : Option Num)
    (h : layout fp d html5 p n = .ok n') (hm : Within (some d.contentWidth) p n' w ps m)
    (hi : m.style.get .display = kw "inline") (hr : m.intrinsic.isReplaced = false) :
    ∃ b ml mr, m.layout = some b ∧ b.contentWidth = m.intrinsic.width ∧ b.margin.left = .num ml ∧ b.margin.right = .num mr ∧
      (m.style.get (.margin .left) = kw "auto" → ml.val = 0) ∧ (m.style.get (.margin .right) = kw "auto" → mr.val = 0) := by
  obtain ⟨b, y, b0, b1, b2, cs, cs2, h1, h2, h3, h4⟩ := (layout_ran_any h hm (inline_shown hi)).wide
  have c := copyEdges_copied h2
  have e := widthAndMargins_inline h3 ((isKw_iff _ _).2 hi) hr
  obtain ⟨ml, l1, l2⟩ := autoMargin_zero b1 .left (Or.inl rfl)
  obtain ⟨mr, r1, r2⟩ := autoMargin_zero b1 .right (Or.inr rfl)
  subst e
  refine ⟨b, ml, mr, h1, h4.width.symm, h4.left.symm.trans l1, h4.right.symm.trans r1, fun hk => l2 ?_, fun hk => r2 ?_⟩
  · obtain ⟨u, u1, u2⟩ := c.ml
    exact (same_auto u2).2 ((calculateSize_auto u1).2 hk)
  · obtain ⟨u, u1, u2⟩ := c.mr
    exact (same_auto u2).2 ((calculateSize_auto u1).2 hk)

/-- C72. An inline element that is not replaced is as high as its content. -/
theorem C72_height (fp : FP) (d : Display) (html5 : Bool) (p ps : Option CSS) (n n' m : Node) (w : Option Num)
    (h : layout fp d html5 p n = .ok n') (hm : Inside html5 (some d.contentWidth) p n' w ps m)
    (hi : m.style.get .display = kw "inline") (hr : m.intrinsic.isReplaced = false) :
    ∃ b, m.layout = some b ∧ b.contentHeight = m.intrinsic.height := by
  obtain ⟨b, sz, b4, cs4, b5, cs5, h1, h2, h3, _⟩ := (layout_ran_inside h hm (inline_shown hi)).high
  obtain ⟨mt, _, e, _⟩ := placeTopInline_ok (heightAndMargins_inline h2 ((isKw_iff _ _).2 hi) hr)
  exact ⟨b, h1, h3.trans e⟩

theorem width_top {fp : FP} {s : CSS} {z : Intrinsic} {c : PxCtx} {b b' : Box} {cs cs' : List Node}
    (h : widthAndMargins fp s z c b cs = .ok (b', cs')) (hi : isInline s = true) : b'.top = b.top := by
  cases hr : z.isReplaced with
  | false =>
    rw [widthAndMargins_inline h hi hr]
    show (autoMarginToZero (autoMarginToZero b .left) .right).top = _
    rw [autoMargin_top, autoMargin_top]
  | true =>
    have h := widthAndMargins_replaced h hi hr
    unfold inlineReplacedWidth at h
    simp only at h
    obtain ⟨w, _, h⟩ := bind_eq_ok.1 h
    rw [placeLeft_top h]
    show (autoMarginToZero (autoMarginToZero b .left) .right).top = _
    rw [autoMargin_top, autoMargin_top]

/-- The phases of a run of a static inline element. -/
theorem RunFull.inline {fp : FP} {d : Display} {cb : CB} {ps : Option CSS} {n : Node} (h : RunFull fp d cb ps n)
    (hi : n.style.get .display = kw "inline") (hs : ¬ n.Relative) :
    ∃ b b1 b2 cs1 cs2 b4 cs4 b5 cs5, n.layout = some b ∧ b1.top = .int 0 ∧ b1.h.content = .int 0 ∧
      widthAndMargins fp n.style n.intrinsic ⟨d, dummyFont fp, cb.width⟩ b1 cs1 = .ok (b2, cs2) ∧ b4 = b2 ∧
      heightAndMargins fp n.style n.intrinsic ps ⟨d, dummyFont fp, cb.height⟩ b4 cs4 = .ok (b5, cs5) ∧ b5.noOrigin = b.noOrigin := by
  obtain ⟨b, hb, f, b0, cs0, b', cs', hbody, he, q⟩ := h
  obtain ⟨b1, b2, cs2, b3, cs3, b4, cs4, b5, cs5, h1, h2, h3, _, _, h4, h5, h6⟩ := body_phases hbody
  have hr : isRelative n.style = false := by
    cases hx : isRelative n.style with
    | false => rfl
    | true => exact absurd ((isRelative_iff n).1 hx) hs
  have e6 : b5 = b' := by
    unfold applyRelative at h6
    rw [hr] at h6
    cases h6; rfl
  have e3 : b3 = b2 := by
    unfold relativeHeight at h3
    rw [hr] at h3
    cases h3; rfl
  subst e6 e3
  have e0 : b0.noOrigin = Box.fresh := q.2 [] b0 (.here rfl)
  refine ⟨b, b1, b3, cs0, cs2, b4, cs4, b5, cs5, hb, ?_, ?_, h2, ?_, h5, he⟩
  · rw [copyEdges_top h1]
    exact congrArg (fun b => b.v.content) e0
  · rw [copyEdges_h h1]
    exact congrArg (fun b => b.h.content) e0
  · rcases children_stacked h4 with ⟨_, rfl, _⟩ | ⟨hx, _⟩
    · rfl
    · exfalso
      have := (blockContext_iff n.style n.intrinsic none cs3).1 hx
      have h := this.1
      rw [show (Node.mk n.style n.intrinsic none cs3).style = n.style from rfl, hi] at h
      simp only [kw, Val.str.injEq] at h
      exact absurd h (by decide)

/-- C72. The content of an inline element below the root starts below its top margin, border and padding, all of them counted from the content of its
parent. Missing: numbers too large for exact sums. -/
theorem C72_top_partial (fp : FP) (d : Display) (html5 : Bool) (p ps : Option CSS) (n n' m : Node) (w : Option Num) (hbx : AllBoxed n)
    (h : layout fp d html5 p n = .ok n') (hm : Inside true (some d.contentWidth) p n' w ps m)
    (hi : m.style.get .display = kw "inline") (hs : ¬ m.Relative) :
    ∃ b mt, m.layout = some b ∧ b.margin.top = .num mt ∧
      ∀ k, 4 * k ≤ 2 ^ 53 → Fits fp k mt → Fits fp k b.border.top → Fits fp k b.padding.top →
        (b.pos .v).content.val = mt.val + b.border.top.val + b.padding.top.val := by
  obtain ⟨cb, _, hr⟩ := layout_inline hbx h hm hi
  obtain ⟨b, b1, b2, cs1, cs2, b4, cs4, b5, cs5, hb, ht, _, hw, rfl, hh, he⟩ := hr.inline hi hs
  have hi' := (isKw_iff _ _).2 hi
  have t2 := width_top hw hi'
  have key : ∃ mt, b5.margin.top = .num mt ∧ b5.top.val = ((Num.int 0).add fp (addAll fp mt [b5.border.top, b5.padding.top])).val := by
    cases hz : m.intrinsic.isReplaced with
    | false =>
      obtain ⟨mt, e1, _, e2⟩ := placeTopInline_ok (heightAndMargins_inline hh hi' hz)
      refine ⟨mt, e1, ?_⟩
      rw [e2]
      show (b4.top.add fp _).val = _
      rw [t2, ht]
    | true =>
      have hh := heightAndMargins_replaced hh hi' hz
      unfold inlineReplacedHeight at hh
      simp only at hh
      obtain ⟨x, _, hh⟩ := bind_eq_ok.1 hh
      obtain ⟨mt, e1, _, e2⟩ := placeTopInline_ok hh
      refine ⟨mt, e1, ?_⟩
      rw [e2]
      show ((autoMarginToZero (autoMarginToZero b4 .top) .bottom).top.add fp _).val = _
      rw [autoMargin_top, autoMargin_top, t2, ht]
  obtain ⟨mt, e1, e2⟩ := key
  have eb : b5.border = b.border := by have e := congrArg (fun b : Box => b.border) he; exact e
  have ep : b5.padding = b.padding := by have e := congrArg (fun b : Box => b.padding) he; exact e
  have em : b5.margin = b.margin := by have e := congrArg (fun b : Box => b.margin) he; exact e
  have ev : b5.top = b.top := congrArg (fun b => b.v.content) he
  rw [eb, ep, ev] at e2
  refine ⟨b, mt, hb, by rw [← em]; exact e1, fun k hk f1 f2 f3 => ?_⟩
  have s1 := f1.addAll (m := k) [b.border.top, b.padding.top] (by simp [f2, f3]) (by simp; omega)
  have s2 := (fits_zero f1).addAll (m := k + 2 * k) [addAll fp mt [b.border.top, b.padding.top]] (by
    intro x hx; rw [List.mem_singleton.1 hx]; exact s1.2) (by simp; omega)
  show b.top.val = _
  rw [e2]
  have e3 : ((Num.int 0).add fp (addAll fp mt [b.border.top, b.padding.top])).val = _ := s2.1
  rw [e3, List.map_singleton, List.sum_singleton, s1.1, Num.val_int]
  simp only [List.map_cons, List.map_nil, List.sum_cons, List.sum_nil]
  push_cast
  ring

/-- C72. The content of a replaced inline element below the root starts behind its left margin, border and padding. Missing: numbers too large for
exact sums; other inline elements (`C72_false_left`). -/
theorem C72_left_partial (fp : FP) (d : Display) (html5 : Bool) (p ps : Option CSS) (n n' m : Node) (w : Option Num) (hbx : AllBoxed n)
    (h : layout fp d html5 p n = .ok n') (hm : Inside true (some d.contentWidth) p n' w ps m)
    (hi : m.style.get .display = kw "inline") (hr : m.intrinsic.isReplaced = true) (hs : ¬ m.Relative) :
    ∃ b ml, m.layout = some b ∧ b.margin.left = .num ml ∧
      ∀ k, 3 * k ≤ 2 ^ 53 → Fits fp k ml → Fits fp k b.border.left → Fits fp k b.padding.left →
        (b.pos .h).content.val = ml.val + b.border.left.val + b.padding.left.val := by
  obtain ⟨cb, _, hru⟩ := layout_inline hbx h hm hi
  obtain ⟨b, b1, b2, cs1, cs2, b4, cs4, b5, cs5, hb, _, _, hw, rfl, hh, he⟩ := hru.inline hi hs
  have hi' := (isKw_iff _ _).2 hi
  have hw := widthAndMargins_replaced hw hi' hr
  unfold inlineReplacedWidth at hw
  simp only at hw
  obtain ⟨x, _, hw⟩ := bind_eq_ok.1 hw
  obtain ⟨ml, e1, e2⟩ := placeLeft_left hw
  have eh : b5.h.content = b.h.content := congrArg (fun b => b.h.content) he
  have eb : b5.border = b.border := by have e := congrArg (fun b : Box => b.border) he; exact e
  have ep : b5.padding = b.padding := by have e := congrArg (fun b : Box => b.padding) he; exact e
  have em : b5.margin = b.margin := by have e := congrArg (fun b : Box => b.margin) he; exact e
  have hwide := height_wide hh
  rw [hwide.border, hwide.padding, eb, ep, ← height_h hh, eh] at e2
  refine ⟨b, ml, hb, by rw [← em, ← hwide.left]; exact e1, fun k hk f1 f2 f3 => ?_⟩
  have s1 := f1.addAll (m := k) [b.border.left, b.padding.left] (by simp [f2, f3]) (by simp; omega)
  show b.h.content.val = _
  rw [e2, s1.1]
  simp only [List.map_cons, List.map_nil, List.sum_cons, List.sum_nil]
  ring

/-- C72 is false for the horizontal position of inline elements that are not replaced: they all start where the content of their parent starts, whatever
their left margin, border and padding are. -/
theorem C72_false_left (fp : FP) (d : Display) (html5 : Bool) (p ps : Option CSS) (n n' m : Node) (w : Option Num) (hbx : AllBoxed n)
    (h : layout fp d html5 p n = .ok n') (hm : Inside true (some d.contentWidth) p n' w ps m)
    (hi : m.style.get .display = kw "inline") (hr : m.intrinsic.isReplaced = false) (hs : ¬ m.Relative) :
    ∃ b, m.layout = some b ∧ (b.pos .h).content.val = 0 := by
  obtain ⟨cb, _, hru⟩ := layout_inline hbx h hm hi
  obtain ⟨b, b1, b2, cs1, cs2, b4, cs4, b5, cs5, hb, _, hl, hw, rfl, hh, he⟩ := hru.inline hi hs
  have e := widthAndMargins_inline hw ((isKw_iff _ _).2 hi) hr
  have eh : b5.h.content = b.h.content := congrArg (fun b => b.h.content) he
  refine ⟨b, hb, ?_⟩
  show b.h.content.val = 0
  rw [← eh, height_h hh, e]
  show (autoMarginToZero (autoMarginToZero b1 .left) .right).h.content.val = 0
  rw [autoMargin_h, autoMargin_h, hl, Num.val_int]
  norm_num

/-- An inline element with content of the given size. -/
def span (ps : List (LH × Val)) (w h : Int) : Node :=
  .mk (styled ((.display, kw "inline") :: ps)) { Intrinsic.initial with width := some (.int w), height := some (.int h) } (some .fresh) []

/-- An inline replaced element, with intrinsic size. -/
def picture (ps : List (LH × Val)) (w h : Int) : Node :=
  .mk (styled ((.display, kw "inline") :: ps)) { Intrinsic.initial with width := some (.int w), height := some (.int h), isReplaced := true } (some .fresh) []

/-- An inline element with margins, borders and paddings; the same element, replaced. -/
example : (laidBox .b64 screen (block [] [span [(.margin .top, px 3), (.margin .left, px 4), (.margin .right, kw "auto"), (.padding .top, px 5), (.padding .left, px 6)] 50 10]) [0]).map
      (fun b => (b.contentWidth, b.contentHeight, b.v.content, b.h.content, b.margin.right)) = some (some (.int 50), some (.int 10), .int 8, .int 0, .num (.int 0)) ∧
    (laidBox .b64 screen (block [] [picture [(.margin .top, px 3), (.margin .left, px 4), (.margin .right, kw "auto"), (.padding .top, px 5), (.padding .left, px 6)] 50 10]) [0]).map
      (fun b => (b.contentWidth, b.contentHeight, b.v.content, b.h.content, b.margin.right)) = some (some (.int 50), some (.int 10), .int 8, .int 10, .num (.int 0)) := by
  decide +kernel

/-- C72 is false for the positions of the elements of a line: two inline elements of 50 by 10 pixels are at the same place. -/
theorem C72_false_overlap (i : Nat) (hi : i < 2) :
    (laidBox .b64 screen (block [] [span [] 50 10, span [] 50 10]) [i]).map (fun b => (b.h.origin, b.v.origin)) = some (.int 0, .int 0) ∧
    (laidBox .b64 screen (block [] [span [] 50 10, span [] 50 10]) [i]).map (fun b => (b.h.content, b.v.content)) = some (.int 0, .int 0) ∧
    (laidBox .b64 screen (block [] [span [] 50 10, span [] 50 10]) [i]).map (fun b => (b.contentWidth, b.contentHeight)) = some (some (.int 50), some (.int 10)) := by
  have : i = 0 ∨ i = 1 := by omega
  rcases this with rfl | rfl <;> decide +kernel

/-- C72 is false for relatively positioned elements, even without an offset: the space above is counted twice. -/
theorem C72_false_relative : (laidBox .b64 screen (block [] [span [(.position, kw "relative"), (.margin .top, px 3), (.padding .top, px 5)] 50 10]) [0]).map
      (fun b => b.v.content) = some (.int 16) := by
  decide +kernel

/-- C72 is false for a top margin of `auto`, which should be 0: the layout fails, unless the element is replaced. -/
theorem C72_false_auto : (layout .b64 screen false none (block [] [span [(.margin .top, kw "auto")] 50 10])).toOption.isNone = true ∧
    (layout .b64 screen false none (block [] [picture [(.margin .top, kw "auto")] 50 10])).toOption.isSome = true := by
  decide +kernel

end Colosseum
