import Verif.Lemmas.Vertical
import Verif.Props.Limits

/-!
# C71: specified heights
-/

namespace Colosseum

/-- What `max-height` makes of a height. -/
inductive Capped (fp : FP) (d : Display) (v : Val) : Rat → Rat → Prop
  | free (y : Rat) : v = .none → Capped fp d v y y
  | limited (y : Rat) (hi : Num) : v.Length fp d (dummyFont fp) hi → Capped fp d v y (min y hi.val)

theorem capped_of {fp : FP} {d : Display} {v : Val} {sz : Option Num} {x y : Num} (hv : v = .none ∨ ∃ hi, v.Length fp d (dummyFont fp) hi)
    (h : (v = .none ∧ x = y) ∨ ∃ m, v ≠ .none ∧ v.px fp ⟨d, dummyFont fp, sz⟩ = .ok m ∧ x.val = min y.val m.val) : Capped fp d v y.val x.val := by
  rcases h with ⟨h1, rfl⟩ | ⟨m, h1, h2, h3⟩
  · exact .free _ h1
  · obtain ⟨hi, hhi⟩ := hv.resolve_left h1
    rw [length_px hhi] at h2
    cases h2
    rw [h3]
    exact .limited _ _ hhi

/-- C71. The content height of a block whose height is a length is that length, limited by `max-height`. -/
theorem C71_length (fp : FP) (d : Display) (html5 : Bool) (p ps : Option CSS) (n n' m : Node) (w : Option Num) (y : Num)
    (h : layout fp d html5 p n = .ok n') (hm : Inside html5 (some d.contentWidth) p n' w ps m) (hb : m.BlockLevel)
    (hy : (m.style.get .height).Length fp d (dummyFont fp) y)
    (hmax : m.style.get .maxHeight = .none ∨ ∃ hi, (m.style.get .maxHeight).Length fp d (dummyFont fp) hi) :
    ∃ b x, m.layout = some b ∧ b.contentHeight = some x ∧ Capped fp d (m.style.get .maxHeight) y.val x.val := by
  obtain ⟨b, sz, b4, cs4, b5, cs5, h1, h2, h3, _⟩ := (layout_ran_inside h hm (blockLevel_shown hb)).high
  obtain ⟨x, h5, h6⟩ := blockHeight_explicit h2 ((blockLevel_iff m).2 hb) (length_ne_kw hy "auto")
  exact ⟨b, x, h1, h3.trans h5, capped_of hmax (explicitHeight_length h6 hy)⟩

/-- C71. Where the height of the parent is a length, a height in percent is that share of it, limited by `max-height`. -/
theorem C71_percent_partial (fp : FP) (S : fp.Sharp) (d : Display) (html5 : Bool) (p : Option CSS) (q : CSS) (n n' m : Node) (w : Option Num) (a ph : Num)
    (h : layout fp d html5 p n = .ok n') (hm : Inside html5 (some d.contentWidth) p n' w (some q) m) (hb : m.BlockLevel)
    (ha : m.style.get .height = .unit ⟨.len .percent, .fin a⟩) (hq : (q.get .height).Length fp d (dummyFont fp) ph)
    (hmax : m.style.get .maxHeight = .none ∨ ∃ hi, (m.style.get .maxHeight).Length fp d (dummyFont fp) hi) :
    ∃ b x y, m.layout = some b ∧ b.contentHeight = some x ∧ PercentOf y a.val ph ∧ Capped fp d (m.style.get .maxHeight) y.val x.val := by
  obtain ⟨b, sz, b4, cs4, b5, cs5, h1, h2, h3, _⟩ := (layout_ran_inside h hm (blockLevel_shown hb)).high
  obtain ⟨x, h5, h6⟩ := blockHeight_explicit h2 ((blockLevel_iff m).2 hb) (by rw [ha]; simp [kw])
  obtain ⟨y, h7, h8⟩ := explicitHeight_cases h6
  refine ⟨b, x, y, h1, h3.trans h5, ?_, capped_of hmax h8⟩
  rw [ha] at h7
  rcases h7 with ⟨_, ph', e, _, e1, e2⟩ | ⟨e, _⟩
  · cases e
    rw [length_px hq] at e1
    cases e1
    exact percent_px S e2
  · exact absurd (e q rfl) (length_ne_kw hq "auto")

/-- C71. A root height in percent is that share of the height of the display; the standard HTML5 replaces it afterwards. -/
theorem C71_root (fp : FP) (S : fp.Sharp) (d : Display) (n n' : Node) (a : Num) (hbx : AllBoxed n)
    (h : layout fp d false none n = .ok n') (hb : n'.BlockLevel) (ha : n'.style.get .height = .unit ⟨.len .percent, .fin a⟩)
    (hmax : n'.style.get .maxHeight = .none ∨ ∃ hi, (n'.style.get .maxHeight).Length fp d (dummyFont fp) hi) :
    ∃ b x y, n'.layout = some b ∧ b.contentHeight = some x ∧ PercentOf y a.val d.contentHeight ∧ Capped fp d (n'.style.get .maxHeight) y.val x.val := by
  have hr := layout_root hbx h (blockLevel_shown hb)
  obtain ⟨b, sz, b4, cs4, b5, cs5, h1, h2, h3, _, h4⟩ := hr.high
  subst h4
  obtain ⟨x, h5, h6⟩ := blockHeight_explicit h2 ((blockLevel_iff n').2 hb) (by rw [ha]; simp [kw])
  obtain ⟨y, h7, h8⟩ := explicitHeight_cases h6
  refine ⟨b, x, y, h1, h3.trans h5, ?_, capped_of hmax h8⟩
  rw [ha] at h7
  rcases h7 with ⟨_, ph', e, _⟩ | ⟨_, e⟩
  · cases e
  · exact percent_px S e

/-- Any percentage of 0 is 0. -/
theorem percent_zero {fp : FP} (L : fp.Laws) {d : Display} {f : Font} {s y a : Num} (hs : s.val = 0)
    (h : (Val.unit ⟨.len .percent, .fin a⟩).px fp ⟨d, f, some s⟩ = .ok y) : y.val = 0 := by
  obtain ⟨l, hl, rfl⟩ := pxOf_ok (show pxOf fp .percent (.fin a) ⟨d, f, some s⟩ = .ok y from h)
  simp only [luOf] at hl
  rw [luPercent_fin L] at hl
  cases hl
  have e : s.toFloat fp = 0 := by
    cases s with
    | int i => exact (congrArg fp.rnd hs).trans L.zero
    | flt q => exact hs
  have z : pyRound 0 = 0 := by have := pyRound_int 0; simpa using this
  rw [e, mul_zero, L.zero, z, pxOfLu_val]
  simpa using L.zero

/-- C71 is false for the heights in percent of the children of other blocks: where the height of a static parent is `auto` or a percentage itself,
they are 0. -/
theorem C71_false_indefinite (fp : FP) (L : fp.Laws) (d : Display) (html5 : Bool) (p : Option CSS) (q : CSS) (n n' m : Node) (w : Option Num) (a : Num)
    (hbx : AllBoxed n) (h : layout fp d html5 p n = .ok n') (hm : Inside true (some d.contentWidth) p n' w (some q) m) (hb : m.BlockLevel)
    (ha : m.style.get .height = .unit ⟨.len .percent, .fin a⟩) (hst : q.get .position ≠ kw "relative")
    (hq : q.get .height = kw "auto" ∨ ∃ a', q.get .height = .unit ⟨.len .percent, .fin a'⟩) (hmax : m.style.get .maxHeight = .none) :
    ∃ b x, m.layout = some b ∧ b.contentHeight = some x ∧ x.val = 0 := by
  obtain ⟨q', cb, e, _, hr, h0, _⟩ := layout_below hbx h hm (blockLevel_shown hb)
  cases e
  obtain ⟨b, sz, b4, cs4, b5, cs5, h1, h2, h3, _, h4⟩ := hr.high
  subst h4
  rw [h0 hst] at h2
  obtain ⟨x, h5, h6⟩ := blockHeight_explicit h2 ((blockLevel_iff m).2 hb) (by rw [ha]; simp [kw])
  obtain ⟨y, h7, h8⟩ := explicitHeight_cases h6
  refine ⟨b, x, h1, h3.trans h5, ?_⟩
  rw [ha] at h7
  have hx : x = y := by
    rcases h8 with ⟨_, e⟩ | ⟨_, e, _⟩
    · exact e
    · exact absurd hmax e
  rw [hx]
  rcases h7 with ⟨_, ph', e, e0, e1, e2⟩ | ⟨_, e⟩
  · cases e
    rcases hq with hq | ⟨a', hq⟩
    · exact absurd hq e0
    · rw [hq] at e1
      exact percent_zero L (percent_zero L (Num.val_int 0) e1) e2
  · exact percent_zero L (Num.val_int 0) e

/-- C71 is false for a `max-height` in percent: below a static parent it is 0, whatever the height of the parent is. -/
theorem C71_false_max (fp : FP) (L : fp.Laws) (d : Display) (html5 : Bool) (p : Option CSS) (q : CSS) (n n' m : Node) (w : Option Num) (a y : Num)
    (hbx : AllBoxed n) (h : layout fp d html5 p n = .ok n') (hm : Inside true (some d.contentWidth) p n' w (some q) m) (hb : m.BlockLevel)
    (hst : q.get .position ≠ kw "relative") (hy : (m.style.get .height).Length fp d (dummyFont fp) y)
    (ha : m.style.get .maxHeight = .unit ⟨.len .percent, .fin a⟩) :
    ∃ b x, m.layout = some b ∧ b.contentHeight = some x ∧ x.val = min y.val 0 := by
  obtain ⟨q', cb, e, _, hr, h0, _⟩ := layout_below hbx h hm (blockLevel_shown hb)
  cases e
  obtain ⟨b, sz, b4, cs4, b5, cs5, h1, h2, h3, _, h4⟩ := hr.high
  subst h4
  rw [h0 hst] at h2
  obtain ⟨x, h5, h6⟩ := blockHeight_explicit h2 ((blockLevel_iff m).2 hb) (length_ne_kw hy "auto")
  refine ⟨b, x, h1, h3.trans h5, ?_⟩
  rcases explicitHeight_length h6 hy with ⟨e, _⟩ | ⟨v, _, e, ex⟩
  · rw [ha] at e; cases e
  · rw [ha] at e
    rw [ex, percent_zero L (Num.val_int 0) e]

/-- 300 pixels; a quarter of them; a fixed height; three quarters limited to 100 pixels. -/
example : (laidBox .b64 screen (block [] [block [(.height, px 300)] [block [(.height, pct 25)] [], block [(.height, px 40)] [],
      block [(.height, pct 75), (.maxHeight, px 100)] []]]) [0]).isSome = true ∧
    [[0], [0, 0], [0, 1], [0, 2]].map (fun i => (laidBox .b64 screen (block [] [block [(.height, px 300)] [block [(.height, pct 25)] [], block [(.height, px 40)] [],
      block [(.height, pct 75), (.maxHeight, px 100)] []]]) i).bind Box.contentHeight) =
    [some (.int 300), some (.int 75), some (.int 40), some (.int 100)] := by decide +kernel

/-- A quarter of a display of 480 pixels. -/
example : ((layout .b64 screen false none (block [(.height, pct 25)] [])).toOption.bind Node.layout).bind Box.contentHeight = some (.int 120) := by
  decide +kernel

/-- Half of half of a display of 480 pixels is 0; half of an automatic height is 0, although the content is 30 pixels high; and so is any height limited to half. -/
example : (laidBox .b64 screen (block [(.height, pct 50)] [block [(.height, pct 50)] []]) [0]).bind Box.contentHeight = some (.int 0) ∧
    (laidBox .b64 screen (block [] [block [(.height, pct 50)] [block [(.height, px 30)] []]]) [0]).bind Box.contentHeight = some (.int 0) ∧
    (laidBox .b64 screen (block [(.height, px 100)] [block [(.height, px 80), (.maxHeight, pct 50)] []]) [0]).bind Box.contentHeight = some (.int 0) := by
  decide +kernel

/-- C71 is false where the height of the parent is limited: half of a block of height 100 limited to 60 is 50 instead of 30. -/
theorem C71_false_limited :
    (laidBox .b64 screen (block [] [block [(.height, px 100), (.maxHeight, px 60)] [block [(.height, pct 50)] []]]) [0]).bind Box.contentHeight = some (.int 60) ∧
    (laidBox .b64 screen (block [] [block [(.height, px 100), (.maxHeight, px 60)] [block [(.height, pct 50)] []]]) [0, 0]).bind Box.contentHeight =
      some (.int 50) := by decide +kernel

/-! ## C55: left and right paddings in percent -/

/-- C55 is false for left and right paddings below the root: in a static parent a percentage is 0, in a relatively positioned block whose height is
a length it refers to this height. -/
theorem C55_false_padding (fp : FP) (S : fp.Sharp) (d : Display) (html5 : Bool) (p : Option CSS) (q : CSS) (n n' m : Node) (w : Option Num) (a : Num) (t : Side)
    (hbx : AllBoxed n) (h : layout fp d html5 p n = .ok n') (hm : Inside true (some d.contentWidth) p n' w (some q) m) (hb : m.BlockLevel)
    (ht : t = .left ∨ t = .right) (ha : m.style.get (.padding t) = .unit ⟨.len .percent, .fin a⟩) :
    ∃ b, m.layout = some b ∧ (q.get .position ≠ kw "relative" → (b.padding.get t).val = 0) ∧
      (q.get .position = kw "relative" → isBlockLevel q = true → q.get .maxHeight = .none → ∀ y, (q.get .height).Length fp d (dummyFont fp) y →
        PercentOf (b.padding.get t) a.val y) := by
  obtain ⟨q', cb, e, _, hr, h0, hrel⟩ := layout_below hbx h hm (blockLevel_shown hb)
  cases e
  obtain ⟨b, b0, b1, b2, cs, cs2, h1, h2, h3, h4⟩ := hr.wide
  have c := copyEdges_copied h2
  obtain ⟨_, _, _, _, _, e4, _⟩ := blockWidth_fills (widthAndMargins_block h3 ((blockLevel_iff m).2 hb))
  have pad : ∀ {x : Num}, calculateEdge fp (.unit ⟨.len .percent, .fin a⟩) ⟨d, dummyFont fp, cb.height⟩ = .ok x →
      (Val.unit ⟨.len .percent, .fin a⟩).px fp ⟨d, dummyFont fp, cb.height⟩ = .ok x := by
    intro x hx
    unfold calculateEdge at hx
    obtain ⟨v, hv, hx⟩ := bind_eq_ok.1 hx
    obtain ⟨y, rfl, hy⟩ := percent_size hv
    cases hx
    exact hy
  have hp : (Val.unit ⟨.len .percent, .fin a⟩).px fp ⟨d, dummyFont fp, cb.height⟩ = .ok (b.padding.get t) := by
    rw [← h4.5, e4]
    rcases ht with rfl | rfl
    · have := c.pl; rw [ha] at this; exact pad this
    · have := c.pr; rw [ha] at this; exact pad this
  refine ⟨b, h1, fun hst => ?_, fun hst hbl hmax y hy => ?_⟩
  · rw [h0 hst] at hp
    exact percent_zero S.toLaws (Num.val_int 0) hp
  · rw [hrel hst hbl hmax y hy] at hp
    exact percent_px S hp

/-- Ten percent of the width 640 of a static parent is 0; of a relatively positioned parent 200 pixels high it is 20. -/
example : (laidBox .b64 screen (block [] [block [(.padding .left, pct 10)] []]) [0]).map (fun b => b.padding.left) = some (.int 0) ∧
    (laidBox .b64 screen (block [(.position, kw "relative"), (.height, px 200)] [block [(.padding .left, pct 10)] []]) [0]).map (fun b => b.padding.left) =
      some (.int 20) := by decide +kernel

end Colosseum
