import Verif.Spec.Margins
import Verif.Lemmas.Heights
import Verif.Lemmas.Sample
import Verif.Props.Pixels

/-!
# Limits of sizes, percentages and layout units
-/

namespace Colosseum

theorem blockLevel_shown {m : Node} (hb : m.BlockLevel) : ¬ m.Hidden := by
  intro hh
  have e : m.style.get .display = .none := hh
  unfold Node.BlockLevel at hb
  rw [e] at hb
  simp [kw] at hb

/-! ## C47: minimal and maximal sizes -/

/-- C47. The content width of a block with a specified width is that width, but at most `max-width`, and then at least `min-width`. -/
theorem C47_width_partial (fp : FP) (d : Display) (html5 : Bool) (p ps : Option CSS) (n n' m : Node) (w : Option Num)
    (h : layout fp d html5 p n = .ok n') (hm : Within (some d.contentWidth) p n' w ps m) (hb : m.BlockLevel)
    (hw : m.style.get .width ≠ kw "auto") :
    let px := fun q => (m.style.get q).px fp ⟨d, dummyFont fp, w⟩
    ∃ b x v, m.layout = some b ∧ b.contentWidth = some x ∧ px .width = .ok v ∧
      x.val = limited ((px .minWidth).toOption.map Num.val) ((px .maxWidth).toOption.map Num.val) v.val ∧
      (∀ lo, px .minWidth = .ok lo → lo.val ≤ x.val) ∧
      (∀ hi, px .maxWidth = .ok hi → x.val ≤ hi.val ∨ ∃ lo, px .minWidth = .ok lo ∧ x.val = lo.val) := by
  intro px
  obtain ⟨b, y, b0, b1, b2, cs, cs2, h1, h2, h3, h4⟩ := (layout_ran_any h hm (blockLevel_shown hb)).wide
  rcases blockWidth_cases (widthAndMargins_block h3 ((blockLevel_iff m).2 hb)) with ⟨e, _⟩ | ⟨_, x, size, e1, e2, e3, _⟩
  · exact absurd e hw
  obtain ⟨v, hv, q, hmax, hmin⟩ := clampedWidth_val e1
  refine ⟨b, x, v, h1, h4.1.symm.trans e3, hv, ?_, ?_, ?_⟩
  · have e4 : ∀ lo : Option Rat, limited lo ((px .maxWidth).toOption.map Num.val) v.val = limited lo none q := by
      intro lo
      rcases hmax with ⟨ha, e⟩ | ⟨_, m', hm', e⟩
      · have : px .maxWidth = .error .attribute := by show (m.style.get .maxWidth).px fp _ = _; rw [ha]; rfl
        rw [this, e]; rfl
      · rw [show px .maxWidth = .ok m' from hm', e]; rfl
    rw [e4]
    rcases hmin with ⟨ha, e⟩ | ⟨_, m', hm', e⟩
    · have : px .minWidth = .error .attribute := by show (m.style.get .minWidth).px fp _ = _; rw [ha]; rfl
      rw [this, e]; rfl
    · rw [show px .minWidth = .ok m' from hm', e]; rfl
  · intro lo hlo
    rcases hmin with ⟨ha, _⟩ | ⟨_, m', hm', e⟩
    · have : px .minWidth = .error .attribute := by show (m.style.get .minWidth).px fp _ = _; rw [ha]; rfl
      rw [this] at hlo; cases hlo
    · rw [show px .minWidth = .ok m' from hm'] at hlo
      cases hlo
      rw [e]; exact le_max_right _ _
  · intro hi hhi
    rcases hmax with ⟨ha, _⟩ | ⟨_, m', hm', e⟩
    · have : px .maxWidth = .error .attribute := by show (m.style.get .maxWidth).px fp _ = _; rw [ha]; rfl
      rw [this] at hhi; cases hhi
    · rw [show px .maxWidth = .ok m' from hm'] at hhi
      cases hhi
      rcases hmin with ⟨_, e'⟩ | ⟨_, lo, hlo, e'⟩
      · left; rw [e', e]; exact min_le_right _ _
      · rcases le_total q lo.val with hle | hle
        · right; exact ⟨lo, hlo, by rw [e', max_eq_right hle]⟩
        · left; rw [e', max_eq_left hle, e]; exact min_le_right _ _

/-- C47. The content height of a block with a specified height is at most `max-height`, and that of a block without
children whose height is `auto` is `min-height`, where these are lengths other than percentages. -/
theorem C47_height_partial (fp : FP) (d : Display) (html5 : Bool) (p ps : Option CSS) (n n' m : Node) (w : Option Num)
    (h : layout fp d html5 p n = .ok n') (hm : Inside html5 (some d.contentWidth) p n' w ps m) (hb : m.BlockLevel) :
    ∃ b x, m.layout = some b ∧ b.contentHeight = some x ∧
      (m.style.get .height ≠ kw "auto" → ∀ hi, (m.style.get .maxHeight).Length fp d (dummyFont fp) hi → x.val ≤ hi.val) ∧
      (m.style.get .height = kw "auto" → m.children = [] →
        (m.style.get .minHeight = kw "auto" → x.val = 0) ∧ ∀ lo, (m.style.get .minHeight).Length fp d (dummyFont fp) lo → x = lo) := by
  obtain ⟨b, sz, b4, cs4, b5, cs5, h1, h2, h3, h4⟩ := (layout_ran_inside h hm (blockLevel_shown hb)).high
  obtain ⟨x, b6, h5, h6⟩ := blockHeight_content (heightAndMargins_block h2 ((blockLevel_iff m).2 hb))
  refine ⟨b, x, h1, h3.trans h5, ?_, ?_⟩
  · intro hh hi hhi
    unfold blockContentHeight at h6
    rw [if_neg fun e => hh ((isKw_iff _ _).1 e)] at h6
    obtain ⟨y, hy, h6⟩ := bind_eq_ok.1 h6
    cases h6
    exact explicitHeight_max hy (length_px hhi _)
  · intro hh hc
    rw [hc] at h4
    have : cs4 = [] := by simpa using h4
    subst this
    unfold blockContentHeight at h6
    rw [if_pos ((isKw_iff _ _).2 hh)] at h6
    simp only [List.getLast?_nil] at h6
    constructor
    · intro ha
      rw [if_pos ((isKw_iff _ _).2 ha)] at h6
      cases h6
      exact Num.val_int 0
    · intro lo hlo
      rw [if_neg fun e => length_ne_kw hlo "auto" ((isKw_iff _ _).1 e)] at h6
      obtain ⟨y, hy, h6⟩ := bind_eq_ok.1 h6
      cases h6
      rw [length_px hlo] at hy
      exact (Except.ok.inj hy).symm

/-- Widths between the limits, above `max-width`, below `min-width`, and below a `min-width` that exceeds `max-width`. -/
example : (laidBox .b64 screen (block [(.height, px 9)] [block [(.width, px 50), (.minWidth, px 40), (.maxWidth, px 60)] [],
      block [(.width, px 70), (.minWidth, px 40), (.maxWidth, px 60)] [], block [(.width, pct 5), (.minWidth, px 40), (.maxWidth, px 60)] [],
      block [(.width, px 70), (.minWidth, px 65), (.maxWidth, px 60)] []]) []).isSome = true ∧
    [0, 1, 2, 3].map (fun i => (laidBox .b64 screen (block [(.height, px 9)] [block [(.width, px 50), (.minWidth, px 40), (.maxWidth, px 60)] [],
      block [(.width, px 70), (.minWidth, px 40), (.maxWidth, px 60)] [], block [(.width, pct 5), (.minWidth, px 40), (.maxWidth, px 60)] [],
      block [(.width, px 70), (.minWidth, px 65), (.maxWidth, px 60)] []]) [i]).bind Box.contentWidth) =
    [some (.int 50), some (.int 60), some (.int 40), some (.int 65)] := by decide +kernel

/-- Heights: limited by `max-height`, and `min-height` of an empty block. -/
example : (laidBox .b64 screen (block [(.height, px 90), (.maxHeight, px 70)] []) []).map Box.contentHeight = some (some (.int 70)) ∧
    (laidBox .b64 screen (block [(.minHeight, px 30)] []) []).map Box.contentHeight = some (some (.int 30)) := by decide +kernel

/-- With `width: auto` neither limit is applied. -/
theorem C47_false_auto_width :
    (laidBox .b64 screen (block [(.maxWidth, px 100)] []) []).map Box.contentWidth = some (some (.int 640)) ∧
    (laidBox .b64 screen (block [(.minWidth, px 1000)] []) []).map Box.contentWidth = some (some (.int 640)) := by decide +kernel

/-- `min-height` is ignored when the height is specified or there are children. -/
theorem C47_false_min_height :
    (laidBox .b64 screen (block [(.height, px 10), (.minHeight, px 50)] []) []).map Box.contentHeight = some (some (.int 10)) ∧
    (laidBox .b64 screen (block [(.minHeight, px 50)] [block [(.height, px 20)] []]) []).map Box.contentHeight = some (some (.int 20)) := by
  decide +kernel

/-- `max-height` is ignored when the height is `auto`. -/
theorem C47_false_max_height :
    (laidBox .b64 screen (block [(.maxHeight, px 50)] [block [(.height, px 200)] []]) []).map Box.contentHeight = some (some (.int 200)) := by
  decide +kernel

/-! ## C55: percentages -/

/-- `x` is `q` percent of `size`, up to half a layout unit and rounding errors. -/
def PercentOf (x : Num) (q : Rat) (size : Num) : Prop := |x.val - q * size.val / 100| ≤ 1 / 128 + |q * size.val / 100| * (7 / 2 ^ 53)

theorem percent_px {fp : FP} (S : fp.Sharp) {a : Num} {d : Display} {f : Font} {size x : Num}
    (h : (Val.unit ⟨.len .percent, .fin a⟩).px fp ⟨d, f, some size⟩ = .ok x) : PercentOf x a.val size := by
  have := C61_px_accurate fp S .percent a ⟨d, f, some size⟩ x (a.val * size.val / 100) h (.percent a.val size rfl)
  simpa [PercentOf] using this

theorem percent_size {fp : FP} {a : Num} {c : PxCtx} {x : MVal} (h : calculateSize fp (.unit ⟨.len .percent, .fin a⟩) c = .ok x) :
    ∃ y, x = .num y ∧ (Val.unit ⟨.len .percent, .fin a⟩).px fp c = .ok y := by
  unfold calculateSize at h
  have k : ∀ s, (Val.unit ⟨.len .percent, .fin a⟩).isKw s = false := fun s => rfl
  have e : ((Val.unit ⟨.len .percent, .fin a⟩).pyEq (.num (.fin (.int 0))) || (Val.unit ⟨.len .percent, .fin a⟩).isNone) = false := rfl
  simp only [k, e, Bool.false_eq_true, if_false] at h
  cases hp : (Val.unit ⟨.len .percent, .fin a⟩).px fp c with
  | error e => rw [hp] at h; cases h
  | ok y => rw [hp] at h; cases h; exact ⟨y, rfl, rfl⟩

theorem same_num {a : MVal} {y : Num} (h : a.Same (.num y)) : ∃ z, a = .num z ∧ z.val = y.val := by
  cases a with
  | auto => cases h
  | num z => exact ⟨z, rfl, h⟩

/-- C55. For a block in a container of width `size`, these are `a` percent of `size`: a width of `a` percent without limits; a left
margin of `a` percent unless the direction and a specified width make it the one that is recomputed, likewise a right margin; and a
top or bottom padding of `a` percent. -/
theorem C55_percent_partial (fp : FP) (S : fp.Sharp) (d : Display) (html5 : Bool) (p ps : Option CSS) (n n' m : Node) (w : Option Num) (a : Num)
    (h : layout fp d html5 p n = .ok n') (hm : Within (some d.contentWidth) p n' w ps m) (hb : m.BlockLevel) :
    ∃ b size, m.layout = some b ∧ w = some size ∧
      (m.style.get .width = .unit ⟨.len .percent, .fin a⟩ → m.style.get .maxWidth = .none → m.style.get .minWidth = kw "auto" →
        ∃ x, b.contentWidth = some x ∧ PercentOf x a.val size) ∧
      (m.style.get (.margin .left) = .unit ⟨.len .percent, .fin a⟩ → m.style.get .width = kw "auto" ∨ m.style.get .direction = kw "ltr" →
        ∃ x, b.margin.left = .num x ∧ PercentOf x a.val size) ∧
      (m.style.get (.margin .right) = .unit ⟨.len .percent, .fin a⟩ → m.style.get .width = kw "auto" ∨ m.style.get .direction ≠ kw "ltr" →
        ∃ x, b.margin.right = .num x ∧ PercentOf x a.val size) ∧
      (m.style.get (.padding .top) = .unit ⟨.len .percent, .fin a⟩ → PercentOf b.padding.top a.val size) ∧
      (m.style.get (.padding .bottom) = .unit ⟨.len .percent, .fin a⟩ → PercentOf b.padding.bottom a.val size) := by
  obtain ⟨b, y, b0, b1, b2, cs, cs2, h1, h2, h3, h4⟩ := (layout_ran_any h hm (blockLevel_shown hb)).wide
  have c := copyEdges_copied h2
  have h3 := widthAndMargins_block h3 ((blockLevel_iff m).2 hb)
  obtain ⟨size, x, e1, e2, e3, e4, e5⟩ := blockWidth_fills h3
  have e1 : w = some size := e1
  subst e1
  have hcase := blockWidth_cases h3
  have near : ∀ {x y : Num}, x.val = y.val → (Val.unit ⟨.len .percent, .fin a⟩).px fp ⟨d, dummyFont fp, some size⟩ = .ok y → PercentOf x a.val size := by
    intro x y e hy
    have := percent_px S hy
    unfold PercentOf at this ⊢
    rw [e]; exact this
  have pad : ∀ {x : Num}, calculateEdge fp (.unit ⟨.len .percent, .fin a⟩) ⟨d, dummyFont fp, some size⟩ = .ok x → PercentOf x a.val size := by
    intro x hx
    unfold calculateEdge at hx
    obtain ⟨v, hv, hx⟩ := bind_eq_ok.1 hx
    obtain ⟨y, rfl, hy⟩ := percent_size hv
    cases hx
    exact near rfl hy
  refine ⟨b, size, h1, rfl, ?_, ?_, ?_, ?_, ?_⟩
  · intro hw hmax hmin
    rcases hcase with ⟨e, _⟩ | ⟨_, x', size', k1, k2, k3, _⟩
    · rw [hw] at e; simp [kw] at e
    obtain ⟨v, hv, q, l1, l2⟩ := clampedWidth_val k1
    refine ⟨x', h4.1.symm.trans k3, ?_⟩
    rw [hw] at hv
    have eq : q = v.val := by
      rcases l1 with ⟨_, e⟩ | ⟨hn, _⟩
      · exact e
      · exact absurd hmax hn
    have ex : x'.val = q := by
      rcases l2 with ⟨_, e⟩ | ⟨hn, _⟩
      · exact e
      · exact absurd hmin hn
    exact near (ex.trans eq) hv
  · intro hmg hk
    obtain ⟨v, hv, hs⟩ := c.ml
    rw [hmg] at hv
    obtain ⟨y, rfl, hy⟩ := percent_size hv
    obtain ⟨z, hz, ez⟩ := same_num hs
    refine ⟨z, ?_, near ez hy⟩
    rw [← h4.2]
    rcases hcase with ⟨_, e⟩ | ⟨hne, x', size', k1, k2, k3, k4⟩
    · rw [e]
      exact autoZero_keeps _ .left _ (autoZero_keeps _ .left _ hz)
    · rw [k4]
      exact solveMargins_left hz (hk.resolve_left hne)
  · intro hmg hk
    obtain ⟨v, hv, hs⟩ := c.mr
    rw [hmg] at hv
    obtain ⟨y, rfl, hy⟩ := percent_size hv
    obtain ⟨z, hz, ez⟩ := same_num hs
    refine ⟨z, ?_, near ez hy⟩
    rw [← h4.3]
    rcases hcase with ⟨_, e⟩ | ⟨hne, x', size', k1, k2, k3, k4⟩
    · rw [e]
      exact autoZero_keeps _ .right _ (autoZero_keeps _ .right _ hz)
    · rw [k4]
      exact solveMargins_right hz (hk.resolve_left hne)
  · intro hp
    have := c.pt
    rw [hp] at this
    rw [← h4.5, e4]
    exact pad this
  · intro hp
    have := c.pb
    rw [hp] at this
    rw [← h4.5, e4]
    exact pad this

/-- In a container 400 pixels wide: 25 percent width, 10 percent left margin, 5 percent top padding. -/
example : (laidBox .b64 screen (block [(.width, px 400)] [block [(.width, pct 25), (.margin .left, pct 10), (.padding .top, pct 5)] []]) [0]).map
    (fun b => (b.contentWidth, b.margin.left, b.padding.top)) = some (some (.int 100), .num (.int 40), .int 20) := by decide +kernel

/-- Left and right paddings refer to the height instead: on a display of 640 by 480 pixels, 10 percent are 48 pixels. -/
theorem C55_false_side_padding :
    (laidBox .b64 screen (block [(.padding .left, pct 10)] []) []).map (fun b => b.padding.left) = some (.int 48) := by decide +kernel

/-- So do top and bottom margins; in a child they are percentages of 0, the height of its parent so far. -/
theorem C55_false_top_margin :
    (laidBox .b64 screen (block [(.margin .top, pct 10)] []) []).map (fun b => b.margin.top) = some (.num (.int 48)) ∧
    (laidBox .b64 screen (block [] [block [(.margin .top, pct 10)] []]) [0]).map (fun b => b.margin.top) = some (.num (.int 0)) := by
  decide +kernel

/-! ## C63: layout units -/

/-- C63. Where the sizes of the display and the intrinsic sizes are whole numbers of layout units and no intrinsic ratios are used,
every position, size, margin, border and padding after a layout is a whole number of layout units. -/
theorem C63_grid_partial (fp : FP) (L : fp.Laws) (d : Display) (html5 : Bool) (p : Option CSS) (n n' : Node) (hd : d.OnGrid) (hb : AllBoxed n)
    (hz : ∀ k, Visible k n → k.intrinsic.OnGrid) (h : layout fp d html5 p n = .ok n') (bs : List Box) (b : Box) (hs : Shown n' bs b) : b.OnGrid :=
  layout_onGrid L hd hb hz h bs b hs

/-- A third of a pixel is rounded to 21 layout units. -/
example : (laidBox .b64 screen (block [(.padding .left, .unit ⟨.len .px, .fin (.flt (FP.b64.rnd (1 / 3)))⟩)] [block [] []]) [0]).map
    (fun b => (b.h.origin, b.contentWidth)) = some (.flt (21 / 64), some (.flt (40939 / 64))) := by decide +kernel

/-- A replaced element whose height is computed from its ratio can be off the grid. -/
theorem C63_false_ratio : ∃ z : Intrinsic, ∃ x : Num, z.width = some (.int 1) ∧ z.ratio = some x ∧ FP.b64.rnd x.val = x.val ∧
    ∃ y : Num, (laidBox .b64 screen (block [(.height, px 9)] [.mk (styled []) z (some .fresh) []]) [0]).map Box.contentHeight = some (some y) ∧ ¬ y.OnGrid := by
  refine ⟨⟨some (.int 1), none, true, true, some (.flt (1 / 128)), true⟩, .flt (1 / 128), rfl, rfl, by decide +kernel, .flt (1 / 128), by decide +kernel, ?_⟩
  rintro ⟨n, hn⟩
  rw [Num.val_flt] at hn
  have h2 : ((2 * n : Int) : Rat) = ((1 : Int) : Rat) := by push_cast; linarith
  have h3 : 2 * n = 1 := by exact_mod_cast h2
  omega

end Colosseum
