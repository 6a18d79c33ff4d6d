import Verif.Props.Replaced
import Verif.Props.Unbounded

/-!
# C56: where the sizes of inline replaced elements depart from CSS 2.1

The cases left out in `C56_width_partial` and `C56_height_partial`, in general.
-/

namespace Colosseum

theorem replaced_shown {fp : FP} {d : Display} {m : Node} {r : Replaced} (hr : m.IsReplaced fp d r) : ¬ m.Hidden := by
  intro hh
  have e : m.style.get .display = .none := hh
  have := hr.inline
  rw [e] at this
  simp [kw] at this

/-- The run of the two functions on an inline replaced element. -/
theorem replaced_ran {fp : FP} {d : Display} {html5 : Bool} {p ps : Option CSS} {n n' m : Node} {w : Option Num} {r : Replaced}
    (h : layout fp d html5 p n = .ok n') (hm : Inside html5 (some d.contentWidth) p n' w ps m) (hr : m.IsReplaced fp d r) :
    ∃ b x y b1 b4 c4, m.layout = some b ∧ b.contentWidth = some x ∧ b.contentHeight = some y ∧ b4.contentWidth = some x ∧
      inlineReplacedContentWidth fp m.style m.intrinsic ⟨d, dummyFont fp, w⟩ b1 = .ok x ∧
      inlineReplacedContentHeight fp m.style m.intrinsic c4 b4 = .ok y := by
  have hh := replaced_shown hr
  have hi : isInline m.style = true := (isKw_iff _ _).2 hr.inline
  obtain ⟨b, cx, b4, cs4, b5, cs5, h1, h2, h3, h4⟩ := (layout_ran_inside h hm hh).high_wide
  have h2 := heightAndMargins_replaced h2 hi hr.replaced
  unfold inlineReplacedHeight at h2
  simp only at h2
  obtain ⟨y, e1, h2⟩ := bind_eq_ok.1 h2
  have e2 := placeTop_height h2
  have hw : (autoMarginToZero (autoMarginToZero b4 .top) .bottom).contentWidth = b.contentWidth := (autoVertical_wide b4).1.symm.trans h4.1
  obtain ⟨b', _, _, _, _, _, _, k1, k2, k3, k4⟩ := (layout_ran_inside h hm hh).wide
  obtain ⟨x, _, q1, q2, _⟩ := inlineReplacedWidth_ok (widthAndMargins_replaced k3 hi hr.replaced)
  rw [h1] at k1
  cases k1
  have hx := k4.1.symm.trans q2
  exact ⟨b, x, y, _, _, _, h1, hx, h3.trans e2, hw.trans hx, q1, e1⟩

theorem mul_exactly {fp : FP} (E : fp.Exact) (x u : Num) : (x.mul fp u).val = x.val * u.val := by
  cases x <;> cases u <;> simp [Num.mul, Num.toFloat, Num.val, E _]

/-- C56, where `C56_height_partial` does not apply: an inline replaced element without a specified height that has a ratio other than 0, and either a
specified width or no intrinsic height. Its height is the product of its width and the ratio, while CSS 2.1 has their quotient; so the two agree exactly for
elements without width and for squares (a ratio of 1, or -1). -/
theorem C56_height_product (fp : FP) (d : Display) (html5 : Bool) (p ps : Option CSS) (n n' m : Node) (w : Option Num) (r : Replaced) (q : Rat)
    (h : layout fp d html5 p n = .ok n') (hm : Inside html5 (some d.contentWidth) p n' w ps m) (hr : m.IsReplaced fp d r)
    (hh : r.height = none) (hq : r.ratio = some q) (h0 : q ≠ 0) (hc : r.width ≠ none ∨ r.ih = none) :
    ∃ b x y u, m.layout = some b ∧ b.contentWidth = some x ∧ b.contentHeight = some y ∧ m.intrinsic.ratio = some u ∧ y = x.mul fp u ∧
      r.cssHeight x.val = x.val / q ∧ (fp.Exact → (y.val = r.cssHeight x.val ↔ x.val = 0 ∨ q = 1 ∨ q = -1)) := by
  obtain ⟨b, x, y, _, b4, _, h1, h2, h3, h4, _, h5⟩ := replaced_ran h hm hr
  obtain ⟨_, _, r3, r4, _, r6, r7⟩ := hr
  obtain ⟨rw', rh, riw, rih, rr⟩ := r
  dsimp only at *
  subst hh hq
  obtain ⟨u, hu, rfl⟩ : ∃ u, m.intrinsic.ratio = some u ∧ u.val = q := by
    cases e : m.intrinsic.ratio with
    | none => rw [e] at r7; cases r7
    | some u => rw [e] at r7; exact ⟨u, rfl, (Option.some.inj r7).symm⟩
  have a1 : (m.style.get .height).isKw "auto" = true := by
    rcases specified_auto r4 with ⟨a, _⟩ | ⟨_, _, e, _⟩
    · exact a
    · cases e
  have ht : truthy (some u) = true := by simpa [truthy] using h0
  have css : Replaced.cssHeight ⟨rw', none, riw, rih, some u.val⟩ x.val = x.val / u.val := by
    rcases hc with hc | rfl
    · cases rw' with
      | none => exact absurd rfl hc
      | some _ => cases rih <;> rfl
    · cases rw' <;> rfl
  have ey : y = x.mul fp u := by
    unfold inlineReplacedContentHeight at h5
    rw [if_pos a1, hu, h4] at h5
    have k : (m.style.get .width).isKw "auto" = true → m.intrinsic.height = none := by
      intro a
      rcases hc with hc | rfl
      · rcases specified_auto r3 with ⟨_, e⟩ | ⟨a', _⟩
        · exact absurd e hc
        · rw [a] at a'; cases a'
      · cases e : m.intrinsic.height with
        | none => rfl
        | some _ => rw [e] at r6; cases r6
    cases ha : (m.style.get .width).isKw "auto" with
    | true =>
      rw [ha, k ha] at h5
      simp only [ht, if_true] at h5
      exact (Except.ok.inj h5).symm
    | false =>
      rw [ha] at h5
      simp only [ht, if_true] at h5
      exact (Except.ok.inj h5).symm
  refine ⟨b, x, y, u, h1, h2, h3, hu, ey, css, fun E => ?_⟩
  rw [css, ey, mul_exactly E]
  constructor
  · intro e
    rw [eq_div_iff h0, mul_assoc] at e
    by_cases hx : x.val = 0
    · exact .inl hx
    · have : u.val * u.val = 1 := mul_left_cancel₀ hx (e.trans (mul_one _).symm)
      exact .inr (mul_self_eq_one_iff.1 this)
  · rintro (e | e | e)
    · rw [e]; simp
    · rw [e]; simp
    · rw [e]; ring

/-- C56, where `C56_width_partial` does not apply: an inline replaced element with a ratio, a specified height and no specified width has its intrinsic
width, or 300 pixels, whatever its height is; CSS 2.1 has the product of height and ratio. -/
theorem C56_width_ignored (fp : FP) (d : Display) (html5 : Bool) (p ps : Option CSS) (n n' m : Node) (w : Option Num) (r : Replaced) (q y avail : Rat)
    (h : layout fp d html5 p n = .ok n') (hm : Inside html5 (some d.contentWidth) p n' w ps m) (hr : m.IsReplaced fp d r)
    (hw : r.width = none) (hh : r.height = some y) (hq : r.ratio = some q) :
    ∃ b x, m.layout = some b ∧ b.contentWidth = some x ∧ x.val = r.iw.getD 300 ∧ r.cssWidth avail = y * q := by
  obtain ⟨b, x, _, _, _, _, h1, h2, _, _, h5, _⟩ := replaced_ran h hm hr
  obtain ⟨_, _, r3, r4, r5, _, _⟩ := hr
  obtain ⟨rw', rh, riw, rih, rr⟩ := r
  dsimp only at *
  subst hw hh hq
  refine ⟨b, x, h1, h2, ?_, by cases riw <;> cases rih <;> rfl⟩
  have a1 : (m.style.get .width).isKw "auto" = true := by
    rcases specified_auto r3 with ⟨a, _⟩ | ⟨_, _, e, _⟩
    · exact a
    · cases e
  have a2 : (m.style.get .height).isKw "auto" = false := by
    rcases specified_auto r4 with ⟨_, e⟩ | ⟨a, _⟩
    · cases e
    · exact a
  unfold inlineReplacedContentWidth at h5
  rw [if_pos a1, if_neg (by rw [a2]; simp)] at h5
  rw [r5]
  cases e : m.intrinsic.width with
  | none =>
    rw [e] at h5
    cases h5
    exact Num.val_int 300
  | some iw =>
    rw [e] at h5
    cases h5
    rfl

/-- C56, where `C56_height_partial` does not apply: where a width is specified and no height, an intrinsic height of 0 counts as none, so that the
height is half the width, but at most 150, for want of a ratio. CSS 2.1 has 0. -/
theorem C56_zero_ignored (fp : FP) (d : Display) (html5 : Bool) (p ps : Option CSS) (n n' m : Node) (w : Option Num) (r : Replaced)
    (h : layout fp d html5 p n = .ok n') (hm : Inside html5 (some d.contentWidth) p n' w ps m) (hr : m.IsReplaced fp d r)
    (hw : r.width ≠ none) (hh : r.height = none) (hq : r.ratio = none) (hz : r.ih = some 0) :
    ∃ b x y, m.layout = some b ∧ b.contentWidth = some x ∧ b.contentHeight = some y ∧ r.cssHeight x.val = 0 ∧
      (Fits fp (2 ^ 53) x → y.val = min (⌊x.val / 2⌋ : Rat) 150) := by
  obtain ⟨b, x, y, _, b4, _, h1, h2, h3, h4, _, h5⟩ := replaced_ran h hm hr
  obtain ⟨_, _, r3, r4, _, r6, r7⟩ := hr
  obtain ⟨rw', rh, riw, rih, rr⟩ := r
  dsimp only at *
  subst hh hq hz
  refine ⟨b, x, y, h1, h2, h3, by cases rw' with | none => exact absurd rfl hw | some _ => rfl, fun hf => ?_⟩
  have a1 : (m.style.get .height).isKw "auto" = true := by
    rcases specified_auto r4 with ⟨a, _⟩ | ⟨_, _, e, _⟩
    · exact a
    · cases e
  have a2 : (m.style.get .width).isKw "auto" = false := by
    rcases specified_auto r3 with ⟨_, e⟩ | ⟨a, _⟩
    · exact absurd e hw
    · exact a
  have a3 : m.intrinsic.ratio = none := by
    cases e : m.intrinsic.ratio with
    | none => rfl
    | some u => rw [e] at r7; cases r7
  obtain ⟨ih, a4, a5⟩ : ∃ ih, m.intrinsic.height = some ih ∧ ih.val = 0 := by
    cases e : m.intrinsic.height with
    | none => rw [e] at r6; cases r6
    | some u => rw [e] at r6; exact ⟨u, rfl, (Option.some.inj r6).symm⟩
  unfold inlineReplacedContentHeight at h5
  have t : truthy (some ih) = false := by simp [truthy, a5]
  have t' : truthy none = false := rfl
  rw [if_pos a1, a2, a3, a4, h4] at h5
  simp only [t, t', Bool.false_eq_true, if_false] at h5
  cases h5
  rw [pyMin_val, hf.floorDiv2 le_rfl, Num.val_int]
  norm_num

/-! ## Examples -/

theorem image_boxed (iw ih ratio : Option Num) (ps : List (LH × Val)) : AllBoxed (image iw ih ratio ps) := by
  intro m hm
  rw [image] at hm
  cases hm with
  | here _ => nofun
  | step _ hc _ => cases hc

/-- An image that is the root. -/
theorem image_root {fp : FP} {d : Display} {iw ih ratio : Option Num} {ps : List (LH × Val)} {n' : Node} {r : Replaced}
    (h : layout fp d false none (image iw ih ratio ps) = .ok n') (hr : (image iw ih ratio ps).IsReplaced fp d r) :
    Inside false (some d.contentWidth) none n' (some d.contentWidth) none n' ∧ n'.IsReplaced fp d r := by
  have hs := layout_shape h (image_boxed _ _ _ _)
  refine ⟨.here _ _ _, ?_⟩
  rw [image] at hs hr
  cases hs with
  | hidden _ _ => exact ⟨hr.1, hr.2, hr.3, hr.4, hr.5, hr.6, hr.7⟩
  | boxed _ _ _ => exact ⟨hr.1, hr.2, hr.3, hr.4, hr.5, hr.6, hr.7⟩

/-- An image twice as wide as high with a specified width of 100 pixels. -/
theorem poster_replaced : (image none none (some (.int 2)) [(.width, px 100)]).IsReplaced .exact screen ⟨some 100, none, none, none, some 2⟩ :=
  ⟨rfl, rfl, .inr ⟨.int 100, ⟨.px, .fin (.int 100), rfl, by decide, by decide +kernel⟩, by norm_num [Num.val]⟩, .inl ⟨rfl, rfl⟩, rfl, rfl, by norm_num [image, Node.intrinsic, Num.val]⟩

/-- Its height is 200 pixels, and not as in CSS 2.1. -/
example : ∃ n' b x y, layout .exact screen false none (image none none (some (.int 2)) [(.width, px 100)]) = .ok n' ∧ n'.layout = some b ∧
    b.contentWidth = some x ∧ b.contentHeight = some y ∧ y = x.mul .exact (.int 2) ∧
    (y.val = Replaced.cssHeight ⟨some 100, none, none, none, some 2⟩ x.val ↔ x.val = 0 ∨ (2 : Rat) = 1 ∨ (2 : Rat) = -1) := by
  have hs : (laidBox .exact screen (image none none (some (.int 2)) [(.width, px 100)]) []).isSome = true := by decide +kernel
  cases e : layout .exact screen false none (image none none (some (.int 2)) [(.width, px 100)]) with
  | error _ => rw [laidBox, e] at hs; cases hs
  | ok n' =>
    obtain ⟨h1, h2⟩ := image_root e poster_replaced
    obtain ⟨b, x, y, u, k1, k2, k3, k4, k5, _, k6⟩ := C56_height_product .exact screen false none none _ n' n' _ _ 2 e h1 h2 rfl rfl (by norm_num) (.inl nofun)
    refine ⟨n', b, x, y, rfl, k1, k2, k3, ?_, k6 FP.exact_exact⟩
    have hs := layout_shape e (image_boxed _ _ _ _)
    rw [image] at hs
    cases hs with
    | hidden h _ => exact absurd h (by decide)
    | boxed _ _ _ => cases k4; exact k5

/-- An image twice as wide as high with a specified height of 50 pixels: its width is 300 pixels, where CSS 2.1 has 100. -/
example (n' : Node) (e : layout .b64 screen false none (image none none (some (.int 2)) [(.height, px 50)]) = .ok n') :
    ∃ b x, n'.layout = some b ∧ b.contentWidth = some x ∧ x.val = 300 ∧ Replaced.cssWidth ⟨none, some 50, none, none, some 2⟩ 640 = 50 * 2 := by
  obtain ⟨h1, h2⟩ := image_root (r := ⟨none, some 50, none, none, some 2⟩) e
    ⟨rfl, rfl, .inl ⟨rfl, rfl⟩, .inr ⟨.int 50, ⟨.px, .fin (.int 50), rfl, by decide, by decide +kernel⟩, by norm_num [Num.val]⟩, rfl, rfl,
      by norm_num [image, Node.intrinsic, Num.val]⟩
  exact C56_width_ignored .b64 screen false none none _ n' n' _ _ 2 50 640 e h1 h2 rfl rfl rfl

example : (laidBox .b64 screen (image none none (some (.int 2)) [(.height, px 50)]) []).isSome = true := by decide +kernel

/-- An image without height and with a specified width of 81 pixels: it becomes 40 pixels high. -/
example (n' : Node) (e : layout .b64 screen false none (image none (some (.int 0)) none [(.width, px 81)]) = .ok n') :
    ∃ b x y, n'.layout = some b ∧ b.contentWidth = some x ∧ b.contentHeight = some y ∧ Replaced.cssHeight ⟨some 81, none, none, some 0, none⟩ x.val = 0 ∧
      (Fits .b64 (2 ^ 53) x → y.val = min (⌊x.val / 2⌋ : Rat) 150) := by
  obtain ⟨h1, h2⟩ := image_root (r := ⟨some 81, none, none, some 0, none⟩) e
    ⟨rfl, rfl, .inr ⟨.int 81, ⟨.px, .fin (.int 81), rfl, by decide, by decide +kernel⟩, by norm_num [Num.val]⟩, .inl ⟨rfl, rfl⟩, rfl,
      by norm_num [image, Node.intrinsic, Num.val], rfl⟩
  exact C56_zero_ignored .b64 screen false none none _ n' n' _ _ e h1 h2 nofun rfl rfl rfl

example : (laidBox .b64 screen (image none (some (.int 0)) none [(.width, px 81)]) []).map (fun b => (b.contentWidth, b.contentHeight)) =
    some (some (.int 81), some (.int 40)) := by decide +kernel

/-- An image whose width comes from its intrinsic height and its ratio: the cases of `C56_width_partial` and `C56_height_partial`. -/
theorem photo_replaced : (image none (some (.int 30)) (some (.flt (5 / 4))) []).IsReplaced .b64 screen ⟨none, none, none, some 30, some (5 / 4)⟩ :=
  ⟨rfl, rfl, .inl ⟨rfl, rfl⟩, .inl ⟨rfl, rfl⟩, rfl, by norm_num [image, Node.intrinsic, Num.val], by norm_num [image, Node.intrinsic, Num.val]⟩

example (n' : Node) (e : layout .b64 screen false none (image none (some (.int 30)) (some (.flt (5 / 4))) []) = .ok n') :=
  C56_width_partial .b64 screen false none none _ n' n' _ _ 640 e (image_root e photo_replaced).1 (image_root e photo_replaced).2 (.inl rfl) (fun h => nomatch h.2.2.2.1)

example (n' : Node) (e : layout .b64 screen false none (image none (some (.int 30)) (some (.flt (5 / 4))) []) = .ok n') :=
  C56_height_partial .b64 screen false none none _ n' n' _ _ e (image_root e photo_replaced).1 (image_root e photo_replaced).2 (.inr (.inr ⟨rfl, nofun⟩)) (.inl rfl)

example : (laidBox .b64 screen (image none (some (.int 30)) (some (.flt (5 / 4))) []) []).map (fun b => (b.contentWidth, b.contentHeight)) =
    some (some (.int 38), some (.int 30)) := by decide +kernel

/-- An image that has nothing but a ratio. -/
theorem strip_replaced : (image none none (some (.int 1)) []).IsReplaced .b64 screen ⟨none, none, none, none, some 1⟩ :=
  ⟨rfl, rfl, .inl ⟨rfl, rfl⟩, .inl ⟨rfl, rfl⟩, rfl, rfl, by norm_num [image, Node.intrinsic, Num.val]⟩

example (n' : Node) (e : layout .b64 screen false none (image none none (some (.int 1)) []) = .ok n') :=
  C56_fills_partial .b64 screen false none none _ n' n' _ _ e (image_root e strip_replaced).1 (image_root e strip_replaced).2 ⟨rfl, rfl, rfl, rfl, nofun⟩

example : (laidBox .b64 screen (image none none (some (.int 1)) []) []).map (fun b => (b.contentWidth, b.contentHeight)) =
    some (some screen.contentWidth, some screen.contentWidth) := by decide +kernel

end Colosseum
