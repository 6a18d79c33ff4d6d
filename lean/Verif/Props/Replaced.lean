import Verif.Spec.Replaced
import Verif.Lemmas.Stack
import Verif.Lemmas.Sample

/-!
# The sizes of inline replaced elements
-/

namespace Colosseum

/-! ## C56: CSS 10.3.2 and 10.6.2 -/

theorem widthAndMargins_replaced {fp : FP} {s : CSS} {z : Intrinsic} {c : PxCtx} {b b' : Box} {cs cs' : List Node}
    (h : widthAndMargins fp s z c b cs = .ok (b', cs')) (hi : isInline s = true) (hr : z.isReplaced = true) :
    inlineReplacedWidth fp s z c b cs = .ok (b', cs') := by
  unfold widthAndMargins at h
  split at h
  · cases h
  split at h
  · cases h
  exact h

theorem heightAndMargins_replaced {fp : FP} {s : CSS} {z : Intrinsic} {parent : Option CSS} {c : PxCtx} {b b' : Box} {cs cs' : List Node}
    (h : heightAndMargins fp s z parent c b cs = .ok (b', cs')) (hi : isInline s = true) (hr : z.isReplaced = true) :
    inlineReplacedHeight fp s z c b cs = .ok (b', cs') := by
  unfold heightAndMargins at h
  split at h
  · cases h
  split at h
  · cases h
  exact h

theorem inlineReplacedWidth_ok {fp : FP} {s : CSS} {z : Intrinsic} {c : PxCtx} {b b' : Box} {cs cs' : List Node}
    (h : inlineReplacedWidth fp s z c b cs = .ok (b', cs')) :
    ∃ x ml, inlineReplacedContentWidth fp s z c (autoMarginToZero (autoMarginToZero b .left) .right) = .ok x ∧ b'.contentWidth = some x ∧
      b'.margin = (autoMarginToZero (autoMarginToZero b .left) .right).margin ∧ b'.margin.left = .num ml ∧
      b'.border = (autoMarginToZero (autoMarginToZero b .left) .right).border ∧ b'.padding = (autoMarginToZero (autoMarginToZero b .left) .right).padding := by
  unfold inlineReplacedWidth at h
  simp only at h
  obtain ⟨x, hx, h⟩ := bind_eq_ok.1 h
  unfold placeLeft at h
  obtain ⟨ml, hml, h⟩ := bind_eq_ok.1 h
  have e := (ok_pair h).1
  have w := setContent_wide fp .h (addAll fp ml [(autoMarginToZero (autoMarginToZero b .left) .right).border.left, (autoMarginToZero (autoMarginToZero b .left) .right).padding.left])
    { autoMarginToZero (autoMarginToZero b .left) .right with contentWidth := some x } cs
  have m := setContent_margin fp .h (addAll fp ml [(autoMarginToZero (autoMarginToZero b .left) .right).border.left, (autoMarginToZero (autoMarginToZero b .left) .right).padding.left])
    { autoMarginToZero (autoMarginToZero b .left) .right with contentWidth := some x } cs
  refine ⟨x, ml, hx, ?_, ?_, ?_, ?_, ?_⟩
  · rw [e]; exact w.1.symm
  · rw [e]; exact m
  · rw [e, m]
    simp only at hml ⊢
    cases hq : (autoMarginToZero (autoMarginToZero b .left) .right).margin.left with
    | auto => rw [hq] at hml; cases hml
    | num y => rw [hq] at hml; cases hml; rfl
  · rw [e]; exact w.4.symm
  · rw [e]; exact w.5.symm

theorem autoMargin_zero (b : Box) : ∀ t, t = .left ∨ t = .right →
    ∃ y, (autoMarginToZero (autoMarginToZero b .left) .right).margin.get t = .num y ∧ (b.margin.get t = .auto → y.val = 0) := by
  have key : ∀ (b : Box) t, ∃ y, (autoMarginToZero b t).margin.get t = .num y ∧ (b.margin.get t = .auto → y.val = 0) := by
    intro b t
    unfold autoMarginToZero
    cases hm : b.margin.get t with
    | auto =>
      dsimp only
      obtain ⟨y, h1, h2⟩ := setMargin_num b t (.int 0)
      exact ⟨y, h1, fun _ => by rw [h2, Num.val_int]; norm_num⟩
    | num y => exact ⟨y, hm, fun h => by cases h⟩
  have other : ∀ (b : Box) t u, u ≠ t → (autoMarginToZero b t).margin.get u = b.margin.get u := by
    intro b t u hu
    unfold autoMarginToZero
    split
    · exact setMargin_get _ _ _ _ hu
    · rfl
  rintro t (rfl | rfl)
  · rw [other _ _ _ (by decide)]
    exact key b .left
  · obtain ⟨y, h1, h2⟩ := key (autoMarginToZero b .left) .right
    exact ⟨y, h1, fun h => h2 (by rw [other _ _ _ (by decide)]; exact h)⟩

theorem pyRound_near (x : Num) : |((x.round : Int) : Rat) - x.val| ≤ 1 / 2 := by
  cases x with
  | int i => simp [Num.round, Num.val_int]
  | flt q =>
    obtain ⟨h1, h2, _⟩ := pyRound_spec q
    show |((pyRound q : Int) : Rat) - q| ≤ 1 / 2
    rw [abs_le]
    constructor <;> linarith

theorem specified_auto {v : Val} {fp : FP} {d : Display} {x : Option Rat} (h : v.Specified fp d x) :
    (v.isKw "auto" = true ∧ x = Option.none) ∨ (v.isKw "auto" = false ∧ ∃ y, x = some y.val ∧ ∀ s, v.px fp ⟨d, dummyFont fp, s⟩ = .ok y) := by
  rcases h with ⟨rfl, rfl⟩ | ⟨y, hy, rfl⟩
  · exact Or.inl ⟨(isKw_iff _ _).2 rfl, rfl⟩
  · refine Or.inr ⟨?_, y, rfl, length_px hy⟩
    cases hk : v.isKw "auto" with
    | false => rfl
    | true => exact absurd ((isKw_iff _ _).1 hk) (length_ne_kw hy "auto")

/-- C56. The width follows CSS 2.1, 10.3.2, unless it should be computed from a specified height and the ratio; where it is computed from the
intrinsic height and the ratio, the product is rounded to a whole number. Automatic margins are 0. -/
theorem C56_width_partial (fp : FP) (d : Display) (html5 : Bool) (p ps : Option CSS) (n n' m : Node) (w : Option Num) (r : Replaced) (avail : Rat)
    (h : layout fp d html5 p n = .ok n') (hm : Within (some d.contentWidth) p n' w ps m) (hr : m.IsReplaced fp d r)
    (hok : r.height = none ∨ r.ratio = none) (hc : ¬ (r.width = none ∧ r.height = none ∧ r.iw = none ∧ r.ih = none ∧ r.ratio ≠ none)) :
    ∃ b x ml mr, m.layout = some b ∧ b.contentWidth = some x ∧ b.margin.left = .num ml ∧ b.margin.right = .num mr ∧
      (m.style.get (.margin .left) = kw "auto" → ml.val = 0) ∧ (m.style.get (.margin .right) = kw "auto" → mr.val = 0) ∧
      (r.width = none → r.iw = none → r.ratio ≠ none →
        ∃ (k : Int) (y q : Num), x = .int k ∧ m.intrinsic.height = some y ∧ m.intrinsic.ratio = some q ∧ |(k : Rat) - (y.mul fp q).val| ≤ 1 / 2 ∧
          r.cssWidth avail = y.val * q.val) ∧
      (¬ (r.width = none ∧ r.iw = none ∧ r.ratio ≠ none) → x.val = r.cssWidth avail) := by
  obtain ⟨r1, r2, r3, r4, r5, r6, r7⟩ := hr
  have hh : ¬ m.Hidden := by
    intro hh
    have e : m.style.get .display = .none := hh
    rw [e] at r1
    simp [kw] at r1
  obtain ⟨b, y, b0, b1, b2, cs, cs2, h1, h2, h3, h4⟩ := (layout_ran_any h hm hh).wide
  have c := copyEdges_copied h2
  obtain ⟨x, _, e1, e2, e3, _⟩ := inlineReplacedWidth_ok (widthAndMargins_replaced h3 ((isKw_iff _ _).2 r1) r2)
  obtain ⟨ml, l1, l2⟩ := autoMargin_zero b1 .left (Or.inl rfl)
  obtain ⟨mr, m1, m2⟩ := autoMargin_zero b1 .right (Or.inr rfl)
  refine ⟨b, x, ml, mr, h1, h4.1.symm.trans e2, ?_, ?_, ?_, ?_, ?_⟩
  · rw [← h4.2, e3]; exact l1
  · rw [← h4.3, e3]; exact m1
  · intro ha
    obtain ⟨u, u1, u2⟩ := c.ml
    exact l2 ((same_auto u2).2 ((calculateSize_auto u1).2 ha))
  · intro ha
    obtain ⟨u, u1, u2⟩ := c.mr
    exact m2 ((same_auto u2).2 ((calculateSize_auto u1).2 ha))
  · unfold inlineReplacedContentWidth at e1
    obtain ⟨rw', rh, riw, rih, rr⟩ := r
    dsimp only at r3 r4 r5 r6 r7 hok hc ⊢
    rcases specified_auto r3 with ⟨a1, rfl⟩ | ⟨a1, y, rfl, hy⟩
    · rw [if_pos a1] at e1
      rcases specified_auto r4 with ⟨a2, rfl⟩ | ⟨a2, yh, rfl, hyh⟩
      · rw [if_pos a2] at e1
        cases hiw : m.intrinsic.width with
        | some iw =>
          rw [hiw] at e1 r5
          simp only [Option.map] at r5
          subst r5
          cases e1
          exact ⟨fun _ e => (by cases e), fun _ => rfl⟩
        | none =>
          rw [hiw] at e1 r5
          simp only [Option.map] at r5
          subst r5
          cases hih : m.intrinsic.height with
          | some ih =>
            rw [hih] at e1 r6
            simp only [Option.map] at r6
            subst r6
            cases hrt : m.intrinsic.ratio with
            | some q =>
              rw [hrt] at e1 r7
              simp only [Option.map] at r7
              subst r7
              cases e1
              refine ⟨fun _ _ _ => ⟨_, ih, q, rfl, rfl, rfl, ?_, rfl⟩, fun hn => absurd ⟨rfl, rfl, by simp⟩ hn⟩
              exact by
                have := pyRound_near (ih.mul fp q)
                exact this
            | none =>
              rw [hrt] at e1 r7
              simp only [Option.map] at r7
              subst r7
              cases e1
              exact ⟨fun _ _ e => absurd rfl e, fun _ => Num.val_int 300⟩
          | none =>
            rw [hih] at e1 r6
            simp only [Option.map] at r6
            subst r6
            cases hrt : m.intrinsic.ratio with
            | some q =>
              rw [hrt] at r7
              simp only [Option.map] at r7
              subst r7
              exact absurd ⟨rfl, rfl, rfl, rfl, by simp⟩ hc
            | none =>
              rw [hrt] at e1 r7
              simp only [Option.map] at r7
              subst r7
              cases e1
              exact ⟨fun _ _ e => absurd rfl e, fun _ => Num.val_int 300⟩
      · rw [if_neg (by rw [a2]; simp)] at e1
        rcases hok with e | rfl
        · cases e
        · cases hiw : m.intrinsic.width with
          | some iw =>
            rw [hiw] at e1 r5
            simp only [Option.map] at r5
            subst r5
            cases e1
            exact ⟨fun _ e => (by cases e), fun _ => rfl⟩
          | none =>
            rw [hiw] at e1 r5
            simp only [Option.map] at r5
            subst r5
            cases e1
            exact ⟨fun _ _ e => absurd rfl e, fun _ => Num.val_int 300⟩
    · rw [if_neg (by rw [a1]; simp)] at e1
      have e1 : (m.style.get .width).px fp ⟨d, dummyFont fp, w⟩ = .ok x := e1
      rw [hy] at e1
      cases e1
      exact ⟨fun e => (by cases e), fun _ => rfl⟩

theorem RanQ.high_wide {Q : Node → Prop} {fp : FP} {d : Display} {w : Option Num} {ps : Option CSS} {n : Node} (h : RanQ Q fp d true w ps n) :
    ∃ b x b4 cs4 b5 cs5, n.layout = some b ∧ heightAndMargins fp n.style n.intrinsic ps ⟨d, dummyFont fp, x⟩ b4 cs4 = .ok (b5, cs5) ∧
      b.contentHeight = b5.contentHeight ∧ SameWide b4 b := by
  obtain ⟨b, hb, f, cb, b0, cs0, b', cs', rfl, hbody, hcore, hk, _⟩ := h
  obtain ⟨b1, b2, cs2, b3, cs3, b4, cs4, b5, cs5, h1, h2, h3, _, _, h4, h5, h6⟩ := body_phases hbody
  refine ⟨b, cb.height, b4, cs4, b5, cs5, hb, h5, ?_, (height_wide h5).trans ((applyRelative_wide h6).trans (core_wide hcore))⟩
  have e := congrArg Box.contentHeight hcore
  have e : b'.contentHeight = b.contentHeight := e
  rw [← e, applyRelative_height h6]

theorem placeTop_height {fp : FP} {b b' : Box} {cs cs' : List Node} (h : placeTopInline fp b cs = .ok (b', cs')) : b'.contentHeight = b.contentHeight := by
  unfold placeTopInline at h
  obtain ⟨mt, _, h⟩ := bind_eq_ok.1 h
  rw [(ok_pair h).1]
  exact setContent_contentHeight ..

theorem pyMin_val (a b : Num) : (a.pyMin b).val = min a.val b.val := by
  unfold Num.pyMin
  split
  · rename_i h
    have : b.val < a.val := by simpa [Num.pyLt] using h
    rw [min_eq_right this.le]
  · rename_i h
    have : ¬ b.val < a.val := by simpa [Num.pyLt] using h
    rw [min_eq_left (not_lt.1 this)]

/-- C56. The height follows CSS 2.1, 10.6.2, unless it should be computed from the width and the ratio, or an intrinsic height of 0 counts
although a width is specified; a height of half the width is rounded down to a whole number. -/
theorem C56_height_partial (fp : FP) (d : Display) (html5 : Bool) (p ps : Option CSS) (n n' m : Node) (w : Option Num) (r : Replaced)
    (h : layout fp d html5 p n = .ok n') (hm : Inside html5 (some d.contentWidth) p n' w ps m) (hr : m.IsReplaced fp d r)
    (hok : r.height ≠ none ∨ r.ratio = none ∨ r.width = none ∧ r.ih ≠ none) (hz : r.width = none ∨ r.ih ≠ some 0) :
    ∃ b x y, m.layout = some b ∧ b.contentWidth = some x ∧ b.contentHeight = some y ∧
      (r.height = none → r.ih = none → Fits fp (2 ^ 53) x → r.cssHeight x.val - 1 < y.val ∧ y.val ≤ r.cssHeight x.val) ∧
      (¬ (r.height = none ∧ r.ih = none) → y.val = r.cssHeight x.val) := by
  obtain ⟨r1, r2, r3, r4, r5, r6, r7⟩ := hr
  have hh : ¬ m.Hidden := by
    intro hh
    have e : m.style.get .display = .none := hh
    rw [e] at r1
    simp [kw] at r1
  have hi : isInline m.style = true := (isKw_iff _ _).2 r1
  obtain ⟨b, cx, b4, cs4, b5, cs5, h1, h2, h3, h4⟩ := (layout_ran_inside h hm hh).high_wide
  have h2 := heightAndMargins_replaced h2 hi r2
  unfold inlineReplacedHeight at h2
  simp only at h2
  obtain ⟨y, e1, h2⟩ := bind_eq_ok.1 h2
  have e2 := placeTop_height h2
  have hw : (autoMarginToZero (autoMarginToZero b4 .top) .bottom).contentWidth = b.contentWidth := (autoVertical_wide b4).1.symm.trans h4.1
  obtain ⟨x, hx⟩ : ∃ x, b.contentWidth = some x := by
    obtain ⟨b', _, _, _, _, _, _, k1, k2, k3, k4⟩ := (layout_ran_inside h hm hh).wide
    obtain ⟨x, _, _, q2, _⟩ := inlineReplacedWidth_ok (widthAndMargins_replaced k3 hi r2)
    rw [h1] at k1
    cases k1
    exact ⟨x, k4.1.symm.trans q2⟩
  refine ⟨b, x, y, h1, hx, h3.trans e2, ?_⟩
  unfold inlineReplacedContentHeight at e1
  rw [hw, hx] at e1
  obtain ⟨rw', rh, riw, rih, rr⟩ := r
  dsimp only at r3 r4 r5 r6 r7 hok hz ⊢
  have half : ∀ {y : Num}, Fits fp (2 ^ 53) x → (Except.ok ((x.floorDiv2 fp).pyMin (.int 150)) : Res Num) = .ok y →
      min (x.val / 2) 150 - 1 < y.val ∧ y.val ≤ min (x.val / 2) 150 := by
    intro y hf e
    cases e
    rw [pyMin_val, hf.floorDiv2 le_rfl, Num.val_int]
    have f1 := Int.floor_le (x.val / 2)
    have f2 := Int.lt_floor_add_one (x.val / 2)
    constructor
    · rw [lt_min_iff]
      constructor
      · have := min_le_left (x.val / 2) (150 : Rat); linarith
      · have := min_le_right (x.val / 2) (150 : Rat); push_cast; linarith
    · exact min_le_min f1 (by norm_num)
  rcases specified_auto r4 with ⟨a1, rfl⟩ | ⟨a1, yh, rfl, hyh⟩
  · rw [if_pos a1] at e1
    rcases specified_auto r3 with ⟨a2, rfl⟩ | ⟨a2, yw, rfl, hyw⟩
    · rw [a2] at e1
      cases hih : m.intrinsic.height with
      | some ih =>
        rw [hih] at e1 r6
        simp only [Option.map] at r6
        subst r6
        cases e1
        exact ⟨fun _ e => (by cases e), fun _ => rfl⟩
      | none =>
        rw [hih] at e1 r6
        simp only [Option.map] at r6
        subst r6
        have hrr : rr = none := by
          rcases hok with e | e | ⟨_, e⟩
          · exact absurd rfl e
          · exact e
          · exact absurd rfl e
        subst hrr
        have hrt : m.intrinsic.ratio = none := by
          cases hq : m.intrinsic.ratio with
          | none => rfl
          | some q => rw [hq] at r7; cases r7
        rw [hrt] at e1
        have e1 : (Except.ok ((x.floorDiv2 fp).pyMin (.int 150)) : Res Num) = .ok y := e1
        exact ⟨fun _ _ hf => half hf e1, fun hn => absurd ⟨rfl, rfl⟩ hn⟩
    · rw [a2] at e1
      have hrr : rr = none := by
        rcases hok with e | e | ⟨e, _⟩
        · exact absurd rfl e
        · exact e
        · cases e
      subst hrr
      have hrt : m.intrinsic.ratio = none := by
        cases hq : m.intrinsic.ratio with
        | none => rfl
        | some q => rw [hq] at r7; cases r7
      rw [hrt] at e1
      cases hih : m.intrinsic.height with
      | some ih =>
        rw [hih] at e1 r6
        simp only [Option.map] at r6
        subst r6
        have hne : ih.val ≠ 0 := by
          rcases hz with e | e
          · cases e
          · exact fun he => e (by rw [he])
        have ht : truthy (some ih) = true := by simpa [truthy] using hne
        have ht0 : truthy none = false := rfl
        simp only [ht0, ht, Bool.false_eq_true, if_false, if_true] at e1
        cases e1
        exact ⟨fun _ e => (by cases e), fun _ => rfl⟩
      | none =>
        rw [hih] at e1 r6
        simp only [Option.map] at r6
        subst r6
        have e1 : (Except.ok ((x.floorDiv2 fp).pyMin (.int 150)) : Res Num) = .ok y := e1
        exact ⟨fun _ _ hf => half hf e1, fun hn => absurd ⟨rfl, rfl⟩ hn⟩
  · rw [if_neg (by rw [a1]; simp), hyh] at e1
    cases e1
    exact ⟨fun e => (by cases e), fun _ => rfl⟩

/-- C56. An element that has a ratio and nothing else fills the width of its container like a block. -/
theorem C56_fills_partial (fp : FP) (d : Display) (html5 : Bool) (p ps : Option CSS) (n n' m : Node) (w : Option Num) (r : Replaced)
    (h : layout fp d html5 p n = .ok n') (hm : Within (some d.contentWidth) p n' w ps m) (hr : m.IsReplaced fp d r)
    (hc : r.width = none ∧ r.height = none ∧ r.iw = none ∧ r.ih = none ∧ r.ratio ≠ none) :
    ∃ b x size, m.layout = some b ∧ b.Measures x ∧ w = some size ∧ ∀ k, 7 * k ≤ 2 ^ 53 → Fits fp k size → x.AllFit fp k → x.sum = size.val := by
  obtain ⟨r1, r2, r3, r4, r5, r6, r7⟩ := hr
  obtain ⟨c1, c2, c3, c4, c5⟩ := hc
  have hh : ¬ m.Hidden := by
    intro hh
    have e : m.style.get .display = .none := hh
    rw [e] at r1
    simp [kw] at r1
  obtain ⟨b, y, b0, b1, b2, cs, cs2, h1, h2, h3, h4⟩ := (layout_ran_any h hm hh).wide
  obtain ⟨x, _, e1, e2, e3, _, e5, e6⟩ := inlineReplacedWidth_ok (widthAndMargins_replaced h3 ((isKw_iff _ _).2 r1) r2)
  obtain ⟨ml, l1, _⟩ := autoMargin_zero b1 .left (Or.inl rfl)
  obtain ⟨mr, m1, _⟩ := autoMargin_zero b1 .right (Or.inr rfl)
  unfold inlineReplacedContentWidth at e1
  have a1 : (m.style.get .width).isKw "auto" = true := by
    rcases specified_auto r3 with ⟨a, _⟩ | ⟨_, _, e, _⟩
    · exact a
    · rw [c1] at e; cases e
  have a2 : (m.style.get .height).isKw "auto" = true := by
    rcases specified_auto r4 with ⟨a, _⟩ | ⟨_, _, e, _⟩
    · exact a
    · rw [c2] at e; cases e
  have a3 : m.intrinsic.width = none := by
    cases hq : m.intrinsic.width with
    | none => rfl
    | some q => rw [hq, c3] at r5; cases r5
  have a4 : m.intrinsic.height = none := by
    cases hq : m.intrinsic.height with
    | none => rfl
    | some q => rw [hq, c4] at r6; cases r6
  obtain ⟨q, a5⟩ : ∃ q, m.intrinsic.ratio = some q := by
    cases hq : m.intrinsic.ratio with
    | none => rw [hq] at r7; exact absurd r7 c5
    | some q => exact ⟨q, rfl⟩
  rw [if_pos a1, if_pos a2, a3, a4, a5] at e1
  obtain ⟨size, s1, e1⟩ := bind_eq_ok.1 e1
  obtain ⟨ml', s2, e1⟩ := bind_eq_ok.1 e1
  obtain ⟨mr', s3, e1⟩ := bind_eq_ok.1 e1
  have l1' : (autoMarginToZero (autoMarginToZero b1 .left) .right).margin.left = .num ml := l1
  have m1' : (autoMarginToZero (autoMarginToZero b1 .left) .right).margin.right = .num mr := m1
  rw [l1'] at s2
  rw [m1'] at s3
  cases s2
  cases s3
  have e1 := Except.ok.inj e1
  have hsize : w = some size := need_ok s1
  generalize autoMarginToZero (autoMarginToZero b1 .left) .right = bb at *
  refine ⟨b, ⟨ml, b.border.left, b.padding.left, x, b.padding.right, b.border.right, mr⟩, size, h1, ⟨?_, rfl, rfl, h4.1.symm.trans e2, rfl, rfl, ?_⟩, hsize, ?_⟩
  · rw [← h4.2, e3]; exact l1
  · rw [← h4.3, e3]; exact m1
  · rintro k hk hs ⟨f1, f2, f3, f4, f5, f6, f7⟩
    dsimp only at f1 f2 f3 f4 f5 f6 f7
    have hb : b.border = bb.border := h4.4.symm.trans e5
    have hp : b.padding = bb.padding := h4.5.symm.trans e6
    unfold remainingWidth at e1
    rw [← hb, ← hp] at e1
    obtain ⟨g1, t1⟩ := hs.sub f1 (by omega)
    obtain ⟨g2, t2⟩ := t1.sub f2 (by omega)
    obtain ⟨g3, t3⟩ := t2.sub f3 (by omega)
    obtain ⟨g4, t4⟩ := t3.sub f5 (by omega)
    obtain ⟨g5, t5⟩ := t4.sub f6 (by omega)
    obtain ⟨g6, t6⟩ := t5.sub f7 (by omega)
    simp only [subAll, List.foldl] at e1
    unfold Across.sum
    dsimp only
    rw [← e1, g6, g5, g4, g3, g2, g1]
    ring

/-- An inline replaced element. -/
def image (iw ih ratio : Option Num) (ps : List (LH × Val)) : Node :=
  .mk (styled ps) ⟨iw, ih, true, true, ratio, true⟩ (some .fresh) []

/-- The size of an image in a block with `width: 500px`. -/
def imageSize (iw ih ratio : Option Num) (ps : List (LH × Val)) : Option (Option Num × Option Num) :=
  (laidBox .b64 screen (block [(.width, px 500), (.height, px 100)] [image iw ih ratio ps]) [0]).map fun b => (b.contentWidth, b.contentHeight)

example : imageSize (some (.int 40)) (some (.int 30)) none [] = some (some (.int 40), some (.int 30)) := by decide +kernel
example : imageSize none (some (.int 30)) (some (.flt (5 / 4))) [] = some (some (.int 38), some (.int 30)) := by decide +kernel
example : imageSize none none none [] = some (some (.int 300), some (.int 150)) := by decide +kernel
example : imageSize none none none [(.width, px 80), (.height, px 7)] = some (some (.int 80), some (.int 7)) := by decide +kernel
example : imageSize none none none [(.width, px 81)] = some (some (.int 81), some (.int 40)) := by decide +kernel
example : imageSize none none (some (.int 1)) [(.margin .left, px 20), (.padding .right, px 5)] = some (some (.int 475), some (.int 475)) := by decide +kernel

/-- An image with ratio 2 to 1 and a specified width of 100 should be 50 high; its height is 200. -/
theorem C56_false_ratio_height : imageSize none none (some (.int 2)) [(.width, px 100)] = some (some (.int 100), some (.int 200)) ∧
    Replaced.cssHeight ⟨some 100, none, none, none, some 2⟩ 100 = 50 := ⟨by decide +kernel, by norm_num [Replaced.cssHeight]⟩

/-- An image with ratio 2 to 1 and a specified height of 50 should be 100 wide; its width is 300, or its intrinsic width. -/
theorem C56_false_ratio_width : imageSize none none (some (.int 2)) [(.height, px 50)] = some (some (.int 300), some (.int 50)) ∧
    imageSize (some (.int 40)) none (some (.int 2)) [(.height, px 50)] = some (some (.int 40), some (.int 50)) ∧
    Replaced.cssWidth ⟨none, some 50, none, none, some 2⟩ 500 = 100 ∧ Replaced.cssWidth ⟨none, some 50, some 40, none, some 2⟩ 500 = 100 :=
  ⟨by decide +kernel, by decide +kernel, by norm_num [Replaced.cssWidth], by norm_num [Replaced.cssWidth]⟩

/-- An intrinsic height of 0 is ignored where a width is specified. -/
theorem C56_false_zero : imageSize none (some (.int 0)) none [(.width, px 100)] = some (some (.int 100), some (.int 50)) ∧
    Replaced.cssHeight ⟨some 100, none, none, some 0, none⟩ 100 = 0 := ⟨by decide +kernel, by norm_num [Replaced.cssHeight]⟩

/-- `min-width` and `max-width` (CSS 2.1, 10.4) have no effect on an image. -/
theorem C56_false_limits : imageSize (some (.int 40)) (some (.int 30)) none [(.minWidth, px 60), (.maxHeight, px 10)] =
    some (some (.int 40), some (.int 30)) := by decide +kernel

end Colosseum
