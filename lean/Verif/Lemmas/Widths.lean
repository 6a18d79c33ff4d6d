import Verif.Lemmas.Local
import Verif.Props.Boxes

/-!
# Horizontal sizes
-/

namespace Colosseum

/-! ## Sums of numbers that fit -/

theorem Fits.of_val {fp : FP} {m : Nat} {a b : Num} (h : Fits fp m a) (e : b.val = a.val) : Fits fp m b := by
  rcases h with E | ⟨L, n, hn, hm⟩
  · exact Or.inl E
  · exact Or.inr ⟨L, n, e.trans hn, hm⟩

theorem Fits.mono {fp : FP} {m k : Nat} {a : Num} (h : Fits fp m a) (hk : m ≤ k) : Fits fp k a := by
  rcases h with E | ⟨L, n, hn, hm⟩
  · exact Or.inl E
  · exact Or.inr ⟨L, n, hn, hm.trans hk⟩

theorem Fits.subAll {fp : FP} {m : Nat} (xs : List Num) : ∀ {k : Nat} {a : Num}, Fits fp k a → (∀ x ∈ xs, Fits fp m x) →
    k + xs.length * m ≤ 2 ^ 53 →
    (subAll fp a xs).val = a.val - (xs.map Num.val).sum ∧ Fits fp (k + xs.length * m) (Colosseum.subAll fp a xs) := by
  induction xs with
  | nil => intro k a ha _ _; simpa [Colosseum.subAll] using ha
  | cons x xs ih =>
    intro k a ha hx hk
    have e : k + (x :: xs).length * m = (k + m) + xs.length * m := by simp; ring
    rw [e] at hk ⊢
    obtain ⟨h1, h2⟩ := ha.sub (hx x List.mem_cons_self) (by omega)
    obtain ⟨h3, h4⟩ := ih h2 (fun y hy => hx y (List.mem_cons_of_mem _ hy)) hk
    refine ⟨?_, h4⟩
    show (Colosseum.subAll fp (a.sub fp x) xs).val = _
    rw [h3, h1]
    simp
    ring

theorem Fits.addAll {fp : FP} {m : Nat} (xs : List Num) : ∀ {k : Nat} {a : Num}, Fits fp k a → (∀ x ∈ xs, Fits fp m x) →
    k + xs.length * m ≤ 2 ^ 53 →
    (addAll fp a xs).val = a.val + (xs.map Num.val).sum ∧ Fits fp (k + xs.length * m) (Colosseum.addAll fp a xs) := by
  induction xs with
  | nil => intro k a ha _ _; simpa [Colosseum.addAll] using ha
  | cons x xs ih =>
    intro k a ha hx hk
    have e : k + (x :: xs).length * m = (k + m) + xs.length * m := by simp; ring
    rw [e] at hk ⊢
    obtain ⟨h1, h2⟩ := ha.add (hx x List.mem_cons_self) (by omega)
    obtain ⟨h3, h4⟩ := ih h2 (fun y hy => hx y (List.mem_cons_of_mem _ hy)) hk
    refine ⟨?_, h4⟩
    show (Colosseum.addAll fp (a.add fp x) xs).val = _
    rw [h3, h1]
    simp
    ring

/-- Halving a number that fits, rounded down. -/
theorem Fits.floorDiv2 {fp : FP} {m : Nat} {a : Num} (h : Fits fp m a) (hm : m ≤ 2 ^ 53) : (a.floorDiv2 fp).val = (⌊a.val / 2⌋ : Int) := by
  cases a with
  | int i =>
    show (((i.fdiv 2 : Int)) : Rat) = _
    rw [Num.val_int]
    congr 1
    rw [Int.fdiv_eq_ediv_of_nonneg _ (by norm_num)]
    have : (i : Rat) / 2 = (i : Rat) / (2 : Int) := by norm_num
    rw [this]
    exact (Rat.floor_intCast_div_natCast i 2).symm
  | flt q =>
    show fp.rnd (((q / 2).floor : Int) : Rat) = _
    rw [Num.val_flt]
    have e : (q / 2).floor = ⌊q / 2⌋ := rfl
    rw [e]
    rcases h with E | ⟨L, n, hn, hb⟩
    · exact E _
    · refine L.small _ ?_
      rw [Num.val_flt] at hn
      subst hn
      have e2 : (n : Rat) / 64 / 2 = (n : Rat) / ((128 : Nat) : Rat) := by push_cast; ring
      rw [e2, Rat.floor_intCast_div_natCast]
      omega

/-! ## Margins -/

/-- The number of a margin. -/
def MVal.IsVal (x : MVal) (q : Rat) : Prop := ∃ y, x = .num y ∧ y.val = q

theorem isVal_num (y : Num) : (MVal.num y).IsVal y.val := ⟨y, rfl, rfl⟩

theorem margin_setCollapse (b : Box) (t : Side) (x : MVal) : (b.setCollapse t x).margin = b.margin := by
  unfold Box.setCollapse
  split
  · split <;> rfl
  · rfl

theorem setMargin_get (b : Box) (t u : Side) (x : MVal) : u ≠ t → (b.setMargin t x).margin.get u = b.margin.get u := by
  intro hu
  unfold Box.setMargin
  split
  · rfl
  · rw [margin_setCollapse]
    show (b.margin.set t x).get u = _
    rw [get_set, if_neg (Ne.symm hu)]

theorem setMargin_num (b : Box) (t : Side) (y : Num) : ((b.setMargin t (.num y)).margin.get t).IsVal y.val := by
  unfold Box.setMargin
  split
  · rename_i h
    cases hm : b.margin.get t with
    | auto => rw [hm] at h; cases h
    | num z =>
      rw [hm] at h
      refine ⟨z, rfl, ?_⟩
      have e : y.val = z.val := by simpa [MVal.pyEq, Num.pyEq] using h
      exact e.symm
  · rw [margin_setCollapse]
    show ((b.margin.set t (.num y)).get t).IsVal _
    rw [get_set, if_pos rfl]
    exact isVal_num y

theorem setMargin_auto (b : Box) (t : Side) : (b.setMargin t .auto).margin.get t = .auto := by
  unfold Box.setMargin
  split
  · rename_i h
    cases hm : b.margin.get t with
    | auto => rfl
    | num z => rw [hm] at h; cases h
  · rw [margin_setCollapse]
    show (b.margin.set t .auto).get t = _
    rw [get_set, if_pos rfl]

/-- The two margins are the same value. -/
def MVal.Same : MVal → MVal → Prop
  | .auto, .auto => True
  | .num a, .num b => a.val = b.val
  | _, _ => False

theorem setMargin_same (b : Box) (t : Side) (x : MVal) : ((b.setMargin t x).margin.get t).Same x := by
  cases x with
  | auto => rw [setMargin_auto]; exact trivial
  | num y =>
    obtain ⟨z, hz, hv⟩ := setMargin_num b t y
    rw [hz]
    exact hv

/-! ## What the later phases leave alone -/

/-- The horizontal measures, the borders and the paddings are the same. -/
structure SameWide (b b' : Box) : Prop where
  width : b.contentWidth = b'.contentWidth
  left : b.margin.left = b'.margin.left
  right : b.margin.right = b'.margin.right
  border : b.border = b'.border
  padding : b.padding = b'.padding

theorem SameWide.rfl {b : Box} : SameWide b b := ⟨Eq.refl _, Eq.refl _, Eq.refl _, Eq.refl _, Eq.refl _⟩
theorem SameWide.trans {b c e : Box} (h : SameWide b c) (h' : SameWide c e) : SameWide b e :=
  ⟨h.1.trans h'.1, h.2.trans h'.2, h.3.trans h'.3, h.4.trans h'.4, h.5.trans h'.5⟩

theorem SameButCollapse.wide {b b' : Box} (h : SameButCollapse b b') : SameWide b b' := by
  unfold SameButCollapse at h
  have e1 := congrArg Box.contentWidth h
  have e2 := congrArg (fun b : Box => b.margin.left) h
  have e3 := congrArg (fun b : Box => b.margin.right) h
  have e4 := congrArg Box.border h
  have e5 := congrArg Box.padding h
  exact ⟨e1, e2, e3, e4, e5⟩

theorem core_wide {b b' : Box} {hgt : Bool} (h : b.core hgt = b'.core hgt) : SameWide b b' := by
  have e1 := congrArg Box.contentWidth h
  have e2 := congrArg (fun b : Box => b.margin.left) h
  have e3 := congrArg (fun b : Box => b.margin.right) h
  have e4 := congrArg Box.border h
  have e5 := congrArg Box.padding h
  exact ⟨e1, e2, e3, e4, e5⟩

theorem setContent_wide (fp : FP) (a : Axis) (v : Num) (b : Box) (cs : List Node) : SameWide b (setContent fp a v b cs).1 := by
  unfold setContent
  split
  · exact .rfl
  · cases a <;> exact ⟨rfl, rfl, rfl, rfl, rfl⟩

theorem setMargin_wide (b : Box) (t : Side) (x : MVal) (ht : t = .top ∨ t = .bottom) : SameWide b (b.setMargin t x) := by
  unfold Box.setMargin
  split
  · exact .rfl
  · refine SameWide.trans ?_ (setCollapse_same _ t x).wide
    rcases ht with rfl | rfl <;> exact ⟨rfl, rfl, rfl, rfl, rfl⟩

theorem autoMargin_wide (b : Box) (t : Side) (ht : t = .top ∨ t = .bottom) : SameWide b (autoMarginToZero b t) := by
  unfold autoMarginToZero
  split
  · exact setMargin_wide _ _ _ ht
  · exact .rfl

theorem autoVertical_wide (b : Box) : SameWide b (autoMarginToZero (autoMarginToZero b .top) .bottom) :=
  (autoMargin_wide _ _ (Or.inl rfl)).trans (autoMargin_wide _ _ (Or.inr rfl))

theorem placeTop_wide {fp : FP} {b b' : Box} {cs cs' : List Node} (h : placeTopInline fp b cs = .ok (b', cs')) : SameWide b b' := by
  unfold placeTopInline at h
  obtain ⟨mt, _, h⟩ := bind_eq_ok.1 h
  rw [(ok_pair h).1]
  exact setContent_wide ..

theorem contentHeight_same {fp : FP} {s : CSS} {parent : Option CSS} {c : PxCtx} {b b' : Box} {cs : List Node} {x : Num}
    (h : blockContentHeight fp s parent c b cs = .ok (x, b')) : SameButCollapse b b' := by
  unfold blockContentHeight at h
  split at h
  · split at h
    · split at h
      · cases h
      · obtain ⟨y, _, h⟩ := bind_eq_ok.1 h
        cases h
        exact setCollapse_same ..
    · split at h
      · cases h; exact .rfl
      · obtain ⟨y, _, h⟩ := bind_eq_ok.1 h
        cases h; exact .rfl
  · obtain ⟨y, _, h⟩ := bind_eq_ok.1 h
    cases h; exact .rfl

theorem height_wide {fp : FP} {s : CSS} {z : Intrinsic} {parent : Option CSS} {c : PxCtx} {b b' : Box} {cs cs' : List Node}
    (h : heightAndMargins fp s z parent c b cs = .ok (b', cs')) : SameWide b b' := by
  unfold heightAndMargins at h
  split at h
  · cases h
  split at h
  · cases h
  split at h
  · split at h
    · unfold inlineReplacedHeight at h
      simp only at h
      obtain ⟨x, _, h⟩ := bind_eq_ok.1 h
      refine SameWide.trans ?_ (placeTop_wide h)
      exact (autoVertical_wide b).trans ⟨rfl, rfl, rfl, rfl, rfl⟩
    · unfold inlineHeight at h
      have e := placeTop_wide h
      exact ⟨e.1, e.2, e.3, e.4, e.5⟩
  split at h
  · split at h
    · cases h
    · unfold blockHeight at h
      obtain ⟨⟨x, b1⟩, h1, h⟩ := bind_eq_ok.1 h
      simp only at h
      rw [(ok_pair h).1]
      refine SameWide.trans ?_ (setContent_wide ..)
      exact ((autoVertical_wide b).trans (contentHeight_same h1).wide).trans ⟨rfl, rfl, rfl, rfl, rfl⟩
  · split at h <;> cases h

theorem applyRelative_wide {fp : FP} {s : CSS} {cb : CB} {hz vt : PxCtx} {b b' : Box} {cs cs' : List Node}
    (h : applyRelative fp s cb hz vt b cs = .ok (b', cs')) : SameWide b b' := by
  unfold applyRelative at h
  split at h
  · obtain ⟨dx, _, h⟩ := bind_eq_ok.1 h
    simp only at h
    obtain ⟨dy, _, h⟩ := bind_eq_ok.1 h
    rw [(ok_pair h).1]
    exact (setContent_wide ..).trans (setContent_wide ..)
  · cases h; exact .rfl

theorem relativeHeight_wide {fp : FP} {s : CSS} {z : Intrinsic} {parent : Option CSS} {c : PxCtx} {b b' : Box} {cs cs' : List Node}
    (h : relativeHeight fp s z parent c b cs = .ok (b', cs')) : SameWide b b' := by
  unfold relativeHeight at h
  split at h
  · exact height_wide h
  · cases h; exact .rfl

theorem children_wide {fp : FP} {lay : Box → Node → Res Node} {s : CSS} {z : Intrinsic} {b b' : Box} {cs cs' : List Node}
    (h : layoutChildren fp lay s z b cs = .ok (b', cs')) : SameWide b b' := by
  rcases children_stacked h with ⟨_, rfl, _⟩ | ⟨_, _, _, _, _, _, hst, _⟩
  · exact .rfl
  · exact hst.same.wide

/-- The horizontal phases of the run that made a node. -/
theorem RanQ.wide {Q : Node → Prop} {fp : FP} {d : Display} {hgt : Bool} {w : Option Num} {ps : Option CSS} {n : Node} (h : RanQ Q fp d hgt w ps n) :
    ∃ b x b0 b1 b2 cs cs2, n.layout = some b ∧ copyEdges fp n.style ⟨d, dummyFont fp, w⟩ ⟨d, dummyFont fp, x⟩ b0 = .ok b1 ∧
      widthAndMargins fp n.style n.intrinsic ⟨d, dummyFont fp, w⟩ b1 cs = .ok (b2, cs2) ∧ SameWide b2 b := by
  obtain ⟨b, hb, f, cb, b0, cs0, b', cs', rfl, hbody, hcore, _⟩ := h
  obtain ⟨b1, b2, cs2, b3, cs3, b4, cs4, b5, cs5, h1, h2, h3, _, _, h4, h5, h6⟩ := body_phases hbody
  exact ⟨b, cb.height, b0, b1, b2, cs0, cs2, hb, h1, h2,
    (relativeHeight_wide h3).trans ((children_wide h4).trans ((height_wide h5).trans ((applyRelative_wide h6).trans (core_wide hcore))))⟩


/-! ## The edges copied from the style -/

theorem calculateSize_auto {fp : FP} {v : Val} {c : PxCtx} {x : MVal} (h : calculateSize fp v c = .ok x) : x = .auto ↔ v = kw "auto" := by
  unfold calculateSize at h
  rw [← isKw_iff]
  split at h
  · rename_i hv; cases h; exact ⟨fun _ => hv, fun _ => rfl⟩
  · rename_i hv
    have : x ≠ .auto := by
      intro hx; subst hx
      split at h
      · cases h
      split at h
      · cases h
      split at h
      · cases h
      split at h
      · cases h
      · cases hp : v.px fp c with
        | error e => rw [hp] at h; cases h
        | ok y => rw [hp] at h; cases h
    exact ⟨fun h => absurd h this, fun h => absurd h hv⟩

theorem MVal.Same.trans {a b c : MVal} (h : a.Same b) (h' : b.Same c) : a.Same c := by
  cases a <;> cases b <;> cases c <;> simp_all [MVal.Same]

/-- The box after the edges were copied. -/
structure EdgesCopied (fp : FP) (s : CSS) (hz vt : PxCtx) (b : Box) : Prop where
  mt : ∃ x, calculateSize fp (s.get (.margin .top)) vt = .ok x ∧ b.margin.top.Same x
  mr : ∃ x, calculateSize fp (s.get (.margin .right)) hz = .ok x ∧ b.margin.right.Same x
  mb : ∃ x, calculateSize fp (s.get (.margin .bottom)) vt = .ok x ∧ b.margin.bottom.Same x
  ml : ∃ x, calculateSize fp (s.get (.margin .left)) hz = .ok x ∧ b.margin.left.Same x
  bt : calculateEdge fp (s.get (.borderWidth .top)) hz = .ok b.border.top
  br : calculateEdge fp (s.get (.borderWidth .right)) vt = .ok b.border.right
  bb : calculateEdge fp (s.get (.borderWidth .bottom)) hz = .ok b.border.bottom
  bl : calculateEdge fp (s.get (.borderWidth .left)) vt = .ok b.border.left
  pt : calculateEdge fp (s.get (.padding .top)) hz = .ok b.padding.top
  pr : calculateEdge fp (s.get (.padding .right)) vt = .ok b.padding.right
  pb : calculateEdge fp (s.get (.padding .bottom)) hz = .ok b.padding.bottom
  pl : calculateEdge fp (s.get (.padding .left)) vt = .ok b.padding.left

theorem copyEdges_copied {fp : FP} {s : CSS} {hz vt : PxCtx} {b b' : Box} (h : copyEdges fp s hz vt b = .ok b') : EdgesCopied fp s hz vt b' := by
  unfold copyEdges at h
  obtain ⟨mt, h1, h⟩ := bind_eq_ok.1 h
  obtain ⟨mr, h2, h⟩ := bind_eq_ok.1 h
  obtain ⟨mb, h3, h⟩ := bind_eq_ok.1 h
  obtain ⟨ml, h4, h⟩ := bind_eq_ok.1 h
  obtain ⟨bt, h5, h⟩ := bind_eq_ok.1 h
  obtain ⟨br, h6, h⟩ := bind_eq_ok.1 h
  obtain ⟨bb, h7, h⟩ := bind_eq_ok.1 h
  obtain ⟨bl, h8, h⟩ := bind_eq_ok.1 h
  obtain ⟨pt, h9, h⟩ := bind_eq_ok.1 h
  obtain ⟨pr, h10, h⟩ := bind_eq_ok.1 h
  obtain ⟨pb, h11, h⟩ := bind_eq_ok.1 h
  obtain ⟨pl, h12, h⟩ := bind_eq_ok.1 h
  rw [← Except.ok.inj h]
  refine ⟨⟨mt, h1, ?_⟩, ⟨mr, h2, ?_⟩, ⟨mb, h3, ?_⟩, ⟨ml, h4, ?_⟩, h5, h6, h7, h8, h9, h10, h11, h12⟩
  · have e1 := setMargin_get (((b.setMargin .top mt).setMargin .right mr).setMargin .bottom mb) .left .top ml (by decide)
    have e2 := setMargin_get ((b.setMargin .top mt).setMargin .right mr) .bottom .top mb (by decide)
    have e3 := setMargin_get (b.setMargin .top mt) .right .top mr (by decide)
    have e4 := setMargin_same b .top mt
    rw [← e3, ← e2, ← e1] at e4
    exact e4
  · have e1 := setMargin_get (((b.setMargin .top mt).setMargin .right mr).setMargin .bottom mb) .left .right ml (by decide)
    have e2 := setMargin_get ((b.setMargin .top mt).setMargin .right mr) .bottom .right mb (by decide)
    have e4 := setMargin_same (b.setMargin .top mt) .right mr
    rw [← e2, ← e1] at e4
    exact e4
  · have e1 := setMargin_get (((b.setMargin .top mt).setMargin .right mr).setMargin .bottom mb) .left .bottom ml (by decide)
    have e4 := setMargin_same ((b.setMargin .top mt).setMargin .right mr) .bottom mb
    rw [← e1] at e4
    exact e4
  · exact setMargin_same (((b.setMargin .top mt).setMargin .right mr).setMargin .bottom mb) .left ml

theorem same_auto {a b : MVal} (h : a.Same b) : a = .auto ↔ b = .auto := by
  cases a <;> cases b <;> simp_all [MVal.Same]

/-! ## The width of a block -/


theorem autoZero_left (b : Box) : ∃ y, (autoMarginToZero b .left).margin.left = .num y := by
  unfold autoMarginToZero
  split
  · obtain ⟨y, h, _⟩ := setMargin_num b .left (.int 0); exact ⟨y, h⟩
  · rename_i y h; exact ⟨y, h⟩

theorem autoZero_right (b : Box) : ∃ y, (autoMarginToZero b .right).margin.right = .num y := by
  unfold autoMarginToZero
  split
  · obtain ⟨y, h, _⟩ := setMargin_num b .right (.int 0); exact ⟨y, h⟩
  · rename_i y h; exact ⟨y, h⟩

theorem setMargin_edges (b : Box) (t : Side) (x : MVal) : (b.setMargin t x).border = b.border ∧ (b.setMargin t x).padding = b.padding := by
  unfold Box.setMargin
  split
  · exact ⟨rfl, rfl⟩
  · have e := (setCollapse_same { b with margin := b.margin.set t x } t x).wide
    exact ⟨e.4.symm, e.5.symm⟩

theorem autoZero_edges (b : Box) (t : Side) : (autoMarginToZero b t).border = b.border ∧ (autoMarginToZero b t).padding = b.padding := by
  unfold autoMarginToZero
  split
  · exact setMargin_edges ..
  · exact ⟨rfl, rfl⟩

theorem autoZero_other (b : Box) (t u : Side) (h : u ≠ t) : (autoMarginToZero b t).margin.get u = b.margin.get u := by
  unfold autoMarginToZero
  split
  · exact setMargin_get _ _ _ _ h
  · rfl

theorem autoZero_both (b : Box) : ∃ ml mr, (autoMarginToZero (autoMarginToZero b .left) .right).margin.left = .num ml ∧
    (autoMarginToZero (autoMarginToZero b .left) .right).margin.right = .num mr ∧
    (autoMarginToZero (autoMarginToZero b .left) .right).border = b.border ∧
    (autoMarginToZero (autoMarginToZero b .left) .right).padding = b.padding := by
  obtain ⟨ml, h1⟩ := autoZero_left b
  obtain ⟨mr, h2⟩ := autoZero_right (autoMarginToZero b .left)
  have h3 : (autoMarginToZero (autoMarginToZero b .left) .right).margin.left = .num ml :=
    (autoZero_other (autoMarginToZero b .left) .right .left (by decide)).trans h1
  exact ⟨ml, mr, h3, h2, (autoZero_edges _ _).1.trans (autoZero_edges _ _).1, (autoZero_edges _ _).2.trans (autoZero_edges _ _).2⟩

/-- The margins chosen for a fixed width. -/
theorem solveMargins_fills (fp : FP) (s : CSS) (size w : Num) (b : Box) : ∃ ml mr, (solveMargins fp s size w b).margin.left = .num ml ∧
    (solveMargins fp s size w b).margin.right = .num mr ∧ (solveMargins fp s size w b).border = b.border ∧
    (solveMargins fp s size w b).padding = b.padding ∧
    ∀ m, 7 * m ≤ 2 ^ 53 → Fits fp m size → Fits fp m w → (∀ x ∈ [ml, mr, b.border.left, b.border.right, b.padding.left, b.padding.right], Fits fp m x) →
      let t := ml.val + b.border.left.val + b.padding.left.val + w.val + b.padding.right.val + b.border.right.val + mr.val
      t = size.val ∨ b.margin.left = .auto ∧ b.margin.right = .auto ∧ t ≤ size.val ∧ size.val < t + 2 := by
  -- the box after the overflow rule
  obtain ⟨c, hc, hb, hp, hl, hr⟩ : ∃ c : Box, (if size.pyLt (addMargin fp (addMargin fp
      (addAll fp b.border.left [b.padding.left, w, b.padding.right, b.border.right]) b.margin.left) b.margin.right)
      then autoMarginToZero (autoMarginToZero b .left) .right else b) = c ∧ c.border = b.border ∧ c.padding = b.padding ∧
      (c.margin.left = .auto → b.margin.left = .auto) ∧ (c.margin.right = .auto → b.margin.right = .auto) := by
    refine ⟨_, rfl, ?_⟩
    split
    · obtain ⟨ml, mr, h1, h2, h3, h4⟩ := autoZero_both b
      refine ⟨h3, h4, fun h => ?_, fun h => ?_⟩
      · rw [h1] at h; cases h
      · rw [h2] at h; cases h
    · exact ⟨rfl, rfl, id, id⟩
  unfold solveMargins
  simp only
  rw [hc]
  have other_l : ∀ x, (c.setMargin .right x).margin.left = c.margin.left := fun x => setMargin_get c .right .left x (by decide)
  have other_r : ∀ x, (c.setMargin .left x).margin.right = c.margin.right := fun x => setMargin_get c .left .right x (by decide)
  -- the right margin takes up the rest
  have right : ∀ ml, c.margin.left = .num ml →
      let e := c.setMargin .right (.num (subAll fp size [ml, c.border.left, c.padding.left, w, c.padding.right, c.border.right]))
      ∃ ml mr, e.margin.left = .num ml ∧ e.margin.right = .num mr ∧ e.border = b.border ∧ e.padding = b.padding ∧
      ∀ m, 7 * m ≤ 2 ^ 53 → Fits fp m size → Fits fp m w → (∀ x ∈ [ml, mr, b.border.left, b.border.right, b.padding.left, b.padding.right], Fits fp m x) →
        ml.val + b.border.left.val + b.padding.left.val + w.val + b.padding.right.val + b.border.right.val + mr.val = size.val := by
    intro ml hml
    obtain ⟨mr, h1, h2⟩ := setMargin_num c .right (subAll fp size [ml, c.border.left, c.padding.left, w, c.padding.right, c.border.right])
    refine ⟨ml, mr, (other_l _).trans hml, h1, (setMargin_edges ..).1.trans hb, (setMargin_edges ..).2.trans hp, ?_⟩
    intro m hm hs hw hx
    rw [hb, hp] at h2
    rw [h2, (Fits.subAll _ hs (m := m) (by
      intro x hx'
      simp only [List.mem_cons, List.not_mem_nil, or_false] at hx'
      rcases hx' with rfl | rfl | rfl | rfl | rfl | rfl
      · exact hx _ (by simp)
      · exact hx _ (by simp)
      · exact hx _ (by simp)
      · exact hw
      · exact hx _ (by simp)
      · exact hx _ (by simp)) (by simp; omega)).1]
    simp
    ring
  have left : ∀ mr, c.margin.right = .num mr →
      let e := c.setMargin .left (.num (subAll fp size [c.border.left, c.padding.left, w, c.padding.right, c.border.right, mr]))
      ∃ ml mr, e.margin.left = .num ml ∧ e.margin.right = .num mr ∧ e.border = b.border ∧ e.padding = b.padding ∧
      ∀ m, 7 * m ≤ 2 ^ 53 → Fits fp m size → Fits fp m w → (∀ x ∈ [ml, mr, b.border.left, b.border.right, b.padding.left, b.padding.right], Fits fp m x) →
        ml.val + b.border.left.val + b.padding.left.val + w.val + b.padding.right.val + b.border.right.val + mr.val = size.val := by
    intro mr hmr
    obtain ⟨ml, h1, h2⟩ := setMargin_num c .left (subAll fp size [c.border.left, c.padding.left, w, c.padding.right, c.border.right, mr])
    refine ⟨ml, mr, h1, (other_r _).trans hmr, (setMargin_edges ..).1.trans hb, (setMargin_edges ..).2.trans hp, ?_⟩
    intro m hm hs hw hx
    rw [hb, hp] at h2
    rw [h2, (Fits.subAll _ hs (m := m) (by
      intro x hx'
      simp only [List.mem_cons, List.not_mem_nil, or_false] at hx'
      rcases hx' with rfl | rfl | rfl | rfl | rfl | rfl
      · exact hx _ (by simp)
      · exact hx _ (by simp)
      · exact hw
      · exact hx _ (by simp)
      · exact hx _ (by simp)
      · exact hx _ (by simp)) (by simp; omega)).1]
    simp
    ring
  split
  · rename_i ml mr h1 h2
    split
    · obtain ⟨a, a', k1, k2, k3, k4, k5⟩ := right ml h1
      exact ⟨a, a', k1, k2, k3, k4, fun m h1 h2 h3 h4 => Or.inl (k5 m h1 h2 h3 h4)⟩
    · obtain ⟨a, a', k1, k2, k3, k4, k5⟩ := left mr h2
      exact ⟨a, a', k1, k2, k3, k4, fun m h1 h2 h3 h4 => Or.inl (k5 m h1 h2 h3 h4)⟩
  · rename_i mr h1 h2
    obtain ⟨a, a', k1, k2, k3, k4, k5⟩ := left mr h2
    exact ⟨a, a', k1, k2, k3, k4, fun m h1 h2 h3 h4 => Or.inl (k5 m h1 h2 h3 h4)⟩
  · rename_i ml h1 h2
    obtain ⟨a, a', k1, k2, k3, k4, k5⟩ := right ml h1
    exact ⟨a, a', k1, k2, k3, k4, fun m h1 h2 h3 h4 => Or.inl (k5 m h1 h2 h3 h4)⟩
  · rename_i h1 h2
    obtain ⟨x, hx⟩ : ∃ x, x = (subAll fp size [c.border.left, c.padding.left, w, c.padding.right, c.border.right]) := ⟨_, rfl⟩
    rw [← hx]
    obtain ⟨ml, k1, k2⟩ := setMargin_num c .left (x.floorDiv2 fp)
    obtain ⟨mr, k3, k4⟩ := setMargin_num (c.setMargin .left (.num (x.floorDiv2 fp))) .right (x.floorDiv2 fp)
    have k5 := setMargin_get (c.setMargin .left (.num (x.floorDiv2 fp))) .right .left (.num (x.floorDiv2 fp)) (by decide)
    refine ⟨ml, mr, k5.trans k1, k3, (setMargin_edges ..).1.trans ((setMargin_edges ..).1.trans hb),
      (setMargin_edges ..).2.trans ((setMargin_edges ..).2.trans hp), ?_⟩
    intro m hm hs hw hf
    refine Or.inr ⟨hl h1, hr h2, ?_⟩
    rw [hb, hp] at hx
    obtain ⟨e1, e2⟩ := Fits.subAll [b.border.left, b.padding.left, w, b.padding.right, b.border.right] hs (m := m) (by
      intro x hx'
      simp only [List.mem_cons, List.not_mem_nil, or_false] at hx'
      rcases hx' with rfl | rfl | rfl | rfl | rfl
      · exact hf _ (by simp)
      · exact hf _ (by simp)
      · exact hw
      · exact hf _ (by simp)
      · exact hf _ (by simp)) (by simp; omega)
    rw [← hx] at e1 e2
    have e3 := e2.floorDiv2 (by simp; omega)
    rw [k2, k4, e3]
    have f1 := Int.floor_le (x.val / 2)
    have f2 := Int.lt_floor_add_one (x.val / 2)
    simp at e1
    constructor <;> linarith

/-- The width and margins of a block. -/
theorem blockWidth_fills {fp : FP} {s : CSS} {c : PxCtx} {b b' : Box} {cs cs' : List Node} (h : blockWidth fp s c b cs = .ok (b', cs')) :
    ∃ size x, c.size = some size ∧ b'.Measures x ∧ b'.border = b.border ∧ b'.padding = b.padding ∧
      ∀ m, 7 * m ≤ 2 ^ 53 → Fits fp m size → x.AllFit fp m →
        x.sum = size.val ∨ s.get .width ≠ kw "auto" ∧ b.margin.left = .auto ∧ b.margin.right = .auto ∧ x.sum ≤ size.val ∧ size.val < x.sum + 2 := by
  unfold blockWidth at h
  split at h
  · simp only at h
    obtain ⟨size, hsz, h⟩ := bind_eq_ok.1 h
    obtain ⟨ml, hl, h⟩ := bind_eq_ok.1 h
    obtain ⟨mr, hr, h⟩ := bind_eq_ok.1 h
    unfold placeLeft at h
    obtain ⟨_, _, h⟩ := bind_eq_ok.1 h
    obtain ⟨ml', mr', k1, k2, k3, k4⟩ := autoZero_both b
    rw [k1] at hl; rw [k2] at hr
    cases hl; cases hr
    rw [(ok_pair h).1]
    have e := setContent_wide fp .h (addAll fp ‹Num› [(autoMarginToZero (autoMarginToZero b .left) .right).border.left, (autoMarginToZero (autoMarginToZero b .left) .right).padding.left])
      { autoMarginToZero (autoMarginToZero b .left) .right with
        contentWidth := some (remainingWidth fp size ml mr (autoMarginToZero (autoMarginToZero b .left) .right)) } cs
    refine ⟨size, ⟨ml, b.border.left, b.padding.left, remainingWidth fp size ml mr (autoMarginToZero (autoMarginToZero b .left) .right),
      b.padding.right, b.border.right, mr⟩, need_ok hsz, ⟨e.2.symm.trans k1, ?_, ?_, e.1.symm, ?_, ?_, e.3.symm.trans k2⟩, e.4.symm.trans k3, e.5.symm.trans k4, ?_⟩
    · rw [← e.4, k3]
    · rw [← e.5, k4]
    · rw [← e.5, k4]
    · rw [← e.4, k3]
    · intro m hm hs hf
      left
      obtain ⟨f1, f2, f3, _, f5, f6, f7⟩ := hf
      simp only [Across.sum]
      rw [remainingWidth, k3, k4, (Fits.subAll _ hs (m := m) (by
        intro x hx'
        simp only [List.mem_cons, List.not_mem_nil, or_false] at hx'
        rcases hx' with rfl | rfl | rfl | rfl | rfl | rfl <;> assumption) (by simp; omega)).1]
      simp
      ring
  · rename_i hw
    obtain ⟨w, _, h⟩ := bind_eq_ok.1 h
    obtain ⟨size, hsz, h⟩ := bind_eq_ok.1 h
    simp only at h
    unfold placeLeft at h
    obtain ⟨y, _, h⟩ := bind_eq_ok.1 h
    rw [(ok_pair h).1]
    obtain ⟨ml, mr, k1, k2, k3, k4, k5⟩ := solveMargins_fills fp s size w b
    have e := setContent_wide fp .h (addAll fp y [(solveMargins fp s size w b).border.left, (solveMargins fp s size w b).padding.left])
      { solveMargins fp s size w b with contentWidth := some w } cs
    refine ⟨size, ⟨ml, b.border.left, b.padding.left, w, b.padding.right, b.border.right, mr⟩, need_ok hsz,
      ⟨e.2.symm.trans k1, ?_, ?_, e.1.symm, ?_, ?_, e.3.symm.trans k2⟩, e.4.symm.trans k3, e.5.symm.trans k4, ?_⟩
    · rw [← e.4, k3]
    · rw [← e.5, k4]
    · rw [← e.5, k4]
    · rw [← e.4, k3]
    · intro m hm hs hf
      obtain ⟨f1, f2, f3, f4, f5, f6, f7⟩ := hf
      rcases k5 m hm hs f4 (by
        intro x hx'
        simp only [List.mem_cons, List.not_mem_nil, or_false] at hx'
        rcases hx' with rfl | rfl | rfl | rfl | rfl | rfl <;> assumption) with h | h
      · exact Or.inl h
      · exact Or.inr ⟨fun hh => hw ((isKw_iff _ _).2 hh), h⟩


/-- The width phase of a block-level node. -/
theorem widthAndMargins_block {fp : FP} {s : CSS} {z : Intrinsic} {c : PxCtx} {b b' : Box} {cs cs' : List Node}
    (h : widthAndMargins fp s z c b cs = .ok (b', cs')) (hb : isBlockLevel s = true) : blockWidth fp s c b cs = .ok (b', cs') := by
  unfold widthAndMargins at h
  split at h
  · cases h
  split at h
  · cases h
  split at h
  · rename_i hi
    exfalso
    simp only [isInline, isBlockLevel, Bool.or_eq_true, isKw_iff] at hi hb
    rw [hi] at hb
    revert hb
    simp [kw]
    decide
  split at h
  · cases h
  · exact h

/-! ## Which margins are kept, and limits -/

theorem setContent_margin (fp : FP) (a : Axis) (v : Num) (b : Box) (cs : List Node) : (setContent fp a v b cs).1.margin = b.margin := by
  unfold setContent
  split
  · rfl
  · cases a <;> rfl

theorem autoZero_keeps (b : Box) (t u : Side) {y : Num} (h : b.margin.get t = .num y) : (autoMarginToZero b u).margin.get t = .num y := by
  unfold autoMarginToZero
  split
  · rename_i hu
    rw [setMargin_get _ _ _ _ (by rintro rfl; rw [h] at hu; cases hu)]
    exact h
  · exact h

theorem solveMargins_left {fp : FP} {s : CSS} {size w : Num} {b : Box} {y : Num} (h : b.margin.left = .num y) (hd : s.get .direction = kw "ltr") :
    (solveMargins fp s size w b).margin.left = .num y := by
  have hd := (isKw_iff _ _).2 hd
  unfold solveMargins
  extract_lets total c
  have hc : c.margin.left = .num y := by
    show Edge.left (Box.margin (if _ then _ else _)) = _
    split
    · exact autoZero_keeps _ .left _ (autoZero_keeps _ .left _ h)
    · exact h
  rw [hc]
  have key : ∀ x, (c.setMargin .right x).margin.left = .num y := fun x => (setMargin_get c .right .left x (by decide)).trans hc
  cases c.margin.right with
  | auto => exact key _
  | num mr => simp only [if_pos hd]; exact key _

theorem solveMargins_right {fp : FP} {s : CSS} {size w : Num} {b : Box} {y : Num} (h : b.margin.right = .num y) (hd : s.get .direction ≠ kw "ltr") :
    (solveMargins fp s size w b).margin.right = .num y := by
  have hd : ¬ (s.get .direction).isKw "ltr" = true := fun h => hd ((isKw_iff _ _).1 h)
  unfold solveMargins
  extract_lets total c
  have hc : c.margin.right = .num y := by
    show Edge.right (Box.margin (if _ then _ else _)) = _
    split
    · exact autoZero_keeps _ .right _ (autoZero_keeps _ .right _ h)
    · exact h
  rw [hc]
  have key : ∀ x, (c.setMargin .left x).margin.right = .num y := fun x => (setMargin_get c .left .right x (by decide)).trans hc
  cases c.margin.left with
  | auto => exact key _
  | num mr => simp only [if_neg hd]; exact key _

theorem blockWidth_cases {fp : FP} {s : CSS} {c : PxCtx} {b b' : Box} {cs cs' : List Node} (h : blockWidth fp s c b cs = .ok (b', cs')) :
    (s.get .width = kw "auto" ∧ b'.margin = (autoMarginToZero (autoMarginToZero b .left) .right).margin) ∨
    (s.get .width ≠ kw "auto" ∧ ∃ w size, clampedWidth fp s c = .ok w ∧ c.size = some size ∧ b'.contentWidth = some w ∧
      b'.margin = (solveMargins fp s size w b).margin) := by
  unfold blockWidth at h
  split at h
  · rename_i hw
    left
    simp only at h
    obtain ⟨size, hsz, h⟩ := bind_eq_ok.1 h
    obtain ⟨ml, hl, h⟩ := bind_eq_ok.1 h
    obtain ⟨mr, hr, h⟩ := bind_eq_ok.1 h
    unfold placeLeft at h
    obtain ⟨_, _, h⟩ := bind_eq_ok.1 h
    rw [(ok_pair h).1]
    exact ⟨(isKw_iff _ _).1 hw, setContent_margin ..⟩
  · rename_i hw
    right
    obtain ⟨w, h1, h⟩ := bind_eq_ok.1 h
    obtain ⟨size, hsz, h⟩ := bind_eq_ok.1 h
    simp only at h
    unfold placeLeft at h
    obtain ⟨y, _, h⟩ := bind_eq_ok.1 h
    rw [(ok_pair h).1]
    exact ⟨fun e => hw ((isKw_iff _ _).2 e), w, size, h1, need_ok hsz, (setContent_wide ..).1.symm, setContent_margin ..⟩

theorem pyLt_iff (a b : Num) : a.pyLt b = true ↔ a.val < b.val := by simp [Num.pyLt]

theorem ite_min (m w : Num) : (if m.pyLt w = true then m else w).val = min w.val m.val := by
  split
  · rename_i h; rw [pyLt_iff] at h; exact (min_eq_right h.le).symm
  · rename_i h; rw [pyLt_iff, not_lt] at h; exact (min_eq_left h).symm

theorem ite_max (m w : Num) : (if w.pyLt m = true then m else w).val = max w.val m.val := by
  split
  · rename_i h; rw [pyLt_iff] at h; exact (max_eq_right h.le).symm
  · rename_i h; rw [pyLt_iff, not_lt] at h; exact (max_eq_left h).symm

/-- The width, limited by `max-width`, then by `min-width`. -/
theorem clampedWidth_val {fp : FP} {s : CSS} {c : PxCtx} {x : Num} (h : clampedWidth fp s c = .ok x) :
    ∃ w, (s.get .width).px fp c = .ok w ∧ ∃ y : Rat,
      (s.get .maxWidth = .none ∧ y = w.val ∨ s.get .maxWidth ≠ .none ∧ ∃ m, (s.get .maxWidth).px fp c = .ok m ∧ y = min w.val m.val) ∧
      (s.get .minWidth = kw "auto" ∧ x.val = y ∨ s.get .minWidth ≠ kw "auto" ∧ ∃ m, (s.get .minWidth).px fp c = .ok m ∧ x.val = max y m.val) := by
  have hn : ∀ v : Val, v.isNone = true ↔ v = .none := by intro v; cases v <;> simp [Val.isNone]
  unfold clampedWidth at h
  obtain ⟨w, h0, h⟩ := bind_eq_ok.1 h
  refine ⟨w, h0, ?_⟩
  have low : ∀ z : Num, (if (s.get .minWidth).isKw "auto" = true then (pure z : Res Num) else do
      let m ← (s.get .minWidth).px fp c
      pure (if z.pyLt m then m else z)) = .ok x →
      (s.get .minWidth = kw "auto" ∧ x.val = z.val ∨ s.get .minWidth ≠ kw "auto" ∧ ∃ m, (s.get .minWidth).px fp c = .ok m ∧ x.val = max z.val m.val) := by
    intro z hz
    split at hz
    · rename_i hk
      cases hz
      exact Or.inl ⟨(isKw_iff _ _).1 hk, rfl⟩
    · rename_i hk
      obtain ⟨m, hm, hz⟩ := bind_eq_ok.1 hz
      cases hz
      exact Or.inr ⟨fun e => hk ((isKw_iff _ _).2 e), m, hm, ite_max ..⟩
  simp only at h
  split at h
  · rename_i hk
    rw [pure_bind] at h
    exact ⟨w.val, Or.inl ⟨(hn _).1 hk, rfl⟩, low w h⟩
  · rename_i hk
    obtain ⟨m, hm, h⟩ := bind_eq_ok.1 h
    rw [pure_bind] at h
    refine ⟨min w.val m.val, Or.inr ⟨fun e => hk ((hn _).2 e), m, hm, rfl⟩, ?_⟩
    rw [← ite_min]
    exact low _ h

end Colosseum
