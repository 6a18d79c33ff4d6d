import Verif.Spec.Edges
import Verif.Lemmas.Notation
import Verif.Lemmas.Viable
import Verif.Props.Limits
import Verif.Props.Inline

/-!
# The edges of a box after layout
-/

namespace Colosseum

/-! ## The values copied from the style -/

theorem calculateSize_kw {fp : FP} {c : PxCtx} {v : Val} {s : String} (h : v = kw s) {x : Num}
    (hs : s = "thin" ∧ x = c.display.thin ∨ s = "medium" ∧ x = c.display.medium ∨ s = "thick" ∧ x = c.display.thick) :
    calculateSize fp v c = .ok (.num x) := by
  subst h
  rcases hs with ⟨rfl, rfl⟩ | ⟨rfl, rfl⟩ | ⟨rfl, rfl⟩ <;> rfl

theorem calculateSize_length {fp : FP} (L : fp.Laws) {d : Display} {f : Font} {v : Val} {x : Num} (h : v.Length fp d f x) (s : Option Num) :
    calculateSize fp v ⟨d, f, s⟩ = .ok (.num x) := by
  have hp := length_px h s
  obtain ⟨k, val, rfl, hk, h⟩ := h
  show (if (Val.unit ⟨.len k, val⟩).pyEq (.num (.fin (.int 0))) || (Val.unit ⟨.len k, val⟩).isNone then (Except.ok (.num (.int 0)) : Res MVal)
    else ((Val.unit ⟨.len k, val⟩).px fp ⟨d, f, s⟩).map MVal.num) = .ok (.num x)
  split
  · rename_i hz
    have hz : (((UKind.len k == .len .px) && true && val.pyEq (.fin (.int 0))) || false) = true := hz
    simp only [Bool.or_false, Bool.and_true, Bool.and_eq_true, beq_iff_eq, UKind.len.injEq] at hz
    obtain ⟨rfl, h0⟩ := hz
    rw [zero_px L h0] at h
    cases h; rfl
  · rw [hp]; rfl

theorem calculateEdge_edge {fp : FP} (L : fp.Laws) {d : Display} {f : Font} {v : Val} {x y : Num} {s : Option Num} (h : v.Edge fp d f x)
    (he : calculateEdge fp v ⟨d, f, s⟩ = .ok y) : y = x := by
  have e : calculateSize fp v ⟨d, f, s⟩ = .ok (.num x) := by
    rcases h with ⟨h, hx⟩ | ⟨h, hx⟩ | ⟨h, hx⟩ | h
    · exact calculateSize_kw h (Or.inl ⟨rfl, hx⟩)
    · exact calculateSize_kw h (Or.inr (Or.inl ⟨rfl, hx⟩))
    · exact calculateSize_kw h (Or.inr (Or.inr ⟨rfl, hx⟩))
    · exact calculateSize_length L h s
  unfold calculateEdge at he
  rw [e] at he
  cases he; rfl

/-! ## Borders and paddings -/

theorem placeLeft_edges {fp : FP} {b b' : Box} {cs cs' : List Node} (h : placeLeft fp b cs = .ok (b', cs')) :
    b'.border = b.border ∧ b'.padding = b.padding ∧ b'.margin = b.margin := by
  unfold placeLeft at h
  obtain ⟨ml, hm, h⟩ := bind_eq_ok.1 h
  have e := setContent_wide fp .h (addAll fp ml [b.border.left, b.padding.left]) b cs
  rw [(ok_pair h).1]
  exact ⟨e.border.symm, e.padding.symm, setContent_margin ..⟩

theorem zeroed_edges (b : Box) (t u : Side) : (autoMarginToZero (autoMarginToZero b t) u).border = b.border ∧
    (autoMarginToZero (autoMarginToZero b t) u).padding = b.padding :=
  ⟨(autoZero_edges _ u).1.trans (autoZero_edges _ t).1, (autoZero_edges _ u).2.trans (autoZero_edges _ t).2⟩

theorem width_edges {fp : FP} {s : CSS} {z : Intrinsic} {c : PxCtx} {b b' : Box} {cs cs' : List Node}
    (h : widthAndMargins fp s z c b cs = .ok (b', cs')) : b'.border = b.border ∧ b'.padding = b.padding := by
  unfold widthAndMargins at h
  split at h
  · cases h
  split at h
  · cases h
  split at h
  · split at h
    · unfold inlineReplacedWidth at h
      simp only at h
      obtain ⟨w, _, h⟩ := bind_eq_ok.1 h
      obtain ⟨e1, e2, _⟩ := placeLeft_edges h
      have e := zeroed_edges b .left .right
      exact ⟨e1.trans e.1, e2.trans e.2⟩
    · cases h
      exact zeroed_edges b .left .right
  split at h
  · split at h
    · cases h
    · obtain ⟨_, _, _, _, e1, e2, _⟩ := blockWidth_fills h
      exact ⟨e1, e2⟩
  split at h <;> cases h

theorem inline_sides {fp : FP} {s : CSS} {z : Intrinsic} {c : PxCtx} {b b' : Box} {cs cs' : List Node}
    (h : widthAndMargins fp s z c b cs = .ok (b', cs')) (hi : isInline s = true) (t : Side) :
    b'.margin.get t = (autoMarginToZero (autoMarginToZero b .left) .right).margin.get t := by
  cases hr : z.isReplaced with
  | false => rw [widthAndMargins_inline h hi hr]; rfl
  | true =>
    have h := widthAndMargins_replaced h hi hr
    unfold inlineReplacedWidth at h
    simp only at h
    obtain ⟨w, _, h⟩ := bind_eq_ok.1 h
    rw [(placeLeft_edges h).2.2]

/-! ## Vertical margins -/

/-- A margin is kept, or it was `auto` and is 0 now. -/
def MVal.Kept (a b : MVal) : Prop := a = b ∨ a = .auto ∧ b.IsVal 0

theorem MVal.Kept.rfl {a : MVal} : a.Kept a := Or.inl (Eq.refl _)

theorem MVal.Kept.trans {a b c : MVal} (h : a.Kept b) (h' : b.Kept c) : a.Kept c := by
  rcases h with h | ⟨h1, h2⟩
  · subst h; exact h'
  · rcases h' with h' | ⟨h3, _⟩
    · subst h'; exact Or.inr ⟨h1, h2⟩
    · obtain ⟨y, h, _⟩ := h2
      rw [h3] at h; cases h

theorem autoZero_kept (b : Box) (t u : Side) : (b.margin.get t).Kept ((autoMarginToZero b u).margin.get t) := by
  by_cases hu : t = u
  · subst hu
    unfold autoMarginToZero
    split
    · rename_i h
      exact Or.inr ⟨h, setMargin_num b t (.int 0)⟩
    · exact .rfl
  · rw [autoZero_other _ _ _ hu]; exact .rfl

theorem zeroed_kept (b : Box) (t u v : Side) : (b.margin.get t).Kept ((autoMarginToZero (autoMarginToZero b u) v).margin.get t) :=
  (autoZero_kept b t u).trans (autoZero_kept _ t v)

theorem zeroed_num (b : Box) (t : Side) (ht : t = .top ∨ t = .bottom) : ∃ y, (autoMarginToZero (autoMarginToZero b .top) .bottom).margin.get t = .num y :=
  autoVertical_num b t ht

/-- The widths leave the vertical margins alone. -/
theorem width_vertical {fp : FP} {s : CSS} {z : Intrinsic} {c : PxCtx} {b b' : Box} {cs cs' : List Node}
    (h : widthAndMargins fp s z c b cs = .ok (b', cs')) (t : Side) (ht : t = .top ∨ t = .bottom) : b'.margin.get t = b.margin.get t := by
  have hl : t ≠ .left := by rcases ht with rfl | rfl <;> decide
  have hr : t ≠ .right := by rcases ht with rfl | rfl <;> decide
  have hz : ∀ b : Box, (autoMarginToZero (autoMarginToZero b .left) .right).margin.get t = b.margin.get t := fun b =>
    (autoZero_other _ _ _ hr).trans (autoZero_other _ _ _ hl)
  unfold widthAndMargins at h
  split at h
  · cases h
  split at h
  · cases h
  split at h
  · split at h
    · unfold inlineReplacedWidth at h
      simp only at h
      obtain ⟨w, _, h⟩ := bind_eq_ok.1 h
      rw [(placeLeft_edges h).2.2]
      exact hz b
    · cases h
      exact hz b
  split at h
  · split at h
    · cases h
    · unfold blockWidth at h
      split at h
      · simp only at h
        obtain ⟨size, _, h⟩ := bind_eq_ok.1 h
        obtain ⟨ml, _, h⟩ := bind_eq_ok.1 h
        obtain ⟨mr, _, h⟩ := bind_eq_ok.1 h
        rw [(placeLeft_edges h).2.2]
        exact hz b
      · obtain ⟨w, _, h⟩ := bind_eq_ok.1 h
        obtain ⟨size, _, h⟩ := bind_eq_ok.1 h
        rw [(placeLeft_edges h).2.2]
        show (solveMargins fp s size w b).margin.get t = _
        unfold solveMargins
        simp only
        have key : ∀ b1 : Box, b1.margin.get t = b.margin.get t → ∀ x, (b1.setMargin .left x).margin.get t = b.margin.get t ∧
            (b1.setMargin .right x).margin.get t = b.margin.get t := fun b1 h1 x =>
          ⟨(setMargin_get _ _ _ _ hl).trans h1, (setMargin_get _ _ _ _ hr).trans h1⟩
        have h0 : ∀ q : Prop, ∀ [Decidable q], (if q then autoMarginToZero (autoMarginToZero b .left) .right else b).margin.get t = b.margin.get t := by
          intro q _
          split
          · exact hz b
          · rfl
        split
        · split
          · exact (key _ (h0 _) _).2
          · exact (key _ (h0 _) _).1
        · exact (key _ (h0 _) _).1
        · exact (key _ (h0 _) _).2
        · exact (key _ (key _ (h0 _) _).1 _).2
  split at h <;> cases h

theorem placeTopInline_margin {fp : FP} {b b' : Box} {cs cs' : List Node} (h : placeTopInline fp b cs = .ok (b', cs')) : b'.margin = b.margin := by
  unfold placeTopInline at h
  obtain ⟨mt, hm, h⟩ := bind_eq_ok.1 h
  rw [(ok_pair h).1, setContent_margin]

theorem height_kept {fp : FP} {s : CSS} {z : Intrinsic} {parent : Option CSS} {c : PxCtx} {b b' : Box} {cs cs' : List Node}
    (h : heightAndMargins fp s z parent c b cs = .ok (b', cs')) (t : Side) :
    (b.margin.get t).Kept (b'.margin.get t) ∧ (isInline s = false ∨ z.isReplaced = true → t = .top ∨ t = .bottom → ∃ y, b'.margin.get t = .num y) := by
  unfold heightAndMargins at h
  split at h
  · cases h
  split at h
  · cases h
  split at h
  · rename_i hi
    split at h
    · unfold inlineReplacedHeight at h
      simp only at h
      obtain ⟨w, _, h⟩ := bind_eq_ok.1 h
      rw [placeTopInline_margin h]
      exact ⟨zeroed_kept b t .top .bottom, fun _ ht => zeroed_num b t ht⟩
    · rename_i hr
      rw [placeTopInline_margin h]
      refine ⟨.rfl, fun hx => ?_⟩
      rcases hx with hx | hx
      · rw [hi] at hx; cases hx
      · exact absurd hx hr
  split at h
  · split at h
    · cases h
    · refine ⟨?_, fun _ => blockHeight_margin h t⟩
      unfold blockHeight at h
      obtain ⟨⟨x, b1⟩, h1, h⟩ := bind_eq_ok.1 h
      simp only at h
      rw [(ok_pair h).1, setContent_margin]
      show (b.margin.get t).Kept (b1.margin.get t)
      rw [← sameButCollapse_margin (contentHeight_same h1)]
      exact zeroed_kept b t .top .bottom
  split at h <;> cases h

theorem children_margin {fp : FP} {lay : Box → Node → Res Node} {s : CSS} {z : Intrinsic} {b b' : Box} {cs cs' : List Node}
    (h : layoutChildren fp lay s z b cs = .ok (b', cs')) : b'.margin = b.margin := by
  rcases children_stacked h with ⟨_, rfl, _⟩ | ⟨_, _, _, _, _, _, hst, _⟩
  · rfl
  · exact (sameButCollapse_margin hst.same).symm

/-- The vertical margins of a node that was laid out. -/
theorem body_vertical {fp : FP} {d : Display} {hgt : Bool} {lay : Box → Node → Res Node} {ps : Option CSS} {cb : CB} {s : CSS} {z : Intrinsic} {b0 b b' : Box}
    {cs0 cs' : List Node} (hbody : layoutBody fp d lay ps cb s z b0 cs0 = .ok (b', cs')) (hcore : b'.core hgt = b.core hgt) (t : Side)
    (ht : t = .top ∨ t = .bottom) : ∃ y, calculateSize fp (s.get (.margin t)) ⟨d, dummyFont fp, cb.height⟩ = .ok y ∧
      (y.Same (b.margin.get t) ∨ y = .auto ∧ (b.margin.get t).IsVal 0) ∧
      (isInline s = false ∨ z.isReplaced = true → ∃ y, b.margin.get t = .num y) := by
  obtain ⟨b1, b2, cs2, b3, cs3, b4, cs4, b5, cs5, h1, h2, h3, _, _, h4, h5, h6⟩ := body_phases hbody
  have em : b5.margin = b.margin := by
    rw [← applyRelative_margin h6]
    have e := congrArg Box.margin hcore
    exact e
  have k2 := width_vertical h2 t ht
  have k3 : (b2.margin.get t).Kept (b3.margin.get t) := by
    unfold relativeHeight at h3
    split at h3
    · exact (height_kept h3 t).1
    · cases h3; exact .rfl
  have k4 := children_margin h4
  have k5 := height_kept h5 t
  have k : (b1.margin.get t).Kept (b.margin.get t) := by
    rw [← em, ← k2]
    refine k3.trans ?_
    rw [← k4]
    exact k5.1
  rw [em] at k5
  have c := copyEdges_copied h1
  obtain ⟨y, y1, y2⟩ : ∃ x, calculateSize fp (s.get (.margin t)) ⟨d, dummyFont fp, cb.height⟩ = .ok x ∧ (b1.margin.get t).Same x := by
    rcases ht with rfl | rfl
    · exact c.mt
    · exact c.mb
  refine ⟨y, y1, ?_, fun hx => k5.2 hx ht⟩
  rcases k with k | ⟨k, k'⟩
  · left
    rw [← k]
    revert y2
    cases y <;> cases b1.margin.get t <;> simp only [MVal.Same, imp_self]
    exact Eq.symm
  · right
    exact ⟨(same_auto y2).1 k, k'⟩

theorem RanQ.vertical {Q : Node → Prop} {fp : FP} {d : Display} {hgt : Bool} {w : Option Num} {ps : Option CSS} {n : Node} (h : RanQ Q fp d hgt w ps n) :
    ∃ b x, n.layout = some b ∧ ∀ t, t = .top ∨ t = .bottom → ∃ y, calculateSize fp (n.style.get (.margin t)) ⟨d, dummyFont fp, x⟩ = .ok y ∧
      (y.Same (b.margin.get t) ∨ y = .auto ∧ (b.margin.get t).IsVal 0) ∧
      (isInline n.style = false ∨ n.intrinsic.isReplaced = true → ∃ y, b.margin.get t = .num y) := by
  obtain ⟨b, hb, f, cb, b0, cs0, b', cs', rfl, hbody, hcore, _⟩ := h
  exact ⟨b, cb.height, hb, fun t ht => body_vertical hbody hcore t ht⟩

end Colosseum
