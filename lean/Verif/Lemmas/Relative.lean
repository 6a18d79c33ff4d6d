import Verif.Lemmas.Margins
import Verif.Lemmas.Stack

/-!
# Relative positioning, vertically
-/

namespace Colosseum

theorem nudge_margin {fp : FP} {d : Display} {f : Font} {v : Val} {l : Option Num} (h : v.Nudge fp d f l) (w : Option Num) : v.Margin fp ⟨d, f, w⟩ l := by
  cases l with
  | none => exact h
  | some y =>
    obtain ⟨k, val, rfl, hk, hp⟩ := h
    refine ⟨_, rfl, ?_⟩
    show pxOf fp k val ⟨d, f, w⟩ = .ok y
    rw [← hp]
    unfold pxOf
    have : luOf fp k val ⟨d, f, w⟩ = luOf fp k val ⟨d, f, none⟩ := by
      cases k <;> first | rfl | exact absurd rfl hk
    rw [this]

theorem applyRelative_v {fp : FP} {s : CSS} {cb : CB} {hz vt : PxCtx} {b b' : Box} {cs cs' : List Node}
    (h : applyRelative fp s cb hz vt b cs = .ok (b', cs')) (hr : isRelative s = true) :
    ∃ dy, relativeOffset fp cb .v (s.get .top) (s.get .bottom) vt = .ok dy ∧ b'.top.val = (b.top.add fp dy).val := by
  unfold applyRelative at h
  rw [if_pos hr] at h
  obtain ⟨dx, _, h⟩ := bind_eq_ok.1 h
  simp only at h
  obtain ⟨dy, hy, h⟩ := bind_eq_ok.1 h
  refine ⟨dy, hy, ?_⟩
  rw [(ok_pair h).1, setContent_v_top]
  have e := setContent_h_top fp (b.h.content.add fp dx) b cs
  unfold Box.top at e ⊢
  rw [e]

/-- The position of a relatively positioned block: the borders and paddings are added twice. -/
theorem body_top_relative {fp : FP} {d : Display} {lay : Box → Node → Res Node} {parent : Option CSS} {cb : CB} {s : CSS}
    {z : Intrinsic} {b b' : Box} {cs cs' : List Node} (h : layoutBody fp d lay parent cb s z b cs = .ok (b', cs'))
    (hb : isBlockLevel s = true) (hr : isRelative s = true) : ∃ x y dy : Num, x.val = (b.top.add fp (b'.border.top.add fp b'.padding.top)).val ∧
      y.val = (x.add fp (b'.border.top.add fp b'.padding.top)).val ∧
      relativeOffset fp cb .v (s.get .top) (s.get .bottom) ⟨d, dummyFont fp, cb.height⟩ = .ok dy ∧ b'.top.val = (y.add fp dy).val := by
  obtain ⟨b1, b2, cs2, b3, cs3, b4, cs4, b5, cs5, h1, h2, h3, _, _, h4, h5, h6⟩ := body_phases h
  have h3' : heightAndMargins fp s z parent ⟨d, dummyFont fp, cb.height⟩ b2 cs2 = .ok (b3, cs3) := by
    unfold relativeHeight at h3
    rw [if_pos hr] at h3
    exact h3
  have t3 := blockHeight_top (heightAndMargins_block h3' hb)
  have t5 := blockHeight_top (heightAndMargins_block h5 hb)
  have e4 : b4.top = b3.top := by
    rcases children_stacked h4 with ⟨_, rfl, _⟩ | ⟨_, _, _, _, _, _, hst, _⟩
    · rfl
    · exact (sameButCollapse_top hst.same).symm
  obtain ⟨dy, hy, t6⟩ := applyRelative_v h6 hr
  have w4 := (children_wide h4).trans ((height_wide h5).trans (applyRelative_wide h6))
  have w2 := (height_wide h3').trans w4
  have w5 := (height_wide h5).trans (applyRelative_wide h6)
  refine ⟨b3.top, b5.top, dy, ?_, ?_, hy, t6⟩
  · rw [t3, blockWidth_top (widthAndMargins_block h2 hb), copyEdges_top h1, w2.4, w2.5]
  · rw [t5, e4, w5.4, w5.5]

/-- How far a relatively positioned block is from its place in the stack. -/
def nudges (fp : FP) (d : Display) (k : Nat) (s : CSS) (x : Down) (q : Rat) : Prop :=
  isRelative s = true ∧ ∃ l r, (s.get .top).Nudge fp d (dummyFont fp) l ∧ (s.get .bottom).Nudge fp d (dummyFont fp) r ∧
    (∀ y, l = some y → Fits fp k y) ∧ (∀ y, r = some y → Fits fp k y) ∧ q = x.bt.val + x.pt.val + relativeShift true (l.map Num.val) (r.map Num.val)

theorem nudges_follow {fp : FP} {d : Display} {f : Nat} {p : Option CSS} {cb : CB} {c : Node} {s : CSS} {z : Intrinsic} {b : Box} {ks : List Node}
    (h : layoutBox fp d f p cb c = .ok (.mk s z (some b) ks)) (hp : Pristine c) (hb : isBlockLevel c.style = true) : Follows fp (nudges fp d) s b := by
  cases f with
  | zero => cases h
  | succ f =>
    obtain ⟨s', z', l, cs⟩ := c
    rcases layoutBox_ok h with ⟨hs, e⟩ | ⟨hs, b0, cs0, b', cs', hl, hbody, e⟩
    · exact absurd hs (blockLevel_display hb)
    · cases e
      obtain ⟨b1, e1, e2⟩ := pristine_box hp hs
      rcases hl with ⟨rfl, rfl⟩ | ⟨rfl, _⟩
      swap
      · cases e1
      cases e1
      have e3 : b0.top = .int 0 := by
        have := congrArg Box.top e2
        exact this
      intro k x q hx hf hk hD
      obtain ⟨hr, l, r, hl, hrr, fl, fr, rfl⟩ := hD
      obtain ⟨u, v, dy, g1, g2, g3, g4⟩ := body_top_relative hbody hb hr
      obtain ⟨_, ebt, ept, _⟩ := hx
      obtain ⟨_, f2, f3, _⟩ := hf
      rw [ebt, ept] at g1 g2
      rw [e3] at g1
      obtain ⟨s1, s2⟩ := relativeOffset_shift (nudge_margin hl _) (nudge_margin hrr _) g3
      obtain ⟨a1, a2⟩ := f2.add f3 (by omega)
      obtain ⟨b1, b2⟩ := (fits_zero a2).add a2 (by omega)
      obtain ⟨c1, c2⟩ := (b2.of_val g1).add a2 (by omega)
      obtain ⟨d1, d2⟩ := (c2.of_val g2).add (s2 k f2.kind fl fr) (by omega)
      refine ⟨?_, (d2.of_val g4).mono (by omega)⟩
      rw [g4, d1, g2, c1, g1, b1, a1, s1, Num.val_int]
      push_cast
      ring

end Colosseum
