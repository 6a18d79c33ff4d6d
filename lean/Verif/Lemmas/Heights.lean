import Verif.Lemmas.Grid

/-!
# Vertical sizes
-/

namespace Colosseum

theorem inside_within {html5 : Bool} {w w' : Option Num} {ps ps' : Option CSS} {n m : Node} (h : Inside html5 w ps n w' ps' m) :
    Within w ps n w' ps' m := by
  cases html5 with
  | false => exact h
  | true =>
    obtain ⟨b, c, h1, h2, h3, h4, h5⟩ := h
    exact .step h1 h2 h3 h4 h5

theorem layout_ran_inside {fp : FP} {d : Display} {html5 : Bool} {p ps : Option CSS} {n n' m : Node} {w : Option Num}
    (h : layout fp d html5 p n = .ok n') (hm : Inside html5 (some d.contentWidth) p n' w ps m) (hh : ¬ m.Hidden) : Ran fp d true w ps m := by
  have q := layout_ran h
  cases html5 with
  | false =>
    have hm : Within (some d.contentWidth) p n' w ps m := hm
    cases hm with
    | here => exact q.1 hh
    | step hn hl hc hb hw => exact q.2 _ hc _ hl hn hb _ _ _ hw hh
  | true =>
    obtain ⟨b, c, hn, hl, hc, hb, hw⟩ := hm
    exact q.2 _ hc _ hl hn hb _ _ _ hw hh

theorem setContent_contentHeight (fp : FP) (a : Axis) (v : Num) (b : Box) (cs : List Node) :
    (setContent fp a v b cs).1.contentHeight = b.contentHeight := by
  unfold setContent
  split
  · rfl
  · cases a <;> rfl

theorem applyRelative_height {fp : FP} {s : CSS} {cb : CB} {hz vt : PxCtx} {b b' : Box} {cs cs' : List Node}
    (h : applyRelative fp s cb hz vt b cs = .ok (b', cs')) : b'.contentHeight = b.contentHeight := by
  unfold applyRelative at h
  split at h
  · obtain ⟨dx, _, h⟩ := bind_eq_ok.1 h
    simp only at h
    obtain ⟨dy, _, h⟩ := bind_eq_ok.1 h
    rw [(ok_pair h).1, setContent_contentHeight, setContent_contentHeight]
  · cases h; rfl

/-- The height phase of the run that made a node. -/
theorem RanQ.high {Q : Node → Prop} {fp : FP} {d : Display} {w : Option Num} {ps : Option CSS} {n : Node} (h : RanQ Q fp d true w ps n) :
    ∃ b x b4 cs4 b5 cs5, n.layout = some b ∧ heightAndMargins fp n.style n.intrinsic ps ⟨d, dummyFont fp, x⟩ b4 cs4 = .ok (b5, cs5) ∧
      b.contentHeight = b5.contentHeight ∧ cs4.map Node.noOrigin = n.children.map Node.noOrigin := by
  obtain ⟨b, hb, f, cb, b0, cs0, b', cs', rfl, hbody, hcore, hk, _⟩ := h
  obtain ⟨b1, b2, cs2, b3, cs3, b4, cs4, b5, cs5, h1, h2, h3, _, _, h4, h5, h6⟩ := body_phases hbody
  refine ⟨b, cb.height, b4, cs4, b5, cs5, hb, h5, ?_, ?_⟩
  · have e := congrArg Box.contentHeight hcore
    have e : b'.contentHeight = b.contentHeight := e
    rw [← e, applyRelative_height h6]
  · rw [← hk, (relative_steps h6).noOrigin, (height_steps h5).noOrigin]

/-- The height phase of a block-level node. -/
theorem heightAndMargins_block {fp : FP} {s : CSS} {z : Intrinsic} {parent : Option CSS} {c : PxCtx} {b b' : Box} {cs cs' : List Node}
    (h : heightAndMargins fp s z parent c b cs = .ok (b', cs')) (hb : isBlockLevel s = true) : blockHeight fp s parent c b cs = .ok (b', cs') := by
  unfold heightAndMargins at h
  split at h
  · cases h
  split at h
  · cases h
  split at h
  · rename_i hi
    exfalso
    simp only [isInline, isBlockLevel, Bool.or_eq_true, isKw_iff] at hi hb
    rw [hi] at hb
    revert hb
    simp [kw]
    decide
  split at h
  · cases h
  · exact h

theorem blockHeight_content {fp : FP} {s : CSS} {parent : Option CSS} {c : PxCtx} {b b' : Box} {cs cs' : List Node}
    (h : blockHeight fp s parent c b cs = .ok (b', cs')) : ∃ x b1, b'.contentHeight = some x ∧
      blockContentHeight fp s parent c (autoMarginToZero (autoMarginToZero b .top) .bottom) cs = .ok (x, b1) := by
  unfold blockHeight at h
  obtain ⟨⟨x, b1⟩, h1, h⟩ := bind_eq_ok.1 h
  simp only at h
  refine ⟨x, b1, ?_, h1⟩
  rw [(ok_pair h).1, setContent_contentHeight]

theorem length_px {v : Val} {fp : FP} {d : Display} {f : Font} {x : Num} (h : v.Length fp d f x) (s : Option Num) : v.px fp ⟨d, f, s⟩ = .ok x := by
  obtain ⟨k, val, rfl, hk, h⟩ := h
  rw [← h]
  cases k <;> first | rfl | exact absurd rfl hk

theorem length_ne_kw {v : Val} {fp : FP} {d : Display} {f : Font} {x : Num} (h : v.Length fp d f x) (s : String) : v ≠ kw s := by
  obtain ⟨k, val, rfl, hk, h⟩ := h
  simp [kw]

theorem explicitHeight_max {fp : FP} {s : CSS} {parent : Option CSS} {c : PxCtx} {x m : Num} (h : explicitHeight fp s parent c = .ok x)
    (hm : (s.get .maxHeight).px fp c = .ok m) : x.val ≤ m.val := by
  have hne : (s.get .maxHeight).isNone = false := by
    cases hv : s.get .maxHeight <;> first | rfl | (rw [hv] at hm; cases hm)
  have key : ∀ {y : Num} {k : Num}, (if (s.get .maxHeight).isNone = true then pure y else do
      let m ← (s.get .maxHeight).px fp c
      pure (if m.pyLt y then m else y)) = .ok k → k.val ≤ m.val := by
    intro y k hk
    rw [hne, hm] at hk
    have hk : (if m.pyLt y = true then m else y) = k := Except.ok.inj hk
    rw [← hk, ite_min]
    exact min_le_right _ _
  unfold explicitHeight at h
  simp only at h
  split at h
  · split at h
    · obtain ⟨y, hy, h⟩ := bind_eq_ok.1 h
      exact key h
    · obtain ⟨ph, _, h⟩ := bind_eq_ok.1 h
      obtain ⟨y, hy, h⟩ := bind_eq_ok.1 h
      exact key h
  · obtain ⟨y, hy, h⟩ := bind_eq_ok.1 h
    exact key h

end Colosseum
