import Verif.Lemmas.Heights
import Verif.Lemmas.Stack
import Verif.Lemmas.Progress

/-!
# The height available to a node
-/

namespace Colosseum

/-- The node is as a run of `layoutBody` from a reset document left it, in the containing block `cb`; see `RanQ`. -/
def RunAt (fp : FP) (d : Display) (hgt : Bool) (cb : CB) (ps : Option CSS) (n : Node) : Prop :=
  ∃ b, n.layout = some b ∧ ∃ f b0 cs0 b1 cs1,
    layoutBody fp d (fun b m => layoutBox fp d f (some n.style) (.box b) m) ps cb n.style n.intrinsic b0 cs0 = .ok (b1, cs1) ∧
    b1.core hgt = b.core hgt ∧ cs1.map Node.noOrigin = n.children.map Node.noOrigin ∧ Pristine (.mk n.style n.intrinsic (some b0) cs0)

theorem RunAt.ran {fp : FP} {d : Display} {hgt : Bool} {cb : CB} {ps : Option CSS} {n : Node} (h : RunAt fp d hgt cb ps n) :
    RanQ Pristine fp d hgt cb.width ps n := by
  obtain ⟨b, hb, f, b0, cs0, b1, cs1, h⟩ := h
  exact ⟨b, hb, f, cb, b0, cs0, b1, cs1, rfl, h⟩

theorem RanQ.at {fp : FP} {d : Display} {hgt : Bool} {w : Option Num} {ps : Option CSS} {n : Node} (h : RanQ Pristine fp d hgt w ps n) :
    ∃ cb, cb.width = w ∧ RunAt fp d hgt cb ps n := by
  obtain ⟨b, hb, f, cb, b0, cs0, b1, cs1, e, h⟩ := h
  exact ⟨cb, e, b, hb, f, b0, cs0, b1, cs1, h⟩

theorem RunAt.weaken {fp : FP} {d : Display} {hgt : Bool} {cb : CB} {ps : Option CSS} {n : Node} (h : RunAt fp d true cb ps n) :
    RunAt fp d hgt cb ps n := by
  obtain ⟨b, hb, f, b0, cs0, b1, cs1, h1, h2, h3⟩ := h
  exact ⟨b, hb, f, b0, cs0, b1, cs1, h1, core_weaken h2, h3⟩

theorem RunAt.moved {fp : FP} {d : Display} {hgt : Bool} {cb : CB} {ps : Option CSS} {s : CSS} {z : Intrinsic} {b b' : Box} {cs cs' : List Node}
    (h : RunAt fp d hgt cb ps (.mk s z (some b) cs)) (hb : b.core hgt = b'.core hgt) (hc : cs.map Node.noOrigin = cs'.map Node.noOrigin) :
    RunAt fp d hgt cb ps (.mk s z (some b') cs') := by
  obtain ⟨x, hx, f, b0, cs0, b1, cs1, h2, h3, h4, h5⟩ := h
  cases hx
  exact ⟨b', rfl, f, b0, cs0, b1, cs1, h2, h3.trans hb, h4.trans hc, h5⟩

theorem RunAt.noOrigin {fp : FP} {d : Display} {cb : CB} {ps : Option CSS} {n m : Node} (h : RunAt fp d true cb ps n) (e : n.noOrigin = m.noOrigin) :
    RunAt fp d true cb ps m := by
  obtain ⟨s, z, l, cs⟩ := n
  obtain ⟨s', z', l', cs'⟩ := m
  simp only [noOrigin_mk] at e
  injection e with e1 e2 e3 e4
  subst e1 e2
  cases l with
  | none => obtain ⟨b, hb, _⟩ := h; cases hb
  | some b =>
    cases l' with
    | none => cases e3
    | some b' =>
      simp only [Option.map_some, Option.some.injEq] at e3
      exact h.moved (core_of_noOrigin _ e3) e4

/-- A displayed node that was laid out is a run. -/
theorem layoutBox_runAt {fp : FP} {d : Display} {f : Nat} {ps : Option CSS} {cb : CB} {n n' : Node} (hn : Pristine n)
    (h : layoutBox fp d f ps cb n = .ok n') (hh : ¬ n'.Hidden) : RunAt fp d true cb ps n' := by
  cases f with
  | zero => cases h
  | succ f =>
    obtain ⟨s, z, l, cs⟩ := n
    rcases layoutBox_ok h with ⟨hs, rfl⟩ | ⟨hs, b, cs0, b', cs', hl, hb, rfl⟩
    · exact absurd hs hh
    · rcases hl with ⟨rfl, rfl⟩ | ⟨rfl, _⟩
      · exact ⟨b', rfl, f, b, cs0, b', cs', hb, rfl, rfl, hn⟩
      · exact absurd rfl ((allBoxed_mk.1 hn.1 hs).1)

/-- The root is a run in the viewport. -/
theorem layout_root {fp : FP} {d : Display} {html5 : Bool} {p : Option CSS} {n n' : Node} (hbx : AllBoxed n) (h : layout fp d html5 p n = .ok n')
    (hh : ¬ n'.Hidden) : RunAt fp d (!html5) (.viewport d) p n' := by
  obtain ⟨m, h1, h2, _⟩ := layout_ok h
  obtain ⟨s, z, b, cs, b', rfl, rfl, rfl⟩ := finishRoot_ok h2
  have q := layoutBox_runAt (pristine_reset fp hbx) h1 hh
  refine (q.weaken (hgt := !html5)).moved ?_ (setContent_noOrigin ..).symm
  cases html5 with
  | false => exact (core_setContent ..).symm
  | true =>
    have := core_setContent fp (b.v.content.add fp (.int b.collapse.top)) b cs false
    exact this.symm

theorem width_ch {fp : FP} {s : CSS} {z : Intrinsic} {c : PxCtx} {b b' : Box} {cs cs' : List Node}
    (h : widthAndMargins fp s z c b cs = .ok (b', cs')) : b'.contentHeight = b.contentHeight := by
  unfold widthAndMargins at h
  split at h
  · cases h
  split at h
  · cases h
  split at h
  · split at h
    · unfold inlineReplacedWidth at h
      obtain ⟨w, _, h⟩ := bind_eq_ok.1 h
      rw [placeLeft_ch h]
      show (autoMarginToZero (autoMarginToZero b .left) .right).contentHeight = _
      rw [autoMargin_ch, autoMargin_ch]
    · cases h
      show (autoMarginToZero (autoMarginToZero b .left) .right).contentHeight = _
      rw [autoMargin_ch, autoMargin_ch]
  split at h
  · split at h
    · cases h
    · exact blockWidth_ch h
  split at h <;> cases h

/-- The runs of the children: in a box that has the width of the parent, and its height before the children were laid out. -/
theorem RunAt.kid {fp : FP} {d : Display} {hgt : Bool} {cb : CB} {ps : Option CSS} {n c : Node} (h : RunAt fp d hgt cb ps n) (hn : ¬ n.Hidden)
    (hc : c ∈ n.children) (hv : n.BlockContext → c.BlockLevel) (hh : ¬ c.Hidden) :
    ∃ b bb b2 cs2 b3 cs3, n.layout = some b ∧ RunAt fp d true (.box bb) (some n.style) c ∧ bb.contentWidth = b.contentWidth ∧ b2.contentHeight = some (.int 0) ∧
      relativeHeight fp n.style n.intrinsic ps ⟨d, dummyFont fp, cb.height⟩ b2 cs2 = .ok (b3, cs3) ∧ bb.contentHeight = b3.contentHeight := by
  obtain ⟨s, z, l, cs⟩ := n
  obtain ⟨b, rfl, f, b0, cs0, b', cs', hb, hcore, hno', q0⟩ := h
  simp only [Node.style, Node.intrinsic, Node.children] at hb hno' q0 hc ⊢
  obtain ⟨b1, b2, cs2, b3, cs3, b4, cs4, b5, cs5, h1, h2, h3, ha, hf, h4, h5, h6⟩ := body_phases hb
  have hs : s.get .display ≠ .none := hn
  have q3 : ∀ c ∈ cs3, Pristine c := by
    intro c hc
    have e : cs0.map Node.noOrigin = cs3.map Node.noOrigin := by
      rw [(relativeHeight_steps h3).noOrigin, (width_steps h2).noOrigin]
    obtain ⟨c0, hc0, he⟩ := forall₂_left (forall₂_of_map e).flip hc
    exact pristine_passes.kid hs q0 hc0 he
  have hno : cs4.map Node.noOrigin = cs.map Node.noOrigin := by
    rw [← hno', (relative_steps h6).noOrigin, (height_steps h5).noOrigin]
  obtain ⟨c4, hc4, he⟩ := forall₂_left (forall₂_of_map hno).flip hc
  have hh4 : ¬ c4.Hidden := fun e => hh ((noOrigin_hidden he).1 e)
  have b20 : b2.contentHeight = some (.int 0) := by
    rw [width_ch h2, copyEdges_ch h1]
    have := q0.2 [] b0 (.here rfl)
    exact congrArg Box.contentHeight this
  suffices ∃ bb, RunAt fp d true (.box bb) (some s) c4 ∧ bb.contentHeight = b3.contentHeight ∧ bb.contentWidth = b4.contentWidth by
    obtain ⟨bb, h7, h8, h9⟩ := this
    refine ⟨b, bb, b2, cs2, b3, cs3, rfl, h7.noOrigin he, ?_, b20, h3, h8⟩
    rw [h9, ← core_width hcore, relative_width h6, height_width h5]
  have hv4 : visits s z cs4 c4 = true := by
    rw [← (visits_iff (some b)).2 hv]
    refine visits_styles (forall₂_map_eq ((forall₂_of_map hno).imp fun _ _ h => strip_of_noOrigin h)) ?_
    rw [← noOrigin_style, he, noOrigin_style]
  rcases children_stacked h4 with ⟨_, rfl, hf⟩ | ⟨hi, pre, post, laid, rfl, rfl, hst, hpre, hpost⟩
  · obtain ⟨c, hcm, hl⟩ := forall₂_left hf.flip hc4
    exact ⟨_, layoutBox_runAt (q3 c hcm) hl hh4, rfl, rfl⟩
  · have hsty : (laid ++ post).map Node.style = (pre ++ post).map Node.style := by
      have := (children_forall h4).2
      refine (forall₂_map_eq (this.imp fun c c' h => ?_)).symm
      have key : ∀ b c c', layoutBox fp d f (some s) (.box b) c = .ok c' → c'.style = c.style := fun b c c' h => by
        rw [← strip_style, layoutBox_strip _ _ _ _ _ _ _ h, strip_style]
      rcases h with rfl | h
      · rfl
      · cases h with
        | same h => exact (key _ _ _ h).symm
        | moved v h => exact (key _ _ _ h).symm
    rcases List.mem_append.1 hc4 with hm | hm
    · have : ∀ {b : Box} {off : Num} {bm : Option Int} {cs cs' : List Node} {b' : Box},
          Stacked fp (fun b m => layoutBox fp d f (some s) (.box b) m) b off bm cs b' cs' → (∀ c ∈ cs, Pristine c) → ∀ c ∈ cs', ¬ c.Hidden →
          ∃ bb, RunAt fp d true (.box bb) (some s) c ∧ bb.contentHeight = b.contentHeight ∧ bb.contentWidth = b.contentWidth := by
        intro b off bm cs cs' b' h
        induction h with
        | nil => intro _ c hc; cases hc
        | @cons b b1 b2 cb off off1 h bm c s' z' ks cs cs' g1 g2 _ _ ih' =>
          intro hqs x hx hxh
          rcases List.mem_cons.1 hx with rfl | hx
          · have := layoutBox_runAt (hqs c List.mem_cons_self) g1 hxh
            exact ⟨b, this.moved (core_setContent ..).symm (setContent_noOrigin ..).symm, rfl, rfl⟩
          · rw [sameButCollapse_ch (collapseAbove_same g2), (collapseAbove_same g2).width]
            exact ih' (fun y hy => hqs y (List.mem_cons_of_mem _ hy)) x hx hxh
      rw [← hst.same.width]
      exact this hst (fun y hy => q3 y (List.mem_append_left _ hy)) c4 hm hh4
    · exfalso
      simp only [visits, inline_of_styles hsty, hi, hpost c4 hm, Bool.or_self] at hv4
      cases hv4

/-- A node below the root has a parent. -/
theorem within_parent {w w' : Option Num} {ps ps' : Option CSS} {n m : Node} (h : Within w ps n w' ps' m) :
    (m = n ∧ w' = w ∧ ps' = ps) ∨ ∃ wk psk k b, Within w ps n wk psk k ∧ ¬ k.Hidden ∧ k.layout = some b ∧ w' = b.contentWidth ∧ ps' = some k.style ∧
      m ∈ k.children ∧ (k.BlockContext → m.BlockLevel) := by
  induction h with
  | here => exact Or.inl ⟨rfl, rfl, rfl⟩
  | step hn hl hc hb _ ih =>
    right
    rcases ih with ⟨rfl, rfl, rfl⟩ | ⟨wk, psk, k, b, h1, h2⟩
    · exact ⟨_, _, _, _, .here .., hn, hl, rfl, rfl, hc, hb⟩
    · exact ⟨wk, psk, k, b, .step hn hl hc hb h1, h2⟩

/-- The specified height before and after `max-height`. -/
theorem explicitHeight_cases {fp : FP} {s : CSS} {parent : Option CSS} {c : PxCtx} {x : Num} (h : explicitHeight fp s parent c = .ok x) :
    ∃ y, ((∃ p ph, parent = some p ∧ p.get .height ≠ kw "auto" ∧ (p.get .height).px fp c = .ok ph ∧ (s.get .height).px fp { c with size := some ph } = .ok y) ∨
        ((∀ p, parent = some p → p.get .height = kw "auto") ∧ (s.get .height).px fp c = .ok y)) ∧
      ((s.get .maxHeight = .none ∧ x = y) ∨ ∃ m, s.get .maxHeight ≠ .none ∧ (s.get .maxHeight).px fp c = .ok m ∧ x.val = min y.val m.val) := by
  have key : ∀ {y : Num}, (if (s.get .maxHeight).isNone = true then pure y else do
      let m ← (s.get .maxHeight).px fp c
      pure (if m.pyLt y then m else y)) = .ok x →
      ((s.get .maxHeight = .none ∧ x = y) ∨ ∃ m, s.get .maxHeight ≠ .none ∧ (s.get .maxHeight).px fp c = .ok m ∧ x.val = min y.val m.val) := by
    intro y hk
    split at hk
    · rename_i hn
      refine Or.inl ⟨?_, (Except.ok.inj hk).symm⟩
      cases hv : s.get .maxHeight <;> rw [hv] at hn <;> first | rfl | cases hn
    · rename_i hn
      obtain ⟨m, hm, hk⟩ := bind_eq_ok.1 hk
      refine Or.inr ⟨m, ?_, hm, ?_⟩
      · intro e; rw [e] at hn; exact hn rfl
      · rw [← Except.ok.inj hk, ite_min]
  unfold explicitHeight at h
  simp only at h
  split at h
  · rename_i p
    split at h
    · rename_i ha
      obtain ⟨y, hy, h⟩ := bind_eq_ok.1 h
      refine ⟨y, Or.inr ⟨?_, hy⟩, key h⟩
      rintro p' e; cases e
      exact (isKw_iff _ _).1 ha
    · rename_i ha
      obtain ⟨ph, h1, h⟩ := bind_eq_ok.1 h
      obtain ⟨y, h2, h⟩ := bind_eq_ok.1 h
      exact ⟨y, Or.inl ⟨p, ph, rfl, fun e => ha ((isKw_iff _ _).2 e), h1, h2⟩, key h⟩
  · obtain ⟨y, hy, h⟩ := bind_eq_ok.1 h
    exact ⟨y, Or.inr ⟨fun p e => (by cases e), hy⟩, key h⟩

/-- A specified height that is no percentage. -/
theorem explicitHeight_length {fp : FP} {s : CSS} {parent : Option CSS} {d : Display} {sz : Option Num} {x y : Num}
    (h : explicitHeight fp s parent ⟨d, dummyFont fp, sz⟩ = .ok x) (hy : (s.get .height).Length fp d (dummyFont fp) y) :
    (s.get .maxHeight = .none ∧ x = y) ∨ ∃ m, s.get .maxHeight ≠ .none ∧ (s.get .maxHeight).px fp ⟨d, dummyFont fp, sz⟩ = .ok m ∧ x.val = min y.val m.val := by
  obtain ⟨y', h1, h2⟩ := explicitHeight_cases h
  have : y' = y := by
    rcases h1 with ⟨_, ph, _, _, _, e⟩ | ⟨_, e⟩
    · rw [length_px hy] at e; exact (Except.ok.inj e).symm
    · rw [length_px hy] at e; exact (Except.ok.inj e).symm
  rw [← this]; exact h2

/-- The content height of a block with a specified height. -/
theorem blockHeight_explicit {fp : FP} {s : CSS} {z : Intrinsic} {parent : Option CSS} {c : PxCtx} {b b' : Box} {cs cs' : List Node}
    (h : heightAndMargins fp s z parent c b cs = .ok (b', cs')) (hb : isBlockLevel s = true) (hh : s.get .height ≠ kw "auto") :
    ∃ x, b'.contentHeight = some x ∧ explicitHeight fp s parent c = .ok x := by
  obtain ⟨x, b6, h5, h6⟩ := blockHeight_content (heightAndMargins_block h hb)
  refine ⟨x, h5, ?_⟩
  unfold blockContentHeight at h6
  rw [if_neg fun e => hh ((isKw_iff _ _).1 e)] at h6
  obtain ⟨y, hy, h6⟩ := bind_eq_ok.1 h6
  cases h6
  exact hy

/-- In a static parent, the height available to a node is 0; in a relatively positioned one, it is the specified height, if that is a length. -/
theorem layout_below {fp : FP} {d : Display} {html5 : Bool} {p ps : Option CSS} {n n' m : Node} {w : Option Num} (hbx : AllBoxed n)
    (h : layout fp d html5 p n = .ok n') (hm : Inside true (some d.contentWidth) p n' w ps m) (hh : ¬ m.Hidden) :
    ∃ q cb, ps = some q ∧ cb.width = w ∧ RunAt fp d true cb ps m ∧ (q.get .position ≠ kw "relative" → cb.height = some (.int 0)) ∧
      (q.get .position = kw "relative" → isBlockLevel q = true → q.get .maxHeight = .none → ∀ y, (q.get .height).Length fp d (dummyFont fp) y → cb.height = some y) := by
  obtain ⟨b, c, hn, hl, hc, hb, hw⟩ := hm
  have hall := layout_ranQ pristine_passes (pristine_reset fp hbx) h
  have hW : Within (some d.contentWidth) p n' w ps m := .step hn hl hc hb hw
  have key : ∃ wk psk k b', Within (some d.contentWidth) p n' wk psk k ∧ ¬ k.Hidden ∧ k.layout = some b' ∧ w = b'.contentWidth ∧ ps = some k.style ∧
      m ∈ k.children ∧ (k.BlockContext → m.BlockLevel) := by
    rcases within_parent hw with ⟨rfl, rfl, rfl⟩ | ⟨wk, psk, k, b', h1, h2⟩
    · exact ⟨_, _, n', b, .here .., hn, hl, rfl, rfl, hc, hb⟩
    · exact ⟨wk, psk, k, b', .step hn hl hc hb h1, h2⟩
  obtain ⟨wk, psk, k, b', h1, h2, h3, h4, h5, h6, h7⟩ := key
  have hk : RanQ Pristine fp d false wk psk k := by
    cases h1 with
    | here =>
      cases html5 with
      | true => exact hall.1 h2
      | false => exact (hall.1 h2).weaken
    | step hn hl hc hb hw => exact (hall.2 _ hc _ hl hn hb _ _ _ hw h2).weaken
  obtain ⟨cb, _, hr⟩ := hk.at
  obtain ⟨b'', bb, b2, cs2, b3, cs3, e0, e1, e2, e3, e4, e5⟩ := hr.kid h2 h6 h7 hh
  rw [h3] at e0
  cases e0
  refine ⟨k.style, .box bb, h5, ?_, h5 ▸ e1, fun hp => ?_, fun hp hbl hmax y hy => ?_⟩
  · rw [h4]; exact e2
  · unfold relativeHeight at e4
    rw [if_neg (show ¬ isRelative k.style = true from fun e => hp ((isKw_iff _ _).1 e))] at e4
    cases e4
    exact e5.trans e3
  · unfold relativeHeight at e4
    rw [if_pos (show isRelative k.style = true from (isKw_iff _ _).2 hp)] at e4
    obtain ⟨x, hx, he⟩ := blockHeight_explicit e4 hbl (length_ne_kw hy "auto")
    rcases explicitHeight_length he hy with ⟨_, rfl⟩ | ⟨_, h, _⟩
    · exact e5.trans hx
    · exact absurd hmax h

/-- The height phase of a run. -/
theorem RunAt.high {fp : FP} {d : Display} {cb : CB} {ps : Option CSS} {n : Node} (h : RunAt fp d true cb ps n) :
    ∃ b x b4 cs4 b5 cs5, n.layout = some b ∧ heightAndMargins fp n.style n.intrinsic ps ⟨d, dummyFont fp, x⟩ b4 cs4 = .ok (b5, cs5) ∧
      b.contentHeight = b5.contentHeight ∧ cs4.map Node.noOrigin = n.children.map Node.noOrigin ∧ x = cb.height := by
  obtain ⟨b, hb, f, b0, cs0, b', cs', hbody, hcore, hk, _⟩ := h
  obtain ⟨b1, b2, cs2, b3, cs3, b4, cs4, b5, cs5, h1, h2, h3, _, _, h4, h5, h6⟩ := body_phases hbody
  refine ⟨b, cb.height, b4, cs4, b5, cs5, hb, h5, ?_, ?_, rfl⟩
  · have e := congrArg Box.contentHeight hcore
    have e : b'.contentHeight = b.contentHeight := e
    rw [← e, applyRelative_height h6]
  · rw [← hk, (relative_steps h6).noOrigin, (height_steps h5).noOrigin]

/-- The horizontal phases of a run. -/
theorem RunAt.wide {fp : FP} {d : Display} {hgt : Bool} {cb : CB} {ps : Option CSS} {n : Node} (h : RunAt fp d hgt cb ps n) :
    ∃ b b0 b1 b2 cs cs2, n.layout = some b ∧ copyEdges fp n.style ⟨d, dummyFont fp, cb.width⟩ ⟨d, dummyFont fp, cb.height⟩ b0 = .ok b1 ∧
      widthAndMargins fp n.style n.intrinsic ⟨d, dummyFont fp, cb.width⟩ b1 cs = .ok (b2, cs2) ∧ SameWide b2 b := by
  obtain ⟨b, hb, f, b0, cs0, b', cs', hbody, hcore, _⟩ := h
  obtain ⟨b1, b2, cs2, b3, cs3, b4, cs4, b5, cs5, h1, h2, h3, _, _, h4, h5, h6⟩ := body_phases hbody
  exact ⟨b, b0, b1, b2, cs0, cs2, hb, h1, h2,
    (relativeHeight_wide h3).trans ((children_wide h4).trans ((height_wide h5).trans ((applyRelative_wide h6).trans (core_wide hcore))))⟩

end Colosseum
