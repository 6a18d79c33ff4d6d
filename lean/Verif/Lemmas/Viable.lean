import Verif.Spec.Viable
import Verif.Lemmas.Progress
import Verif.Props.Inline
import Verif.Props.Replaced

/-!
# Which documents can be laid out
-/

namespace Colosseum

/-! ## What the layout needs -/

theorem getLast_map {α β : Type} (f : α → β) (xs : List α) : (xs.map f).getLast? = xs.getLast?.map f := by simp

theorem viable_strip {n m : Node} (e : n.strip = m.strip) (h : n.Viable) : m.Viable := by
  have es : m.style = n.style := by rw [← strip_style m, ← e, strip_style]
  have ez : m.intrinsic = n.intrinsic := by rw [← strip_intrinsic m, ← e, strip_intrinsic]
  have ec : n.children.map Node.strip = m.children.map Node.strip := by rw [← strip_children, ← strip_children, e]
  have eb : m.BlockContext ↔ n.BlockContext := by rw [← blockContext_strip m, ← e, blockContext_strip]
  have el : m.BlockLevel ↔ n.BlockLevel := by rw [← blockLevel_strip m, ← e, blockLevel_strip]
  refine ⟨es ▸ h.float, es ▸ h.position, ?_, ?_, ?_, ?_⟩
  · rw [el, es, ez]; exact h.level
  · rw [es, ez]; exact h.top
  · intro hb
    obtain ⟨pre, post, e1, h1, h2⟩ := h.flow (eb.1 hb)
    rw [e1, List.map_append] at ec
    obtain ⟨pre', post', e2, e3, e4⟩ := List.map_eq_append_iff.1 ec.symm
    refine ⟨pre', post', e2, fun c hc => ?_, fun c hc hb => ?_⟩
    · have : c.strip ∈ pre.map Node.strip := e3 ▸ List.mem_map.2 ⟨c, hc, rfl⟩
      obtain ⟨c0, h0, e0⟩ := List.mem_map.1 this
      rw [← blockLevel_strip, ← e0, blockLevel_strip]
      exact h1 c0 h0
    · have : c.strip ∈ post.map Node.strip := e4 ▸ List.mem_map.2 ⟨c, hc, rfl⟩
      obtain ⟨c0, h0, e0⟩ := List.mem_map.1 this
      rw [← blockLevel_strip, ← e0, blockLevel_strip] at hb
      exact h2 c0 h0 hb
  · intro h1 h2 h3 c hc hh
    have := congrArg List.getLast? ec
    rw [getLast_map, getLast_map, hc] at this
    obtain ⟨c0, h0, e0⟩ := Option.map_eq_some_iff.1 this
    rw [es] at h3
    refine h.last (el.1 h1) (fun hb => h2 (eb.2 hb)) h3 c0 h0 ?_
    rw [← hidden_strip, e0, hidden_strip]
    exact hh

/-- The margin at the top of an inline element that is not replaced stays what was copied from the style. -/
theorem inline_margin_top {fp : FP} {s : CSS} {z : Intrinsic} {c : PxCtx} {b b' : Box} {cs cs' : List Node}
    (h : widthAndMargins fp s z c b cs = .ok (b', cs')) (hi : isInline s = true) (hr : z.isReplaced = false) : b'.margin.top = b.margin.top := by
  rw [widthAndMargins_inline h hi hr]
  have key : ∀ (b : Box) (t : Side), t ≠ .top → (autoMarginToZero b t).margin.get .top = b.margin.get .top := by
    intro b t ht
    unfold autoMarginToZero
    split
    · exact setMargin_get _ _ _ _ ht.symm
    · rfl
  exact (key _ .right (by decide)).trans (key _ .left (by decide))

theorem inlineHeight_margin {fp : FP} {z : Intrinsic} {b b' : Box} {cs cs' : List Node} (h : inlineHeight fp z b cs = .ok (b', cs')) :
    b'.margin.top = b.margin.top := by
  unfold inlineHeight placeTopInline at h
  obtain ⟨mt, hm, h⟩ := bind_eq_ok.1 h
  rw [(ok_pair h).1, setContent_margin]

theorem relativeInline_margin {fp : FP} {s : CSS} {z : Intrinsic} {parent : Option CSS} {c : PxCtx} {b b' : Box} {cs cs' : List Node}
    (h : relativeHeight fp s z parent c b cs = .ok (b', cs')) (hi : isInline s = true) (hr : z.isReplaced = false) : b'.margin.top = b.margin.top := by
  unfold relativeHeight at h
  split at h
  · exact inlineHeight_margin (heightAndMargins_inline h hi hr)
  · cases h; rfl

theorem inline_context {s : CSS} (z : Intrinsic) (cs : List Node) (hi : isInline s = true) : establishesInline s z cs = true := by
  cases hx : establishesInline s z cs with
  | true => rfl
  | false =>
    have h := ((blockContext_iff s z none cs).1 hx).1
    rw [show (Node.mk s z none cs).style = s from rfl, (isKw_iff _ _).1 hi] at h
    simp only [kw, Val.str.injEq] at h
    exact absurd h (by decide)

theorem inline_children {fp : FP} {lay : Box → Node → Res Node} {s : CSS} {z : Intrinsic} {b b' : Box} {cs cs' : List Node}
    (h : layoutChildren fp lay s z b cs = .ok (b', cs')) (hi : isInline s = true) : b' = b := by
  rcases (children_laid h).2 with ⟨_, h, _⟩ | ⟨h, _⟩
  · exact h
  · rw [inline_context z cs hi] at h; cases h

theorem layoutBox_dropped {fp : FP} {d : Display} {f : Nat} {p : Option CSS} {cb : CB} {n n' : Node} (h : layoutBox fp d f p cb n = .ok n')
    (hh : n.Hidden) : n'.layout = none := by
  cases f with
  | zero => cases h
  | succ f =>
    obtain ⟨s, z, l, cs⟩ := n
    rcases layoutBox_ok h with ⟨_, rfl⟩ | ⟨hs, _⟩
    · rfl
    · exact absurd hh hs

theorem forall₂_last {α β : Type} {P : α → β → Prop} {xs : List α} {ys : List β} (h : List.Forall₂ P xs ys) {x : α} (hx : xs.getLast? = some x) :
    ∃ y, ys.getLast? = some y ∧ P x y := by
  induction h with
  | nil => cases hx
  | @cons a b xs ys h0 h1 ih =>
    cases h1 with
    | nil =>
      cases hx
      exact ⟨b, rfl, h0⟩
    | @cons a' b' xs ys h2 h3 =>
      rw [List.getLast?_cons_cons] at hx ⊢
      exact ih hx

theorem body_viable {fp : FP} {d : Display} {f : Nat} {p : Option CSS} {cb : CB} {s : CSS} {z : Intrinsic} {b b' : Box} {cs cs' : List Node}
    (l : Option Box) (h : layoutBody fp d (fun b n => layoutBox fp d f (some s) (.box b) n) p cb s z b cs = .ok (b', cs')) : (Node.mk s z l cs).Viable := by
  obtain ⟨b1, b2, cs2, b3, cs3, b4, cs4, b5, cs5, h1, h2, h3, ha, hf, h4, h5, h6⟩ := body_phases h
  have hstr : cs3.map Node.strip = cs.map Node.strip := by rw [(relativeHeight_steps h3).strips, (width_steps h2).strips]
  have e3 : (Node.mk s z l cs3).strip = (Node.mk s z l cs).strip := by rw [strip_mk, strip_mk, hstr]
  obtain ⟨s1, s2, s3, s4⟩ := supported_of_width l cs h2
  refine viable_strip e3 ⟨s1, ⟨s2, s3⟩, ?_, ?_, ?_, ?_⟩
  · rcases s4 with h | h
    · exact Or.inl h
    · exact Or.inr h
  · intro hi hr he
    have hi : isInline s = true := (isKw_iff _ _).2 hi
    have hr : z.isReplaced = false := hr
    obtain ⟨x, x1, x2⟩ := (copyEdges_copied h1).mt
    have e1 : b1.margin.top = .auto := (same_auto x2).2 ((calculateSize_auto x1).2 he)
    have e5 := heightAndMargins_inline h5 hi hr
    obtain ⟨mt, e, _⟩ := placeTopInline_ok e5
    rw [inlineHeight_margin e5, inline_children h4 hi, relativeInline_margin h3 hi hr, inline_margin_top h2 hi hr, e1] at e
    cases e
  · intro hb
    rcases children_stacked h4 with ⟨hi, _⟩ | ⟨_, pre, post, laid, e1, _, _, hp, hq⟩
    · rw [← blockContext_iff, hi] at hb; cases hb
    · exact ⟨pre, post, e1, fun c hc => (blockLevel_iff c).1 (hp c hc), fun c hc hb => by
        rw [← blockLevel_iff, hq c hc] at hb; cases hb⟩
  · intro hbl hb hh c hc hid
    have hbl : isBlockLevel s = true := (blockLevel_iff _).2 hbl
    rw [← blockContext_iff, Bool.not_eq_false] at hb
    rcases (children_laid h4).2 with ⟨_, _, hall⟩ | ⟨hi, _⟩
    swap
    · rw [hb] at hi; cases hi
    obtain ⟨c', hc', hl⟩ := forall₂_last hall hc
    have hn := layoutBox_dropped hl hid
    have h5 := heightAndMargins_block h5 hbl
    unfold blockHeight at h5
    obtain ⟨r, h5, _⟩ := bind_eq_ok.1 h5
    unfold blockContentHeight at h5
    rw [if_pos ((isKw_iff (s.get .height) _).2 hh), hc'] at h5
    dsimp only at h5
    rw [hn] at h5
    cases h5

theorem layoutBox_viable (fp : FP) (d : Display) (f : Nat) : ∀ (p : Option CSS) (cb : CB) (n n' : Node),
    layoutBox fp d f p cb n = .ok n' → ∀ m, Reached m n → ¬ m.Hidden → m.Viable := by
  induction f with
  | zero => intro p cb n n' h; cases h
  | succ f ih =>
    rintro p cb ⟨s, z, l, cs⟩ n' h m hm hh
    rcases layoutBox_ok h with ⟨hs, _⟩ | ⟨hs, b, cs0, b', cs', hl, hb, rfl⟩
    · cases hm with
      | here => exact absurd hs hh
      | step hn _ _ _ => exact absurd hs hn
    · have hstr0 : cs0.map Node.strip = cs.map Node.strip := by
        rcases hl with ⟨_, rfl⟩ | ⟨_, _, rfl⟩
        · rfl
        · exact strips_resetOne ..
      cases hm with
      | here =>
        refine viable_strip ?_ (body_viable l hb)
        rw [strip_mk, strip_mk, hstr0]
      | @step c _ hn hc hv hr =>
        obtain ⟨b1, b2, cs2, b3, cs3, b4, cs4, b5, cs5, h1, h2, h3, ha, hf, h4, h5, h6⟩ := body_phases hb
        have hstr : cs3.map Node.strip = cs.map Node.strip := by
          rw [(relativeHeight_steps h3).strips, (width_steps h2).strips, hstr0]
        have : c.strip ∈ cs3.map Node.strip := by rw [hstr]; exact List.mem_map.2 ⟨c, hc, rfl⟩
        obtain ⟨c3, hc3, he⟩ := List.mem_map.1 this
        have hst : c3.style = c.style := by rw [← strip_style, he, strip_style]
        have hvis : visits s z cs3 c3 = true := by
          rw [visits_styles hstr hst, visits_iff l]
          exact hv
        obtain ⟨bb, c', hl'⟩ := visited_laid h4 hc3 hvis
        obtain ⟨m', hm', hs'⟩ := reached_same he.symm hr
        exact viable_strip hs' (ih _ _ _ _ hl' m' hm' (by rw [← hidden_strip, hs', hidden_strip]; exact hh))

theorem layout_viable {fp : FP} {d : Display} {html5 : Bool} {p : Option CSS} {n n' : Node} (h : layout fp d html5 p n = .ok n') :
    ¬ n.Hidden ∧ ∀ m, Reached m n → ¬ m.Hidden → m.Viable := by
  obtain ⟨k, h1, h2, _⟩ := layout_ok h
  refine ⟨fun hh => ?_, fun m hm hh => ?_⟩
  · have hr : (n.reset fp).Hidden := by rw [← hidden_strip, strip_reset, hidden_strip]; exact hh
    have := layoutBox_dropped h1 hr
    obtain ⟨s, z, l, cs⟩ := k
    have e : l = none := this
    subst e
    cases h2
  · obtain ⟨m', hm', hs'⟩ := reached_same (strip_reset fp n).symm hm
    exact viable_strip hs' (layoutBox_viable fp d _ _ _ _ _ h1 m' hm' (by rw [← hidden_strip, hs', hidden_strip]; exact hh))

/-! ## What is enough -/

/-- Everything has a box with a height. -/
def Full (n : Node) : Prop := ∀ m, Occurs m n → ∃ b y, m.layout = some b ∧ b.contentHeight = some y

theorem occurs_noOrigin {m n : Node} (h : Occurs m n) : ∀ {n' : Node}, n.noOrigin = n'.noOrigin → ∃ m', Occurs m' n' ∧ m.noOrigin = m'.noOrigin := by
  induction h with
  | here => intro n' e; exact ⟨n', .here _, e⟩
  | step hc _ ih =>
    intro n' e
    obtain ⟨c', hc', e'⟩ := noOrigin_mem (noOrigin_kids e) hc
    obtain ⟨m', h1, h2⟩ := ih e'
    exact ⟨m', .step hc' h1, h2⟩

theorem full_noOrigin {n n' : Node} (e : n.noOrigin = n'.noOrigin) (h : Full n) : Full n' := by
  intro m hm
  obtain ⟨m', h1, h2⟩ := occurs_noOrigin hm e.symm
  obtain ⟨b, y, h3, h4⟩ := h m' h1
  obtain ⟨b', h5, h6⟩ := noOrigin_boxOf h2.symm h3
  exact ⟨b', y, h5, by have := congrArg (fun b : Box => b.contentHeight) h6; exact this.symm.trans h4⟩

theorem full_resetFuel (fp : FP) (f : Nat) : ∀ n : Node, n.depth ≤ f → (∀ m, Occurs m n → m.layout ≠ none) → Full (n.resetFuel fp f) := by
  induction f with
  | zero => intro n h; exact absurd h (by have := depth_pos n; omega)
  | succ f ih =>
    rintro ⟨s, z, l, cs⟩ hd h m hm
    cases l with
    | none => exact absurd rfl (h _ (.here _))
    | some b =>
      simp only [Node.resetFuel] at hm
      cases hm with
      | here => exact ⟨_, _, rfl, rfl⟩
      | @step c _ hc hr =>
        obtain ⟨c1, hc1, rfl⟩ := List.mem_map.1 hc
        obtain ⟨c0, hc0, e0⟩ := noOrigin_mem (show (resetOne fp cs).2.map Node.noOrigin = cs.map Node.noOrigin by simp only [resetOne, setOrigins_noOrigin]) hc1
        have hdc := depth_child (s := s) (z := z) (l := some b) hc0
        refine ih c1 (by rw [depth_same (strip_of_noOrigin e0)]; omega) (fun k hk he => ?_) m hr
        obtain ⟨k', h1, h2⟩ := occurs_noOrigin hk e0
        obtain ⟨b', hb'⟩ := Option.ne_none_iff_exists'.1 (h k' (.step hc0 h1))
        obtain ⟨b2, h3, _⟩ := noOrigin_boxOf h2.symm hb'
        rw [he] at h3
        cases h3

/-- What is enough for a layout. -/
def Ready (n : Node) : Prop := ∀ m, Reached m n → ¬ m.Hidden → m.style.Sized ∧ m.Known ∧ m.Viable

theorem strips_of_noOrigins {cs cs' : List Node} (h : cs.map Node.noOrigin = cs'.map Node.noOrigin) : cs.map Node.strip = cs'.map Node.strip :=
  forall₂_map_eq ((forall₂_of_map h).imp fun _ _ => strip_of_noOrigin)

theorem ready_strip {n n' : Node} (e : n.strip = n'.strip) (h : Ready n) : Ready n' := by
  intro m hm hh
  obtain ⟨m', h1, h2⟩ := reached_same e.symm hm
  obtain ⟨g1, g2, g3⟩ := h m' h1 (by rw [← hidden_strip, h2, hidden_strip]; exact hh)
  have es : m.style = m'.style := by rw [← strip_style m, ← h2, strip_style]
  have ez : m.intrinsic = m'.intrinsic := by rw [← strip_intrinsic m, ← h2, strip_intrinsic]
  refine ⟨es ▸ g1, ?_, viable_strip h2 g3⟩
  unfold Node.Known
  rw [es, ez]
  exact g2

theorem inlineReplacedWidth_progress {s : CSS} (h : s.Plain) (z : Intrinsic) (fp : FP) (d : Display) (x : Num) (b : Box) (cs : List Node) :
    ∃ r, inlineReplacedWidth fp s z ⟨d, dummyFont fp, some x⟩ b cs = .ok r := by
  obtain ⟨ml, e1⟩ := margin_left_num b
  obtain ⟨mr, e2⟩ := margin_right_num b
  have key : ∃ w, inlineReplacedContentWidth fp s z ⟨d, dummyFont fp, some x⟩ (autoMarginToZero (autoMarginToZero b .left) .right) = .ok w := by
    unfold inlineReplacedContentWidth
    split
    · split
      · split
        · exact ⟨_, rfl⟩
        · exact ⟨_, rfl⟩
        · rw [e1, e2]; exact ⟨_, rfl⟩
        · exact ⟨_, rfl⟩
      · split <;> exact ⟨_, rfl⟩
    · rename_i hw
      exact finite_px (h.width.resolve_left fun e => hw ((isKw_iff _ _).2 e)) fp d _ x
  obtain ⟨w, hw⟩ := key
  unfold inlineReplacedWidth
  simp only
  rw [bind_of_ok hw]
  exact placeLeft_progress fp cs e1

theorem width_progress' {s : CSS} {z : Intrinsic} (h : s.Plain) (hl : isInline s = true ∨ isBlockLevel s = true ∧ z.isReplaced = false) (fp : FP)
    (d : Display) (x : Num) (b : Box) (cs : List Node) : ∃ r, widthAndMargins fp s z ⟨d, dummyFont fp, some x⟩ b cs = .ok r := by
  rcases hl with hi | ⟨hb, hz⟩
  · unfold widthAndMargins
    rw [(plain_unfloated h).1, (plain_unfloated h).2, hi]
    simp only [Bool.false_eq_true, if_false, if_true]
    split
    · exact inlineReplacedWidth_progress h z fp d x b cs
    · exact ⟨_, rfl⟩
  · exact width_progress h hb hz fp d x b cs

theorem placeLeft_width {fp : FP} {b b' : Box} {cs cs' : List Node} (h : placeLeft fp b cs = .ok (b', cs')) : b'.contentWidth = b.contentWidth := by
  unfold placeLeft at h
  obtain ⟨ml, _, h⟩ := bind_eq_ok.1 h
  rw [(ok_pair h).1]
  exact (setContent_wide ..).width.symm

theorem width_known {fp : FP} {s : CSS} {z : Intrinsic} {c : PxCtx} {b b' : Box} {cs cs' : List Node}
    (h : widthAndMargins fp s z c b cs = .ok (b', cs')) (hl : isInline s = true ∨ isBlockLevel s = true ∧ z.isReplaced = false)
    (hk : isInline s = true → z.isReplaced = false → z.width ≠ none) : ∃ w, b'.contentWidth = some w := by
  rcases hl with hi | ⟨hb, hz⟩
  · cases hr : z.isReplaced with
    | false =>
      rw [widthAndMargins_inline h hi hr]
      exact Option.ne_none_iff_exists'.1 (hk hi hr)
    | true =>
      unfold widthAndMargins at h
      split at h
      · cases h
      split at h
      · cases h
      unfold inlineReplacedWidth at h
      simp only at h
      obtain ⟨w, _, h⟩ := bind_eq_ok.1 h
      exact ⟨w, placeLeft_width h⟩
  · obtain ⟨_, v, _, m, _⟩ := blockWidth_fills (widthAndMargins_block h hb)
    exact ⟨v.w, m.2.2.2.1⟩

theorem zeroed_top (b : Box) : ∃ y, (autoMarginToZero (autoMarginToZero b .top) .bottom).margin.top = .num y := by
  have key : ∃ y, (autoMarginToZero b .top).margin.get .top = .num y := by
    unfold autoMarginToZero
    cases hm : b.margin.get .top with
    | auto =>
      obtain ⟨y, h1, _⟩ := setMargin_num b .top (.int 0)
      exact ⟨y, h1⟩
    | num y => exact ⟨y, hm⟩
  obtain ⟨y, hy⟩ := key
  exact ⟨y, autoZero_keeps _ .top .bottom hy⟩

theorem placeTop_progress (fp : FP) {b : Box} (cs : List Node) {y : Num} (h : b.margin.top = .num y) : ∃ r, placeTopInline fp b cs = .ok r := by
  unfold placeTopInline
  rw [h]
  exact ⟨_, rfl⟩

theorem replacedHeight_progress {s : CSS} (h : s.Plain) (z : Intrinsic) (fp : FP) (d : Display) (x w : Num) (b : Box) (cs : List Node)
    (hw : b.contentWidth = some w) : ∃ r, inlineReplacedHeight fp s z ⟨d, dummyFont fp, some x⟩ b cs = .ok r := by
  obtain ⟨mt, e1⟩ := zeroed_top b
  have hw' : (autoMarginToZero (autoMarginToZero b .top) .bottom).contentWidth = some w := (autoVertical_wide b).width.symm.trans hw
  have key : ∃ y, inlineReplacedContentHeight fp s z ⟨d, dummyFont fp, some x⟩ (autoMarginToZero (autoMarginToZero b .top) .bottom) = .ok y := by
    unfold inlineReplacedContentHeight
    split
    · split
      · exact ⟨_, rfl⟩
      · split
        · rename_i ht
          obtain ⟨r, hr⟩ : ∃ r, z.ratio = some r := by
            cases hz : z.ratio with
            | none => rw [hz] at ht; cases ht
            | some r => exact ⟨r, rfl⟩
          rw [hw', hr]; exact ⟨_, rfl⟩
        · split
          · rename_i ht
            obtain ⟨r, hr⟩ : ∃ r, z.height = some r := by
              cases hz : z.height with
              | none => rw [hz] at ht; cases ht
              | some r => exact ⟨r, rfl⟩
            rw [hr]; exact ⟨_, rfl⟩
          · rw [hw']; exact ⟨_, rfl⟩
    · rename_i hh
      exact finite_px (h.height.resolve_left fun e => hh ((isKw_iff _ _).2 e)) fp d _ x
  obtain ⟨y, hy⟩ := key
  unfold inlineReplacedHeight
  simp only
  rw [bind_of_ok hy]
  exact placeTop_progress fp cs e1

/-- The height of an inline element can be computed. -/
theorem inlineHeight_progress {s : CSS} {z : Intrinsic} (h : s.Plain) (hi : isInline s = true) (fp : FP) (d : Display) (parent : Option CSS) (x w : Num)
    (b : Box) (cs : List Node) (hw : b.contentWidth = some w) (hk : z.isReplaced = false → z.height ≠ none)
    (hm : z.isReplaced = false → ∃ y, b.margin.top = .num y) :
    ∃ b' cs', heightAndMargins fp s z parent ⟨d, dummyFont fp, some x⟩ b cs = .ok (b', cs') ∧ b'.contentHeight ≠ none := by
  unfold heightAndMargins
  rw [(plain_unfloated h).1, (plain_unfloated h).2, hi]
  simp only [Bool.false_eq_true, if_false, if_true]
  split
  · obtain ⟨⟨b', cs'⟩, e⟩ := replacedHeight_progress h z fp d x w b cs hw
    refine ⟨b', cs', e, ?_⟩
    unfold inlineReplacedHeight at e
    simp only at e
    obtain ⟨y, _, e⟩ := bind_eq_ok.1 e
    rw [placeTop_height e]
    simp
  · rename_i hr
    have hr : z.isReplaced = false := by simpa using hr
    obtain ⟨y, hy⟩ := hm hr
    obtain ⟨⟨b', cs'⟩, e⟩ := placeTop_progress fp (b := { b with contentHeight := z.height }) cs hy
    refine ⟨b', cs', e, ?_⟩
    rw [placeTop_height e]
    exact hk hr

/-- After its layout an element has a box with a height. -/
theorem layoutBox_tall {fp : FP} {d : Display} {f : Nat} {p : Option CSS} {cb : CB} {c : Node} {c' : Node} (h : layoutBox fp d f p cb c = .ok c')
    (hh : ¬ c.Hidden) (hk : c.Known) (hv : c.Viable) : ∃ s z b ks y, c' = .mk s z (some b) ks ∧ b.contentHeight = some y := by
  cases f with
  | zero => cases h
  | succ f =>
    obtain ⟨s, z, l, cs⟩ := c
    rcases layoutBox_ok h with ⟨hs, _⟩ | ⟨hs, b, cs0, b', cs', hl, hb, rfl⟩
    · exact absurd hs hh
    · rcases hv.level with hi | ⟨hbl, _⟩
      · obtain ⟨b1, b2, cs2, b3, cs3, b4, cs4, b5, cs5, h1, h2, h3, ha, hf, h4, h5, h6⟩ := body_phases hb
        have hi' : isInline s = true := (isKw_iff _ _).2 hi
        have e := applyRelative_height h6
        cases hr : z.isReplaced with
        | false =>
          obtain ⟨y, hy⟩ := Option.ne_none_iff_exists'.1 (hk hi hr).2
          exact ⟨s, z, b', cs', y, rfl, by rw [e, placeTop_height (heightAndMargins_inline h5 hi' hr)]; exact hy⟩
        | true =>
          have h5 := heightAndMargins_replaced h5 hi' hr
          unfold inlineReplacedHeight at h5
          simp only at h5
          obtain ⟨y, _, h5⟩ := bind_eq_ok.1 h5
          exact ⟨s, z, b', cs', y, rfl, by rw [e, placeTop_height h5]⟩
      · obtain ⟨x, hx⟩ := body_stands hb ((blockLevel_iff _).2 hbl)
        exact ⟨s, z, b', cs', x.h, rfl, hx.2.2.2.1⟩

theorem layoutBox_stands {fp : FP} {d : Display} {f : Nat} {p : Option CSS} {cb : CB} {c : Node} {c' : Node} (h : layoutBox fp d f p cb c = .ok c')
    (hb : isBlockLevel c.style = true) : ∃ s z b ks x, c' = .mk s z (some b) ks ∧ b.Stands x := by
  cases f with
  | zero => cases h
  | succ f =>
    obtain ⟨s, z, l, cs⟩ := c
    rcases layoutBox_ok h with ⟨hs, _⟩ | ⟨hs, b, cs0, b', cs', hl, hbody, rfl⟩
    · exact absurd hs (blockLevel_display hb)
    · obtain ⟨x, hx⟩ := body_stands hbody hb
      exact ⟨s, z, b', cs', x, rfl, hx⟩

theorem anonymize_flow {pre post : List Node} (h : ∀ c ∈ pre, isBlockLevel c.style = true) (h' : ∀ c ∈ post, isBlockLevel c.style = false) :
    anonymize (pre ++ post) = pre.map .node := by
  have tail : ∀ (post : List Node), (∀ c ∈ post, isBlockLevel c.style = false) → ∀ xs, anonymizeLoop xs post = [] := by
    intro post
    induction post with
    | nil => intro _ xs; cases xs <;> rfl
    | cons c post ih =>
      intro hp xs
      simp only [anonymizeLoop, hp c List.mem_cons_self, Bool.false_eq_true, if_false]
      split <;> exact ih (fun c hc => hp c (List.mem_cons_of_mem _ hc)) _
  unfold anonymize
  induction pre with
  | nil => exact tail post h' none
  | cons c pre ih =>
    simp only [List.cons_append, anonymizeLoop]
    rw [if_pos (h c List.mem_cons_self), ih fun x hx => h x (List.mem_cons_of_mem _ hx)]
    rfl

/-- The height of a block of specified height can be computed. -/
theorem height_progress_fixed {s : CSS} {z : Intrinsic} (h : s.Plain) (hb : isBlockLevel s = true) (hz : z.isReplaced = false)
    (hh : s.get .height ≠ kw "auto") (fp : FP) (d : Display) (parent : Option CSS)
    (hp : ∀ p, parent = some p → p.get .height = kw "auto" ∨ (p.get .height).Finite) (x : Num) (b : Box) (cs : List Node) :
    ∃ b' cs', heightAndMargins fp s z parent ⟨d, dummyFont fp, some x⟩ b cs = .ok (b', cs') := by
  unfold heightAndMargins
  rw [(plain_unfloated h).1, (plain_unfloated h).2, block_not_inline hb, hb, hz]
  simp only [Bool.false_eq_true, if_false, if_true]
  unfold blockHeight blockContentHeight
  rw [if_neg fun e => hh ((isKw_iff _ _).1 e)]
  obtain ⟨y, e⟩ := explicitHeight_progress h hh fp d parent hp x
  rw [e]
  exact ⟨_, _, rfl⟩

theorem layoutBox_ready (fp : FP) (d : Display) (f : Nat) : ∀ (n : Node) (parent : Option CSS) (cb : CB) (x y : Num), n.depth ≤ f → Full n →
    Ready n → cb.width = some x → cb.height = some y → (∀ p, parent = some p → p.get .height = kw "auto" ∨ (p.get .height).Finite) →
    ∃ n', layoutBox fp d f parent cb n = .ok n' := by
  induction f with
  | zero => intro n _ _ _ _ h; exact absurd h (by have := depth_pos n; omega)
  | succ f ih =>
    rintro ⟨s, z, l, cs⟩ parent cb x y hdep hfl hrd hx hy hp
    by_cases hh : s.get .display = .none
    · exact ⟨.mk s z none cs, layoutBox_hidden ((hidden_iff s).2 hh)⟩
    obtain ⟨hsz, hkn, hvi⟩ := hrd _ (.here _) hh
    have hs : s.Plain := ⟨hsz, hvi.float, hvi.position⟩
    have hlev : isInline s = true ∨ isBlockLevel s = true ∧ z.isReplaced = false :=
      hvi.level.imp (isKw_iff _ _).2 fun h => ⟨(blockLevel_iff (.mk s z l cs)).2 h.1, h.2⟩
    obtain ⟨b, y0, hl, hb0⟩ := hfl _ (.here _)
    have hl : l = some b := hl
    subst hl
    have kids : ∀ cs' : List Node, cs'.map Node.noOrigin = cs.map Node.noOrigin → ∀ c ∈ cs', Full c ∧ c.depth ≤ f ∧
        (visits s z cs' c = true → Ready c) := by
      intro cs' e c hc
      obtain ⟨c0, h0, e0⟩ := noOrigin_mem e hc
      have hst : c.strip = c0.strip := strip_of_noOrigin e0
      refine ⟨full_noOrigin e0.symm fun m hm => hfl m (.step h0 hm), ?_, fun hv => ready_strip hst.symm fun m hm hmh => ?_⟩
      · rw [depth_same hst]
        have := depth_child (s := s) (z := z) (l := some b) h0
        omega
      · refine hrd m (.step hh h0 ?_ hm) hmh
        rw [← visits_iff (some b), ← visits_styles (strips_of_noOrigins e) (by rw [← strip_style c, hst, strip_style])]
        exact hv
    have body : ∃ r, layoutBody fp d (fun b n => layoutBox fp d f (some s) (.box b) n) parent cb s z b cs = .ok r := by
      obtain ⟨b1, h1⟩ := copyEdges_progress hs fp d x y b
      obtain ⟨⟨b2, cs2⟩, h2⟩ := width_progress' hs hlev fp d x b1 cs
      obtain ⟨w, hw⟩ := width_known h2 hlev fun hi hr => (hkn ((isKw_iff _ _).1 hi) hr).1
      have hh2 : b2.contentHeight = some y0 := by rw [width_ch h2, copyEdges_ch h1, hb0]
      have n2 := (width_steps h2).noOrigin
      have top2 : isInline s = true → z.isReplaced = false → ∃ t, b2.margin.top = .num t := by
        intro hi hr
        obtain ⟨u, u1, u2⟩ := (copyEdges_copied h1).mt
        cases hm : b2.margin.top with
        | num t => exact ⟨t, rfl⟩
        | auto =>
          rw [inline_margin_top h2 hi hr] at hm
          exact absurd ((calculateSize_auto u1).1 ((same_auto u2).1 hm)) (hvi.top ((isKw_iff _ _).1 hi) hr)
      have last2 : LastBoxed cs2 := by
        intro c hc
        obtain ⟨p1, _⟩ := kids cs2 n2 c (List.mem_of_getLast? hc)
        exact p1 c (.here c)
      obtain ⟨b3, cs3, h3, hh3⟩ : ∃ b3 cs3, relativeHeight fp s z parent ⟨d, dummyFont fp, some y⟩ b2 cs2 = .ok (b3, cs3) ∧ b3.contentHeight ≠ none := by
        unfold relativeHeight
        split
        · rcases hlev with hi | ⟨hb, hz⟩
          · exact inlineHeight_progress hs hi fp d parent y w b2 cs2 hw (fun hr => (hkn ((isKw_iff _ _).1 hi) hr).2) (top2 hi)
          · exact height_progress hs hb hz fp d parent hp y b2 cs2 last2
        · exact ⟨b2, cs2, rfl, by rw [hh2]; simp⟩
      have hw3 : b3.contentWidth = some w := (relativeHeight_wide h3).1.symm.trans hw
      obtain ⟨y3, hy3⟩ := Option.ne_none_iff_exists'.1 hh3
      have n3 : cs3.map Node.noOrigin = cs.map Node.noOrigin := by rw [(relativeHeight_steps h3).noOrigin, n2]
      have lay3 : ∀ c ∈ cs3, visits s z cs3 c = true → ∀ b : Box, b.contentWidth = some w → b.contentHeight = some y3 →
          ∃ c', layoutBox fp d f (some s) (.box b) c = .ok c' := by
        intro c hc hv b hbw hbh
        obtain ⟨p1, p2, p3⟩ := kids cs3 n3 c hc
        exact ih c (some s) (.box b) w y3 p2 p1 (p3 hv) hbw hbh (fun p e => by cases e; exact hs.height)
      have hv3 : (Node.mk s z (some b) cs3).Viable := by
        refine viable_strip ?_ hvi
        rw [strip_mk, strip_mk, strips_of_noOrigins n3]
      obtain ⟨⟨b4, cs4⟩, h4⟩ : ∃ r, layoutChildren fp (fun b n => layoutBox fp d f (some s) (.box b) n) s z b3 cs3 = .ok r := by
        unfold layoutChildren
        split
        · rename_i hi
          obtain ⟨cs', e⟩ := inlineLoop_progress (lay := fun n => layoutBox fp d f (some s) (.box b3) n) (cs := cs3) fun c hc =>
            lay3 c hc (by unfold visits; rw [hi]; rfl) b3 hw3 hy3
          rw [e]; exact ⟨_, rfl⟩
        · rename_i hi
          have hi : establishesInline s z cs3 = false := by simpa using hi
          obtain ⟨pre, post, e1, e2, e3⟩ := hv3.flow ((blockContext_iff s z (some b) cs3).1 hi)
          have e1 : cs3 = pre ++ post := e1
          have q2 : ∀ c ∈ pre, isBlockLevel c.style = true := fun c hc => (blockLevel_iff c).2 (e2 c hc)
          have q3 : ∀ c ∈ post, isBlockLevel c.style = false := fun c hc => by
            cases hq : isBlockLevel c.style with
            | false => rfl
            | true => exact absurd ((blockLevel_iff c).1 hq) (e3 c hc)
          have ea : anonymize cs3 = pre.map .node := by rw [e1]; exact anonymize_flow q2 q3
          rw [ea]
          obtain ⟨⟨b', laid⟩, e⟩ := blockLoop_progress (fp := fp) (lay := fun b n => layoutBox fp d f (some s) (.box b) n) (w := w) (y := y3) (cs := pre)
            (fun c hc b hbw hbh => by
              obtain ⟨c', hc'⟩ := lay3 c (e1 ▸ List.mem_append_left _ hc) (by unfold visits; rw [q2 c hc]; simp) b hbw hbh
              obtain ⟨s', z', cb', ks, v, rfl, hv⟩ := layoutBox_stands hc' (q2 c hc)
              exact ⟨s', z', cb', ks, v, hc', hv⟩) b3 (.int 0) none hw3 hy3
          rw [e]; exact ⟨_, rfl⟩
      have tall : ∀ c c', c ∈ cs3 → visits s z cs3 c = true → ¬ c.Hidden → ∀ b, layoutBox fp d f (some s) (.box b) c = .ok c' →
          ∃ s z b ks y, c' = .mk s z (some b) ks ∧ b.contentHeight = some y := by
        intro c c' hc hv hch b hl
        obtain ⟨_, g2, g3⟩ := (kids cs3 n3 c hc).2.2 hv c (.here c) hch
        exact layoutBox_tall hl hch g2 g3
      obtain ⟨b5, cs5, h5⟩ : ∃ b5 cs5, heightAndMargins fp s z parent ⟨d, dummyFont fp, some y⟩ b4 cs4 = .ok (b5, cs5) := by
        rcases hlev with hi | ⟨hb, hz⟩
        · have e4 := inline_children h4 hi
          obtain ⟨b5, cs5, h5, _⟩ := inlineHeight_progress hs hi fp d parent y w b4 cs4 (e4 ▸ hw3) (fun hr => (hkn ((isKw_iff _ _).1 hi) hr).2)
            (fun hr => by rw [e4, relativeInline_margin h3 hi hr]; exact top2 hi hr)
          exact ⟨b5, cs5, h5⟩
        · by_cases hau : s.get .height = kw "auto"
          · have last4 : LastBoxed cs4 := by
              intro c' hc'
              rcases (children_laid h4).2 with ⟨hi, _, hall⟩ | ⟨hi, pre, post, laid, e1, e2, hall, hp1, hp2⟩
              · obtain ⟨c, hc, hl⟩ := forall₂_last hall.flip hc'
                have hbl := (blockLevel_iff (.mk s z (some b) cs3)).1 hb
                have hnh := hv3.last hbl (fun hbc => by rw [← blockContext_iff, hi] at hbc; cases hbc) hau c hc
                obtain ⟨s', z', b', ks, y', rfl, hy'⟩ := tall c c' (List.mem_of_getLast? hc) (by unfold visits; rw [hi]; rfl) hnh _ hl
                exact ⟨b', y', rfl, hy'⟩
              · have hm := List.mem_of_getLast? hc'
                rw [e2] at hm
                rcases List.mem_append.1 hm with hm | hm
                · obtain ⟨c, hc, hl⟩ := forall₂_left hall.flip hm
                  have hc3 : c ∈ cs3 := e1 ▸ List.mem_append_left _ hc
                  have hv : visits s z cs3 c = true := by unfold visits; rw [hp1 c hc]; simp
                  have hnh : ¬ c.Hidden := blockLevel_display (hp1 c hc)
                  cases hl with
                  | same h =>
                    obtain ⟨s', z', b', ks, y', rfl, hy'⟩ := tall c c' hc3 hv hnh _ h
                    exact ⟨b', y', rfl, hy'⟩
                  | moved v h =>
                    obtain ⟨s', z', b', ks, y', e, hy'⟩ := tall c _ hc3 hv hnh _ h
                    cases e
                    exact ⟨_, y', rfl, (setContent_contentHeight ..).trans hy'⟩
                · exact (kids cs3 n3 c' (e1 ▸ List.mem_append_right _ hm)).1 c' (.here c')
            obtain ⟨b5, cs5, h5, _⟩ := height_progress hs hb hz fp d parent hp y b4 cs4 last4
            exact ⟨b5, cs5, h5⟩
          · exact height_progress_fixed hs hb hz hau fp d parent hp y b4 cs4
      obtain ⟨r, h6⟩ := relative_progress hs fp cb d x y b5 cs5
      refine ⟨r, ?_⟩
      unfold layoutBody
      rw [hx, hy]
      simp only [bind_of_ok h1, bind_of_ok h2, bind_of_ok h3, (plain_unfloated hs).1, (plain_unfloated hs).2, Bool.false_eq_true, if_false]
      simp only [bind_of_ok h4, bind_of_ok h5]
      exact h6
    obtain ⟨⟨b', cs'⟩, hbody⟩ := body
    have hn : (s.get .display).isNone = false := by
      cases hq : (s.get .display).isNone with
      | false => rfl
      | true => exact absurd ((hidden_iff s).1 hq) hh
    refine ⟨.mk s z (some b') cs', ?_⟩
    simp only [layoutBox, hn, Bool.false_eq_true, if_false, hbody]

theorem layout_ready {fp : FP} {d : Display} {html5 : Bool} {p : Option CSS} {n : Node} (hbx : ∀ m, Occurs m n → m.layout ≠ none)
    (hp : ∀ q, p = some q → q.get .height = kw "auto" ∨ (q.get .height).Finite) (hn : ¬ n.Hidden) (h : Ready n) :
    ∃ n', layout fp d html5 p n = .ok n' := by
  obtain ⟨b, hb⟩ := Option.ne_none_iff_exists'.1 (hbx n (.here n))
  have e := strip_reset fp n
  have hr := ready_strip e.symm h
  obtain ⟨k, h1⟩ := layoutBox_ready fp d n.depth (n.reset fp) p (.viewport d) d.contentWidth d.contentHeight (by rw [depth_same e])
    (full_resetFuel fp _ n le_rfl hbx) hr rfl rfl hp
  have hn' : ¬ (n.reset fp).Hidden := by rw [← hidden_strip, e, hidden_strip]; exact hn
  obtain ⟨_, g2, g3⟩ := hr _ (.here _) hn'
  obtain ⟨s, z, b', ks, y, rfl, _⟩ := layoutBox_tall h1 hn' g2 g3
  unfold layout
  rw [hb]
  simp only [h1, finishRoot]
  exact ⟨_, rfl⟩

end Colosseum
