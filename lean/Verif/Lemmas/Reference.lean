import Verif.Spec.Reference
import Verif.Props.Collapse
import Verif.Props.Blocks
import Verif.Props.Limits

/-!
# The reference layout
-/

namespace Colosseum

variable {fp : FP} {d : Display}

theorem pixels_length {v : Val} {x : Num} (h : v.Length fp d (dummyFont fp) x) : v.pixels fp d = some x.val := by
  unfold Val.pixels
  rw [length_px h none]

theorem pixels_kw (s : String) : (kw s).pixels fp d = none := rfl

theorem pixels_none : Val.none.pixels fp d = none := rfl

theorem regular_strip {m m' : Node} (h : m.strip = m'.strip) (hm : m.Regular fp d) : m'.Regular fp d := by
  have e1 : m.style = m'.style := by rw [← strip_style, h, strip_style]
  have e2 : m.intrinsic = m'.intrinsic := by rw [← strip_intrinsic, h, strip_intrinsic]
  obtain ⟨h1, h2, h3, h4, h5, h6, h7, h8, h9⟩ := hm
  rw [e1] at h1 h3 h4 h5 h6 h7 h8 h9
  rw [e2] at h2
  exact ⟨h1, h2, h3, h4, h5, h6, h7, h8, h9⟩

/-- All elements of the document are such blocks. -/
abbrev Node.AllRegular (n : Node) (fp : FP) (d : Display) : Prop := ∀ m, Sub m n → m.Regular fp d

theorem allRegular_strip {n n' : Node} (h : n'.strip = n.strip) (hn : n.AllRegular fp d) : n'.AllRegular fp d := by
  intro m hm
  obtain ⟨m', h1, h2⟩ := sub_strip h hm
  exact regular_strip h2 (hn m' h1)

theorem allRegular_kid {n c : Node} (h : n.AllRegular fp d) (hc : c ∈ n.children) : c.AllRegular fp d := fun m hm => h m (.child hc hm)

theorem Node.Regular.level {m : Node} (h : m.Regular fp d) : m.BlockLevel := h.block.elim Or.inl fun e => Or.inr (Or.inl e)

theorem Node.Regular.shown {m : Node} (h : m.Regular fp d) : ¬ m.Hidden := blockLevel_not_hidden h.level

theorem Node.Regular.static {m : Node} (h : m.Regular fp d) : ¬ m.Relative := by
  intro e
  have e : m.style.get .position = kw "relative" := e
  rw [h.position] at e
  simp only [kw, Val.str.injEq] at e
  revert e; decide

theorem regular_blocky {n : Node} (h : n.AllRegular fp d) : n.Blocky fp d := fun m hm => ⟨(h m hm).block, (h m hm).content, fun t _ => (h m hm).margin t⟩

theorem regular_context {m : Node} (h : m.AllRegular fp d) (hc : m.children ≠ []) : m.BlockContext := by
  have hm := h m (.refl _)
  obtain ⟨c, hc⟩ := List.exists_mem_of_ne_nil _ hc
  refine ⟨?_, hm.content, c, hc, (h c (.child hc (.refl _))).level⟩
  rcases hm.block with e | e
  · exact Or.inl e
  · exact Or.inr (Or.inl e)

/-! ## It can be laid out -/

theorem sure_finite {v : Val} (h : v.Sure fp d) : v.Finite := by
  obtain ⟨x, k, val, rfl, hk, hx⟩ := h
  obtain ⟨l, hl, _⟩ := pxOf_ok hx
  obtain ⟨a, rfl⟩ := luOf_ok_fin hl
  exact ⟨k, a, rfl⟩

theorem regular_plain {m : Node} (h : m.Regular fp d) : m.PlainBlock := by
  refine ⟨h.level, h.content, ⟨⟨fun e => absurd e h.static, ?_, ?_, ?_, ?_, ?_, ?_, fun t => (h.margin t).imp id sure_finite, fun t => ?_,
    fun t => sure_finite (h.padding t)⟩, h.float, ?_⟩⟩
  · exact (h.size .width (by simp)).imp id sure_finite
  · exact (h.size .height (by simp)).imp id sure_finite
  · exact (h.size .minWidth (by simp)).imp id sure_finite
  · exact (h.size .minHeight (by simp)).imp id sure_finite
  · exact (h.most .maxWidth (by simp)).imp id sure_finite
  · exact (h.most .maxHeight (by simp)).imp id sure_finite
  · rcases h.border t with e | e | e | e
    · exact Or.inl e
    · exact Or.inr (Or.inl e)
    · exact Or.inr (Or.inr (Or.inl e))
    · exact Or.inr (Or.inr (Or.inr (sure_finite e)))
  · rw [h.position]
    simp only [kw, ne_eq, Val.str.injEq]
    decide

theorem occurs_sub {m n : Node} (h : Occurs m n) : Sub m n := by
  induction h with
  | here => exact .refl _
  | step hc _ ih => exact .child hc ih

theorem regular_laid {html5 : Bool} {p : Option CSS} {n : Node} (hbx : AllBoxed n) (h : n.AllRegular fp d)
    (hp : ∀ q, p = some q → q.get .height = kw "auto" ∨ (q.get .height).Finite) : ∃ n', layout fp d html5 p n = .ok n' :=
  C52_blocks_partial fp d html5 p n hbx (fun m hm => regular_plain (h m (occurs_sub hm))) hp

/-! ## One element -/

theorem regular_edges (L : fp.Laws) {html5 : Bool} {p ps : Option CSS} {n n' m : Node} {w : Option Num} (h : layout fp d html5 p n = .ok n')
    (hm : Within (some d.contentWidth) p n' w ps m) (hr : m.Regular fp d) :
    ∃ b, m.layout = some b ∧ ∀ t, (b.border.get t).val = m.style.bordered fp d t ∧ (b.padding.get t).val = m.style.padded fp d t := by
  obtain ⟨b, hb, _⟩ := C79_border fp L d html5 p ps n n' m w .top h hm hr.shown
  refine ⟨b, hb, fun t => ⟨?_, ?_⟩⟩
  · obtain ⟨b', hb', e⟩ := C79_border fp L d html5 p ps n n' m w t h hm hr.shown
    cases hb.symm.trans hb'
    unfold CSS.bordered
    rcases hr.border t with hv | hv | hv | ⟨x, hx⟩
    · rw [e _ (Or.inl ⟨hv, rfl⟩), hv]
      rfl
    · rw [e _ (Or.inr (Or.inl ⟨hv, rfl⟩)), hv]
      rfl
    · rw [e _ (Or.inr (Or.inr (Or.inl ⟨hv, rfl⟩))), hv]
      rfl
    · have no : ∀ s, (m.style.get (.borderWidth t)).isKw s = false := by
        intro s
        rw [← Bool.not_eq_true, isKw_iff]
        exact length_ne_kw hx s
      rw [e _ (Or.inr (Or.inr (Or.inr hx)))]
      simp only [no, Bool.false_eq_true, if_false, pixels_length hx, Option.getD_some]
  · obtain ⟨b', hb', e⟩ := C79_padding fp L d html5 p ps n n' m w t h hm hr.shown
    cases hb.symm.trans hb'
    obtain ⟨x, hx⟩ := hr.padding t
    rw [e x hx]
    unfold CSS.padded
    rw [pixels_length hx]
    rfl

theorem regular_margin {m : Node} (hr : m.Regular fp d) (t : Side) (w : Option Num) :
    ∃ l : Option Num, (m.style.get (.margin t)).Margin fp ⟨d, dummyFont fp, w⟩ l ∧ l.map Num.val = m.style.outside fp d t := by
  unfold CSS.outside
  rcases hr.margin t with e | ⟨x, hx⟩
  · exact ⟨none, e, by rw [e]; rfl⟩
  · refine ⟨some x, ?_, (pixels_length hx).symm⟩
    have e := length_px hx w
    obtain ⟨k, val, e', _, _⟩ := hx
    rw [e'] at e
    exact ⟨_, e', e⟩

theorem sure_width {v : Val} {s : String} (h : v = kw s ∨ v.Sure fp d) (w : Option Num) :
    (v.px fp ⟨d, dummyFont fp, w⟩).toOption.map Num.val = v.pixels fp d := by
  rcases h with rfl | ⟨x, hx⟩
  · rfl
  · rw [length_px hx, pixels_length hx]; rfl

theorem sure_most {v : Val} (h : v = .none ∨ v.Sure fp d) (w : Option Num) : (v.px fp ⟨d, dummyFont fp, w⟩).toOption.map Num.val = v.pixels fp d := by
  rcases h with rfl | ⟨x, hx⟩
  · rfl
  · rw [length_px hx, pixels_length hx]; rfl

/-- The horizontal measures are those of the reference. -/
theorem regular_across (L : fp.Laws) {M : Nat} {html5 : Bool} {p ps : Option CSS} {n n' m : Node} {w : Option Num}
    (hn : n.Moderate fp d M) (h : layout fp d html5 p n = .ok n') (hm : Within (some d.contentWidth) p n' w ps m) (hr : m.Regular fp d) :
    ∃ b x size, m.layout = some b ∧ w = some size ∧ b.contentWidth = some x ∧ x.val = m.style.contentWide fp d size.val ∧
      (b.pos .h).content.val = m.style.shift fp d size.val + m.style.edge fp d .left := by
  obtain ⟨b, x, size, hb, hx, hw, hs⟩ := C80_across fp L d M html5 p ps n n' m w hn h hm hr.level
  obtain ⟨l, hl, l0⟩ := regular_margin hr .left w
  obtain ⟨r, hrr, r0⟩ := regular_margin hr .right w
  obtain ⟨b', x', size', hb', hx', hw', hu⟩ := C80_margins fp L d M html5 p ps n n' m w l r hn h hm hr.level hl hrr
  obtain ⟨b2, ml, hb2, e2, e3⟩ := C80_left fp L d M html5 p ps n n' m w hn h hm hr.level hr.static
  obtain ⟨b3, hb3, eg⟩ := regular_edges L h hm hr
  cases hb.symm.trans hb'
  cases hb.symm.trans hb2
  cases hb.symm.trans hb3
  cases hw.symm.trans hw'
  have ex : x' = x := by
    obtain ⟨a1, a2, a3, a4, a5, a6, a7⟩ := hx
    obtain ⟨c1, c2, c3, c4, c5, c6, c7⟩ := hx'
    cases x; cases x'
    simp only at *
    cases a1.symm.trans c1
    cases a2.symm.trans c2
    cases a3.symm.trans c3
    cases a4.symm.trans c4
    cases a5.symm.trans c5
    cases a6.symm.trans c6
    cases a7.symm.trans c7
    rfl
  subst ex
  obtain ⟨a1, a2, a3, a4, a5, a6, a7⟩ := hx
  have eml : x'.ml = ml := MVal.num.inj (a1.symm.trans e2)
  have g1 : x'.bl.val = m.style.bordered fp d .left := by rw [← a2]; exact (eg .left).1
  have g2 : x'.pl.val = m.style.padded fp d .left := by rw [← a3]; exact (eg .left).2
  have g3 : x'.pr.val = m.style.padded fp d .right := by rw [← a5]; exact (eg .right).2
  have g4 : x'.br.val = m.style.bordered fp d .right := by rw [← a6]; exact (eg .right).1
  have auto : ((m.style.get .width).pixels fp d).isNone = (m.style.get .width).isKw "auto" := by
    rcases hr.size .width (by simp) with e | ⟨y, hy⟩
    · rw [e]; rfl
    · rw [pixels_length hy]
      symm
      rw [Option.isNone_some, ← Bool.not_eq_true, isKw_iff]
      exact length_ne_kw hy _
  -- the content width
  have ew : x'.w.val = m.style.contentWide fp d size.val := by
    unfold CSS.contentWide
    rcases hr.size .width (by simp) with e | ⟨y, hy⟩
    · rw [e]
      show x'.w.val = _
      have hs' : x'.sum = size.val := hs.elim id fun q => absurd e q.1
      rcases hu _ rfl with ⟨_, u1, u2⟩ | ⟨_, _, u3, _⟩
      · rw [(isKw_iff _ _).2 e] at u1 u2
        simp only [usedMargins, if_true] at u1 u2
        rw [l0] at u1
        rw [r0] at u2
        rw [pixels_kw]
        show x'.w.val = size.val - _ - _ - _ - _
        rw [← u1, ← u2, ← hs']
        unfold Across.sum CSS.edge
        rw [← g1, ← g2, ← g3, ← g4]
        ring
      · exact absurd e u3
    · obtain ⟨b4, x4, v, k1, k2, k3, k4, _⟩ := C47_width_partial fp d html5 p ps n n' m w h hm hr.level (length_ne_kw hy _)
      cases hb.symm.trans k1
      cases (length_px hy w).symm.trans k3
      cases a4.symm.trans k2
      rw [pixels_length hy]
      show x'.w.val = limited _ _ y.val
      rw [k4]
      congr 1
      · exact sure_width (hr.size .minWidth (by simp)) w
      · exact sure_most (hr.most .maxWidth (by simp)) w
  refine ⟨b, x'.w, size, hb, hw, a4, ew, ?_⟩
  -- the left margin
  have ei : x'.inner = m.style.wide fp d size.val := by
    unfold Across.inner CSS.wide CSS.edge
    rw [← ew, ← g1, ← g2, ← g3, ← g4]
    ring
  have em : x'.ml.val = m.style.shift fp d size.val := by
    unfold CSS.shift
    simp only
    rw [auto, ← ei, ← l0, ← r0]
    rcases hu _ rfl with ⟨u0, u1, _⟩ | ⟨rfl, rfl, u3, u4, u5, _⟩
    · rw [u1, if_neg]
      rintro ⟨q1, q2, q3, q4⟩
      rcases u0 with u0 | u0 | u0 | u0
      · exact u0 (Option.map_eq_none_iff.1 q1)
      · exact u0 (Option.map_eq_none_iff.1 q2)
      · rw [(isKw_iff _ _).2 u0] at q3; cases q3
      · exact absurd q4 (not_le.2 u0)
    · rw [u5, if_pos]
      refine ⟨rfl, rfl, ?_, u4⟩
      rw [← Bool.not_eq_true, isKw_iff]
      exact u3
  rw [e3, ← em, eml]
  unfold CSS.edge
  rw [← g1, ← g2, a2, a3]
  ring

/-! ## Heights -/

/-- The height of the content. -/
def Node.contentTall (fp : FP) (d : Display) (n : Node) : Rat :=
  match (n.style.get .height).pixels fp d with
  | some h => limited none ((n.style.get .maxHeight).pixels fp d) h
  | none => if n.children.isEmpty then ((n.style.get .minHeight).pixels fp d).getD 0 else stackTall fp d n.children

theorem tall_eq (n : Node) : n.tall fp d = n.style.edge fp d .top + n.contentTall fp d + n.style.edge fp d .bottom := by
  obtain ⟨s, z, l, cs⟩ := n
  rw [Node.tall]
  rfl

theorem topAt_zero (cs : List Node) : topAt fp d cs 0 = 0 := by
  rcases cs with _ | ⟨_, _ | _⟩ <;> rfl

theorem topAt_succ (i : Nat) : ∀ {cs : List Node} {c c' : Node}, cs[i]? = some c → cs[i + 1]? = some c' →
    topAt fp d cs (i + 1) = topAt fp d cs i + c.tall fp d + between fp d c c' := by
  induction i with
  | zero =>
    intro cs c c' h h'
    rcases cs with _ | ⟨x, _ | ⟨y, cs⟩⟩
    · cases h
    · cases h'
    · cases h; cases h'
      rw [topAt_zero, topAt, topAt_zero]
      ring
  | succ i ih =>
    intro cs c c' h h'
    rcases cs with _ | ⟨x, _ | ⟨y, cs⟩⟩
    · cases h
    · cases h
    · rw [topAt, ih (cs := y :: cs) h h', topAt]
      ring

theorem stackTall_last : ∀ {cs : List Node} {c : Node}, cs.getLast? = some c → stackTall fp d cs = topAt fp d cs (cs.length - 1) + c.tall fp d
  | [], _, h => nomatch h
  | [x], c, h => by
    have h : x = c := Option.some.inj h
    subst h
    rw [stackTall]
    show _ = topAt fp d [x] 0 + _
    rw [topAt_zero, zero_add]
  | x :: y :: cs, c, h => by
    have h' : (y :: cs).getLast? = some c := by
      rw [← h]; rfl
    rw [stackTall, stackTall_last h']
    show _ = topAt fp d (x :: y :: cs) (cs.length + 1) + _
    rw [topAt, List.length_cons, Nat.add_sub_cancel]
    ring

theorem edgeBottom_nonneg (n : Node) : 0 ≤ n.edgeBottom fp d := by
  obtain ⟨s, z, l, cs⟩ := n
  rw [Node.edgeBottom]
  exact le_max_of_le_left (le_max_left _ _)

/-- The border box is as high as the content with borders and paddings. -/
theorem regular_bottom (L : fp.Laws) {M : Nat} {html5 : Bool} {p ps : Option CSS} {n n' m : Node} {w : Option Num} {b : Box} {y : Num}
    (hn : n.Moderate fp d M) (h : layout fp d html5 p n = .ok n') (hm : Within (some d.contentWidth) p n' w ps m) (hr : m.Regular fp d)
    (hb : m.layout = some b) (hy : b.contentHeight = some y) :
    ∃ z, b.borderBoxBottom fp = some z ∧ z.val = (b.borderBoxTop fp).val + m.style.edge fp d .top + y.val + m.style.edge fp d .bottom := by
  obtain ⟨bs, hs⟩ := (within_shown hm).1 b hb
  obtain ⟨b', hb', eg⟩ := regular_edges L h hm hr
  cases hb.symm.trans hb'
  obtain ⟨cr, acr, pr, pw, apr, br, bw, abr, e1, e2, e3, e4, e5, e6, e7, e8, f1, f2, f3, f4, f5, f6, _⟩ :=
    C39_vertical fp b y hy (moderate_fits L hn h hs)
  refine ⟨br, e6, ?_⟩
  have g1 : b.border.top.val = _ := (eg .top).1
  have g2 : b.padding.top.val = _ := (eg .top).2
  have g3 : b.border.bottom.val = _ := (eg .bottom).1
  have g4 : b.padding.bottom.val = _ := (eg .bottom).2
  rw [f6, f3, f1, f5, f2]
  simp only [Box.frame]
  unfold CSS.edge
  rw [← g1, ← g2, ← g3, ← g4]
  ring

/-- The children are where the reference says, if they are as high as it says. -/
theorem regular_top (L : fp.Laws) {M : Nat} {html5 : Bool} {p ps : Option CSS} {n n' m : Node} {w : Option Num}
    (hn : n.Moderate fp d M) (hb : n.Blocky fp d) (h : layout fp d html5 p n = .ok n') (hm : Within (some d.contentWidth) p n' w ps m)
    (hr : m.AllRegular fp d)
    (ht : ∀ c ∈ m.children, ∃ b z, c.layout = some b ∧ b.borderBoxBottom fp = some z ∧ z.val = (b.borderBoxTop fp).val + c.tall fp d) (i : Nat) :
    ∀ c, m.children[i]? = some c → ∃ b, c.layout = some b ∧ (b.borderBoxTop fp).val = topAt fp d m.children i := by
  obtain ⟨g1, g2⟩ := C82_gap fp L d M html5 p ps n n' m w hn hb h hm
  have st : ∀ c ∈ m.children, c.Regular fp d := fun c hc => hr c (.child hc (.refl _))
  induction i with
  | zero =>
    intro c hc
    obtain ⟨b, h1, h2⟩ := g1 c hc (st c (List.mem_of_getElem? hc)).static
    exact ⟨b, h1, by rw [h2, topAt_zero]⟩
  | succ i ih =>
    intro c' hc'
    have hlt : i < m.children.length := by
      have := (List.getElem?_eq_some_iff.1 hc').1
      omega
    obtain ⟨c, hc⟩ : ∃ c, m.children[i]? = some c := ⟨_, List.getElem?_eq_getElem hlt⟩
    have mc := List.mem_of_getElem? hc
    have mc' := List.mem_of_getElem? hc'
    obtain ⟨b, b', y, h1, h2, h3, h4, h5⟩ := g2 i c c' hc hc' (st c mc).static (st c' mc').static
    obtain ⟨b1, k1, k2⟩ := ih c hc
    obtain ⟨b2, z, t1, t2, t3⟩ := ht c mc
    cases h1.symm.trans k1
    cases h1.symm.trans t1
    cases h3.symm.trans t2
    refine ⟨b', h2, ?_⟩
    rw [topAt_succ i hc hc', ← k2, ← t3]
    unfold between CSS.outside
    rcases (st c' mc').margin .top with e | ⟨x, hx⟩
    · rw [h5 e, e, pixels_kw, Option.getD_none, max_eq_left]
      exact_mod_cast edgeBottom_nonneg c
    · rw [h4 x hx, pixels_length hx, Option.getD_some]

/-- Blocks are as high as the reference says. -/
theorem regular_tall (L : fp.Laws) {M : Nat} {html5 : Bool} {p : Option CSS} {n n' : Node} (hn : n.Moderate fp d M) (hb : n.Blocky fp d)
    (h : layout fp d html5 p n = .ok n') (k : Nat) : ∀ (w : Option Num) (ps : Option CSS) (m : Node), m.count ≤ k → m.AllRegular fp d →
    Inside html5 (some d.contentWidth) p n' w ps m → ∃ b y z, m.layout = some b ∧ b.contentHeight = some y ∧ y.val = m.contentTall fp d ∧
      b.borderBoxBottom fp = some z ∧ z.val = (b.borderBoxTop fp).val + m.tall fp d := by
  induction k with
  | zero => intro w ps m hk; have := count_pos m; omega
  | succ k ih =>
    intro w ps m hk hf hm
    have hr := hf m (.refl _)
    have hw := inside_within hm
    obtain ⟨mb, hmb, _⟩ := regular_edges L h hw hr
    suffices ∃ b y, m.layout = some b ∧ b.contentHeight = some y ∧ y.val = m.contentTall fp d by
      obtain ⟨b, y, h1, h2, h3⟩ := this
      obtain ⟨z, h4, h5⟩ := regular_bottom L hn h hw hr h1 h2
      refine ⟨b, y, z, h1, h2, h3, h4, ?_⟩
      rw [h5, tall_eq, h3]
      ring
    unfold Node.contentTall
    rcases hr.size .height (by simp) with ha | ⟨y, hy⟩
    · rw [ha, pixels_kw]
      by_cases he : m.children = []
      · obtain ⟨b, y, h1, h2, h3, h4⟩ := C46_empty_partial fp d html5 p ps n n' m w h hm hr.level ha he
        refine ⟨b, y, h1, h2, ?_⟩
        rw [he]
        show y.val = (Option.getD _ 0)
        rcases hr.size .minHeight (by simp) with e | ⟨x, hx⟩
        · rw [h3 e, e, pixels_kw]; rfl
        · rw [h4 x hx, pixels_length hx]; rfl
      · have hkid : ∀ c ∈ m.children, ∃ b z, c.layout = some b ∧ b.borderBoxBottom fp = some z ∧ z.val = (b.borderBoxTop fp).val + c.tall fp d := by
          intro c hc
          have fc := allRegular_kid hf hc
          obtain ⟨b, _, z, h1, _, _, h2, h3⟩ := ih _ _ c (by have := child_count hc; omega) fc
            (within_inside hw hr.shown hmb hc fun _ => (fc c (.refl _)).level)
          exact ⟨b, z, h1, h2, h3⟩
        have hl : m.children.getLast? = some (m.children.getLast he) := List.getLast?_eq_some_getLast he
        generalize m.children.getLast he = last at hl
        obtain ⟨b, lb, y, h1, h2, h3, h4⟩ := C46_end_partial fp d html5 p ps n n' m last w h hm hr.level ha hl
        refine ⟨b, y, h1, h4, ?_⟩
        have hi : m.children[m.children.length - 1]? = some last := by rw [← List.getLast?_eq_getElem?]; exact hl
        obtain ⟨b1, k1, k2⟩ := regular_top L hn hb h hw hf hkid _ last hi
        obtain ⟨b2, z, t1, t2, t3⟩ := hkid last (List.mem_of_getLast? hl)
        cases h2.symm.trans k1
        cases h2.symm.trans t1
        cases h3.symm.trans t2
        have : m.children.isEmpty = false := by
          rw [← Bool.not_eq_true, List.isEmpty_iff]; exact he
        simp only [this, Bool.false_eq_true, if_false]
        rw [stackTall_last hl, t3, k2]
    · obtain ⟨b, x, h1, h2, h3⟩ := C71_length fp d html5 p ps n n' m w y h hm hr.level hy (hr.most .maxHeight (by simp))
      refine ⟨b, x, h1, h2, ?_⟩
      rw [pixels_length hy]
      show x.val = limited none _ y.val
      generalize e : x.val = v at h3
      cases h3 with
      | free hv => rw [hv]; rfl
      | limited hi hhi => rw [pixels_length hhi]; rfl

/-! ## On the screen -/

/-- The box of an element, from where it starts and how high it is. -/
theorem regular_fills (L : fp.Laws) {M : Nat} {html5 : Bool} {p ps : Option CSS} {n n' m : Node} {w : Option Num} {b : Box} {size y : Num}
    (hn : n.Moderate fp d M) (h : layout fp d html5 p n = .ok n') (hm : Within (some d.contentWidth) p n' w ps m) (hr : m.Regular fp d)
    (hw : w = some size) (hb : m.layout = some b) (hy : b.contentHeight = some y) {X Y : Rat} (hX : (b.pos .h).origin.val = X)
    (hY : (b.pos .v).origin.val + (b.borderBoxTop fp).val = Y) :
    b.Fills fp { m.region fp d size.val X Y with contentHeight := y.val, height := m.style.edge fp d .top + y.val + m.style.edge fp d .bottom } := by
  obtain ⟨bs, hs⟩ := (within_shown hm).1 b hb
  have hfit := moderate_fits L hn h hs
  obtain ⟨b1, hb1, eg⟩ := regular_edges L h hm hr
  cases hb.symm.trans hb1
  obtain ⟨b2, x, size', hb2, hw2, hx, a1, a2⟩ := regular_across L hn h hm hr
  cases hb.symm.trans hb2
  cases hw.symm.trans hw2
  have l1 : b.border.left.val = _ := (eg .left).1
  have l2 : b.padding.left.val = _ := (eg .left).2
  have r1 : b.border.right.val = _ := (eg .right).1
  have r2 : b.padding.right.val = _ := (eg .right).2
  have t1 : b.border.top.val = _ := (eg .top).1
  have t2 : b.padding.top.val = _ := (eg .top).2
  have u1 : b.border.bottom.val = _ := (eg .bottom).1
  have u2 : b.padding.bottom.val = _ := (eg .bottom).2
  obtain ⟨cr, acr, pr, pw, apr, br, bw, abr, e1, e2, e3, e4, e5, e6, e7, e8, f1, f2, f3, f4, f5, f6, f7, f8, f9, f10, f11, f12, f13⟩ :=
    C39_horizontal fp b x hx hfit
  obtain ⟨cr', acr', pr', pw', apr', br', bw', abr', e1', e2', e3', e4', e5', e6', e7', e8', f1', f2', f3', f4', f5', f6', f7', f8', f9', f10', f11', f12', f13'⟩ :=
    C39_vertical fp b y hy hfit
  have el : m.style.edge fp d .left = b.border.left.val + b.padding.left.val := by unfold CSS.edge; rw [l1, l2]
  have er : m.style.edge fp d .right = b.border.right.val + b.padding.right.val := by unfold CSS.edge; rw [r1, r2]
  have et : m.style.edge fp d .top = b.border.top.val + b.padding.top.val := by unfold CSS.edge; rw [t1, t2]
  have eb : m.style.edge fp d .bottom = b.border.bottom.val + b.padding.bottom.val := by unfold CSS.edge; rw [u1, u2]
  simp only [Box.frame] at f1 f2 f3 f5 f6 f8 f12 f13 f1' f2' f3' f5' f6' f8' f12' f13'
  have a2 : b.h.content.val = _ := a2
  have hX : b.h.origin.val = X := hX
  have hY : b.v.origin.val + _ = Y := hY
  rw [el] at a2
  constructor
  · show _ = X + m.style.shift fp d size.val
    rw [f12, f5, f2]
    simp only [a2, hX]
    ring
  · show _ = Y
    rw [f12', ← hY]
  · refine ⟨abr, e8, ?_⟩
    show _ = X + m.style.shift fp d size.val + (m.style.edge fp d .left + m.style.contentWide fp d size.val + m.style.edge fp d .right)
    rw [f13, f6, f3, f1, ← a1, el, er]
    simp only [a2, hX]
    ring
  · refine ⟨abr', e8', ?_⟩
    show _ = Y + (m.style.edge fp d .top + y.val + m.style.edge fp d .bottom)
    rw [f13', f6', f3', f1', ← hY, f5', f2', et, eb]
    ring
  · show _ = X + m.style.shift fp d size.val + m.style.edge fp d .left
    rw [f8, el]
    simp only [a2, hX]
    ring
  · show _ = Y + m.style.edge fp d .top
    rw [f8', et, ← hY, f5', f2']
    ring
  · exact ⟨x, hx, a1⟩
  · exact ⟨y, hy, rfl⟩

/-- The boxes below an element are those of the reference. -/
theorem regular_path (L : fp.Laws) {M : Nat} {html5 : Bool} {p : Option CSS} {n n' : Node} (hn : n.Moderate fp d M) (hb : n.Blocky fp d)
    (h : layout fp d html5 p n = .ok n') (q : List Nat) : ∀ (m : Node) (ps : Option CSS) (size : Num) (bs : List Box) (b : Box) (X Y : Rat),
    Within (some d.contentWidth) p n' (some size) ps m → m.AllRegular fp d → (∀ bs' b', Shown m bs' b' → Shown n' (bs ++ bs') b') →
    m.layout = some b → (b.pos .h).origin.val = X → (b.pos .v).origin.val + (b.borderBoxTop fp).val = Y → (∃ y, b.contentHeight = some y) →
    (q = [] → Inside html5 (some d.contentWidth) p n' (some size) ps m) →
    Option.Rel (fun b f => b.Fills fp f) (m.boxAt q) (m.regionAt fp d size.val X Y q) := by
  induction q with
  | nil =>
    intro m ps size bs b X Y hw hf _ hl hX hY ⟨y, hy⟩ hi
    obtain ⟨b1, y1, z, k1, k2, k3, _⟩ := regular_tall L hn hb h _ _ _ m le_rfl hf (hi rfl)
    cases hl.symm.trans k1
    cases hy.symm.trans k2
    have := regular_fills L hn h hw (hf m (.refl _)) rfl hl hy hX hY
    rw [Node.regionAt]
    show Option.Rel _ m.layout _
    rw [hl]
    refine .some ?_
    have e : m.region fp d size.val X Y = { m.region fp d size.val X Y with
        contentHeight := y.val, height := m.style.edge fp d .top + y.val + m.style.edge fp d .bottom } := by
      simp only [Node.region, tall_eq, k3, Region.mk.injEq, true_and]
      ring
    rw [e]
    exact this
  | cons i q ih =>
    intro m ps size bs b X Y hw hf hsh hl hX hY ⟨y, hy⟩ _
    have hr := hf m (.refl _)
    have fill := regular_fills L hn h hw hr rfl hl hy hX hY
    rw [Node.regionAt, Node.boxAt, hl]
    simp only [Option.isSome_some, if_true]
    cases hc : m.children[i]? with
    | none => exact .none
    | some c =>
      have mc := List.mem_of_getElem? hc
      have fc := allRegular_kid hf mc
      have inn : ∀ c ∈ m.children, Inside html5 (some d.contentWidth) p n' b.contentWidth (some m.style) c := fun c hc =>
        within_inside hw hr.shown hl hc fun _ => (allRegular_kid hf hc c (.refl _)).level
      have hkid : ∀ c ∈ m.children, ∃ b z, c.layout = some b ∧ b.borderBoxBottom fp = some z ∧ z.val = (b.borderBoxTop fp).val + c.tall fp d := by
        intro c hc
        obtain ⟨b, _, z, h1, _, _, h2, h3⟩ := regular_tall L hn hb h _ _ _ c le_rfl (allRegular_kid hf hc) (inn c hc)
        exact ⟨b, z, h1, h2, h3⟩
      obtain ⟨cb, c1, c2⟩ := regular_top L hn hb h hw hf hkid i c hc
      obtain ⟨_, cy, _, k1, k2, _⟩ := regular_tall L hn hb h _ _ _ c le_rfl fc (inn c mc)
      cases c1.symm.trans k1
      obtain ⟨x, x1, x2⟩ := fill.contentWidth
      have ic := inn c mc
      rw [x1] at ic
      have sh : ∀ bs' b', Shown c bs' b' → Shown n' ((bs ++ [b]) ++ bs') b' := by
        intro bs' b' hs
        rw [List.append_assoc]
        exact hsh _ _ (.step hl mc hs)
      have so : Shown n' (bs ++ [b]) cb := by simpa using sh [] cb (.here c1)
      have oh := (C49_origins_partial fp d html5 p n n' hn.boxed h .h).1 bs b cb so
      have ov := (C49_origins_partial fp d html5 p n n' hn.boxed h .v).1 bs b cb so
      have x2 : x.val = m.style.contentWide fp d size.val := x2
      show Option.Rel _ (c.boxAt q) (c.regionAt fp d _ _ _ q)
      rw [← x2]
      refine ih c _ x (bs ++ [b]) cb _ _ (inside_within ic) fc sh c1 ?_ ?_ ⟨cy, k2⟩ fun _ => ic
      · rw [oh, fill.contentLeft]; rfl
      · rw [ov, fill.contentTop, c2]; rfl

/-! ## The reference depends on the style and the structure only -/

theorem edgeTop_strip : ∀ n : Node, n.strip.edgeTop fp d = n.edgeTop fp d
  | .mk s z l [] => by rw [strip_mk, List.map_nil, Node.edgeTop, Node.edgeTop]
  | .mk s z l (c :: cs) => by rw [strip_mk, List.map_cons, Node.edgeTop, Node.edgeTop, edgeTop_strip c]

mutual
theorem edgeBottom_strip : ∀ n : Node, n.strip.edgeBottom fp d = n.edgeBottom fp d
  | .mk s z l cs => by rw [strip_mk, Node.edgeBottom, Node.edgeBottom, lastBottom_strip cs]
theorem lastBottom_strip : ∀ cs : List Node, lastBottom fp d (cs.map Node.strip) = lastBottom fp d cs
  | [] => rfl
  | [c] => by rw [List.map_cons, List.map_nil, lastBottom, lastBottom, edgeBottom_strip c]
  | _ :: c :: cs => by
    have := lastBottom_strip (c :: cs)
    rw [List.map_cons] at this
    rw [List.map_cons, List.map_cons, lastBottom, lastBottom, this]
end

theorem between_strip (c c' : Node) : between fp d c.strip c'.strip = between fp d c c' := by
  unfold between
  rw [edgeBottom_strip, strip_style]

mutual
theorem tall_strip : ∀ n : Node, n.strip.tall fp d = n.tall fp d
  | .mk s z l cs => by rw [strip_mk, Node.tall, Node.tall, stackTall_strip cs, List.isEmpty_map]
theorem stackTall_strip : ∀ cs : List Node, stackTall fp d (cs.map Node.strip) = stackTall fp d cs
  | [] => rfl
  | [c] => by rw [List.map_cons, List.map_nil, stackTall, stackTall, tall_strip c]
  | c :: c' :: cs => by
    have := stackTall_strip (c' :: cs)
    rw [List.map_cons] at this
    rw [List.map_cons, List.map_cons, stackTall, stackTall, this, tall_strip c, between_strip]
end

theorem topAt_strip : ∀ (cs : List Node) (i : Nat), topAt fp d (cs.map Node.strip) i = topAt fp d cs i
  | c :: c' :: cs, i + 1 => by
    have := topAt_strip (c' :: cs) i
    rw [List.map_cons] at this
    rw [List.map_cons, List.map_cons, topAt, topAt, this, tall_strip c, between_strip]
  | _, 0 => by rw [topAt_zero, topAt_zero]
  | [], _ => rfl
  | [_], _ + 1 => rfl

theorem region_strip (n : Node) (W x y : Rat) : n.strip.region fp d W x y = n.region fp d W x y := by
  unfold Node.region
  rw [strip_style, tall_strip]

theorem regionAt_strip (q : List Nat) : ∀ (n : Node) (W x y : Rat), n.strip.regionAt fp d W x y q = n.regionAt fp d W x y q := by
  induction q with
  | nil => intro n W x y; rw [Node.regionAt, Node.regionAt, region_strip]
  | cons i q ih =>
    intro n W x y
    rw [Node.regionAt, Node.regionAt, strip_style, strip_children, topAt_strip, List.getElem?_map]
    cases n.children[i]? with
    | none => rfl
    | some c => exact ih c _ _ _

theorem reference_strip {n n' : Node} (h : n'.strip = n.strip) (html5 : Bool) (q : List Nat) : n'.reference fp d html5 q = n.reference fp d html5 q := by
  have key : ∀ m : Node, m.strip.reference fp d html5 q = m.reference fp d html5 q := by
    intro m
    unfold Node.reference
    rw [regionAt_strip, edgeTop_strip, edgeBottom_strip, strip_style]
  rw [← key n', h, key]

end Colosseum
