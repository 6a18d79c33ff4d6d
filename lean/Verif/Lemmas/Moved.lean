import Verif.Spec.Moved
import Verif.Lemmas.Easy

/-!
# The reference layout with relative positions
-/

namespace Colosseum

namespace Moved

variable {fp : FP} {d : Display}

theorem regular_strip {m m' : Node} (h : m.strip = m'.strip) (hm : Regular fp d m) : Regular fp d m' := by
  have e1 : m.style = m'.style := by rw [← strip_style, h, strip_style]
  have e2 : m.intrinsic = m'.intrinsic := by rw [← strip_intrinsic, h, strip_intrinsic]
  obtain ⟨h1, h2, h3, h4, h5, h6, h7, h8, h9, h10, h11, h12⟩ := hm
  rw [e1] at h1 h3 h4 h5 h6 h7 h8 h9 h10 h11 h12
  rw [e2] at h2
  exact ⟨h1, h2, h3, h4, h5, h6, h7, h8, h9, h10, h11, h12⟩

/-- All elements of the document are such blocks. -/
abbrev All (fp : FP) (d : Display) (n : Node) : Prop := ∀ m, Sub m n → Regular fp d m

theorem all_strip {n n' : Node} (h : n'.strip = n.strip) (hn : All fp d n) : All fp d n' := by
  intro m hm
  obtain ⟨m', h1, h2⟩ := sub_strip h hm
  exact regular_strip h2 (hn m' h1)

theorem all_kid {n c : Node} (h : All fp d n) (hc : c ∈ n.children) : All fp d c := fun m hm => h m (.child hc hm)

theorem Regular.level {m : Node} (h : Regular fp d m) : m.BlockLevel := h.block.elim Or.inl fun e => Or.inr (Or.inl e)

theorem Regular.shown {m : Node} (h : Regular fp d m) : ¬ m.Hidden := blockLevel_not_hidden h.level

theorem regular_blocky {n : Node} (h : All fp d n) : n.Blocky fp d := fun m hm => ⟨(h m hm).block, (h m hm).content, fun t ht => (h m hm).margin t ht⟩

theorem regular_context {m : Node} (h : All fp d m) (hc : m.children ≠ []) : m.BlockContext := by
  have hm := h m (.refl _)
  obtain ⟨c, hc⟩ := List.exists_mem_of_ne_nil _ hc
  refine ⟨?_, hm.content, c, hc, (h c (.child hc (.refl _))).level⟩
  rcases hm.block with e | e
  · exact Or.inl e
  · exact Or.inr (Or.inl e)

/-! ## It can be laid out -/

theorem sized_finite {v : Val} (h : Sized fp d v) : v.Finite := by
  rcases h with h | ⟨a, rfl⟩
  · exact sure_finite h
  · exact ⟨_, a, rfl⟩

theorem regular_plain {m : Node} (h : Regular fp d m) : m.PlainBlock := by
  refine ⟨h.level, h.content, ⟨⟨fun e o ho => ?_, ?_, ?_, ?_, ?_, ?_, ?_, fun t => ?_, fun t => ?_,
    fun t => sure_finite (h.padding t)⟩, h.float, ?_⟩⟩
  · rcases h.position with p | ⟨_, p, p'⟩
    · rw [p] at e
      simp only [kw, Val.str.injEq] at e
      exact absurd e (by decide)
    · simp only [List.mem_cons, List.not_mem_nil, or_false] at ho
      rcases ho with rfl | rfl | rfl | rfl
      · exact (p _ (by simp)).imp id sure_finite
      · exact (p' _ (by simp)).imp id sized_finite
      · exact (p _ (by simp)).imp id sure_finite
      · exact (p' _ (by simp)).imp id sized_finite
  · exact (h.width .width (by simp)).imp id sized_finite
  · exact (h.height .height (by simp)).imp id sure_finite
  · exact (h.width .minWidth (by simp)).imp id sized_finite
  · exact (h.height .minHeight (by simp)).imp id sure_finite
  · exact h.widest.imp id sized_finite
  · exact h.highest.imp id sure_finite
  · cases t
    · exact (h.margin _ (by simp)).imp id sure_finite
    · exact (h.beside _ (by simp)).imp id sized_finite
    · exact (h.margin _ (by simp)).imp id sure_finite
    · exact (h.beside _ (by simp)).imp id sized_finite
  · rcases h.border t with e | e | e | e
    · exact Or.inl e
    · exact Or.inr (Or.inl e)
    · exact Or.inr (Or.inr (Or.inl e))
    · exact Or.inr (Or.inr (Or.inr (sure_finite e)))
  · rcases h.position with p | ⟨p, _⟩ <;> rw [p] <;> simp only [kw, ne_eq, Val.str.injEq] <;> decide

theorem regular_laid {html5 : Bool} {p : Option CSS} {n : Node} (hbx : AllBoxed n) (h : All fp d n)
    (hp : ∀ q, p = some q → q.get .height = kw "auto" ∨ (q.get .height).Finite) : ∃ n', layout fp d html5 p n = .ok n' :=
  C52_blocks_partial fp d html5 p n hbx (fun m hm => regular_plain (h m (occurs_sub hm))) hp

/-! ## One element -/

theorem regular_edges (L : fp.Laws) {html5 : Bool} {p ps : Option CSS} {n n' m : Node} {w : Option Num} (h : layout fp d html5 p n = .ok n')
    (hm : Within (some d.contentWidth) p n' w ps m) (hr : Regular fp d m) :
    ∃ b, m.layout = some b ∧ ∀ t, (b.border.get t).val = m.style.bordered fp d t ∧ (b.padding.get t).val = m.style.padded fp d t := by
  obtain ⟨b, hb, _⟩ := C79_border fp L d html5 p ps n n' m w .top h hm hr.shown
  refine ⟨b, hb, fun t => ⟨?_, ?_⟩⟩
  · obtain ⟨b', hb', e⟩ := C79_border fp L d html5 p ps n n' m w t h hm hr.shown
    cases hb.symm.trans hb'
    unfold CSS.bordered
    rcases hr.border t with hv | hv | hv | ⟨x, hx⟩
    · rw [e _ (Or.inl ⟨hv, rfl⟩), hv]
      rfl
    · rw [e _ (Or.inr (Or.inl ⟨hv, rfl⟩)), hv]
      rfl
    · rw [e _ (Or.inr (Or.inr (Or.inl ⟨hv, rfl⟩))), hv]
      rfl
    · have no : ∀ s, (m.style.get (.borderWidth t)).isKw s = false := by
        intro s
        rw [← Bool.not_eq_true, isKw_iff]
        exact length_ne_kw hx s
      rw [e _ (Or.inr (Or.inr (Or.inr hx)))]
      simp only [no, Bool.false_eq_true, if_false, pixels_length hx, Option.getD_some]
  · obtain ⟨b', hb', e⟩ := C79_padding fp L d html5 p ps n n' m w t h hm hr.shown
    cases hb.symm.trans hb'
    obtain ⟨x, hx⟩ := hr.padding t
    rw [e x hx]
    unfold CSS.padded
    rw [pixels_length hx]
    rfl

theorem sure_margin {v : Val} (h : v = kw "auto" ∨ v.Sure fp d) (w : Option Num) : ∃ l : Option Num, v.Margin fp ⟨d, dummyFont fp, w⟩ l ∧ l.map Num.val = v.pixels fp d := by
  rcases h with e | ⟨x, hx⟩
  · exact ⟨none, e, by rw [e]; rfl⟩
  · refine ⟨some x, ?_, (pixels_length hx).symm⟩
    have e := length_px hx w
    obtain ⟨k, val, e', _, _⟩ := hx
    rw [e'] at e
    exact ⟨_, e', e⟩

theorem sure_nudge {v : Val} (h : v = kw "auto" ∨ v.Sure fp d) : ∃ l : Option Num, v.Nudge fp d (dummyFont fp) l ∧ l.map Num.val = v.pixels fp d := by
  rcases h with e | ⟨x, hx⟩
  · exact ⟨none, e, by rw [e]; rfl⟩
  · exact ⟨some x, hx, (pixels_length hx).symm⟩

/-- Whether the size is an int or a float makes no difference. -/
theorem percent_size (a : Num) {W : Num} (hW : W.toFloat fp = W.val) :
    (Val.unit ⟨.len .percent, .fin a⟩).px fp ⟨d, dummyFont fp, some W⟩ = (Val.unit ⟨.len .percent, .fin a⟩).px fp ⟨d, dummyFont fp, some (.flt W.val)⟩ := by
  cases W with
  | flt q => rfl
  | int i =>
    have e : fp.rnd (i : Rat) = i := hW
    simp only [Val.px, CUnit.px, pxOf, luOf, PyNum.mul, PyNum.div, Num.mul, Num.div, luPerPixel]
    cases a <;> simp only [Num.toFloat, Num.val, e]

theorem sized_px {v : Val} (h : Sized fp d v) {W : Num} (hW : W.toFloat fp = W.val) :
    (v.px fp ⟨d, dummyFont fp, some W⟩).toOption.map Num.val = pixelsOf fp d v W.val := by
  unfold pixelsOf
  rcases h with ⟨x, hx⟩ | ⟨a, rfl⟩
  · rw [length_px hx, length_px hx]; rfl
  · rw [percent_size a hW]
    cases (Val.unit ⟨.len .percent, .fin a⟩).px fp ⟨d, dummyFont fp, some (.flt W.val)⟩ <;> rfl

theorem least_px {v : Val} {s : String} (h : v = kw s ∨ Sized fp d v) {W : Num} (hW : W.toFloat fp = W.val) :
    (v.px fp ⟨d, dummyFont fp, some W⟩).toOption.map Num.val = pixelsOf fp d v W.val := by
  rcases h with rfl | h
  · rfl
  · exact sized_px h hW

theorem most_px {v : Val} (h : v = .none ∨ Sized fp d v) {W : Num} (hW : W.toFloat fp = W.val) :
    (v.px fp ⟨d, dummyFont fp, some W⟩).toOption.map Num.val = pixelsOf fp d v W.val := by
  rcases h with rfl | h
  · rfl
  · exact sized_px h hW

theorem sized_ne_kw {v : Val} (h : Sized fp d v) (s : String) : v ≠ kw s := by
  rcases h with ⟨x, hx⟩ | ⟨a, rfl⟩
  · exact length_ne_kw hx s
  · exact fun e => nomatch e

theorem sized_some {v : Val} (h : Sized fp d v) (W : Rat) : ∃ x, pixelsOf fp d v W = some x := by
  unfold pixelsOf
  rcases h with ⟨x, hx⟩ | ⟨a, rfl⟩
  · rw [length_px hx]; exact ⟨_, rfl⟩
  · exact ⟨_, rfl⟩

theorem sized_margin {v : Val} (h : v = kw "auto" ∨ Sized fp d v) {W : Num} (hW : W.toFloat fp = W.val) :
    ∃ l : Option Num, v.Margin fp ⟨d, dummyFont fp, some W⟩ l ∧ l.map Num.val = pixelsOf fp d v W.val := by
  rcases h with e | h
  · exact ⟨none, e, by rw [e]; rfl⟩
  · have e := sized_px h hW
    obtain ⟨x, hx⟩ := sized_some h W.val
    rw [hx] at e ⊢
    rcases h with ⟨y, hy⟩ | ⟨a, rfl⟩
    · have e1 := length_px hy (some W)
      obtain ⟨k, val, rfl, _, _⟩ := hy
      refine ⟨some y, ⟨_, rfl, e1⟩, ?_⟩
      rw [e1] at e
      exact e
    · cases hp : (Val.unit ⟨.len .percent, .fin a⟩).px fp ⟨d, dummyFont fp, some W⟩ with
      | error m => rw [hp] at e; cases e
      | ok y =>
        rw [hp] at e
        exact ⟨some y, ⟨_, rfl, hp⟩, e⟩

/-- The horizontal measures are those of the reference. -/
theorem regular_across (L : fp.Laws) {K : Nat} {html5 : Bool} {p ps : Option CSS} {n n' m : Node} {w : Option Num}
    (hn : Easy fp d p n K) (h : layout fp d html5 p n = .ok n') (hm : Within (some d.contentWidth) p n' w ps m) (hr : Regular fp d m) :
    ∃ b x size, m.layout = some b ∧ w = some size ∧ b.contentWidth = some x ∧ x.val = contentWide fp d m.style size.val ∧
      (b.pos .h).content.val = shift fp d m.style size.val + aside fp d m.style size.val + m.style.edge fp d .left := by
  obtain ⟨b, x, size, hb, hx, hw, hs⟩ := easy_across hn h hm hr.level
  have hW : size.toFloat fp = size.val := fits_float (by have := hn.bound; omega) (easy_size hn h hm size hw)
  subst hw
  have hw := @rfl _ (some size)
  obtain ⟨l, hl, l0⟩ := sized_margin (hr.beside .left (by simp)) hW
  obtain ⟨r, hrr, r0⟩ := sized_margin (hr.beside .right (by simp)) hW
  obtain ⟨b', x', size', hb', hx', hw', hu⟩ := easy_margins hn h hm hr.level hl hrr
  obtain ⟨b3, hb3, eg⟩ := regular_edges L h hm hr
  cases hb.symm.trans hb'
  cases hb.symm.trans hb3
  cases hw.symm.trans hw'
  have e3 : ∃ ml, b.margin.left = .num ml ∧ (b.pos .h).content.val = ml.val + b.border.left.val + b.padding.left.val + aside fp d m.style size.val := by
    unfold aside
    rcases hr.position with e | ⟨e, _, ho⟩
    · have ns : ¬ m.Relative := by
        intro e'
        have e' : m.style.get .position = kw "relative" := e'
        rw [e] at e'
        simp only [kw, Val.str.injEq] at e'
        exact absurd e' (by decide)
      obtain ⟨b2, ml, hb2, e2, e3⟩ := easy_left hn h hm hr.level ns
      cases hb.symm.trans hb2
      have : (m.style.get .position).isKw "relative" = false := by rw [← Bool.not_eq_true, isKw_iff]; exact ns
      rw [this]
      exact ⟨ml, e2, by rw [e3]; simp⟩
    · rw [(isKw_iff _ _).2 e, if_pos rfl]
      obtain ⟨l, hl, l0⟩ := sized_margin (ho .left (by simp)) hW
      obtain ⟨r, hrr, r0⟩ := sized_margin (ho .right (by simp)) hW
      obtain ⟨b1, ml, h1, h2, h3⟩ := (layout_ran_any h hm (blockLevel_shown hr.level)).across ((blockLevel_iff m).2 hr.level)
      cases hb.symm.trans h1
      refine ⟨ml, h2, ?_⟩
      rcases h3 with ⟨e', _⟩ | ⟨_, cb, dx, x, k1, k2, k3⟩
      · exact absurd e e'
      obtain ⟨s1, s2⟩ := relativeOffset_shift hl hrr k1
      obtain ⟨bs, hsh⟩ := (within_shown hm).1 b h1
      have hz := hn.bound
      have f1 := hn.margin h hsh .left _ h2
      have f2 : Fits fp K b.border.left := hn.border h hsh .left
      have f3 : Fits fp K b.padding.left := hn.padding h hsh .left
      have fl : ∀ y, l = some y → Fits fp K y := hn.declared h hm hr.shown _ (by simp) _ hl
      have fr : ∀ y, r = some y → Fits fp K y := hn.declared h hm hr.shown _ (by simp) _ hrr
      obtain ⟨a1, a2⟩ := Fits.addAll [b.border.left, b.padding.left] f1 (m := K) (by
        intro x hx
        simp only [List.mem_cons, List.not_mem_nil, or_false] at hx
        rcases hx with rfl | rfl <;> assumption) (by simp; omega)
      refine Eq.trans (show _ = b.h.content.val from rfl) (k3.trans ?_)
      rw [((a2.of_val k2).add (s2 _ f1.kind fl fr) (by simp; omega)).1, k2, a1, s1, l0, r0]
      simp
      ring
  obtain ⟨ml, e2, e3⟩ := e3
  have ex : x' = x := by
    obtain ⟨a1, a2, a3, a4, a5, a6, a7⟩ := hx
    obtain ⟨c1, c2, c3, c4, c5, c6, c7⟩ := hx'
    cases x; cases x'
    simp only at *
    cases a1.symm.trans c1
    cases a2.symm.trans c2
    cases a3.symm.trans c3
    cases a4.symm.trans c4
    cases a5.symm.trans c5
    cases a6.symm.trans c6
    cases a7.symm.trans c7
    rfl
  subst ex
  obtain ⟨a1, a2, a3, a4, a5, a6, a7⟩ := hx
  have eml : x'.ml = ml := MVal.num.inj (a1.symm.trans e2)
  have g1 : x'.bl.val = m.style.bordered fp d .left := by rw [← a2]; exact (eg .left).1
  have g2 : x'.pl.val = m.style.padded fp d .left := by rw [← a3]; exact (eg .left).2
  have g3 : x'.pr.val = m.style.padded fp d .right := by rw [← a5]; exact (eg .right).2
  have g4 : x'.br.val = m.style.bordered fp d .right := by rw [← a6]; exact (eg .right).1
  have auto : (pixelsOf fp d (m.style.get .width) size.val).isNone = (m.style.get .width).isKw "auto" := by
    rcases hr.width .width (by simp) with e | hy
    · rw [e]; rfl
    · obtain ⟨y, hy'⟩ := sized_some hy size.val
      rw [hy']
      symm
      rw [Option.isNone_some, ← Bool.not_eq_true, isKw_iff]
      exact sized_ne_kw hy _
  have l0 : l.map Num.val = outside fp d m.style .left size.val := l0
  have r0 : r.map Num.val = outside fp d m.style .right size.val := r0
  -- the content width
  have ew : x'.w.val = contentWide fp d m.style size.val := by
    unfold contentWide
    rcases hr.width .width (by simp) with e | hy
    · rw [e]
      show x'.w.val = _
      have hs' : x'.sum = size.val := hs.elim id fun q => absurd e q.1
      rcases hu _ rfl with ⟨_, u1, u2⟩ | ⟨_, _, u3, _⟩
      · rw [(isKw_iff _ _).2 e] at u1 u2
        simp only [usedMargins, if_true] at u1 u2
        rw [l0] at u1
        rw [r0] at u2
        show x'.w.val = size.val - _ - _ - _ - _
        rw [← u1, ← u2, ← hs']
        unfold Across.sum CSS.edge
        rw [← g1, ← g2, ← g3, ← g4]
        ring
      · exact absurd e u3
    · obtain ⟨b4, x4, v, k1, k2, k3, k4, _⟩ := C47_width_partial fp d html5 p ps n n' m (some size) h hm hr.level (sized_ne_kw hy _)
      cases hb.symm.trans k1
      cases a4.symm.trans k2
      rw [hw] at k3 k4
      have k3 : (m.style.get .width).px fp ⟨d, dummyFont fp, some size⟩ = _ := k3
      have e5 := sized_px hy hW
      rw [k3] at e5
      have e5 : some v.val = _ := e5
      rw [← e5]
      show x'.w.val = limited _ _ v.val
      rw [k4]
      congr 1
      · exact least_px (hr.width .minWidth (by simp)) hW
      · exact most_px hr.widest hW
  refine ⟨b, x'.w, size, hb, hw, a4, ew, ?_⟩
  -- the left margin
  have ei : x'.inner = wide fp d m.style size.val := by
    unfold Across.inner wide CSS.edge
    rw [← ew, ← g1, ← g2, ← g3, ← g4]
    ring
  have em : x'.ml.val = shift fp d m.style size.val := by
    unfold shift
    simp only
    rw [auto, ← ei, ← l0, ← r0]
    rcases hu _ rfl with ⟨u0, u1, _⟩ | ⟨rfl, rfl, u3, u4, u5, _⟩
    · rw [u1, if_neg]
      rintro ⟨q1, q2, q3, q4⟩
      rcases u0 with u0 | u0 | u0 | u0
      · exact u0 (Option.map_eq_none_iff.1 q1)
      · exact u0 (Option.map_eq_none_iff.1 q2)
      · rw [(isKw_iff _ _).2 u0] at q3; cases q3
      · exact absurd q4 (not_le.2 u0)
    · rw [u5, if_pos]
      refine ⟨rfl, rfl, ?_, u4⟩
      rw [← Bool.not_eq_true, isKw_iff]
      exact u3
  rw [e3, ← em, eml]
  unfold CSS.edge
  rw [← g1, ← g2, a2, a3]
  ring

/-! ## Heights -/

/-- The height of the content. -/
def contentTall (fp : FP) (d : Display) (n : Node) : Rat :=
  match (n.style.get .height).pixels fp d with
  | some h => limited none ((n.style.get .maxHeight).pixels fp d) h
  | none => if n.children.isEmpty then ((n.style.get .minHeight).pixels fp d).getD 0 else stack fp d n.children

theorem tall_eq (n : Node) : tall fp d n = n.style.edge fp d .top + contentTall fp d n + n.style.edge fp d .bottom := by
  obtain ⟨s, z, l, cs⟩ := n
  rw [tall]
  rfl

theorem place_zero (cs : List Node) : place fp d cs 0 = 0 := by
  rcases cs with _ | ⟨_, _ | _⟩ <;> rfl

theorem place_succ (i : Nat) : ∀ {cs : List Node} {c c' : Node}, cs[i]? = some c → cs[i + 1]? = some c' →
    place fp d cs (i + 1) = place fp d cs i + tall fp d c + between fp d c c' := by
  induction i with
  | zero =>
    intro cs c c' h h'
    rcases cs with _ | ⟨x, _ | ⟨y, cs⟩⟩
    · cases h
    · cases h'
    · cases h; cases h'
      rw [place_zero, place, place_zero]
      ring
  | succ i ih =>
    intro cs c c' h h'
    rcases cs with _ | ⟨x, _ | ⟨y, cs⟩⟩
    · cases h
    · cases h
    · rw [place, ih (cs := y :: cs) h h', place]
      ring

theorem stack_last : ∀ {cs : List Node} {c : Node}, cs.getLast? = some c → stack fp d cs = place fp d cs (cs.length - 1) + lowered fp d c.style + tall fp d c
  | [], _, h => nomatch h
  | [x], c, h => by
    have h : x = c := Option.some.inj h
    subst h
    rw [stack]
    show _ = place fp d [x] 0 + _ + _
    rw [place_zero]
    ring
  | x :: y :: cs, c, h => by
    have h' : (y :: cs).getLast? = some c := by
      rw [← h]; rfl
    rw [stack, stack_last h']
    show _ = place fp d (x :: y :: cs) (cs.length + 1) + _ + _
    rw [place, List.length_cons, Nat.add_sub_cancel]
    ring

/-- The border box is as high as the content with borders and paddings. -/
theorem regular_bottom (L : fp.Laws) {K : Nat} {html5 : Bool} {p ps : Option CSS} {n n' m : Node} {w : Option Num} {b : Box} {y : Num}
    (hn : Easy fp d p n K) (h : layout fp d html5 p n = .ok n') (hm : Within (some d.contentWidth) p n' w ps m) (hr : Regular fp d m)
    (hb : m.layout = some b) (hy : b.contentHeight = some y) :
    ∃ z, b.borderBoxBottom fp = some z ∧ z.val = (b.borderBoxTop fp).val + m.style.edge fp d .top + y.val + m.style.edge fp d .bottom := by
  obtain ⟨bs, hs⟩ := (within_shown hm).1 b hb
  obtain ⟨b', hb', eg⟩ := regular_edges L h hm hr
  cases hb.symm.trans hb'
  obtain ⟨cr, acr, pr, pw, apr, br, bw, abr, e1, e2, e3, e4, e5, e6, e7, e8, f1, f2, f3, f4, f5, f6, _⟩ :=
    C39_vertical fp b y hy (hn.whole h hs)
  refine ⟨br, e6, ?_⟩
  have g1 : b.border.top.val = _ := (eg .top).1
  have g2 : b.padding.top.val = _ := (eg .top).2
  have g3 : b.border.bottom.val = _ := (eg .bottom).1
  have g4 : b.padding.bottom.val = _ := (eg .bottom).2
  rw [f6, f3, f1, f5, f2]
  simp only [Box.frame]
  unfold CSS.edge
  rw [← g1, ← g2, ← g3, ← g4]
  ring

/-- How a block is placed in the stack: where its turn comes, or moved from there. -/
def follows (fp : FP) (d : Display) (k : Nat) (s : CSS) (x : Down) (q : Rat) : Prop := isRelative s = false ∧ q = 0 ∨ nudges fp d k s x q

theorem follows_all {f : Nat} {p : Option CSS} {cb : CB} {c : Node} {s : CSS} {z : Intrinsic} {b : Box} {ks : List Node}
    (h : layoutBox fp d f p cb c = .ok (.mk s z (some b) ks)) (hp : Pristine c) (hb : isBlockLevel c.style = true) : Follows fp (follows fp d) s b := by
  intro k x q hx hf hk hD
  rcases hD with ⟨hr, rfl⟩ | hD
  · have ht := (layoutBox_block h hp hb).2 hr
    obtain ⟨_, ebt, ept, _⟩ := hx
    obtain ⟨_, f2, f3, _⟩ := hf
    rw [ebt, ept] at ht
    obtain ⟨a1, a2⟩ := f2.add f3 (by omega)
    obtain ⟨b1, b2⟩ := (fits_zero a2).add a2 (by omega)
    refine ⟨?_, (b2.of_val ht).mono (by omega)⟩
    rw [ht, b1, a1, Num.val_int]
    push_cast
    ring
  · exact nudges_follow h hp hb k x q hx hf hk hD

theorem regular_follows (L : fp.Laws) {K : Nat} {html5 : Bool} {p ps : Option CSS} {n n' m : Node} {w : Option Num} {b : Box} {x : Down}
    (hn : Easy fp d p n K) (h : layout fp d html5 p n = .ok n') (hm : Within (some d.contentWidth) p n' w ps m) (hr : Regular fp d m)
    (hb : m.layout = some b) (hx : b.Stands x) : follows fp d K m.style x (lowered fp d m.style) := by
  unfold follows lowered
  rcases hr.position with e | ⟨e, ho⟩
  · left
    have ns : (m.style.get .position).isKw "relative" = false := by rw [e]; rfl
    exact ⟨ns, by rw [ns]; rfl⟩
  · right
    obtain ⟨_, s2, s3, _⟩ := hx
    obtain ⟨b2, k4, eg⟩ := regular_edges L h hm hr
    cases hb.symm.trans k4
    have t1 : b.border.top.val = _ := (eg .top).1
    have t2 : b.padding.top.val = _ := (eg .top).2
    have hrel : (m.style.get .position).isKw "relative" = true := (isKw_iff _ _).2 e
    obtain ⟨l, hl, l0⟩ := sure_nudge (ho.1 .top (by simp))
    obtain ⟨r, hrr, r0⟩ := sure_nudge (ho.1 .bottom (by simp))
    refine ⟨hrel, l, r, hl, hrr, fun y hy => ?_, fun y hy => ?_, ?_⟩
    · exact hn.declared h hm hr.shown _ (by simp) _ (nudge_margin hl _) y hy
    · exact hn.declared h hm hr.shown _ (by simp) _ (nudge_margin hrr _) y hy
    · rw [hrel, if_pos rfl, l0, r0]
      unfold CSS.edge
      rw [← s2, ← s3, t1, t2]

/-- The children are where the reference says, if they are as high as it says. -/
theorem regular_top (L : fp.Laws) {K : Nat} {html5 : Bool} {p ps : Option CSS} {n n' m : Node} {w : Option Num}
    (hn : Easy fp d p n K) (hb : n.Blocky fp d) (h : layout fp d html5 p n = .ok n') (hm : Within (some d.contentWidth) p n' w ps m)
    (hr : All fp d m) (ht : ∀ c ∈ m.children, ∃ b y, c.layout = some b ∧ b.contentHeight = some y ∧ y.val = contentTall fp d c) (i : Nat) :
    ∀ c, m.children[i]? = some c → ∃ b, c.layout = some b ∧ (b.borderBoxTop fp).val = place fp d m.children i + lowered fp d c.style := by
  by_cases hne : m.children = []
  · intro c hc; rw [hne] at hc; cases hc
  have hh := (hr m (.refl _)).shown
  have kid : ∀ c ∈ m.children, Regular fp d c := fun c hc => hr c (.child hc (.refl _))
  obtain ⟨mb, hmb, _⟩ := blocky_ends L hn.boxed hb h hm
  have wk : ∀ c ∈ m.children, Within (some d.contentWidth) p n' mb.contentWidth (some m.style) c := fun c hc =>
    within_next hm hh hmb hc fun _ => (kid c hc).level
  obtain ⟨ks, rest, xs, e1, e2, e3, e4, e5, e6⟩ := (layout_ranP hn.boxed h hm hh).places (D := follows fp d) (regular_context hr hne) hh
    (fun _ _ _ _ _ _ _ _ h hp hb => follows_all h hp hb)
  have er : rest = [] := by
    refine List.eq_nil_iff_forall_not_mem.2 fun c hc => e3 c hc (kid c ?_).level
    rw [e1]; exact List.mem_append_right _ hc
  rw [er, List.append_nil] at e1
  subst e1
  have fit : ∀ x ∈ xs, x.AllFit fp K := by
    intro x hx
    obtain ⟨c, hc, b, hb, hs⟩ := forall₂_left e4.flip hx
    obtain ⟨bs, hbs⟩ := within_kids hm hmb c hc b hb
    exact easy_stands hn h hbs hs
  have tops := e6 K (Or.inr L) fit (hn.long h hm)
  -- the measures of a child
  have meas : ∀ c ∈ m.children, ∀ b x, c.layout = some b → b.Stands x → x.height = tall fp d c ∧ (x.cb : Rat) = c.edgeBottom fp d ∧
      max (0 : Rat) x.mt.val = max 0 ((c.style.outside fp d .top).getD 0) ∧ (0 ≤ x.cb) ∧
      follows fp d K c.style x (lowered fp d c.style) := by
    intro c hc b x hb' hx
    have ⟨s1, s2, s3, s4, s5, s6, s7⟩ := hx
    obtain ⟨b1, y, k1, k2, k3⟩ := ht c hc
    cases hb'.symm.trans k1
    cases s4.symm.trans k2
    obtain ⟨b2, k4, eg⟩ := regular_edges L h (wk c hc) (kid c hc)
    cases hb'.symm.trans k4
    obtain ⟨b3, k5, _, k6⟩ := blocky_ends L hn.boxed hb h (wk c hc)
    cases hb'.symm.trans k5
    have t1 : b.border.top.val = _ := (eg .top).1
    have t2 : b.padding.top.val = _ := (eg .top).2
    have u1 : b.border.bottom.val = _ := (eg .bottom).1
    have u2 : b.padding.bottom.val = _ := (eg .bottom).2
    refine ⟨?_, ?_, ?_, ?_, ?_⟩
    · rw [tall_eq, ← k3]
      unfold Down.height CSS.edge
      rw [← s2, ← s3, ← s5, ← s6, t1, t2, u1, u2]
      ring
    · rw [← s7, k6]
    · obtain ⟨b4, v1, v2, v3⟩ := C79_vertical fp L d html5 p _ n n' c _ .top (Or.inl rfl) h (wk c hc) (kid c hc).shown
      cases hb'.symm.trans v1
      unfold CSS.outside
      rcases (kid c hc).margin .top (by simp) with e | ⟨y, hy⟩
      · obtain ⟨z, z1, z2⟩ := v3 e (Or.inl (kid c hc).level)
        cases MVal.num.inj (s1.symm.trans z1)
        rw [z2, e, pixels_kw]; rfl
      · obtain ⟨z, z1, z2⟩ := v2 y hy
        cases MVal.num.inj (s1.symm.trans z1)
        rw [z2, pixels_length hy]; rfl
    · rw [← s7, k6]; exact edgeBottom_nonneg c
    · exact regular_follows L hn h (wk c hc) (kid c hc) hb' hx
  -- where the turn of a child comes
  have turn : ∀ i c, m.children[i]? = some c → (flowTops 0 none xs)[i]? = some (place fp d m.children i) := by
    intro i
    induction i with
    | zero =>
      intro c hc
      obtain ⟨x, hx, _⟩ := forall₂_at e4 hc
      cases xs with
      | nil => cases hx
      | cons x' xs => simp [flowTops, Down.gap, place_zero]
    | succ i ih =>
      intro c' hc'
      have hlt : i < m.children.length := by
        have := (List.getElem?_eq_some_iff.1 hc').1
        omega
      obtain ⟨c, hc⟩ : ∃ c, m.children[i]? = some c := ⟨_, List.getElem?_eq_getElem hlt⟩
      obtain ⟨x, hx, b, hbx, hsx⟩ := forall₂_at e4 hc
      obtain ⟨x', hx', b', hbx', hsx'⟩ := forall₂_at e4 hc'
      rw [flowTops_next xs 0 none i _ x x' hx hx' (ih c hc), place_succ i hc hc']
      obtain ⟨m1, m2, _, m4, _⟩ := meas c (List.mem_of_getElem? hc) b x hbx hsx
      obtain ⟨_, _, m3, _, _⟩ := meas c' (List.mem_of_getElem? hc') b' x' hbx' hsx'
      rw [m1]
      congr 2
      unfold between
      rw [← m2]
      have m4 : (0 : Rat) ≤ x.cb := by exact_mod_cast m4
      rw [← max_eq_left m4, max_assoc, m3, ← max_assoc]
  intro c hc
  obtain ⟨x, hx, b, hbx, hsx⟩ := forall₂_at e4 hc
  obtain ⟨t, ht', htop⟩ := forall₂_at tops hc
  have := turn i c hc
  rw [ht'] at this
  cases this
  exact ⟨b, hbx, htop b x _ hbx hsx (meas c (List.mem_of_getElem? hc) b x hbx hsx).2.2.2.2⟩

/-- Blocks are as high as the reference says. -/
theorem regular_tall (L : fp.Laws) {K : Nat} {html5 : Bool} {p : Option CSS} {n n' : Node} (hn : Easy fp d p n K) (hb : n.Blocky fp d)
    (h : layout fp d html5 p n = .ok n') (k : Nat) : ∀ (w : Option Num) (ps : Option CSS) (m : Node), m.count ≤ k → All fp d m →
    Inside html5 (some d.contentWidth) p n' w ps m → ∃ b y z, m.layout = some b ∧ b.contentHeight = some y ∧ y.val = contentTall fp d m ∧
      b.borderBoxBottom fp = some z ∧ z.val = (b.borderBoxTop fp).val + tall fp d m := by
  induction k with
  | zero => intro w ps m hk; have := count_pos m; omega
  | succ k ih =>
    intro w ps m hk hf hm
    have hr := hf m (.refl _)
    have hw := inside_within hm
    obtain ⟨mb, hmb, _⟩ := regular_edges L h hw hr
    suffices ∃ b y, m.layout = some b ∧ b.contentHeight = some y ∧ y.val = contentTall fp d m by
      obtain ⟨b, y, h1, h2, h3⟩ := this
      obtain ⟨z, h4, h5⟩ := regular_bottom L hn h hw hr h1 h2
      refine ⟨b, y, z, h1, h2, h3, h4, ?_⟩
      rw [h5, tall_eq, h3]
      ring
    unfold contentTall
    rcases hr.height .height (by simp) with ha | ⟨y, hy⟩
    · rw [ha, pixels_kw]
      by_cases he : m.children = []
      · obtain ⟨b, y, h1, h2, h3, h4⟩ := C46_empty_partial fp d html5 p ps n n' m w h hm hr.level ha he
        refine ⟨b, y, h1, h2, ?_⟩
        rw [he]
        show y.val = (Option.getD _ 0)
        rcases hr.height .minHeight (by simp) with e | ⟨x, hx⟩
        · rw [h3 e, e, pixels_kw]; rfl
        · rw [h4 x hx, pixels_length hx]; rfl
      · have hkid : ∀ c ∈ m.children, ∃ b y z, c.layout = some b ∧ b.contentHeight = some y ∧ y.val = contentTall fp d c ∧
            b.borderBoxBottom fp = some z ∧ z.val = (b.borderBoxTop fp).val + tall fp d c := by
          intro c hc
          have fc := all_kid hf hc
          exact ih _ _ c (by have := child_count hc; omega) fc (within_inside hw hr.shown hmb hc fun _ => (fc c (.refl _)).level)
        have hl : m.children.getLast? = some (m.children.getLast he) := List.getLast?_eq_some_getLast he
        generalize m.children.getLast he = last at hl
        obtain ⟨b, lb, y, h1, h2, h3, h4⟩ := C46_end_partial fp d html5 p ps n n' m last w h hm hr.level ha hl
        refine ⟨b, y, h1, h4, ?_⟩
        have hi : m.children[m.children.length - 1]? = some last := by rw [← List.getLast?_eq_getElem?]; exact hl
        obtain ⟨b1, k1, k2⟩ := regular_top L hn hb h hw hf (fun c hc => by
          obtain ⟨b, y, _, h1, h2, h3, _⟩ := hkid c hc
          exact ⟨b, y, h1, h2, h3⟩) _ last hi
        obtain ⟨b2, _, z, t1, _, _, t2, t3⟩ := hkid last (List.mem_of_getLast? hl)
        cases h2.symm.trans k1
        cases h2.symm.trans t1
        cases h3.symm.trans t2
        have : m.children.isEmpty = false := by
          rw [← Bool.not_eq_true, List.isEmpty_iff]; exact he
        simp only [this, Bool.false_eq_true, if_false]
        rw [stack_last hl, t3, k2]
    · obtain ⟨b, x, h1, h2, h3⟩ := C71_length fp d html5 p ps n n' m w y h hm hr.level hy hr.highest
      refine ⟨b, x, h1, h2, ?_⟩
      rw [pixels_length hy]
      show x.val = limited none _ y.val
      generalize e : x.val = v at h3
      cases h3 with
      | free hv => rw [hv]; rfl
      | limited hi hhi => rw [pixels_length hhi]; rfl

/-! ## On the screen -/

/-- The box of an element, from where it starts and how high it is. -/
theorem regular_fills (L : fp.Laws) {K : Nat} {html5 : Bool} {p ps : Option CSS} {n n' m : Node} {w : Option Num} {b : Box} {size y : Num}
    (hn : Easy fp d p n K) (h : layout fp d html5 p n = .ok n') (hm : Within (some d.contentWidth) p n' w ps m) (hr : Regular fp d m)
    (hw : w = some size) (hb : m.layout = some b) (hy : b.contentHeight = some y) {X Y : Rat} (hX : (b.pos .h).origin.val = X)
    (hY : (b.pos .v).origin.val + (b.borderBoxTop fp).val = Y + lowered fp d m.style) :
    b.Fills fp { region fp d size.val X Y m with contentHeight := y.val, height := m.style.edge fp d .top + y.val + m.style.edge fp d .bottom } := by
  obtain ⟨bs, hs⟩ := (within_shown hm).1 b hb
  have hfit := hn.whole h hs
  obtain ⟨b1, hb1, eg⟩ := regular_edges L h hm hr
  cases hb.symm.trans hb1
  obtain ⟨b2, x, size', hb2, hw2, hx, a1, a2⟩ := regular_across L hn h hm hr
  cases hb.symm.trans hb2
  cases hw.symm.trans hw2
  have l1 : b.border.left.val = _ := (eg .left).1
  have l2 : b.padding.left.val = _ := (eg .left).2
  have r1 : b.border.right.val = _ := (eg .right).1
  have r2 : b.padding.right.val = _ := (eg .right).2
  have t1 : b.border.top.val = _ := (eg .top).1
  have t2 : b.padding.top.val = _ := (eg .top).2
  have u1 : b.border.bottom.val = _ := (eg .bottom).1
  have u2 : b.padding.bottom.val = _ := (eg .bottom).2
  obtain ⟨cr, acr, pr, pw, apr, br, bw, abr, e1, e2, e3, e4, e5, e6, e7, e8, f1, f2, f3, f4, f5, f6, f7, f8, f9, f10, f11, f12, f13⟩ :=
    C39_horizontal fp b x hx hfit
  obtain ⟨cr', acr', pr', pw', apr', br', bw', abr', e1', e2', e3', e4', e5', e6', e7', e8', f1', f2', f3', f4', f5', f6', f7', f8', f9', f10', f11', f12', f13'⟩ :=
    C39_vertical fp b y hy hfit
  have el : m.style.edge fp d .left = b.border.left.val + b.padding.left.val := by unfold CSS.edge; rw [l1, l2]
  have er : m.style.edge fp d .right = b.border.right.val + b.padding.right.val := by unfold CSS.edge; rw [r1, r2]
  have et : m.style.edge fp d .top = b.border.top.val + b.padding.top.val := by unfold CSS.edge; rw [t1, t2]
  have eb : m.style.edge fp d .bottom = b.border.bottom.val + b.padding.bottom.val := by unfold CSS.edge; rw [u1, u2]
  simp only [Box.frame] at f1 f2 f3 f5 f6 f8 f12 f13 f1' f2' f3' f5' f6' f8' f12' f13'
  have a2 : b.h.content.val = _ := a2
  have hX : b.h.origin.val = X := hX
  have hY : b.v.origin.val + _ = Y + lowered fp d m.style := hY
  rw [el] at a2
  constructor
  · show _ = X + shift fp d m.style size.val + aside fp d m.style size.val
    rw [f12, f5, f2]
    simp only [a2, hX]
    ring
  · show _ = Y + lowered fp d m.style
    rw [f12', ← hY]
  · refine ⟨abr, e8, ?_⟩
    show _ = X + shift fp d m.style size.val + aside fp d m.style size.val + (m.style.edge fp d .left + contentWide fp d m.style size.val + m.style.edge fp d .right)
    rw [f13, f6, f3, f1, ← a1, el, er]
    simp only [a2, hX]
    ring
  · refine ⟨abr', e8', ?_⟩
    show _ = Y + lowered fp d m.style + (m.style.edge fp d .top + y.val + m.style.edge fp d .bottom)
    rw [f13', f6', f3', f1', ← hY, f5', f2', et, eb]
    ring
  · show _ = X + shift fp d m.style size.val + aside fp d m.style size.val + m.style.edge fp d .left
    rw [f8, el]
    simp only [a2, hX]
    ring
  · show _ = Y + lowered fp d m.style + m.style.edge fp d .top
    rw [f8', et, ← hY, f5', f2']
    ring
  · exact ⟨x, hx, a1⟩
  · exact ⟨y, hy, rfl⟩

/-- The boxes below an element are those of the reference. -/
theorem regular_path (L : fp.Laws) {K : Nat} {html5 : Bool} {p : Option CSS} {n n' : Node} (hn : Easy fp d p n K) (hb : n.Blocky fp d)
    (h : layout fp d html5 p n = .ok n') (q : List Nat) : ∀ (m : Node) (ps : Option CSS) (size : Num) (bs : List Box) (b : Box) (X Y : Rat),
    Within (some d.contentWidth) p n' (some size) ps m → All fp d m → (∀ bs' b', Shown m bs' b' → Shown n' (bs ++ bs') b') →
    m.layout = some b → (b.pos .h).origin.val = X → (b.pos .v).origin.val + (b.borderBoxTop fp).val = Y + lowered fp d m.style → (∃ y, b.contentHeight = some y) →
    (q = [] → Inside html5 (some d.contentWidth) p n' (some size) ps m) →
    Option.Rel (fun b f => b.Fills fp f) (m.boxAt q) (regionAt fp d size.val X Y m q) := by
  induction q with
  | nil =>
    intro m ps size bs b X Y hw hf _ hl hX hY ⟨y, hy⟩ hi
    obtain ⟨b1, y1, z, k1, k2, k3, _⟩ := regular_tall L hn hb h _ _ _ m le_rfl hf (hi rfl)
    cases hl.symm.trans k1
    cases hy.symm.trans k2
    have := regular_fills L hn h hw (hf m (.refl _)) rfl hl hy hX hY
    rw [regionAt]
    show Option.Rel _ m.layout _
    rw [hl]
    refine .some ?_
    have e : region fp d size.val X Y m = { region fp d size.val X Y m with
        contentHeight := y.val, height := m.style.edge fp d .top + y.val + m.style.edge fp d .bottom } := by
      simp only [region, tall_eq, k3, Region.mk.injEq, true_and]
      ring
    rw [e]
    exact this
  | cons i q ih =>
    intro m ps size bs b X Y hw hf hsh hl hX hY ⟨y, hy⟩ _
    have hr := hf m (.refl _)
    have fill := regular_fills L hn h hw hr rfl hl hy hX hY
    rw [regionAt, Node.boxAt, hl]
    simp only [Option.isSome_some, if_true]
    cases hc : m.children[i]? with
    | none => exact .none
    | some c =>
      have mc := List.mem_of_getElem? hc
      have fc := all_kid hf mc
      have inn : ∀ c ∈ m.children, Inside html5 (some d.contentWidth) p n' b.contentWidth (some m.style) c := fun c hc =>
        within_inside hw hr.shown hl hc fun _ => (all_kid hf hc c (.refl _)).level
      have hkid : ∀ c ∈ m.children, ∃ b y, c.layout = some b ∧ b.contentHeight = some y ∧ y.val = contentTall fp d c := by
        intro c hc
        obtain ⟨b, y, _, h1, h2, h3, _⟩ := regular_tall L hn hb h _ _ _ c le_rfl (all_kid hf hc) (inn c hc)
        exact ⟨b, y, h1, h2, h3⟩
      obtain ⟨cb, c1, c2⟩ := regular_top L hn hb h hw hf hkid i c hc
      obtain ⟨_, cy, _, k1, k2, _⟩ := regular_tall L hn hb h _ _ _ c le_rfl fc (inn c mc)
      cases c1.symm.trans k1
      obtain ⟨x, x1, x2⟩ := fill.contentWidth
      have ic := inn c mc
      rw [x1] at ic
      have sh : ∀ bs' b', Shown c bs' b' → Shown n' ((bs ++ [b]) ++ bs') b' := by
        intro bs' b' hs
        rw [List.append_assoc]
        exact hsh _ _ (.step hl mc hs)
      have so : Shown n' (bs ++ [b]) cb := by simpa using sh [] cb (.here c1)
      have oh := (C49_origins_partial fp d html5 p n n' hn.boxed h .h).1 bs b cb so
      have ov := (C49_origins_partial fp d html5 p n n' hn.boxed h .v).1 bs b cb so
      have x2 : x.val = (region fp d size.val X Y m).contentWidth := x2
      show Option.Rel _ (c.boxAt q) (regionAt fp d _ _ _ c q)
      rw [← x2]
      refine ih c _ x (bs ++ [b]) cb _ _ (inside_within ic) fc sh c1 ?_ ?_ ⟨cy, k2⟩ fun _ => ic
      · rw [oh, fill.contentLeft]
      · rw [ov, fill.contentTop, c2, ← add_assoc]

/-- The border box of the root. -/
theorem regular_root (L : fp.Laws) {K : Nat} {p : Option CSS} {n n' : Node} (hn : Easy fp d p n K) (hb : n.Blocky fp d)
    (h : layout fp d false p n = .ok n') (hr : All fp d n') :
    ∃ b, n'.layout = some b ∧ (b.borderBoxTop fp).val = n'.edgeTop fp d + lowered fp d n'.style := by
  have hw : Within (some d.contentWidth) p n' (some d.contentWidth) p n' := .here ..
  have r := hr n' (.refl _)
  obtain ⟨b1, y, _, k1, k2, _⟩ := regular_tall (html5 := false) L hn hb h _ _ _ n' le_rfl hr hw
  obtain ⟨b2, v1, v2, v3⟩ := C79_vertical fp L d false p _ n n' n' _ .top (Or.inl rfl) h hw r.shown
  obtain ⟨b3, w1, w2, _⟩ := blocky_ends L hn.boxed hb h hw
  cases k1.symm.trans v1
  cases k1.symm.trans w1
  have ⟨t, ht⟩ : ∃ t, b1.margin.top = .num t := by
    rcases r.margin .top (by simp) with e | ⟨y, hy⟩
    · obtain ⟨z, z1, _⟩ := v3 e (Or.inl r.level)
      exact ⟨z, z1⟩
    · obtain ⟨z, z1, _⟩ := v2 y hy
      exact ⟨z, z1⟩
  have hx : b1.Stands ⟨t, b1.border.top, b1.padding.top, y, b1.padding.bottom, b1.border.bottom, b1.collapse.bottom⟩ := ⟨ht, rfl, rfl, k2, rfl, rfl, rfl⟩
  have hfo := regular_follows L hn h hw r k1 hx
  have fit := easy_stands hn h (.here k1) hx
  refine ⟨b1, k1, ?_⟩
  rw [← w2]
  obtain ⟨m, h1, h2, h0⟩ := layout_ok h
  obtain ⟨s, z, b, cs, b', rfl, rfl, e⟩ := finishRoot_ok h2
  have k1 : some b' = some b1 := k1
  cases k1
  simp only [Bool.false_eq_true, if_false] at e
  have q1 : b1.border = b.border ∧ b1.padding = b.padding := by rw [e]; exact setContent_edges ..
  have q3 : b1.collapse = b.collapse := by rw [e]; exact setContent_collapse ..
  have q4 : b1.top.val = (b.top.add fp (.int b.collapse.top)).val := by rw [e]; exact setContent_v_top ..
  have q5 : b1.margin = b.margin := by rw [e]; exact setContent_margin ..
  have q6 : b1.contentHeight = b.contentHeight := by
    rw [e]; unfold setContent; split <;> rfl
  have hs : (n.reset fp).style = s := (layoutBox_style h1).symm
  have hst : b.Stands ⟨t, b1.border.top, b1.padding.top, y, b1.padding.bottom, b1.border.bottom, b1.collapse.bottom⟩ := by
    refine ⟨q5 ▸ ht, ?_, ?_, q6 ▸ k2, ?_, ?_, ?_⟩ <;> first | exact q1.1 ▸ rfl | exact q1.2 ▸ rfl | exact q3 ▸ rfl
  have hz := hn.bound
  obtain ⟨u1, u2⟩ := follows_all h1 (pristine_reset fp hn.boxed) (by rw [hs]; exact (blockLevel_iff (.mk s z (some b1) _)).2 r.level) _ _ _ hst fit (by omega) hfo
  have c1 : Fits fp K (.int b.collapse.top) := by
    rw [← q3]; exact hn.collapse h (.here rfl) .top
  obtain ⟨_, f2, f3, _⟩ := fit
  obtain ⟨g1, g2⟩ := u2.add c1 (by omega)
  obtain ⟨i1, i2⟩ := (g2.of_val q4).sub f3 (by omega)
  obtain ⟨j1, j2⟩ := i2.sub f2 (by omega)
  refine Eq.trans (show _ = ((b1.top.sub fp b1.padding.top).sub fp b1.border.top).val from rfl) ?_
  rw [j1, i1, q4, g1, u1, q3, Num.val_int]
  ring

/-! ## The reference depends on the style and the structure only -/

mutual
theorem tall_strip : ∀ n : Node, tall fp d n.strip = tall fp d n
  | .mk s z l cs => by rw [strip_mk, tall, tall, stack_strip cs, List.isEmpty_map]
theorem stack_strip : ∀ cs : List Node, stack fp d (cs.map Node.strip) = stack fp d cs
  | [] => rfl
  | [c] => by rw [List.map_cons, List.map_nil, stack, stack, tall_strip c, strip_style]
  | c :: c' :: cs => by
    have := stack_strip (c' :: cs)
    rw [List.map_cons] at this
    rw [List.map_cons, List.map_cons, stack, stack, this, tall_strip c, between_strip]
end

theorem place_strip : ∀ (cs : List Node) (i : Nat), place fp d (cs.map Node.strip) i = place fp d cs i
  | c :: c' :: cs, i + 1 => by
    have := place_strip (c' :: cs) i
    rw [List.map_cons] at this
    rw [List.map_cons, List.map_cons, place, place, this, tall_strip c, between_strip]
  | _, 0 => by rw [place_zero, place_zero]
  | [], _ => rfl
  | [_], _ + 1 => rfl

theorem region_strip (n : Node) (W x y : Rat) : region fp d W x y n.strip = region fp d W x y n := by
  unfold region
  rw [strip_style, tall_strip]

theorem regionAt_strip (q : List Nat) : ∀ (n : Node) (W x y : Rat), regionAt fp d W x y n.strip q = regionAt fp d W x y n q := by
  induction q with
  | nil => intro n W x y; rw [regionAt, regionAt, region_strip]
  | cons i q ih =>
    intro n W x y
    rw [regionAt, regionAt, region_strip, strip_children, place_strip, List.getElem?_map]
    cases n.children[i]? with
    | none => rfl
    | some c => exact ih c _ _ _

theorem reference_strip {n n' : Node} (h : n'.strip = n.strip) (html5 : Bool) (q : List Nat) : reference fp d html5 n' q = reference fp d html5 n q := by
  have key : ∀ m : Node, reference fp d html5 m.strip q = reference fp d html5 m q := by
    intro m
    unfold reference
    rw [regionAt_strip, edgeTop_strip, edgeBottom_strip, strip_style]
  rw [← key n', h, key]

end Moved

end Colosseum
