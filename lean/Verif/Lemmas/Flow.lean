import Verif.Spec.Flow
import Verif.Props.Mild
import Verif.Props.Heights
import Verif.Props.Edges

/-!
# Documents in normal flow
-/

namespace Colosseum

theorem sub_strip {n n' : Node} (h : n.strip = n'.strip) {m : Node} (hm : Sub m n) : ∃ m', Sub m' n' ∧ m'.strip = m.strip := by
  induction hm generalizing n' with
  | refl => exact ⟨n', .refl _, h.symm⟩
  | @child c n hc _ ih =>
    have : c.strip ∈ n'.children.map Node.strip := by
      rw [← strip_children, ← h, strip_children]
      exact List.mem_map_of_mem hc
    obtain ⟨c', hc', e⟩ := List.mem_map.1 this
    obtain ⟨m', h1, h2⟩ := ih e.symm
    exact ⟨m', .child hc' h1, h2⟩

theorem flows_strip {m m' : Node} (h : m.strip = m'.strip) {fp : FP} {d : Display} (hm : m.Flows fp d) : m'.Flows fp d := by
  have e1 : m.style = m'.style := by rw [← strip_style, h, strip_style]
  have e2 : m.intrinsic = m'.intrinsic := by rw [← strip_intrinsic, h, strip_intrinsic]
  have e3 : m.children = [] → m'.children = [] := by
    intro e
    have := congrArg Node.children h
    rw [strip_children, strip_children, e] at this
    exact List.map_eq_nil_iff.1 this.symm
  obtain ⟨h1, h2, h3, h4, h5, h6, h7, h8⟩ := hm
  unfold Node.Relative at h3
  rw [e1] at h1 h3 h4 h5 h6 h7 h8
  rw [e2] at h2
  exact ⟨h1, h2, h3, h4, h5, h6, h7, h8.imp id (And.imp_left e3)⟩

theorem flowing_strip {n n' : Node} (h : n'.strip = n.strip) {fp : FP} {d : Display} (hn : n.Flowing fp d) : n'.Flowing fp d := by
  intro m hm
  obtain ⟨m', h1, h2⟩ := sub_strip h hm
  exact flows_strip h2 (hn m' h1)

theorem Node.Flowing.kid {n c : Node} {fp : FP} {d : Display} (h : n.Flowing fp d) (hc : c ∈ n.children) : c.Flowing fp d :=
  fun m hm => h m (.child hc hm)

theorem Node.Flows.level {m : Node} {fp : FP} {d : Display} (h : m.Flows fp d) : m.BlockLevel := h.block.elim Or.inl fun e => Or.inr (Or.inl e)

theorem Node.Flows.shown {m : Node} {fp : FP} {d : Display} (h : m.Flows fp d) : ¬ m.Hidden := blockLevel_not_hidden h.level

theorem within_sub {w w' : Option Num} {ps ps' : Option CSS} {n m : Node} (h : Within w ps n w' ps' m) : Sub m n := by
  induction h with
  | here => exact .refl _
  | step _ _ hc _ _ ih => exact .child hc ih

/-- One step further. -/
theorem within_next {w w' : Option Num} {ps ps' : Option CSS} {n m c : Node} {b : Box} (h : Within w ps n w' ps' m) (hm : ¬ m.Hidden) (hb : m.layout = some b)
    (hc : c ∈ m.children) (hl : m.BlockContext → c.BlockLevel) : Within w ps n b.contentWidth (some m.style) c := by
  induction h with
  | here => exact .step hm hb hc hl (.here ..)
  | step h1 h2 h3 h4 _ ih => exact .step h1 h2 h3 h4 (ih hm hb hc hl)

theorem within_inside {html5 : Bool} {w w' : Option Num} {ps ps' : Option CSS} {n m c : Node} {b : Box} (h : Within w ps n w' ps' m) (hm : ¬ m.Hidden)
    (hb : m.layout = some b) (hc : c ∈ m.children) (hl : m.BlockContext → c.BlockLevel) : Inside html5 w ps n b.contentWidth (some m.style) c := by
  cases html5 with
  | false => exact within_next h hm hb hc hl
  | true =>
    cases h with
    | here => exact ⟨b, c, hm, hb, hc, hl, .here ..⟩
    | step h1 h2 h3 h4 h5 => exact ⟨_, _, h1, h2, h3, h4, within_next h5 hm hb hc hl⟩

theorem flowing_context {m : Node} {fp : FP} {d : Display} (h : m.Flowing fp d) (hc : m.children ≠ []) : m.BlockContext := by
  have hm := h m (.refl _)
  obtain ⟨c, hc⟩ := List.exists_mem_of_ne_nil _ hc
  refine ⟨?_, hm.content, c, hc, (h c (.child hc (.refl _))).level⟩
  rcases hm.block with e | e
  · exact Or.inl e
  · exact Or.inr (Or.inl e)

/-! ## One element -/

/-- Nothing is negative around the content. -/
structure Box.Padded (b : Box) : Prop where
  border : ∀ t, 0 ≤ (b.border.get t).val
  padding : ∀ t, 0 ≤ (b.padding.get t).val

theorem flows_padded {fp : FP} (L : fp.Laws) {d : Display} {html5 : Bool} {p ps : Option CSS} {n n' m : Node} {w : Option Num}
    (h : layout fp d html5 p n = .ok n') (hm : Within (some d.contentWidth) p n' w ps m) (hf : m.Flows fp d) :
    ∃ b, m.layout = some b ∧ b.Padded := by
  obtain ⟨b, hb, _⟩ := C79_border fp L d html5 p ps n n' m w .top h hm hf.shown
  refine ⟨b, hb, fun t => ?_, fun t => ?_⟩
  · obtain ⟨b', hb', e⟩ := C79_border fp L d html5 p ps n n' m w t h hm hf.shown
    obtain ⟨x, hx, h0⟩ := hf.border t
    cases hb.symm.trans hb'
    rw [e x hx]; exact h0
  · obtain ⟨b', hb', e⟩ := C79_padding fp L d html5 p ps n n' m w t h hm hf.shown
    obtain ⟨x, hx, h0⟩ := hf.padding t
    cases hb.symm.trans hb'
    rw [e x hx]; exact h0

theorem room_margin {v : Val} {fp : FP} {d : Display} (h : v = kw "auto" ∨ v.Room fp d) (w : Option Num) :
    ∃ l : Option Num, v.Margin fp ⟨d, dummyFont fp, w⟩ l ∧ 0 ≤ (l.map Num.val).getD 0 := by
  rcases h with h | ⟨x, hx, h0⟩
  · exact ⟨none, h, le_rfl⟩
  · have e := length_px hx w
    obtain ⟨k, val, rfl, _, _⟩ := hx
    exact ⟨some x, ⟨_, rfl, e⟩, h0⟩

/-- The horizontal measures of a block in normal flow. -/
theorem flows_across {fp : FP} (L : fp.Laws) {d : Display} {M : Nat} {html5 : Bool} {p ps : Option CSS} {n n' m : Node} {w : Option Num}
    (hn : n.Moderate fp d M) (h : layout fp d html5 p n = .ok n') (hm : Within (some d.contentWidth) p n' w ps m) (hf : m.Flows fp d) :
    ∃ b x size, m.layout = some b ∧ b.Measures x ∧ w = some size ∧ x.sum = size.val ∧ 0 ≤ x.ml.val ∧ 0 ≤ x.mr.val ∧
      (b.pos .h).content.val = x.ml.val + x.bl.val + x.pl.val := by
  obtain ⟨b, x, size, hb, hx, hw, hs⟩ := C80_across fp L d M html5 p ps n n' m w hn h hm hf.level
  obtain ⟨l, hl, l0⟩ := room_margin (hf.margin .left (Or.inl rfl)) w
  obtain ⟨r, hr, r0⟩ := room_margin (hf.margin .right (Or.inr rfl)) w
  obtain ⟨b', x', size', hb', hx', hw', hu⟩ := C80_margins fp L d M html5 p ps n n' m w l r hn h hm hf.level hl hr
  obtain ⟨b2, ml, hb2, e2, e3⟩ := C80_left fp L d M html5 p ps n n' m w hn h hm hf.level hf.static
  cases hb.symm.trans hb'
  cases hb.symm.trans hb2
  cases hw.symm.trans hw'
  have ha : (m.style.get .width).isKw "auto" = true := (isKw_iff _ _).2 hf.width
  rw [ha] at hu
  have e4 : x.ml = ml := MVal.num.inj (hx.1.symm.trans e2)
  have e5 : x'.ml = ml := MVal.num.inj (hx'.1.symm.trans e2)
  have e6 : x'.mr = x.mr := MVal.num.inj (hx'.2.2.2.2.2.2.symm.trans hx.2.2.2.2.2.2)
  refine ⟨b, x, size, hb, hx, hw, ?_, ?_⟩
  · rcases hs with hs | ⟨hs, _⟩
    · exact hs
    · exact absurd hf.width hs
  · rcases hu _ rfl with ⟨_, u1, u2⟩ | ⟨_, _, u3, _⟩
    · simp only [usedMargins, if_true] at u1 u2
      rw [e4, ← e5, u1, ← e6, u2]
      refine ⟨l0, r0, ?_⟩
      rw [e3, ← e5, u1, hx.2.1, hx.2.2.1]
    · exact absurd hf.width u3

theorem stands_height {b : Box} {x : Down} (hx : b.Stands x) (hp : b.Padded) {y : Num} (hy : b.contentHeight = some y) (h0 : 0 ≤ y.val) : 0 ≤ x.height := by
  obtain ⟨_, e1, e2, e3, e4, e5, _⟩ := hx
  rw [hy] at e3
  cases e3
  have p1 : 0 ≤ b.border.top.val := hp.border .top
  have p2 : 0 ≤ b.border.bottom.val := hp.border .bottom
  have p3 : 0 ≤ b.padding.top.val := hp.padding .top
  have p4 : 0 ≤ b.padding.bottom.val := hp.padding .bottom
  unfold Down.height
  rw [← e1, ← e2, ← e4, ← e5]
  linarith

/-- No block is of negative height. -/
theorem flows_height {fp : FP} (L : fp.Laws) {d : Display} {M : Nat} {html5 : Bool} {p : Option CSS} {n n' : Node} (hn : n.Moderate fp d M)
    (h : layout fp d html5 p n = .ok n') (k : Nat) : ∀ (w : Option Num) (ps : Option CSS) (m : Node), m.count ≤ k → m.Flowing fp d →
    Inside html5 (some d.contentWidth) p n' w ps m → ∃ b y, m.layout = some b ∧ b.contentHeight = some y ∧ 0 ≤ y.val := by
  induction k with
  | zero => intro w ps m hk; have := count_pos m; omega
  | succ k ih =>
    intro w ps m hk hf hm
    have hm' := hf m (.refl _)
    have hw := inside_within hm
    obtain ⟨mb, hmb, _⟩ := flows_padded L h hw hm'
    rcases hm'.height with ⟨ha, hmin⟩ | ⟨he, hy, hmax⟩
    · by_cases he : m.children = []
      · obtain ⟨b, y, h1, h2, h3, h4⟩ := C46_empty_partial fp d html5 p ps n n' m w h hm hm'.level ha he
        refine ⟨b, y, h1, h2, ?_⟩
        rcases hmin with hmin | ⟨x, hx, h0⟩
        · rw [h3 hmin]
        · rw [h4 x hx]; exact h0
      · have hkid : ∀ c ∈ m.children, ∃ b y, c.layout = some b ∧ b.Padded ∧ b.contentHeight = some y ∧ 0 ≤ y.val := by
          intro c hc
          have fc := hf.kid hc
          have wc : Inside html5 (some d.contentWidth) p n' mb.contentWidth (some m.style) c := within_inside hw hm'.shown hmb hc fun _ => (fc c (.refl _)).level
          obtain ⟨b, y, h1, h2, h3⟩ := ih _ _ c (by have := child_count hc; omega) fc wc
          obtain ⟨b', h4, h5⟩ := flows_padded L h (inside_within wc) (fc c (.refl _))
          cases h1.symm.trans h4
          exact ⟨b, y, h1, h5, h2, h3⟩
        obtain ⟨b, y, h1, h2, h3⟩ := C80_encloses fp L d M html5 p ps n n' m w hn h hm hm'.level (flowing_context hf he) ha
          (fun c hc => by
            have := hf c (.child (List.mem_of_getLast? hc) (.refl _))
            exact ⟨this.level, this.static⟩)
          (fun c hc b x hb hx => by
            obtain ⟨b', y, h1, h2, h3, h4⟩ := hkid c hc
            cases hb.symm.trans h1
            exact stands_height hx h2 h3 h4)
        obtain ⟨c, hc⟩ := List.exists_mem_of_ne_nil _ he
        have := hf c (.child hc (.refl _))
        obtain ⟨cb, z, _, _, k1, k2, k3⟩ := h3 c hc this.level this.static
        exact ⟨b, y, h1, h2, by linarith⟩
    · obtain ⟨y, hy, h0⟩ := hy
      obtain ⟨b, x, h1, h2, h3⟩ := C71_length fp d html5 p ps n n' m w y h hm hm'.level hy (hmax.imp id fun ⟨hi, hx, _⟩ => ⟨hi, hx⟩)
      refine ⟨b, x, h1, h2, ?_⟩
      generalize e : x.val = v at h3
      cases h3 with
      | free => exact h0
      | limited hi hhi =>
        rcases hmax with hmax | ⟨hi', hx', h0'⟩
        · obtain ⟨k, val, e', _⟩ := hhi
          rw [hmax] at e'
          cases e'
        · have := (length_px hx' none).symm.trans (length_px hhi none)
          cases this
          exact le_min h0 h0'

/-! ## Exact sums -/

theorem moderate_place {fp : FP} (L : fp.Laws) {d : Display} {M : Nat} {html5 : Bool} {p : Option CSS} {n n' : Node} (hn : n.Moderate fp d M)
    (h : layout fp d html5 p n = .ok n') (a : Axis) {bs : List Box} {b : Box} (hs : Shown n' bs b) :
    |(b.absContent fp a).val| ≤ 2 ^ 44 := by
  rw [C80_place fp L d M html5 p n n' hn h a bs b hs]
  have hc := shown_count hs
  rw [count_same (layout_strip h)] at hc
  have key : ∀ l : List Box, (∀ x ∈ l, |(x.pos a).content.val| ≤ ((16 * (M * n.count) : Nat) : Rat)) →
      |(l.map fun x => (x.pos a).content.val).sum| ≤ ((l.length * (16 * (M * n.count)) : Nat) : Rat) := by
    intro l
    induction l with
    | nil => intro _; simp
    | cons x l ih =>
      intro hl
      have h1 := hl x List.mem_cons_self
      have h2 := ih fun y hy => hl y (List.mem_cons_of_mem _ hy)
      rw [List.map_cons, List.sum_cons, List.length_cons]
      refine (abs_add_le _ _).trans ?_
      push_cast at h1 h2 ⊢
      linarith
  refine (key _ fun x hx => ?_).trans ?_
  · have : ∃ bs', Shown n' bs' x := by
      rcases List.mem_append.1 hx with hx | hx
      · exact shown_mem hs hx
      · cases List.mem_singleton.1 hx; exact ⟨_, hs⟩
    obtain ⟨bs', hx⟩ := this
    exact (C80_bound fp L d M html5 p n n' hn h bs' x hx).content a
  · have h1 : M * n.count * (bs.length + 1) ≤ M * n.count * n.count := Nat.mul_le_mul_left _ hc
    have h2 := hn.spread
    have e : (bs ++ [b]).length * (16 * (M * n.count)) = 16 * (M * n.count * (bs.length + 1)) := by
      rw [List.length_append, List.length_singleton]; ring
    have h3 : (bs ++ [b]).length * (16 * (M * n.count)) ≤ 2 ^ 44 := by rw [e]; omega
    have h4 : (((bs ++ [b]).length * (16 * (M * n.count)) : Nat) : Rat) ≤ ((2 ^ 44 : Nat) : Rat) := by exact_mod_cast h3
    refine h4.trans ?_
    norm_num

theorem shown_parent {bs : List Box} {q b : Box} : ∀ {n : Node}, Shown n (bs ++ [q]) b → Shown n bs q := by
  induction bs with
  | nil =>
    intro n h
    cases h with
    | step h1 _ _ => exact .here h1
  | cons x bs ih =>
    intro n h
    cases h with
    | step h1 h2 h3 => exact .step h1 h2 (ih h3)

/-- The sums of C39 are exact. -/
theorem moderate_fits {fp : FP} (L : fp.Laws) {d : Display} {M : Nat} {html5 : Bool} {p : Option CSS} {n n' : Node} (hn : n.Moderate fp d M)
    (h : layout fp d html5 p n = .ok n') {bs : List Box} {b : Box} (hs : Shown n' bs b) : b.Fits fp (2 ^ 50) := by
  have g := layout_onGrid L hn.mild.1.grid hn.boxed (fun k hk => moderate_grid hn k hk) h bs b hs
  have hb := C80_bound fp L d M html5 p n n' hn h bs b hs
  have hq : 16 * (M * n.count) ≤ 2 ^ 44 := by have := hn.size; omega
  have fit : ∀ {x : Num}, x.OnGrid → |x.val| ≤ ((16 * (M * n.count) : Nat) : Rat) → Fits fp (2 ^ 50) x := fun hx hy =>
    ((hx.near L hy).mono (by omega)).fits
  have ho : ∀ a, |(b.pos a).origin.val| ≤ ((2 ^ 44 : Nat) : Rat) := by
    intro a
    obtain ⟨c1, r, c2, c3⟩ := C49_origins_partial fp d html5 p n n' hn.boxed h a
    rcases List.eq_nil_or_concat bs with rfl | ⟨bs', q, rfl⟩
    · cases hs with
      | here hl =>
        cases c2.symm.trans hl
        rw [c3, Num.val_int]; norm_num
    · rw [List.concat_eq_append] at hs
      rw [c1 bs' q b hs]
      refine (moderate_place L hn h a (shown_parent hs)).trans ?_
      norm_num
  refine ⟨fun a => ⟨?_, fit (g.content a) (hb.content a)⟩, fun x hx => fit (g.width x hx) (hb.width x hx), fun x hx => fit (g.height x hx) (hb.height x hx),
    fun t => fit (g.border t) (hb.border t), fun t => fit (g.padding t) (hb.padding t)⟩
  exact (((g.origin a).near L (ho a)).mono (by norm_num)).fits

/-! ## Parent and child -/

theorem flow_shown {fp : FP} {d : Display} (html5 : Bool) {bs : List Box} {q b : Box} : ∀ {w0 : Option Num} {p0 : Option CSS} {n : Node}, n.Flowing fp d →
    Shown n (bs ++ [q]) b → ∃ w ps k c, Within w0 p0 n w ps k ∧ k.layout = some q ∧ c ∈ k.children ∧ c.layout = some b ∧ k.Flowing fp d ∧
      (html5 = false ∨ bs ≠ [] → Inside html5 w0 p0 n w ps k) := by
  induction bs with
  | nil =>
    intro w0 p0 n hf h
    cases h with
    | step h1 h2 h3 =>
      cases h3 with
      | here h3 =>
        refine ⟨_, _, n, _, .here .., h1, h2, h3, hf, fun e => ?_⟩
        rcases e with rfl | e
        · exact .here ..
        · exact absurd rfl e
  | cons x bs ih =>
    intro w0 p0 n hf h
    cases h with
    | step h1 h2 h3 =>
      have hs := (hf n (.refl _)).shown
      have hl : n.BlockContext → _ := fun _ => ((hf.kid h2) _ (.refl _)).level
      obtain ⟨w, ps, k, c, g1, g2, g3, g4, g5, _⟩ := ih (w0 := x.contentWidth) (p0 := some n.style) (hf.kid h2) h3
      refine ⟨w, ps, k, c, .step hs h1 h2 hl g1, g2, g3, g4, g5, fun _ => ?_⟩
      cases html5 with
      | false => exact .step hs h1 h2 hl g1
      | true => exact ⟨_, _, hs, h1, h2, hl, g1⟩

theorem flows_sides {fp : FP} (L : fp.Laws) {d : Display} {M : Nat} {html5 : Bool} {p ps : Option CSS} {n n' m : Node} {w : Option Num}
    (hn : n.Moderate fp d M) (h : layout fp d html5 p n = .ok n') (hm : Within (some d.contentWidth) p n' w ps m) (hf : m.Flows fp d) :
    ∃ b r size, m.layout = some b ∧ b.borderBoxRight fp = some r ∧ w = some size ∧ 0 ≤ (b.borderBoxLeft fp).val ∧ r.val ≤ size.val := by
  obtain ⟨b, x, size, h1, h2, h3, h4, h5, h6, h7⟩ := flows_across L hn h hm hf
  obtain ⟨bs, hs⟩ := (within_shown hm).1 b h1
  obtain ⟨cr, acr, pr, pw, apr, br, bw, abr, e1, e2, e3, e4, e5, e6, e7, e8, f1, f2, f3, f4, f5, f6, f7, f8⟩ :=
    C39_horizontal fp b x.w h2.2.2.2.1 (moderate_fits L hn h hs)
  refine ⟨b, br, size, h1, e6, h3, ?_, ?_⟩
  · rw [f5, f2]
    simp only [Box.frame, h2.2.1, h2.2.2.1]
    have : b.h.content.val = x.ml.val + x.bl.val + x.pl.val := h7
    linarith
  · rw [f6, f3, f1, ← h4]
    simp only [Box.frame, h2.2.2.2.2.1, h2.2.2.2.2.2.1, Across.sum]
    have : b.h.content.val = x.ml.val + x.bl.val + x.pl.val := h7
    linarith

theorem padded_sides {fp : FP} {b : Box} (hp : b.Padded) (hb : b.Fits fp (2 ^ 50)) :
    (∀ w, b.contentWidth = some w → ∃ br abr, b.borderBoxRight fp = some br ∧ b.absBorderBoxRight fp = some abr ∧ abr.val = (b.pos .h).origin.val + br.val ∧
      (b.absContent fp .h).val + w.val ≤ abr.val ∧ (b.absBorderBoxLeft fp).val = (b.pos .h).origin.val + (b.borderBoxLeft fp).val ∧
      (b.absBorderBoxLeft fp).val ≤ (b.absContent fp .h).val) ∧
    (∀ y, b.contentHeight = some y → ∃ br abr, b.borderBoxBottom fp = some br ∧ b.absBorderBoxBottom fp = some abr ∧ abr.val = (b.pos .v).origin.val + br.val ∧
      (b.absContent fp .v).val + y.val ≤ abr.val ∧ (b.absBorderBoxTop fp).val = (b.pos .v).origin.val + (b.borderBoxTop fp).val ∧
      (b.absBorderBoxTop fp).val ≤ (b.absContent fp .v).val ∧ (b.borderBoxTop fp).val + y.val ≤ br.val) := by
  have p1 : 0 ≤ b.border.top.val := hp.border .top
  have p2 : 0 ≤ b.border.bottom.val := hp.border .bottom
  have p3 : 0 ≤ b.padding.top.val := hp.padding .top
  have p4 : 0 ≤ b.padding.bottom.val := hp.padding .bottom
  have p5 : 0 ≤ b.border.left.val := hp.border .left
  have p6 : 0 ≤ b.border.right.val := hp.border .right
  have p7 : 0 ≤ b.padding.left.val := hp.padding .left
  have p8 : 0 ≤ b.padding.right.val := hp.padding .right
  constructor
  · intro w hw
    obtain ⟨cr, acr, pr, pw, apr, br, bw, abr, e1, e2, e3, e4, e5, e6, e7, e8, f1, f2, f3, f4, f5, f6, f7, f8, f9, f10, f11, f12, f13⟩ :=
      C39_horizontal fp b w hw hb
    simp only [Box.frame] at f1 f2 f3 f4 f5 f6 f7 f8 f9 f10 f11 f12 f13
    refine ⟨br, abr, e6, e8, f13, ?_, f12, ?_⟩ <;> linarith
  · intro y hy
    obtain ⟨cr, acr, pr, pw, apr, br, bw, abr, e1, e2, e3, e4, e5, e6, e7, e8, f1, f2, f3, f4, f5, f6, f7, f8, f9, f10, f11, f12, f13⟩ :=
      C39_vertical fp b y hy hb
    simp only [Box.frame] at f1 f2 f3 f4 f5 f6 f7 f8 f9 f10 f11 f12 f13
    refine ⟨br, abr, e6, e8, f13, ?_, f12, ?_, ?_⟩ <;> linarith

/-- What is known about the children of a block in normal flow. -/
theorem flows_kids {fp : FP} (L : fp.Laws) {d : Display} {M : Nat} {html5 : Bool} {p ps : Option CSS} {n n' m : Node} {w : Option Num}
    (hn : n.Moderate fp d M) (h : layout fp d html5 p n = .ok n') (hm : Within (some d.contentWidth) p n' w ps m) (hf : m.Flowing fp d) (i : Nat) :
    ∀ c, m.children[i]? = some c → ∃ b y, c.layout = some b ∧ b.borderBoxBottom fp = some y ∧ 0 ≤ (b.borderBoxTop fp).val ∧ (b.borderBoxTop fp).val ≤ y.val ∧
      ∀ c', m.children[i + 1]? = some c' → ∃ b', c'.layout = some b' ∧ y.val ≤ (b'.borderBoxTop fp).val := by
  have hm' := hf m (.refl _)
  obtain ⟨mb, hmb, _⟩ := flows_padded L h hm hm'
  have key : ∀ (i : Nat) (c : Node), m.children[i]? = some c → ∃ b y, c.layout = some b ∧ b.borderBoxBottom fp = some y ∧ (b.borderBoxTop fp).val ≤ y.val := by
    intro i c hc
    replace hc := List.mem_of_getElem? hc
    have fc := hf.kid hc
    have wc : Inside html5 (some d.contentWidth) p n' mb.contentWidth (some m.style) c := within_inside hm hm'.shown hmb hc fun _ => (fc c (.refl _)).level
    obtain ⟨b, y, h1, h2, h3⟩ := flows_height L hn h _ _ _ c le_rfl fc wc
    obtain ⟨b', h4, h5⟩ := flows_padded L h (inside_within wc) (fc c (.refl _))
    cases h1.symm.trans h4
    obtain ⟨bs, hs⟩ := (within_shown (inside_within wc)).1 b h1
    obtain ⟨br, _, k1, _, _, _, _, _, k2⟩ := (padded_sides h5 (moderate_fits L hn h hs)).2 y h2
    exact ⟨b, br, h1, k1, by linarith⟩
  have next : ∀ (i : Nat) (c c' : Node), m.children[i]? = some c → m.children[i + 1]? = some c' → ∃ b b' y, c.layout = some b ∧ c'.layout = some b' ∧
      b.borderBoxBottom fp = some y ∧ y.val ≤ (b'.borderBoxTop fp).val := by
    intro i c c' hc hc'
    have m1 := List.mem_of_getElem? hc
    have f1 := hf.kid m1 c (.refl _)
    have f2 := hf.kid (List.mem_of_getElem? hc') c' (.refl _)
    have hx := flowing_context hf (List.ne_nil_of_mem m1)
    obtain ⟨b, b', y, mt, g1, g2, g3, _, _, _, g4⟩ :=
      (C80_stack fp L d M html5 p ps n n' m w hn h hm hm'.shown hx).2 i c c' hc hc' f2.level f1.static f2.static
    exact ⟨b, b', y, g1, g2, g3, g4⟩
  induction i with
  | zero =>
    intro c hc
    obtain ⟨b, y, h1, h2, h3⟩ := key 0 c hc
    have hx := flowing_context hf (List.ne_nil_of_mem (List.mem_of_getElem? hc))
    obtain ⟨c1, b1, g1, g2, _, g3⟩ := (C80_stack fp L d M html5 p ps n n' m w hn h hm hm'.shown hx).1
    cases hc.symm.trans g1
    cases h1.symm.trans g2
    refine ⟨b, y, h1, h2, ?_, h3, fun c' hc' => ?_⟩
    · rw [g3 (hf.kid (List.mem_of_getElem? hc) c (.refl _)).static]
    · obtain ⟨b0, b', y0, k1, k2, k3, k4⟩ := next 0 c c' hc hc'
      cases h1.symm.trans k1
      cases h2.symm.trans k3
      exact ⟨b', k2, k4⟩
  | succ i ih =>
    intro c hc
    obtain ⟨b, y, h1, h2, h3⟩ := key _ c hc
    have hlt : i < m.children.length := by
      have := (List.getElem?_eq_some_iff.1 hc).1
      omega
    obtain ⟨b0, y0, k1, k2, k3, k4, k5⟩ := ih _ (List.getElem?_eq_getElem hlt)
    obtain ⟨b1, k6, k7⟩ := k5 c hc
    cases h1.symm.trans k6
    refine ⟨b, y, h1, h2, by linarith, h3, fun c' hc' => ?_⟩
    obtain ⟨b0, b', y0, k1, k2, k3, k4⟩ := next _ c c' hc hc'
    cases h1.symm.trans k1
    cases h2.symm.trans k3
    exact ⟨b', k2, k4⟩

/-- An earlier child is above a later one. -/
theorem flows_order {fp : FP} (L : fp.Laws) {d : Display} {M : Nat} {html5 : Bool} {p ps : Option CSS} {n n' m : Node} {w : Option Num}
    (hn : n.Moderate fp d M) (h : layout fp d html5 p n = .ok n') (hm : Within (some d.contentWidth) p n' w ps m) (hf : m.Flowing fp d) (i k : Nat) :
    ∀ c c', m.children[i]? = some c → m.children[i + k + 1]? = some c' → ∃ b b' y, c.layout = some b ∧ c'.layout = some b' ∧ b.borderBoxBottom fp = some y ∧
      y.val ≤ (b'.borderBoxTop fp).val := by
  induction k with
  | zero =>
    intro c c' hc hc'
    obtain ⟨b, y, h1, h2, _, _, h3⟩ := flows_kids L hn h hm hf i c hc
    obtain ⟨b', h4, h5⟩ := h3 c' hc'
    exact ⟨b, b', y, h1, h4, h2, h5⟩
  | succ k ih =>
    intro c c' hc hc'
    have hlt : i + k + 1 < m.children.length := by
      have := (List.getElem?_eq_some_iff.1 hc').1
      omega
    obtain ⟨b, b0, y, h1, h2, h3, h4⟩ := ih c _ hc (List.getElem?_eq_getElem hlt)
    obtain ⟨b1, y1, g1, g2, _, g3, g4⟩ := flows_kids L hn h hm hf _ _ (List.getElem?_eq_getElem hlt)
    obtain ⟨b', g5, g6⟩ := g4 c' hc'
    cases h2.symm.trans g1
    exact ⟨b, b', y, h1, g5, h3, by linarith⟩

end Colosseum
