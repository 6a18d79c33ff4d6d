import Verif.Lemmas.Heights

/-!
# Vertical positions
-/

namespace Colosseum

/-! ## Documents that have just been reset -/

/-- Every visible node has a box, and the shown boxes are as `reset` leaves them, except for their origins. -/
def Pristine (n : Node) : Prop := AllBoxed n ∧ ∀ bs b, Shown n bs b → b.noOrigin = Box.fresh

theorem noOrigin_hidden {n m : Node} (h : n.noOrigin = m.noOrigin) : n.Hidden ↔ m.Hidden := by
  unfold Node.Hidden
  rw [← noOrigin_style n, h, noOrigin_style]

theorem noOrigin_kids {n m : Node} (h : n.noOrigin = m.noOrigin) : n.children.map Node.noOrigin = m.children.map Node.noOrigin := by
  rw [← noOrigin_children, ← noOrigin_children, h]

theorem noOrigin_box {n m : Node} (h : n.noOrigin = m.noOrigin) : n.layout.map Box.noOrigin = m.layout.map Box.noOrigin := by
  rw [← noOrigin_layout, ← noOrigin_layout, h]

theorem noOrigin_boxOf {n m : Node} {b : Box} (h : n.noOrigin = m.noOrigin) (hb : n.layout = some b) :
    ∃ b', m.layout = some b' ∧ b.noOrigin = b'.noOrigin := by
  have := noOrigin_box h
  rw [hb] at this
  cases hm : m.layout with
  | none => rw [hm] at this; cases this
  | some b' =>
    rw [hm] at this
    exact ⟨b', rfl, by simpa using this⟩

theorem noOrigin_mem {cs cs' : List Node} (h : cs.map Node.noOrigin = cs'.map Node.noOrigin) {c : Node} (hc : c ∈ cs) :
    ∃ c' ∈ cs', c.noOrigin = c'.noOrigin := forall₂_left (forall₂_of_map h) hc

theorem visible_noOrigin {m n : Node} (h : Visible m n) : ∀ {n' : Node}, n.noOrigin = n'.noOrigin → ∃ m', Visible m' n' ∧ m.noOrigin = m'.noOrigin := by
  induction h with
  | here hs => intro n' e; exact ⟨n', .here fun h => hs ((noOrigin_hidden e).2 h), e⟩
  | step hn hc _ ih =>
    intro n' e
    obtain ⟨c', hc', e'⟩ := noOrigin_mem (noOrigin_kids e) hc
    obtain ⟨m', h1, h2⟩ := ih e'
    exact ⟨m', .step (fun h => hn ((noOrigin_hidden e).2 h)) hc' h1, h2⟩

theorem shown_noOrigin {n : Node} {bs : List Box} {b : Box} (h : Shown n bs b) :
    ∀ {n' : Node}, n.noOrigin = n'.noOrigin → ∃ bs' b', Shown n' bs' b' ∧ b.noOrigin = b'.noOrigin := by
  induction h with
  | here h =>
    intro n' e
    obtain ⟨b', h1, h2⟩ := noOrigin_boxOf e h
    exact ⟨[], b', .here h1, h2⟩
  | step h hc _ ih =>
    intro n' e
    obtain ⟨b', h1, h2⟩ := noOrigin_boxOf e h
    obtain ⟨c', hc', e'⟩ := noOrigin_mem (noOrigin_kids e) hc
    obtain ⟨bs', b'', h3, h4⟩ := ih e'
    exact ⟨b' :: bs', b'', .step h1 hc' h3, h4⟩

theorem pristine_noOrigin {n m : Node} (e : n.noOrigin = m.noOrigin) (h : Pristine n) : Pristine m := by
  refine ⟨fun k hk hn => ?_, fun bs b hb => ?_⟩
  · obtain ⟨k', h1, h2⟩ := visible_noOrigin hk e.symm
    refine h.1 k' h1 ?_
    have := noOrigin_box h2
    rw [hn] at this
    cases hl : k'.layout with
    | none => rfl
    | some b => rw [hl] at this; cases this
  · obtain ⟨bs', b', h1, h2⟩ := shown_noOrigin hb e.symm
    rw [h2]
    exact h.2 _ _ h1

theorem pristine_passes : Passes Pristine where
  kid := by
    intro s z b cs c c' hs h hc e
    refine pristine_noOrigin e ⟨(allBoxed_mk.1 h.1 hs).2 c hc, fun bs b' hb => h.2 _ _ (.step rfl hc hb)⟩
  unboxed := by
    intro fp s z cs hs h
    exact absurd rfl ((allBoxed_mk.1 h.1 hs).1)

theorem pristine_reset (fp : FP) {n : Node} (h : AllBoxed n) : Pristine (n.reset fp) :=
  ⟨allBoxed_reset fp h, fun bs b hb => by rw [reset_shown hb]; rfl⟩

/-! ## What the phases do to the vertical position -/

/-- The vertical position on its own. -/
def Box.top (b : Box) : Num := b.v.content

theorem setContent_h_top (fp : FP) (v : Num) (b : Box) (cs : List Node) : (setContent fp .h v b cs).1.top = b.top := by
  unfold setContent
  split <;> rfl

theorem setContent_v_top (fp : FP) (v : Num) (b : Box) (cs : List Node) : (setContent fp .v v b cs).1.top.val = v.val := by
  unfold setContent
  split
  · rename_i h
    have e : v.val = b.v.content.val := by simpa [Num.pyEq, Box.pos] using h
    exact e.symm
  · rfl

theorem sameButCollapse_top {b b' : Box} (h : SameButCollapse b b') : b.top = b'.top := by
  have e := congrArg Box.v h
  exact congrArg AxisPos.content e

theorem setMargin_top (b : Box) (t : Side) (x : MVal) : (b.setMargin t x).top = b.top := by
  unfold Box.setMargin
  split
  · rfl
  · exact (sameButCollapse_top (setCollapse_same _ t x)).symm

theorem autoMargin_top (b : Box) (t : Side) : (autoMarginToZero b t).top = b.top := by
  unfold autoMarginToZero
  split
  · exact setMargin_top ..
  · rfl

theorem copyEdges_top {fp : FP} {s : CSS} {hz vt : PxCtx} {b b' : Box} (h : copyEdges fp s hz vt b = .ok b') : b'.top = b.top := by
  unfold copyEdges at h
  obtain ⟨mt, h1, h⟩ := bind_eq_ok.1 h
  obtain ⟨mr, h2, h⟩ := bind_eq_ok.1 h
  obtain ⟨mb, h3, h⟩ := bind_eq_ok.1 h
  obtain ⟨ml, h4, h⟩ := bind_eq_ok.1 h
  obtain ⟨bt, h5, h⟩ := bind_eq_ok.1 h
  obtain ⟨br, h6, h⟩ := bind_eq_ok.1 h
  obtain ⟨bb, h7, h⟩ := bind_eq_ok.1 h
  obtain ⟨bl, h8, h⟩ := bind_eq_ok.1 h
  obtain ⟨pt, h9, h⟩ := bind_eq_ok.1 h
  obtain ⟨pr, h10, h⟩ := bind_eq_ok.1 h
  obtain ⟨pb, h11, h⟩ := bind_eq_ok.1 h
  obtain ⟨pl, h12, h⟩ := bind_eq_ok.1 h
  rw [← Except.ok.inj h]
  show ((((b.setMargin .top mt).setMargin .right mr).setMargin .bottom mb).setMargin .left ml).top = b.top
  rw [setMargin_top, setMargin_top, setMargin_top, setMargin_top]

theorem solveMargins_top (fp : FP) (s : CSS) (size w : Num) (b : Box) : (solveMargins fp s size w b).top = b.top := by
  unfold solveMargins
  extract_lets total c
  have hc : c.top = b.top := by
    show (if _ then _ else _ : Box).top = _
    split
    · rw [autoMargin_top, autoMargin_top]
    · rfl
  split
  · split <;> rw [setMargin_top, hc]
  · rw [setMargin_top, hc]
  · rw [setMargin_top, hc]
  · rw [setMargin_top, setMargin_top, hc]

theorem placeLeft_top {fp : FP} {b b' : Box} {cs cs' : List Node} (h : placeLeft fp b cs = .ok (b', cs')) : b'.top = b.top := by
  unfold placeLeft at h
  obtain ⟨ml, _, h⟩ := bind_eq_ok.1 h
  rw [(ok_pair h).1, setContent_h_top]

theorem blockWidth_top {fp : FP} {s : CSS} {c : PxCtx} {b b' : Box} {cs cs' : List Node} (h : blockWidth fp s c b cs = .ok (b', cs')) :
    b'.top = b.top := by
  unfold blockWidth at h
  split at h
  · simp only at h
    obtain ⟨size, _, h⟩ := bind_eq_ok.1 h
    obtain ⟨ml, _, h⟩ := bind_eq_ok.1 h
    obtain ⟨mr, _, h⟩ := bind_eq_ok.1 h
    rw [placeLeft_top h]
    show (autoMarginToZero (autoMarginToZero b .left) .right).top = _
    rw [autoMargin_top, autoMargin_top]
  · obtain ⟨w, _, h⟩ := bind_eq_ok.1 h
    obtain ⟨size, _, h⟩ := bind_eq_ok.1 h
    simp only at h
    rw [placeLeft_top h]
    exact solveMargins_top ..

theorem blockHeight_top {fp : FP} {s : CSS} {parent : Option CSS} {c : PxCtx} {b b' : Box} {cs cs' : List Node}
    (h : blockHeight fp s parent c b cs = .ok (b', cs')) : b'.top.val = (b.top.add fp (b.border.top.add fp b.padding.top)).val := by
  unfold blockHeight at h
  obtain ⟨⟨x, b1⟩, h1, h⟩ := bind_eq_ok.1 h
  simp only at h
  have e := contentHeight_same h1
  have e1 := sameButCollapse_top e
  rw [autoMargin_top, autoMargin_top] at e1
  have e2 := (autoVertical_wide b).trans e.wide
  rw [(ok_pair h).1, setContent_v_top]
  show (b1.top.add fp (b1.border.top.add fp b1.padding.top)).val = _
  rw [← e1, e2.4, e2.5]

theorem isRelative_iff (n : Node) : isRelative n.style = true ↔ n.Relative := by
  unfold isRelative
  exact isKw_iff ..

/-- The position of a block that is not positioned: its border box is where the box was. -/
theorem body_top {fp : FP} {d : Display} {lay : Box → Node → Res Node} {parent : Option CSS} {cb : CB} {s : CSS}
    {z : Intrinsic} {b b' : Box} {cs cs' : List Node} (h : layoutBody fp d lay parent cb s z b cs = .ok (b', cs'))
    (hb : isBlockLevel s = true) (hr : isRelative s = false) : b'.top.val = (b.top.add fp (b'.border.top.add fp b'.padding.top)).val := by
  obtain ⟨b1, b2, cs2, b3, cs3, b4, cs4, b5, cs5, h1, h2, h3, _, _, h4, h5, h6⟩ := body_phases h
  have e6 : b5 = b' := by
    unfold applyRelative at h6
    rw [hr] at h6
    cases h6; rfl
  have e3 : b3 = b2 := by
    unfold relativeHeight at h3
    rw [hr] at h3
    cases h3; rfl
  subst e6 e3
  have e5 := blockHeight_top (heightAndMargins_block h5 hb)
  have w5 := height_wide h5
  have e4 : b4.top = b3.top := by
    rcases children_stacked h4 with ⟨_, rfl, _⟩ | ⟨_, _, _, _, _, _, hst, _⟩
    · rfl
    · exact (sameButCollapse_top hst.same).symm
  rw [e5, e4, blockWidth_top (widthAndMargins_block h2 hb), copyEdges_top h1, w5.4, w5.5]

/-- The vertical margins of a block are numbers. -/
theorem autoVertical_num (b : Box) (t : Side) (ht : t = .top ∨ t = .bottom) :
    ∃ y, (autoMarginToZero (autoMarginToZero b .top) .bottom).margin.get t = .num y := by
  have one : ∀ (b : Box) (t : Side), ∃ y, (autoMarginToZero b t).margin.get t = .num y := by
    intro b t
    unfold autoMarginToZero
    split
    · obtain ⟨y, h, _⟩ := setMargin_num b t (.int 0); exact ⟨y, h⟩
    · rename_i y h; exact ⟨y, h⟩
  rcases ht with rfl | rfl
  · rw [autoZero_other _ _ _ (by decide)]; exact one ..
  · exact one ..

theorem applyRelative_margin {fp : FP} {s : CSS} {cb : CB} {hz vt : PxCtx} {b b' : Box} {cs cs' : List Node}
    (h : applyRelative fp s cb hz vt b cs = .ok (b', cs')) : b'.margin = b.margin := by
  unfold applyRelative at h
  split at h
  · obtain ⟨dx, _, h⟩ := bind_eq_ok.1 h
    simp only at h
    obtain ⟨dy, _, h⟩ := bind_eq_ok.1 h
    rw [(ok_pair h).1, setContent_margin, setContent_margin]
  · cases h; rfl

theorem sameButCollapse_margin {b b' : Box} (h : SameButCollapse b b') : b.margin = b'.margin := by
  have e := congrArg Box.margin h
  exact e

theorem blockHeight_margin {fp : FP} {s : CSS} {parent : Option CSS} {c : PxCtx} {b b' : Box} {cs cs' : List Node}
    (h : blockHeight fp s parent c b cs = .ok (b', cs')) (t : Side) (ht : t = .top ∨ t = .bottom) : ∃ y, b'.margin.get t = .num y := by
  unfold blockHeight at h
  obtain ⟨⟨x, b1⟩, h1, h⟩ := bind_eq_ok.1 h
  simp only at h
  rw [(ok_pair h).1, setContent_margin]
  show ∃ y, b1.margin.get t = .num y
  rw [← sameButCollapse_margin (contentHeight_same h1)]
  exact autoVertical_num _ _ ht

/-- Blocks have numbers for margins and a height. -/
theorem body_stands {fp : FP} {d : Display} {lay : Box → Node → Res Node} {parent : Option CSS} {cb : CB} {s : CSS}
    {z : Intrinsic} {b b' : Box} {cs cs' : List Node} (h : layoutBody fp d lay parent cb s z b cs = .ok (b', cs'))
    (hb : isBlockLevel s = true) : ∃ x, b'.Stands x := by
  obtain ⟨b1, b2, cs2, b3, cs3, b4, cs4, b5, cs5, h1, h2, h3, _, _, h4, h5, h6⟩ := body_phases h
  have h5 := heightAndMargins_block h5 hb
  obtain ⟨mt, e1⟩ := blockHeight_margin h5 .top (Or.inl rfl)
  obtain ⟨y, _, e2, _⟩ := blockHeight_content h5
  refine ⟨⟨mt, b'.border.top, b'.padding.top, y, b'.padding.bottom, b'.border.bottom, b'.collapse.bottom⟩, ?_, rfl, rfl, ?_, rfl, rfl, rfl⟩
  · rw [applyRelative_margin h6]; exact e1
  · rw [applyRelative_height h6]; exact e2

/-! ## Stacks -/

theorem pyMax_val (a b : Num) : (a.pyMax b).val = max a.val b.val := by
  unfold Num.pyMax
  split
  · rename_i h
    rw [pyLt_iff] at h
    exact (max_eq_right h.le).symm
  · rename_i h
    rw [pyLt_iff] at h
    exact (max_eq_left (not_lt.1 h)).symm

theorem fits_zero {fp : FP} {m : Nat} {a : Num} (h : Fits fp m a) : Fits fp 0 (.int 0) := by
  rcases h with E | ⟨L, _⟩
  · exact Or.inl E
  · exact Or.inr ⟨L, 0, by rw [Num.val_int]; norm_num, by norm_num⟩

theorem Fits.pyMax {fp : FP} {m : Nat} {a b : Num} (ha : Fits fp m a) (hb : Fits fp m b) : Fits fp m (a.pyMax b) := by
  unfold Num.pyMax; split <;> assumption

theorem Box.Stands.moved {fp : FP} {v : Num} {b : Box} {cs : List Node} {x : Down} (h : b.Stands x) : (setContent fp .v v b cs).1.Stands x := by
  unfold setContent
  split
  · exact h
  · exact h

theorem Box.Stands.height {fp : FP} {b : Box} {x : Down} {k : Nat} (h : b.Stands x) (hx : x.AllFit fp k) (hk : 8 * k ≤ 2 ^ 53) {y : Num}
    (hy : b.borderBoxHeight fp = some y) : y.val = x.height ∧ Colosseum.Fits fp (5 * k) y := by
  obtain ⟨e1, e2, e3, e4, e5, e6, e7⟩ := h
  obtain ⟨f1, f2, f3, f4, f5, f6, f7⟩ := hx
  unfold Box.borderBoxHeight at hy
  rw [e4] at hy
  simp only [Option.map_some, Option.some.injEq] at hy
  rw [e2, e3, e5, e6] at hy
  obtain ⟨a1, a2⟩ := f2.add f3 (by omega)
  obtain ⟨b1, b2⟩ := a2.add f4 (by omega)
  obtain ⟨c1, c2⟩ := b2.add f5 (by omega)
  obtain ⟨d1, d2⟩ := c2.add f6 (by omega)
  subst hy
  refine ⟨?_, d2.mono (by omega)⟩
  rw [d1, c1, b1, a1]
  rfl

theorem stands_inj {b : Box} {x y : Down} (h : b.Stands x) (h' : b.Stands y) : x = y := by
  obtain ⟨a1, a2, a3, a4, a5, a6, a7⟩ := h
  obtain ⟨b1, b2, b3, b4, b5, b6, b7⟩ := h'
  obtain ⟨⟩ := x
  obtain ⟨⟩ := y
  simp only at *
  rw [a1] at b1
  rw [a4] at b4
  cases b1; cases b4
  subst a2 a3 a5 a6 a7 b2 b3 b5 b6 b7
  rfl

/-- The border box of a block is `q` below the place where it was put, where `D` says so. -/
def Follows (fp : FP) (D : Nat → CSS → Down → Rat → Prop) (s : CSS) (b : Box) : Prop :=
  ∀ k x q, b.Stands x → x.AllFit fp k → 8 * k ≤ 2 ^ 53 → D k s x q → b.top.val = x.bt.val + x.pt.val + q ∧ Fits fp (5 * k) b.top

/-- The border boxes of the blocks of a stack start where they should. -/
theorem Stacked.places {D : Nat → CSS → Down → Rat → Prop} {fp : FP} {lay : Box → Node → Res Node} {b b' : Box} {off : Num} {bm : Option Int} {cs cs' : List Node}
    (h : Stacked fp lay b off bm cs b' cs')
    (hl : ∀ c ∈ cs, ∀ b s z cb ks, lay b c = .ok (.mk s z (some cb) ks) → (∃ x, cb.Stands x) ∧ Follows fp D s cb) :
    ∃ xs, List.Forall₂ (fun c x => ∃ b, c.layout = some b ∧ b.Stands x) cs' xs ∧
      ∀ k K, Fits fp K off → (∀ m, bm = some m → Fits fp k (.int m)) → (∀ x ∈ xs, x.AllFit fp k) → K + 8 * k * cs.length ≤ 2 ^ 53 →
        List.Forall₂ (fun c t => ∀ b x q, c.layout = some b → b.Stands x → D k c.style x q → (b.borderBoxTop fp).val = t + q) cs' (flowTops off.val bm xs) := by
  induction h with
  | nil => exact ⟨[], .nil, fun _ _ _ _ _ _ => .nil⟩
  | @cons b b1 b2 cb off off1 hh bm c s z ks cs cs' g1 g2 g3 _ ih =>
    obtain ⟨xs, hxs, ih⟩ := ih fun c hc => hl c (List.mem_cons_of_mem _ hc)
    obtain ⟨⟨x, hx⟩, htop⟩ := hl c List.mem_cons_self _ _ _ _ _ g1
    refine ⟨x :: xs, .cons ⟨_, rfl, hx.moved⟩ hxs, ?_⟩
    intro k K hoff hbm hall hk
    rw [List.length_cons, Nat.mul_add, Nat.mul_one] at hk
    generalize hq : 8 * k * cs.length = q at hk
    have hk8 : 8 * k ≤ 2 ^ 53 := by omega
    have hfx := hall x List.mem_cons_self
    obtain ⟨e1, e2⟩ := hx.moved.height hfx hk8 g3
    have e7 : cb.collapse.bottom = x.cb := hx.2.2.2.2.2.2
    have hx0 := hx
    obtain ⟨emt, ebt, ept, _⟩ := hx
    obtain ⟨f1, f2, f3, f4, f5, f6, f7⟩ := hfx
    have hoff1 : off1.val = off.val + x.gap bm ∧ Fits fp (K + k) off1 := by
      unfold collapseAbove at g2
      split at g2
      · cases g2
        refine ⟨?_, hoff.mono (by omega)⟩
        simp [Down.gap]
      · rename_i m
        obtain ⟨mt, hmt, g2⟩ := bind_eq_ok.1 g2
        cases g2
        rw [emt] at hmt
        cases hmt
        obtain ⟨a1, a2⟩ := hoff.add ((hbm m rfl).pyMax f1) (by omega)
        refine ⟨?_, a2⟩
        rw [a1, pyMax_val, Num.val_int]
        rfl
    obtain ⟨o1, o2⟩ := hoff1
    obtain ⟨p1, p2⟩ := o2.add e2 (by omega)
    simp only [flowTops]
    refine .cons ?_ ?_
    · intro nb' x' q' hnb' hx' hD
      cases hnb'
      have hxx : x' = x := stands_inj hx' hx0.moved
      subst hxx
      obtain ⟨ht, hcb⟩ := htop k x' q' hx0 ⟨f1, f2, f3, f4, f5, f6, f7⟩ hk8 hD
      obtain ⟨c1, c2⟩ := hcb.add o2 (by omega)
      set nb := (setContent fp .v (cb.v.content.add fp off1) cb ks).1 with hnb
      have t1 : nb.v.content.val = (cb.top.add fp off1).val := setContent_v_top ..
      have w := setContent_wide fp .v (cb.v.content.add fp off1) cb ks
      have c3 : Fits fp (5 * k + (K + k)) nb.v.content := c2.of_val t1
      unfold Box.borderBoxTop
      rw [← hnb] at w
      rw [← w.4, ← w.5, ebt, ept]
      obtain ⟨q1, q2⟩ := c3.sub f3 (by omega)
      obtain ⟨r1, r2⟩ := q2.sub f2 (by omega)
      rw [r1, q1, t1, c1, ht, o1]
      ring
    · have := ih k (K + 6 * k) (p2.mono (by omega)) (fun m hm => by cases hm; rw [e7]; exact f7)
        (fun y hy => hall y (List.mem_cons_of_mem _ hy)) (by rw [hq]; omega)
      rw [p1, o1, e1, e7] at this
      exact this

/-! ## Collapsed margins only grow -/

/-- No collapsed margin is smaller than before. -/
structure Up (b b' : Box) : Prop where
  le : ∀ t, b.collapse.get t ≤ b'.collapse.get t

theorem Up.rfl {b : Box} : Up b b := ⟨fun _ => le_rfl⟩
theorem Up.trans {b c e : Box} (h : Up b c) (h' : Up c e) : Up b e := ⟨fun t => (h.le t).trans (h'.le t)⟩
theorem Up.of_eq {b b' : Box} (h : b.collapse = b'.collapse) : Up b b' := ⟨fun t => by rw [h]⟩

theorem setCollapse_up (b : Box) (t : Side) (x : MVal) : Up b (b.setCollapse t x) := by
  unfold Box.setCollapse
  split
  · split
    · rename_i i h
      refine ⟨fun u => ?_⟩
      show _ ≤ (b.collapse.set t i).get u
      rw [get_set]
      split
      · rename_i e; subst e; omega
      · exact le_rfl
    · exact .rfl
  · exact .rfl

theorem setMargin_up (b : Box) (t : Side) (x : MVal) : Up b (b.setMargin t x) := by
  unfold Box.setMargin
  split
  · exact .rfl
  · exact ⟨(setCollapse_up { b with margin := b.margin.set t x } t x).le⟩

theorem autoMargin_up (b : Box) (t : Side) : Up b (autoMarginToZero b t) := by
  unfold autoMarginToZero
  split
  · exact setMargin_up ..
  · exact .rfl

theorem autoMargins_up (b : Box) (t u : Side) : Up b (autoMarginToZero (autoMarginToZero b t) u) := (autoMargin_up b t).trans (autoMargin_up _ u)

theorem setContent_up (fp : FP) (a : Axis) (v : Num) (b : Box) (cs : List Node) : Up b (setContent fp a v b cs).1 := by
  unfold setContent
  split
  · exact .rfl
  · cases a <;> exact .of_eq (Eq.refl _)

theorem copyEdges_up {fp : FP} {s : CSS} {hz vt : PxCtx} {b b' : Box} (h : copyEdges fp s hz vt b = .ok b') : Up b b' := by
  unfold copyEdges at h
  obtain ⟨mt, h1, h⟩ := bind_eq_ok.1 h
  obtain ⟨mr, h2, h⟩ := bind_eq_ok.1 h
  obtain ⟨mb, h3, h⟩ := bind_eq_ok.1 h
  obtain ⟨ml, h4, h⟩ := bind_eq_ok.1 h
  obtain ⟨bt, h5, h⟩ := bind_eq_ok.1 h
  obtain ⟨br, h6, h⟩ := bind_eq_ok.1 h
  obtain ⟨bb, h7, h⟩ := bind_eq_ok.1 h
  obtain ⟨bl, h8, h⟩ := bind_eq_ok.1 h
  obtain ⟨pt, h9, h⟩ := bind_eq_ok.1 h
  obtain ⟨pr, h10, h⟩ := bind_eq_ok.1 h
  obtain ⟨pb, h11, h⟩ := bind_eq_ok.1 h
  obtain ⟨pl, h12, h⟩ := bind_eq_ok.1 h
  rw [← Except.ok.inj h]
  exact ⟨((((setMargin_up b .top mt).trans (setMargin_up _ .right mr)).trans (setMargin_up _ .bottom mb)).trans (setMargin_up _ .left ml)).le⟩

theorem solveMargins_up (fp : FP) (s : CSS) (size w : Num) (b : Box) : Up b (solveMargins fp s size w b) := by
  unfold solveMargins
  extract_lets total c
  have hc : Up b c := by
    show Up b (if _ then _ else _ : Box)
    split
    · exact autoMargins_up ..
    · exact .rfl
  split
  · split <;> exact hc.trans (setMargin_up ..)
  · exact hc.trans (setMargin_up ..)
  · exact hc.trans (setMargin_up ..)
  · exact (hc.trans (setMargin_up ..)).trans (setMargin_up ..)

theorem placeLeft_up {fp : FP} {b b' : Box} {cs cs' : List Node} (h : placeLeft fp b cs = .ok (b', cs')) : Up b b' := by
  unfold placeLeft at h
  obtain ⟨ml, _, h⟩ := bind_eq_ok.1 h
  rw [(ok_pair h).1]
  exact setContent_up ..

theorem placeTop_up {fp : FP} {b b' : Box} {cs cs' : List Node} (h : placeTopInline fp b cs = .ok (b', cs')) : Up b b' := by
  unfold placeTopInline at h
  obtain ⟨mt, _, h⟩ := bind_eq_ok.1 h
  rw [(ok_pair h).1]
  exact setContent_up ..

theorem width_up {fp : FP} {s : CSS} {z : Intrinsic} {c : PxCtx} {b b' : Box} {cs cs' : List Node}
    (h : widthAndMargins fp s z c b cs = .ok (b', cs')) : Up b b' := by
  unfold widthAndMargins at h
  split at h
  · cases h
  split at h
  · cases h
  split at h
  · split at h
    · unfold inlineReplacedWidth at h
      simp only at h
      obtain ⟨x, _, h⟩ := bind_eq_ok.1 h
      exact (autoMargins_up b .left .right).trans ⟨(placeLeft_up h).le⟩
    · cases h
      exact (autoMargins_up b .left .right).trans (.of_eq (Eq.refl _))
  split at h
  · split at h
    · cases h
    · unfold blockWidth at h
      split at h
      · simp only at h
        obtain ⟨size, _, h⟩ := bind_eq_ok.1 h
        obtain ⟨ml, _, h⟩ := bind_eq_ok.1 h
        obtain ⟨mr, _, h⟩ := bind_eq_ok.1 h
        exact (autoMargins_up b .left .right).trans ⟨(placeLeft_up h).le⟩
      · obtain ⟨w, _, h⟩ := bind_eq_ok.1 h
        obtain ⟨size, _, h⟩ := bind_eq_ok.1 h
        simp only at h
        exact (solveMargins_up fp s size w b).trans ⟨(placeLeft_up h).le⟩
  · split at h <;> cases h

theorem contentHeight_up {fp : FP} {s : CSS} {parent : Option CSS} {c : PxCtx} {b b' : Box} {cs : List Node} {x : Num}
    (h : blockContentHeight fp s parent c b cs = .ok (x, b')) : Up b b' := by
  unfold blockContentHeight at h
  split at h
  · split at h
    · split at h
      · cases h
      · obtain ⟨y, _, h⟩ := bind_eq_ok.1 h
        cases h
        exact setCollapse_up ..
    · split at h
      · cases h; exact .rfl
      · obtain ⟨y, _, h⟩ := bind_eq_ok.1 h
        cases h; exact .rfl
  · obtain ⟨y, _, h⟩ := bind_eq_ok.1 h
    cases h; exact .rfl

theorem height_up {fp : FP} {s : CSS} {z : Intrinsic} {parent : Option CSS} {c : PxCtx} {b b' : Box} {cs cs' : List Node}
    (h : heightAndMargins fp s z parent c b cs = .ok (b', cs')) : Up b b' := by
  unfold heightAndMargins at h
  split at h
  · cases h
  split at h
  · cases h
  split at h
  · split at h
    · unfold inlineReplacedHeight at h
      simp only at h
      obtain ⟨x, _, h⟩ := bind_eq_ok.1 h
      exact (autoMargins_up b .top .bottom).trans ⟨(placeTop_up h).le⟩
    · unfold inlineHeight at h
      exact ⟨(placeTop_up h).le⟩
  split at h
  · split at h
    · cases h
    · unfold blockHeight at h
      obtain ⟨⟨x, b1⟩, h1, h⟩ := bind_eq_ok.1 h
      simp only at h
      rw [(ok_pair h).1]
      refine ((autoMargins_up b .top .bottom).trans (contentHeight_up h1)).trans ⟨(setContent_up fp .v _ _ cs).le⟩
  · split at h <;> cases h

theorem relative_up {fp : FP} {s : CSS} {cb : CB} {hz vt : PxCtx} {b b' : Box} {cs cs' : List Node}
    (h : applyRelative fp s cb hz vt b cs = .ok (b', cs')) : Up b b' := by
  unfold applyRelative at h
  split at h
  · obtain ⟨dx, _, h⟩ := bind_eq_ok.1 h
    simp only at h
    obtain ⟨dy, _, h⟩ := bind_eq_ok.1 h
    rw [(ok_pair h).1]
    exact (setContent_up ..).trans (setContent_up ..)
  · cases h; exact .rfl

theorem Stacked.up {fp : FP} {lay : Box → Node → Res Node} {b b' : Box} {off : Num} {bm : Option Int} {cs cs' : List Node}
    (h : Stacked fp lay b off bm cs b' cs') : Up b b' := by
  induction h with
  | nil => exact .rfl
  | cons _ h1 _ _ ih =>
    refine Up.trans ?_ ih
    unfold collapseAbove at h1
    split at h1
    · cases h1; exact setCollapse_up ..
    · obtain ⟨mt, _, h1⟩ := bind_eq_ok.1 h1
      cases h1; exact .rfl

theorem body_up {fp : FP} {d : Display} {lay : Box → Node → Res Node} {parent : Option CSS} {cb : CB} {s : CSS}
    {z : Intrinsic} {b b' : Box} {cs cs' : List Node} (h : layoutBody fp d lay parent cb s z b cs = .ok (b', cs')) : Up b b' := by
  obtain ⟨b1, b2, cs2, b3, cs3, b4, cs4, b5, cs5, h1, h2, h3, _, _, h4, h5, h6⟩ := body_phases h
  have u3 : Up b2 b3 := by
    unfold relativeHeight at h3
    split at h3
    · exact height_up h3
    · cases h3; exact .rfl
  have u4 : Up b3 b4 := by
    rcases children_stacked h4 with ⟨_, rfl, _⟩ | ⟨_, _, _, _, _, _, hst, _⟩
    · exact .rfl
    · exact hst.up
  exact ((((copyEdges_up h1).trans (width_up h2)).trans u3).trans u4).trans ((height_up h5).trans (relative_up h6))

/-! ## From the stack to the document -/

theorem pristine_box {s : CSS} {z : Intrinsic} {l : Option Box} {cs : List Node} (h : Pristine (.mk s z l cs)) (hs : s.get .display ≠ .none) :
    ∃ b, l = some b ∧ b.noOrigin = Box.fresh := by
  cases l with
  | none => exact absurd rfl ((allBoxed_mk.1 h.1 hs).1)
  | some b => exact ⟨b, rfl, h.2 _ _ (.here rfl)⟩

theorem blockLevel_display {s : CSS} (h : isBlockLevel s = true) : s.get .display ≠ .none := by
  intro e
  have := (blockLevel_iff (.mk s .initial none [])).1 h
  unfold Node.BlockLevel at this
  simp only [Node.style] at this
  rw [e] at this
  simp [kw] at this

/-- What laying out a block that was just reset does to its box. -/
theorem layoutBox_block {fp : FP} {d : Display} {f : Nat} {p : Option CSS} {cb : CB} {c : Node} {s : CSS} {z : Intrinsic} {b : Box} {ks : List Node}
    (h : layoutBox fp d f p cb c = .ok (.mk s z (some b) ks)) (hp : Pristine c) (hb : isBlockLevel c.style = true) :
    (∃ x, b.Stands x ∧ 0 ≤ x.cb) ∧ (isRelative s = false → b.top.val = ((Num.int 0).add fp (b.border.top.add fp b.padding.top)).val) := by
  cases f with
  | zero => cases h
  | succ f =>
    obtain ⟨s', z', l, cs⟩ := c
    rcases layoutBox_ok h with ⟨hs, e⟩ | ⟨hs, b0, cs0, b', cs', hl, hbody, e⟩
    · exact absurd hs (blockLevel_display hb)
    · cases e
      obtain ⟨b1, e1, e2⟩ := pristine_box hp hs
      rcases hl with ⟨rfl, rfl⟩ | ⟨rfl, _⟩
      swap
      · cases e1
      cases e1
      obtain ⟨x, hx⟩ := body_stands hbody hb
      refine ⟨⟨x, hx, ?_⟩, fun hr => ?_⟩
      · rw [← hx.2.2.2.2.2.2]
        have u := (body_up hbody).le .bottom
        have e3 : b0.collapse = Box.fresh.collapse := by rw [← e2]; rfl
        rw [e3] at u
        exact u
      · have e3 : b0.top = .int 0 := by
          have := congrArg Box.top e2
          exact this
        rw [body_top hbody hb hr, e3]

theorem Stacked.nonneg {fp : FP} {lay : Box → Node → Res Node} {b b' : Box} {off : Num} {bm : Option Int} {cs cs' : List Node}
    (h : Stacked fp lay b off bm cs b' cs')
    (hl : ∀ c ∈ cs, ∀ b s z cb ks, lay b c = .ok (.mk s z (some cb) ks) → 0 ≤ cb.collapse.bottom) :
    ∀ c ∈ cs', ∀ b, c.layout = some b → 0 ≤ b.collapse.bottom := by
  induction h with
  | nil => intro c hc; cases hc
  | @cons b b1 b2 cb off off1 hh bm c s z ks cs cs' g1 g2 g3 _ ih =>
    intro x hx bx hbx
    rcases List.mem_cons.1 hx with rfl | hx
    · cases hbx
      have := hl c List.mem_cons_self _ _ _ _ _ g1
      exact this.trans ((setContent_up fp .v (cb.v.content.add fp off1) cb ks).le .bottom)
    · exact ih (fun c hc => hl c (List.mem_cons_of_mem _ hc)) x hx bx hbx

theorem forall₂_flip {α β : Type} {P : α → β → Prop} {xs : List α} {ys : List β} (h : List.Forall₂ P xs ys) :
    List.Forall₂ (fun y x => P x y) ys xs := h.flip

theorem forall₂_comp3 {α β γ : Type} {P : α → β → Prop} {Q : β → γ → Prop} {R : α → γ → Prop} {xs : List α} {ys : List β} {zs : List γ}
    (h : List.Forall₂ P xs ys) (h' : List.Forall₂ Q ys zs) (hR : ∀ x y z, P x y → Q y z → R x z) : List.Forall₂ R xs zs := by
  induction h generalizing zs with
  | nil => cases h'; exact .nil
  | cons hp _ ih =>
    cases h' with
    | cons hq hr => exact .cons (hR _ _ _ hp hq) (ih hr)

/-- The children of a node that stacks its children. -/
theorem RanQ.places {D : Nat → CSS → Down → Rat → Prop} {fp : FP} {d : Display} {hgt : Bool} {w : Option Num} {ps : Option CSS} {n : Node} (h : RanQ Pristine fp d hgt w ps n)
    (hc : n.BlockContext) (hh : ¬ n.Hidden)
    (hD : ∀ f p cb c s z b ks, layoutBox fp d f p cb c = .ok (.mk s z (some b) ks) → Pristine c → isBlockLevel c.style = true → Follows fp D s b) :
    ∃ ks rest xs, n.children = ks ++ rest ∧ (∀ c ∈ ks, c.BlockLevel) ∧ (∀ c ∈ rest, ¬ c.BlockLevel) ∧
      List.Forall₂ (fun c x => ∃ b, c.layout = some b ∧ b.Stands x) ks xs ∧ (∀ x ∈ xs, 0 ≤ x.cb) ∧
      ∀ k, fp.Exact ∨ fp.Laws → (∀ x ∈ xs, x.AllFit fp k) → 8 * k * ks.length ≤ 2 ^ 53 →
        List.Forall₂ (fun c t => ∀ b x q, c.layout = some b → b.Stands x → D k c.style x q → (b.borderBoxTop fp).val = t + q) ks (flowTops 0 none xs) := by
  obtain ⟨b, hb, f, cb, b0, cs0, b', cs', rfl, hbody, hcore, hk, hq⟩ := h
  obtain ⟨b1, b2, cs2, b3, cs3, b4, cs4, b5, cs5, h1, h2, h3, _, _, h4, h5, h6⟩ := body_phases hbody
  have e3 : cs0.map Node.noOrigin = cs3.map Node.noOrigin := by
    rw [(relativeHeight_steps h3).noOrigin, (width_steps h2).noOrigin]
  have q3 : ∀ c ∈ cs3, Pristine c := by
    intro c hc
    obtain ⟨c0, hc0, he⟩ := forall₂_left (forall₂_of_map e3).flip hc
    exact pristine_passes.kid hh hq hc0 he
  have e4 : cs4.map Node.noOrigin = n.children.map Node.noOrigin := by
    rw [← hk, (relative_steps h6).noOrigin, (height_steps h5).noOrigin]
  have hstrip : cs4.map Node.strip = cs3.map Node.strip := by
    have := (children_forall h4).2
    refine (forall₂_map_eq (this.imp fun c c' h => ?_)).symm
    rcases h with rfl | h
    · rfl
    · have key : ∀ b c c', layoutBox fp d f (some n.style) (.box b) c = .ok c' → c'.strip = c.strip := fun b c c' h =>
        layoutBox_strip _ _ _ _ _ _ _ h
      cases h with
      | same h => exact (key _ _ _ h).symm
      | moved v h =>
        rw [strip_mk, strips_setContent]
        have := key _ _ _ h
        rw [strip_mk] at this
        exact this.symm
  have hstyle : n.children.map Node.style = cs3.map Node.style := by
    have a1 : ∀ cs : List Node, cs.map Node.style = (cs.map Node.noOrigin).map Node.style := fun cs => by
      rw [List.map_map]; exact List.map_congr_left fun c _ => (noOrigin_style c).symm
    have a2 : ∀ cs : List Node, cs.map Node.style = (cs.map Node.strip).map Node.style := fun cs => by
      rw [List.map_map]; exact List.map_congr_left fun c _ => (strip_style c).symm
    rw [a1 n.children, ← e4, ← a1, a2 cs4, hstrip, ← a2]
  have hin : establishesInline n.style n.intrinsic cs3 = false := by
    rw [← inline_of_styles hstyle]
    obtain ⟨s, z, l, cs⟩ := n
    exact (blockContext_iff s z l cs).2 hc
  rcases children_stacked h4 with ⟨hi, _⟩ | ⟨_, pre, post, laid, rfl, rfl, hst, hpre, hpost⟩
  · rw [hin] at hi; cases hi
  have hlay : ∀ c ∈ pre, ∀ b s z cb ks, layoutBox fp d f (some n.style) (.box b) c = .ok (.mk s z (some cb) ks) →
      (∃ x, cb.Stands x ∧ 0 ≤ x.cb) ∧ Follows fp D s cb :=
    fun c hc b s z cb ks hl => ⟨(layoutBox_block hl (q3 c (List.mem_append_left _ hc)) (hpre c hc)).1,
      hD _ _ _ _ _ _ _ _ hl (q3 c (List.mem_append_left _ hc)) (hpre c hc)⟩
  obtain ⟨xs, hxs, htops⟩ := hst.places fun c hc b s z cb ks hl => ⟨⟨_, (hlay c hc b s z cb ks hl).1.choose_spec.1⟩, (hlay c hc b s z cb ks hl).2⟩
  have hnn := hst.nonneg fun c hc b s z cb ks hl => by
    obtain ⟨x, hx, h0⟩ := (hlay c hc b s z cb ks hl).1
    rw [hx.2.2.2.2.2.2]; exact h0
  rw [List.map_append] at e4
  obtain ⟨ks, rest, hkr, ek, er⟩ := List.map_eq_append_iff.1 e4.symm
  have hF : List.Forall₂ (fun c c' => Node.noOrigin c = Node.noOrigin c') laid ks := forall₂_of_map ek.symm
  have hsplit : (∀ c ∈ ks, c.BlockLevel) ∧ ∀ c ∈ rest, ¬ c.BlockLevel := by
    have hs2 := hstyle
    rw [hkr, List.map_append, List.map_append] at hs2
    have hlen : (ks.map Node.style).length = (pre.map Node.style).length := by
      rw [List.length_map, List.length_map, hst.length, hF.length_eq]
    obtain ⟨a1, a2⟩ := List.append_inj hs2 hlen
    constructor
    · intro c hc
      have : c.style ∈ pre.map Node.style := a1 ▸ List.mem_map_of_mem hc
      obtain ⟨c', hc', e⟩ := List.mem_map.1 this
      have := hpre c' hc'
      rw [e] at this
      exact (blockLevel_iff c).1 this
    · intro c hc hbl
      have : c.style ∈ post.map Node.style := a2 ▸ List.mem_map_of_mem hc
      obtain ⟨c', hc', e⟩ := List.mem_map.1 this
      have := hpost c' hc'
      rw [e, (blockLevel_iff c).2 hbl] at this
      cases this
  have hxs' : List.Forall₂ (fun c x => ∃ b, c.layout = some b ∧ b.Stands x) ks xs := by
    refine forall₂_comp3 (forall₂_flip hF) hxs ?_
    rintro c' c x he ⟨b, hb, hx⟩
    obtain ⟨b', hb', e⟩ := noOrigin_boxOf he hb
    refine ⟨b', hb', ?_⟩
    have : b'.noOrigin.Stands x := by rw [← e]; exact hx
    exact this
  refine ⟨ks, rest, xs, hkr, hsplit.1, hsplit.2, hxs', ?_, ?_⟩
  · intro x hx
    obtain ⟨c, hc, b, hb, hs⟩ := forall₂_left (hxs.flip) hx
    rw [← hs.2.2.2.2.2.2]
    exact hnn c hc b hb
  · intro k hfp hfit hk
    have hz : Fits fp 0 (.int 0) := by
      rcases hfp with E | L
      · exact Or.inl E
      · exact Or.inr ⟨L, 0, by rw [Num.val_int]; norm_num, by norm_num⟩
    have := htops k 0 hz (fun m hm => by cases hm) hfit (by rw [hst.length, hF.length_eq]; omega)
    rw [Num.val_int] at this
    push_cast at this
    refine forall₂_comp3 (forall₂_flip hF) this ?_
    intro c' c t he hq b' x q hb' hx hDx
    obtain ⟨b, hb, e⟩ := noOrigin_boxOf he.symm hb'
    have hx' : b.noOrigin.Stands x := by rw [← e]; exact hx
    have hs : c'.style = c.style := by rw [← noOrigin_style, ← he, noOrigin_style]
    rw [hs] at hDx
    have := hq b x q hb hx' hDx
    have e' : (b'.noOrigin.borderBoxTop fp).val = t + q := by rw [e]; exact this
    exact e'

/-- The children that are not positioned. -/
theorem RanQ.stack {fp : FP} {d : Display} {hgt : Bool} {w : Option Num} {ps : Option CSS} {n : Node} (h : RanQ Pristine fp d hgt w ps n)
    (hc : n.BlockContext) (hh : ¬ n.Hidden) :
    ∃ ks rest xs, n.children = ks ++ rest ∧ (∀ c ∈ ks, c.BlockLevel) ∧ (∀ c ∈ rest, ¬ c.BlockLevel) ∧
      List.Forall₂ (fun c x => ∃ b, c.layout = some b ∧ b.Stands x) ks xs ∧ (∀ x ∈ xs, 0 ≤ x.cb) ∧
      ∀ k, fp.Exact ∨ fp.Laws → (∀ x ∈ xs, x.AllFit fp k) → 8 * k * ks.length ≤ 2 ^ 53 →
        List.Forall₂ (fun c t => ¬ c.Relative → ∃ b, c.layout = some b ∧ (b.borderBoxTop fp).val = t) ks (flowTops 0 none xs) := by
  obtain ⟨ks, rest, xs, h1, h2, h3, h4, h5, h6⟩ := h.places (D := fun _ s _ q => isRelative s = false ∧ q = 0) hc hh (by
    intro f p cb c s z b ks hl hp hb k x q hx hf hk hD
    obtain ⟨hr, rfl⟩ := hD
    have ht := (layoutBox_block hl hp hb).2 hr
    obtain ⟨_, ebt, ept, _⟩ := hx
    obtain ⟨_, f2, f3, _⟩ := hf
    rw [ebt, ept] at ht
    obtain ⟨a1, a2⟩ := f2.add f3 (by omega)
    obtain ⟨b1, b2⟩ := (fits_zero a2).add a2 (by omega)
    refine ⟨?_, (b2.of_val ht).mono (by omega)⟩
    rw [ht, b1, a1, Num.val_int]
    push_cast
    ring)
  refine ⟨ks, rest, xs, h1, h2, h3, h4, h5, fun k E hf hk => ?_⟩
  refine forall₂_comp3 (P := fun c c' => c = c' ∧ ∃ b x, c.layout = some b ∧ b.Stands x) ?_ (h6 k E hf hk) ?_
  · clear h6 hf hk h2 h1
    induction h4 with
    | nil => exact .nil
    | cons hp _ ih => exact .cons ⟨rfl, by obtain ⟨b, hb, hx⟩ := hp; exact ⟨b, _, hb, hx⟩⟩ (ih fun x hx => h5 x (List.mem_cons_of_mem _ hx))
  · rintro c _ t ⟨rfl, b, x, hb, hx⟩ hq hr
    have hr' : isRelative c.style = false := by
      cases he : isRelative c.style with
      | false => rfl
      | true => exact absurd ((isKw_iff _ _).1 he) hr
    exact ⟨b, hb, by rw [hq b x 0 hb hx ⟨hr', rfl⟩, add_zero]⟩

end Colosseum
