import Verif.Spec.Margins
import Verif.Lemmas.Widths
import Verif.Lemmas.Grid

/-!
# Horizontal margins
-/

namespace Colosseum

/-- The value of a margin. -/
def MVal.opt : MVal → Option Rat
  | .auto => none
  | .num y => some y.val

theorem opt_auto {a : MVal} (h : a.opt = none) : a = .auto := by
  cases a with
  | auto => rfl
  | num y => cases h

theorem opt_same {a b : MVal} (h : a.Same b) : a.opt = b.opt := by
  cases a <;> cases b <;> simp_all [MVal.Same, MVal.opt]

theorem opt_isVal {a : MVal} {q : Rat} (h : a.IsVal q) : a.opt = some q := by
  obtain ⟨y, rfl, rfl⟩ := h; rfl

theorem autoZero_opt (b : Box) (t : Side) : ((autoMarginToZero b t).margin.get t).opt = some ((b.margin.get t).opt.getD 0) := by
  unfold autoMarginToZero
  split
  · rename_i h
    rw [h]
    exact opt_isVal (setMargin_num b t (.int 0))
  · rename_i y h
    rw [h]; rfl

theorem autoZero_opts (b : Box) : (autoMarginToZero (autoMarginToZero b .left) .right).margin.left.opt = some (b.margin.left.opt.getD 0) ∧
    (autoMarginToZero (autoMarginToZero b .left) .right).margin.right.opt = some (b.margin.right.opt.getD 0) := by
  constructor
  · have e := autoZero_other (autoMarginToZero b .left) .right .left (by decide)
    have e' := autoZero_opt b .left
    rw [← e] at e'
    exact e'
  · have e := autoZero_opt (autoMarginToZero b .left) .right
    rw [autoZero_other b .left .right (by decide)] at e
    exact e

/-- A margin fits. -/
def MVal.Fit (fp : FP) (k : Nat) (x : MVal) : Prop := ∀ y, x = .num y → Fits fp k y

theorem addMargin_val {fp : FP} {k j : Nat} {x : Num} {m : MVal} (hx : Fits fp j x) (hm : m.Fit fp k) (h : j + k ≤ 2 ^ 53) :
    (addMargin fp x m).val = x.val + m.opt.getD 0 ∧ Fits fp (j + k) (addMargin fp x m) := by
  cases m with
  | auto => exact ⟨by simp [addMargin, MVal.opt], hx.mono (Nat.le_add_right _ _)⟩
  | num y => exact hx.add (hm y rfl) h

theorem autoZero_fit {fp : FP} {k : Nat} (E : fp.Exact ∨ fp.Laws) (b : Box) (t u : Side) (h : (b.margin.get t).Fit fp k) :
    ((autoMarginToZero b u).margin.get t).Fit fp k := by
  intro y hy
  by_cases htu : t = u
  · subst htu
    unfold autoMarginToZero at hy
    split at hy
    · obtain ⟨z, hz, hv⟩ := setMargin_num b t (.int 0)
      rw [hz] at hy
      cases hy
      rcases E with E | L
      · exact Or.inl E
      · exact Or.inr ⟨L, 0, by rw [hv]; simp [Num.val_int], by simp⟩
    · exact h y hy
  · rw [autoZero_other b u t htu] at hy
    exact h y hy

theorem Fits.kind {fp : FP} {k : Nat} {x : Num} (h : Fits fp k x) : fp.Exact ∨ fp.Laws := by
  rcases h with E | ⟨L, _⟩
  · exact Or.inl E
  · exact Or.inr L

/-- The margins chosen for a fixed width are those of CSS, but for the rounding of halves. -/
theorem solveMargins_used {fp : FP} {s : CSS} {size w : Num} {b : Box} {k : Nat} (hk : 7 * k ≤ 2 ^ 53) (hs : Fits fp k size) (hw : Fits fp k w)
    (hbl : Fits fp k b.border.left) (hbr : Fits fp k b.border.right) (hpl : Fits fp k b.padding.left) (hpr : Fits fp k b.padding.right)
    (hl : b.margin.left.Fit fp k) (hr : b.margin.right.Fit fp k) (i : Rat)
    (hi : i = b.border.left.val + b.padding.left.val + w.val + b.padding.right.val + b.border.right.val) :
    ∀ u e, u = usedMargins ((s.get .direction).isKw "ltr") false size.val i b.margin.left.opt b.margin.right.opt → solveMargins fp s size w b = e →
    (b.margin.left ≠ .auto ∨ b.margin.right ≠ .auto ∨ size.val < i) ∧ e.margin.left.opt = some u.1 ∧ e.margin.right.opt = some u.2 ∨
      b.margin.left = .auto ∧ b.margin.right = .auto ∧ i ≤ size.val ∧ e.margin.left.opt = some (⌊u.1⌋ : Rat) ∧ e.margin.right.opt = some (⌊u.2⌋ : Rat) := by
  intro u e hu he
  have E := hs.kind
  -- whether it overflows
  have ht : ∃ t : Num, t = addMargin fp (addMargin fp (addAll fp b.border.left [b.padding.left, w, b.padding.right, b.border.right]) b.margin.left)
      b.margin.right ∧ t.val = i + b.margin.left.opt.getD 0 + b.margin.right.opt.getD 0 := by
    refine ⟨_, rfl, ?_⟩
    obtain ⟨e1, e2⟩ := Fits.addAll [b.padding.left, w, b.padding.right, b.border.right] hbl (m := k) (by
      intro x hx
      simp only [List.mem_cons, List.not_mem_nil, or_false] at hx
      rcases hx with rfl | rfl | rfl | rfl <;> assumption) (by simp; omega)
    obtain ⟨e3, e4⟩ := addMargin_val e2 hl (by simp; omega)
    obtain ⟨e5, e6⟩ := addMargin_val e4 hr (by simp; omega)
    rw [e5, e3, e1, hi]
    simp
    ring
  obtain ⟨t, ht1, ht2⟩ := ht
  unfold solveMargins at he
  extract_lets total c avail at he
  have htot : total = t := ht1.symm
  -- the remainders
  have cb : c.border = b.border ∧ c.padding = b.padding := by
    show Box.border (if _ then _ else _) = _ ∧ Box.padding (if _ then _ else _) = _
    split
    · exact ⟨(autoZero_edges _ _).1.trans (autoZero_edges _ _).1, (autoZero_edges _ _).2.trans (autoZero_edges _ _).2⟩
    · exact ⟨rfl, rfl⟩
  have cl : c.margin.left.Fit fp k := by
    show (Edge.left (Box.margin (if _ then _ else _))).Fit fp k
    split
    · exact autoZero_fit E _ .left _ (autoZero_fit E _ .left _ hl)
    · exact hl
  have cr : c.margin.right.Fit fp k := by
    show (Edge.right (Box.margin (if _ then _ else _))).Fit fp k
    split
    · exact autoZero_fit E _ .right _ (autoZero_fit E _ .right _ hr)
    · exact hr
  have right : ∀ ml, c.margin.left = .num ml →
      let e := c.setMargin .right (.num (subAll fp size [ml, c.border.left, c.padding.left, w, c.padding.right, c.border.right]))
      e.margin.left.opt = some ml.val ∧ e.margin.right.opt = some (size.val - i - ml.val) := by
    intro ml hml
    have f := cl ml hml
    refine ⟨?_, ?_⟩
    · have e := setMargin_get c .right .left (.num (subAll fp size [ml, c.border.left, c.padding.left, w, c.padding.right, c.border.right])) (by decide)
      have e' : (c.setMargin .right (.num (subAll fp size [ml, c.border.left, c.padding.left, w, c.padding.right, c.border.right]))).margin.left = c.margin.left := e
      rw [e', hml]; rfl
    · have e := opt_isVal (setMargin_num c .right (subAll fp size [ml, c.border.left, c.padding.left, w, c.padding.right, c.border.right]))
      refine Eq.trans e ?_
      rw [cb.1, cb.2, (Fits.subAll _ hs (m := k) (by
        intro x hx
        simp only [List.mem_cons, List.not_mem_nil, or_false] at hx
        rcases hx with rfl | rfl | rfl | rfl | rfl | rfl <;> assumption) (by simp; omega)).1, hi]
      simp
      ring
  have left : ∀ mr, c.margin.right = .num mr →
      let e := c.setMargin .left (.num (subAll fp size [c.border.left, c.padding.left, w, c.padding.right, c.border.right, mr]))
      e.margin.left.opt = some (size.val - i - mr.val) ∧ e.margin.right.opt = some mr.val := by
    intro mr hmr
    have f := cr mr hmr
    refine ⟨?_, ?_⟩
    · have e := opt_isVal (setMargin_num c .left (subAll fp size [c.border.left, c.padding.left, w, c.padding.right, c.border.right, mr]))
      refine Eq.trans e ?_
      rw [cb.1, cb.2, (Fits.subAll _ hs (m := k) (by
        intro x hx
        simp only [List.mem_cons, List.not_mem_nil, or_false] at hx
        rcases hx with rfl | rfl | rfl | rfl | rfl | rfl <;> assumption) (by simp; omega)).1, hi]
      simp
      ring
    · have e := setMargin_get c .left .right (.num (subAll fp size [c.border.left, c.padding.left, w, c.padding.right, c.border.right, mr])) (by decide)
      have e' : (c.setMargin .left (.num (subAll fp size [c.border.left, c.padding.left, w, c.padding.right, c.border.right, mr]))).margin.right = c.margin.right := e
      rw [e', hmr]; rfl
  clear_value total
  subst htot
  by_cases hov : size.val < i + b.margin.left.opt.getD 0 + b.margin.right.opt.getD 0
  · -- it overflows
    refine Or.inl ⟨?_, ?_⟩
    · cases hml : b.margin.left with
      | num ml => exact Or.inl nofun
      | auto =>
        cases hmr : b.margin.right with
        | num mr => exact Or.inr (Or.inl nofun)
        | auto =>
          rw [hml, hmr] at hov
          simp only [MVal.opt, Option.getD_none, add_zero] at hov
          exact Or.inr (Or.inr hov)
    have hc : c = autoMarginToZero (autoMarginToZero b .left) .right := by
      show (if _ then _ else _) = _
      rw [if_pos]
      rw [pyLt_iff, ht2]
      exact hov
    obtain ⟨o1, o2⟩ := autoZero_opts b
    rw [← hc] at o1 o2
    clear_value c
    cases hml : c.margin.left with
    | auto => rw [hml] at o1; cases o1
    | num ml =>
      cases hmr : c.margin.right with
      | auto => rw [hmr] at o2; cases o2
      | num mr =>
        rw [hml] at o1; rw [hmr] at o2
        have o1 : ml.val = b.margin.left.opt.getD 0 := Option.some.inj o1
        have o2 : mr.val = b.margin.right.opt.getD 0 := Option.some.inj o2
        have hov' : size.val < i + ml.val + mr.val := by rw [o1, o2]; exact hov
        simp only [usedMargins, ← o1, ← o2, if_pos hov', Bool.false_eq_true, if_false] at hu
        rw [hml, hmr] at he
        simp only at he
        split at he
        · rename_i hd
          rw [if_pos hd] at hu
          subst hu he
          exact right ml hml
        · rename_i hd
          rw [if_neg hd] at hu
          subst hu he
          exact left mr hmr
  · have hc : c = b := by
      show (if _ then _ else _) = _
      rw [if_neg]
      rw [pyLt_iff, ht2]
      exact hov
    clear_value c
    subst hc
    cases hml : c.margin.left with
    | num ml =>
      cases hmr : c.margin.right with
      | num mr =>
        refine Or.inl ⟨Or.inl nofun, ?_⟩
        rw [hml, hmr] at hov he hu
        simp only [MVal.opt] at hov hu
        simp only [usedMargins, if_neg hov, Bool.false_eq_true, if_false] at hu
        simp only at he
        split at he
        · rename_i hd
          rw [if_pos hd] at hu
          subst hu he
          exact right ml hml
        · rename_i hd
          rw [if_neg hd] at hu
          subst hu he
          exact left mr hmr
      | auto =>
        refine Or.inl ⟨Or.inl nofun, ?_⟩
        rw [hml, hmr] at hov he hu
        simp only [MVal.opt] at hov hu
        simp only [usedMargins, if_neg hov, Bool.false_eq_true, if_false] at hu
        subst hu he
        exact right ml hml
    | auto =>
      cases hmr : c.margin.right with
      | num mr =>
        refine Or.inl ⟨Or.inr (Or.inl nofun), ?_⟩
        rw [hml, hmr] at hov he hu
        simp only [MVal.opt] at hov hu
        simp only [usedMargins, if_neg hov, Bool.false_eq_true, if_false] at hu
        subst hu he
        exact left mr hmr
      | auto =>
        right
        rw [hml, hmr] at hov he hu
        simp only [MVal.opt] at hov hu
        simp only [usedMargins, if_neg hov, Bool.false_eq_true, if_false] at hu
        simp only at he
        obtain ⟨x, hx⟩ : ∃ x, x = (subAll fp size [c.border.left, c.padding.left, w, c.padding.right, c.border.right]) := ⟨_, rfl⟩
        have ha : avail = x := hx.symm
        rw [ha] at he
        subst hu he
        obtain ⟨e1, e2⟩ := Fits.subAll [c.border.left, c.padding.left, w, c.padding.right, c.border.right] hs (m := k) (by
          intro x hx'
          simp only [List.mem_cons, List.not_mem_nil, or_false] at hx'
          rcases hx' with rfl | rfl | rfl | rfl | rfl <;> assumption) (by simp; omega)
        rw [← hx] at e1 e2
        have e3 := e2.floorDiv2 (by simp; omega)
        have ev : x.val = size.val - i := by rw [e1, hi]; simp; ring
        rw [ev] at e3
        have k1 := opt_isVal (setMargin_num c .left (x.floorDiv2 fp))
        have k3 := opt_isVal (setMargin_num (c.setMargin .left (.num (x.floorDiv2 fp))) .right (x.floorDiv2 fp))
        have k5 := setMargin_get (c.setMargin .left (.num (x.floorDiv2 fp))) .right .left (.num (x.floorDiv2 fp)) (by decide)
        refine ⟨rfl, rfl, ?_, ?_, ?_⟩
        · simp at hov; exact hov
        · rw [e3, ← k5] at k1; exact k1
        · rw [e3] at k3; exact k3

/-- The margin a value specifies is what is copied to the box. -/
theorem margin_copied {fp : FP} (E : fp.Exact ∨ fp.Laws) {v : Val} {c : PxCtx} {l : Option Num} {x m : MVal} (h : v.Margin fp c l)
    (hx : calculateSize fp v c = .ok x) (hm : m.Same x) : m.opt = l.map Num.val ∧ ∀ k, (∀ y, l = some y → Fits fp k y) → m.Fit fp k := by
  have key : x.opt = l.map Num.val := by
    cases l with
    | none =>
      have e := (calculateSize_auto hx).2 h
      rw [e]; rfl
    | some y =>
      obtain ⟨u, rfl, hu⟩ := h
      unfold calculateSize at hx
      rw [if_neg (by simp [Val.isKw, Val.pyEq, kw]), if_neg (by simp [Val.isKw, Val.pyEq, kw]), if_neg (by simp [Val.isKw, Val.pyEq, kw]),
        if_neg (by simp [Val.isKw, Val.pyEq, kw])] at hx
      split at hx
      · rename_i h0
        cases hx
        simp only [Val.pyEq, Val.isNone, Bool.or_false, Bool.and_eq_true, beq_iff_eq] at h0
        obtain ⟨⟨hk, _⟩, hv⟩ := h0
        rcases u with ⟨k, val⟩
        simp only at hk hv
        subst hk
        have z0 : fp.rnd 0 = 0 := by
          rcases E with E | L
          · exact E 0
          · exact_mod_cast L.small 0 (by norm_num)
        have f0 : (0 : Rat).floor = 0 := by decide +kernel
        have e : y.val = 0 := by
          rcases val with n | s | _
          · have hv : n.val = 0 := by simpa [PyNum.pyEq, Num.pyEq, Num.val_int] using hv
            have hu : pxOf fp .px (.fin n) c = .ok y := hu
            unfold pxOf at hu
            have hl : luOf fp .px (.fin n) c = .ok 0 := by
              cases n with
              | int i =>
                rw [Num.val_int] at hv
                have : i = 0 := by exact_mod_cast hv
                subst this; rfl
              | flt q =>
                rw [Num.val_flt] at hv
                subst hv
                simp [luOf, luPerPixel, PyNum.mul, Num.mul, Num.toFloat, z0, PyNum.round, Num.round, pyRound, f0]
            rw [hl] at hu
            cases hu
            simp [pxOfLu, z0, pyTrunc, Num.val_int, f0]
          · cases hv
          · cases hv
        rw [show (MVal.num (.int 0)).opt = some 0 by simp [MVal.opt, Num.val_int]]
        simp [e]
      · have : (Val.unit u).px fp c = .ok y := hu
        rw [this] at hx
        cases hx; rfl
  rw [opt_same hm]
  refine ⟨key, fun k hk y hy => ?_⟩
  subst hy
  cases x with
  | auto => cases hm
  | num z =>
    cases l with
    | none => cases key
    | some q => exact (hk q rfl).of_val (Eq.trans (show _ = z.val from hm) (Option.some.inj key))

end Colosseum

namespace Colosseum

/-! ## Horizontal positions -/

theorem setContent_h (fp : FP) (v : Num) (b : Box) (cs : List Node) : (setContent fp .v v b cs).1.h = b.h := by
  unfold setContent
  split <;> rfl

theorem setContent_content (fp : FP) (a : Axis) (v : Num) (b : Box) (cs : List Node) : ((setContent fp a v b cs).1.pos a).content.val = v.val := by
  unfold setContent
  split
  · rename_i h
    exact (by simpa [Num.pyEq] using h : v.val = (b.pos a).content.val).symm
  · cases a <;> rfl

theorem SameButCollapse.h {b b' : Box} (h : SameButCollapse b b') : b.h = b'.h := by
  have e := congrArg Box.h h
  exact e

theorem setMargin_h (b : Box) (t : Side) (x : MVal) : (b.setMargin t x).h = b.h := by
  unfold Box.setMargin
  split
  · rfl
  · exact (setCollapse_same _ t x).h.symm

theorem autoMargin_h (b : Box) (t : Side) : (autoMarginToZero b t).h = b.h := by
  unfold autoMarginToZero
  split
  · exact setMargin_h ..
  · rfl

theorem height_h {fp : FP} {s : CSS} {z : Intrinsic} {parent : Option CSS} {c : PxCtx} {b b' : Box} {cs cs' : List Node}
    (h : heightAndMargins fp s z parent c b cs = .ok (b', cs')) : b'.h = b.h := by
  have place : ∀ {b b' : Box}, placeTopInline fp b cs = .ok (b', cs') → b'.h = b.h := by
    intro b b' h
    unfold placeTopInline at h
    obtain ⟨mt, _, h⟩ := bind_eq_ok.1 h
    rw [(ok_pair h).1]
    exact setContent_h ..
  unfold heightAndMargins at h
  split at h
  · cases h
  split at h
  · cases h
  split at h
  · split at h
    · unfold inlineReplacedHeight at h
      simp only at h
      obtain ⟨x, _, h⟩ := bind_eq_ok.1 h
      refine (place h).trans ?_
      exact (autoMargin_h ..).trans (autoMargin_h ..)
    · unfold inlineHeight at h
      have e := place h
      exact e
  split at h
  · split at h
    · cases h
    · unfold blockHeight at h
      obtain ⟨⟨x, b1⟩, h1, h⟩ := bind_eq_ok.1 h
      simp only at h
      rw [(ok_pair h).1, setContent_h]
      show b1.h = _
      rw [← (contentHeight_same h1).h]
      exact (autoMargin_h ..).trans (autoMargin_h ..)
  · split at h <;> cases h

theorem relativeHeight_h {fp : FP} {s : CSS} {z : Intrinsic} {parent : Option CSS} {c : PxCtx} {b b' : Box} {cs cs' : List Node}
    (h : relativeHeight fp s z parent c b cs = .ok (b', cs')) : b'.h = b.h := by
  unfold relativeHeight at h
  split at h
  · exact height_h h
  · cases h; rfl

theorem children_h {fp : FP} {lay : Box → Node → Res Node} {s : CSS} {z : Intrinsic} {b b' : Box} {cs cs' : List Node}
    (h : layoutChildren fp lay s z b cs = .ok (b', cs')) : b'.h = b.h := by
  rcases children_stacked h with ⟨_, rfl, _⟩ | ⟨_, _, _, _, _, _, hst, _⟩
  · rfl
  · exact hst.same.h.symm

/-- The horizontal position before a relative offset is applied. -/
theorem blockWidth_left {fp : FP} {s : CSS} {c : PxCtx} {b b' : Box} {cs cs' : List Node} (h : blockWidth fp s c b cs = .ok (b', cs')) :
    ∃ ml, b'.margin.left = .num ml ∧ b'.h.content.val = (addAll fp ml [b'.border.left, b'.padding.left]).val := by
  have place : ∀ {b : Box}, placeLeft fp b cs = .ok (b', cs') →
      ∃ ml, b'.margin.left = .num ml ∧ b'.h.content.val = (addAll fp ml [b'.border.left, b'.padding.left]).val := by
    intro b h
    unfold placeLeft at h
    obtain ⟨ml, hm, h⟩ := bind_eq_ok.1 h
    have hm : b.margin.left = .num ml := by
      cases hx : b.margin.left with
      | auto => rw [hx] at hm; cases hm
      | num y => rw [hx] at hm; cases hm; rfl
    have e := setContent_wide fp .h (addAll fp ml [b.border.left, b.padding.left]) b cs
    have e' := setContent_content fp .h (addAll fp ml [b.border.left, b.padding.left]) b cs
    rw [← (ok_pair h).1] at e e'
    refine ⟨ml, e.left.symm.trans hm, ?_⟩
    rw [← e.border, ← e.padding]
    exact e'
  unfold blockWidth at h
  split at h
  · simp only at h
    obtain ⟨_, _, h⟩ := bind_eq_ok.1 h
    obtain ⟨_, _, h⟩ := bind_eq_ok.1 h
    obtain ⟨_, _, h⟩ := bind_eq_ok.1 h
    exact place h
  · obtain ⟨_, _, h⟩ := bind_eq_ok.1 h
    obtain ⟨_, _, h⟩ := bind_eq_ok.1 h
    exact place h

theorem applyRelative_h {fp : FP} {s : CSS} {cb : CB} {hz vt : PxCtx} {b b' : Box} {cs cs' : List Node}
    (h : applyRelative fp s cb hz vt b cs = .ok (b', cs')) :
    s.get .position ≠ kw "relative" ∧ b'.h = b.h ∨ s.get .position = kw "relative" ∧ ∃ dx, relativeOffset fp cb .h (s.get .left) (s.get .right) hz = .ok dx ∧
      b'.h.content.val = (b.h.content.add fp dx).val := by
  unfold applyRelative at h
  split at h
  · rename_i hr
    obtain ⟨dx, hx, h⟩ := bind_eq_ok.1 h
    simp only at h
    obtain ⟨dy, _, h⟩ := bind_eq_ok.1 h
    refine Or.inr ⟨(isKw_iff _ _).1 hr, dx, hx, ?_⟩
    rw [(ok_pair h).1, setContent_h]
    exact setContent_content fp .h _ b cs
  · rename_i hr
    cases h
    exact Or.inl ⟨fun e => hr ((isKw_iff _ _).2 e), rfl⟩

/-- The offset is that of CSS where it does not depend on the direction. -/
theorem relativeOffset_shift {fp : FP} {cb : CB} {a : Axis} {v w : Val} {c : PxCtx} {l r : Option Num} {dx : Num} (hl : v.Margin fp c l) (hr : w.Margin fp c r)
    (h : relativeOffset fp cb a v w c = .ok dx) :
    dx.val = relativeShift true (l.map Num.val) (r.map Num.val) ∧ ∀ k, (fp.Exact ∨ fp.Laws) → (∀ y, l = some y → Fits fp k y) → (∀ y, r = some y → Fits fp k y) →
      Fits fp k dx := by
  have neg : ∀ (fp : FP) k (y : Num), Fits fp k y → Fits fp k y.neg := by
    intro fp k y hy
    rcases hy with E | ⟨L, n, hn, hm⟩
    · exact Or.inl E
    · refine Or.inr ⟨L, -n, ?_, by simpa using hm⟩
      rw [Num.neg_val, hn]; push_cast; ring
  have ua : ∀ u : CUnit, ∀ s, (Val.unit u).isKw s = false := fun _ _ => by simp [Val.isKw, Val.pyEq, kw]
  have aa : (kw "auto").isKw "auto" = true := (isKw_iff _ _).2 rfl
  unfold relativeOffset at h
  cases l with
  | none =>
    have hl : v = kw "auto" := hl
    subst hl
    cases r with
    | none =>
      have hr : w = kw "auto" := hr
      subst hr
      rw [aa] at h
      simp only [Bool.and_self, if_true] at h
      cases h
      refine ⟨by simp [relativeShift, Num.val_int], fun k E _ _ => ?_⟩
      rcases E with E | L
      · exact Or.inl E
      · exact Or.inr ⟨L, 0, by simp [Num.val_int], by simp⟩
    | some y =>
      obtain ⟨u, rfl, hu⟩ := hr
      rw [aa, ua] at h
      simp only [Bool.and_false, Bool.false_eq_true, if_false, if_true, ua] at h
      have e : (Val.unit u).px fp c = .ok y := hu
      rw [e] at h
      cases h
      exact ⟨by simp [relativeShift, Num.neg_val], fun k _ _ hf => neg _ _ _ (hf y rfl)⟩
  | some x =>
    obtain ⟨u, rfl, hu⟩ := hl
    have e : (Val.unit u).px fp c = .ok x := hu
    have hx : dx = x := by
      simp only [ua, Bool.false_and, Bool.false_eq_true, if_false, e] at h
      split at h <;> cases h <;> rfl
    subst hx
    refine ⟨?_, fun k _ hf _ => hf dx rfl⟩
    cases r <;> simp [relativeShift]

/-- The horizontal phases of the run that made a block, with the position. -/
theorem RanQ.across {Q : Node → Prop} {fp : FP} {d : Display} {hgt : Bool} {w : Option Num} {ps : Option CSS} {n : Node} (h : RanQ Q fp d hgt w ps n)
    (hb : isBlockLevel n.style = true) : ∃ b ml, n.layout = some b ∧ b.margin.left = .num ml ∧
      (n.style.get .position ≠ kw "relative" ∧ b.h.content.val = (addAll fp ml [b.border.left, b.padding.left]).val ∨
       n.style.get .position = kw "relative" ∧ ∃ cb dx, ∃ x : Num, relativeOffset fp cb .h (n.style.get .left) (n.style.get .right) ⟨d, dummyFont fp, w⟩ = .ok dx ∧
        x.val = (addAll fp ml [b.border.left, b.padding.left]).val ∧ b.h.content.val = (x.add fp dx).val) := by
  obtain ⟨b, hbx, f, cb, b0, cs0, b', cs', rfl, hbody, hcore, _⟩ := h
  obtain ⟨b1, b2, cs2, b3, cs3, b4, cs4, b5, cs5, h1, h2, h3, _, _, h4, h5, h6⟩ := body_phases hbody
  have w3 := (relativeHeight_wide h3).trans ((children_wide h4).trans (height_wide h5))
  have w6 := w3.trans ((applyRelative_wide h6).trans (core_wide hcore))
  have e5 : b5.h = b2.h := (height_h h5).trans ((children_h h4).trans (relativeHeight_h h3))
  obtain ⟨ml, k1, k2⟩ := blockWidth_left (widthAndMargins_block h2 hb)
  have ec : b.h.content = b'.h.content := by
    have e := congrArg (fun b : Box => b.h.content) hcore
    exact e.symm
  refine ⟨b, ml, hbx, w6.left.symm.trans k1, ?_⟩
  rw [← w6.border, ← w6.padding, ec]
  rcases applyRelative_h h6 with ⟨hn, e⟩ | ⟨hr, dx, hx, e⟩
  · left
    refine ⟨hn, ?_⟩
    rw [e, e5, k2]
  · right
    refine ⟨hr, cb, dx, b5.h.content, hx, ?_, e⟩
    rw [e5, k2]

end Colosseum
