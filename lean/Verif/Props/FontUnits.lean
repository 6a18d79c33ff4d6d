import Verif.Props.Notation
import Verif.Props.Pixels
import Verif.Spec.FontUnits

/-!
# C93: lengths relative to the font refer to a font of size minus one
-/

namespace Colosseum

theorem Instead.same {fp : FP} {d : Display} {R : LKind → Num → Val → Prop}
    (h : ∀ k a w, k ≠ .percent → R k a w → ∃ k' x', w = .unit ⟨.len k', x'⟩ ∧
      ∀ size, pxOf fp k (.fin a) ⟨d, dummyFont fp, size⟩ = pxOf fp k' x' ⟨d, dummyFont fp, size⟩) {v w : Val} (hv : Instead R v w) :
    SameMeaning fp d v w := by
  rcases hv with rfl | ⟨k, a, hk, rfl, hr⟩
  · exact Or.inl rfl
  · obtain ⟨k', x', rfl, hs⟩ := h k a w hk hr
    exact Or.inr ⟨k, k', _, x', rfl, rfl, hs⟩

/-- C93, ems: a document with lengths in ems is laid out as the one with as many points instead, of the opposite sign. The font of the element has no
influence, and a positive number of ems is a negative length. -/
theorem C93_em (fp : FP) (L : fp.Laws) (d : Display) (html5 : Bool) (p q : Option CSS) (n m : Node)
    (hp : ParentRel (fun _ => Instead EmAsPoints) p q) (h : DocRel (fun _ => Instead EmAsPoints) n m) :
    SameOutcome (layout fp d html5 p n) (layout fp d html5 q m) := by
  have key : ∀ v w, Instead EmAsPoints v w → SameMeaning fp d v w := fun v w => Instead.same (by
    rintro k a w - ⟨rfl, rfl⟩
    refine ⟨.pt, .fin a.neg, rfl, fun size => ?_⟩
    have : luOf fp .em (.fin a) ⟨d, dummyFont fp, size⟩ = luOf fp .pt (.fin a.neg) ⟨d, dummyFont fp, size⟩ := by
      simp only [luOf]
      rw [luScaled_fin L, luScaled_fin L]
      have : ((Num.int (-1)).div fp (.int 72)).val = -((Num.int 1).div fp (.int 72)).val := by
        simp only [Num.div, Num.val_flt, Num.val_int]
        push_cast
        rw [neg_div, L.odd]
      show Except.ok (pyRound (fp.rnd (fp.rnd (fp.rnd (64 * a.val) * ((Num.int (-1)).div fp (.int 72)).val) * d.dpi.toFloat fp))) = _
      rw [this]
      simp only [Num.neg_val, mul_neg, L.odd _, neg_mul]
    unfold pxOf
    rw [this])
  exact C74_notation fp L d html5 p q n m (hp.mono fun _ v w _ => key v w) (h.mono fun _ v w _ => key v w)

/-- C93, exs and chs, in exact arithmetic: 65% and 71% of as many points, of the opposite sign. With rounding, `C93_pixels` says how close they come. -/
theorem C93_ex_ch (fp : FP) (E : fp.Exact) (d : Display) (html5 : Bool) (p q : Option CSS) (n m : Node)
    (hp : ParentRel (fun _ => Instead FontAsPoints) p q) (h : DocRel (fun _ => Instead FontAsPoints) n m) :
    SameOutcome (layout fp d html5 p n) (layout fp d html5 q m) := by
  have hfp : fp = .exact := by
    obtain ⟨r⟩ := fp
    have : r = fun q => q := funext E
    subst this; rfl
  subst hfp
  have L := exact_laws
  have key : ∀ v w, Instead FontAsPoints v w → SameMeaning .exact d v w := fun v w => Instead.same (by
    have scale : ∀ (f : Num) (a : Num) (dpi : Num), luScaled .exact (.fin a) f dpi = luScaled .exact (.fin (.flt (f.val * a.val))) (.int 1) dpi := by
      intro f a dpi
      rw [luScaled_fin L, luScaled_fin L]
      congr 2
      have e : ∀ x : Num, (x.div FP.exact (.int 72)).val = x.val / 72 := fun x => by cases x <;> rfl
      rw [e, e]
      show 64 * a.val * (f.val / 72) * _ = 64 * (f.val * a.val) * (((1 : Int) : Rat) / 72) * _
      push_cast
      ring
    rintro k a w - (⟨rfl, rfl⟩ | ⟨rfl, rfl⟩)
    · refine ⟨.pt, _, rfl, fun size => ?_⟩
      have : luOf .exact .ex (.fin a) ⟨d, dummyFont .exact, size⟩ = luOf .exact .pt (.fin (.flt (-(65 / 100) * a.val))) ⟨d, dummyFont .exact, size⟩ := by
        simp only [luOf]
        rw [scale]
        have : (dummyFont FP.exact).ex.val = -(65 / 100) := by decide +kernel
        rw [this]
      unfold pxOf
      rw [this]
    · refine ⟨.pt, _, rfl, fun size => ?_⟩
      have : luOf .exact .ch (.fin a) ⟨d, dummyFont .exact, size⟩ = luOf .exact .pt (.fin (.flt (-(71 / 100) * a.val))) ⟨d, dummyFont .exact, size⟩ := by
        simp only [luOf]
        rw [scale]
        have : (dummyFont FP.exact).ch.val = -(71 / 100) := by decide +kernel
        rw [this]
      unfold pxOf
      rw [this])
  exact C74_notation .exact L d html5 p q n m (hp.mono fun _ v w _ => key v w) (h.mono fun _ v w _ => key v w)

theorem ex_ch_val {fp : FP} (L : fp.Laws) (r : Rat) : ((Num.flt (fp.rnd r)).mul fp (.int (-1))).val = -fp.rnd r := by
  have e1 : fp.rnd (-1) = -1 := by rw [L.odd, L.one]
  simp only [Num.mul, Num.toFloat, Num.val_flt]
  push_cast
  rw [e1, mul_neg_one, L.odd, L.idem]

/-- C93, every unit: each length that is not a percentage may be replaced by a number of pixels which depends on the length and the display only, and is
within 1/128 px and a small relative error of what CSS prescribes for a font with an em of minus one point, an ex of minus 0.65 points, and a ch of minus
0.71 points. -/
theorem C93_pixels (fp : FP) (S : fp.Sharp) (d : Display) : ∃ m : LKind → Num → Num,
    (∀ k a r, k ≠ .percent → CssPixels ⟨d, minusFont, none⟩ k a.val r →
      |(m k a).val - r| ≤ 1 / 128 + |r| * (if k = .cm ∨ k = .mm then 2 / 10 ^ 6 else 9 / 2 ^ 53)) ∧
    ∀ (html5 : Bool) (p q : Option CSS) (n o : Node), ParentRel (fun _ => Instead fun k a w => w = .unit ⟨.len .px, .fin (m k a)⟩) p q →
      DocRel (fun _ => Instead fun k a w => w = .unit ⟨.len .px, .fin (m k a)⟩) n o →
      SameOutcome (layout fp d html5 p n) (layout fp d html5 q o) := by
  have L := S.toLaws
  let c : PxCtx := ⟨d, dummyFont fp, none⟩
  let m : LKind → Num → Num := fun k a => if k = .px then a else ((pxOf fp k (.fin a) c).toOption).getD (.int 0)
  refine ⟨m, fun k a r hk hr => ?_, fun html5 p q n o hp h => ?_⟩
  · by_cases hpx : k = .px
    · subst hpx
      cases hr with
      | px =>
        show |a.val - a.val| ≤ _
        rw [sub_self, abs_zero]
        positivity
      | points _ _ _ h => cases h
      | extent _ _ _ h => cases h
    · obtain ⟨x, hx⟩ := C61_px_total fp k a c fun h => absurd h hk
      have em : m k a = x := by
        show (if k = .px then a else _) = x
        rw [if_neg hpx, hx]; rfl
      rw [em]
      have widen : ∀ y : Rat, |x.val - y| ≤ 1 / 128 + |y| * (if k = .cm ∨ k = .mm then 2 / 10 ^ 6 else 7 / 2 ^ 53) → |y - r| ≤ |r| * (1 / 2 ^ 53) →
          (k = .cm ∨ k = .mm → y = r) → |x.val - r| ≤ 1 / 128 + |r| * (if k = .cm ∨ k = .mm then 2 / 10 ^ 6 else 9 / 2 ^ 53) := by
        intro y h1 h2 h3
        by_cases hc : k = .cm ∨ k = .mm
        · rw [if_pos hc] at h1 ⊢
          rw [← h3 hc]; exact h1
        · rw [if_neg hc] at h1 ⊢
          have t := abs_sub_le x.val y r
          have t2 : |y| ≤ |r| + |y - r| := by
            have := abs_add_le r (y - r)
            rwa [show r + (y - r) = y by ring] at this
          have : |y| * (7 / 2 ^ 53) ≤ (|r| + |r| * (1 / 2 ^ 53)) * (7 / 2 ^ 53) := mul_le_mul_of_nonneg_right (by linarith) (by norm_num)
          have h5 : (|r| + |r| * (1 / 2 ^ 53)) * (7 / 2 ^ 53) + |r| * (1 / 2 ^ 53) ≤ |r| * (9 / 2 ^ 53) := by
            have : 0 ≤ |r| := abs_nonneg r
            nlinarith
          linarith
      have acc := fun y hy => C61_px_accurate fp S k a c x y hx hy
      have same : (CssPixels c k a.val r) → |x.val - r| ≤ 1 / 128 + |r| * (if k = .cm ∨ k = .mm then 2 / 10 ^ 6 else 9 / 2 ^ 53) := fun h =>
        widen r (acc r h) (by rw [sub_self, abs_zero]; positivity) fun _ => rfl
      cases hr with
      | px => exact absurd rfl hpx
      | extent _ _ e h => exact same (.extent k _ e h)
      | percent _ s hs => cases hs
      | points _ _ f hf =>
        have rel : ∀ z g : Rat, ¬(k = .cm ∨ k = .mm) → f = -z → g = -fp.rnd z → cssPoints k c.font = some g →
            |x.val - a.val * f / 72 * d.dpi.val| ≤ 1 / 128 + |a.val * f / 72 * d.dpi.val| * (if k = .cm ∨ k = .mm then 2 / 10 ^ 6 else 9 / 2 ^ 53) := by
          rintro z g hc rfl rfl hg
          refine widen _ (acc _ (.points k _ _ hg)) ?_ fun h => absurd h hc
          · have := S.rel z
            have e : a.val * -fp.rnd z / 72 * c.display.dpi.val - a.val * -z / 72 * d.dpi.val = -(a.val / 72 * d.dpi.val) * (fp.rnd z - z) := by
              show a.val * -fp.rnd z / 72 * d.dpi.val - a.val * -z / 72 * d.dpi.val = _
              ring
            have e2 : a.val * -z / 72 * d.dpi.val = -(a.val / 72 * d.dpi.val) * z := by ring
            rw [e, e2, abs_mul, abs_mul, mul_assoc]
            refine mul_le_mul_of_nonneg_left ?_ (abs_nonneg _)
            simpa using this
        cases k <;> first
          | exact same (.points _ _ f hf)
          | exact rel (65 / 100) _ (by simp) (by simp only [cssPoints, minusFont, Option.some.injEq] at hf; rw [← hf]; norm_num) (ex_ch_val L _) rfl
          | exact rel (71 / 100) _ (by simp) (by simp only [cssPoints, minusFont, Option.some.injEq] at hf; rw [← hf]; norm_num) (ex_ch_val L _) rfl
          | cases hf
  · have key : ∀ v w, Instead (fun k a w => w = .unit ⟨.len .px, .fin (m k a)⟩) v w → SameMeaning fp d v w := fun v w => Instead.same (by
      rintro k a w hk rfl
      refine ⟨.px, _, rfl, fun size => ?_⟩
      by_cases hpx : k = .px
      · subst hpx; rfl
      · obtain ⟨x, hx⟩ := C61_px_total fp k a c fun h => absurd h hk
        have em : m k a = x := by
          show (if k = .px then a else _) = x
          rw [if_neg hpx, hx]; rfl
        rw [em]
        have e0 : pxOf fp k (.fin a) ⟨d, dummyFont fp, size⟩ = pxOf fp k (.fin a) c := by
          unfold pxOf
          cases k <;> first | rfl | exact absurd rfl hk
        rw [e0, hx]
        obtain ⟨l, hl, hv, hi⟩ := C05_px_on_grid_partial fp L k (.fin a) c (fun h => absurd h hpx) x hx
        have hfl : fp.rnd (l : Rat) = l := lu_is_float L (fun h => absurd h hpx) hl
        obtain ⟨l', hl', rfl⟩ := pxOf_ok hx
        cases hl.symm.trans hl'
        have : luOf fp .px (.fin (pxOfLu fp l)) ⟨d, dummyFont fp, size⟩ = .ok l := by
          simp only [luOf]
          cases hn : pxOfLu fp l with
          | int i =>
            rw [luPx_int]
            rw [hn] at hv
            have : ((64 * i : Int) : Rat) = l := by
              rw [Num.val_int] at hv
              push_cast; rw [hv]; ring
            rw [show 64 * i = l by exact_mod_cast this]
          | flt y =>
            rw [luPx_flt L]
            rw [hn] at hv
            rw [Num.val_flt] at hv
            rw [hv, show 64 * ((l : Rat) / 64) = l by ring, hfl, pyRound_int]
        unfold pxOf
        rw [this])
    exact C74_notation fp L d html5 p q n o (hp.mono fun _ v w _ => key v w) (h.mono fun _ v w _ => key v w)

/-- A block with a left margin of 72em inside of another, and one with a left margin of 100ex. -/
def emDoc : Node := block [] [block [(.margin .left, .unit ⟨.len .em, .fin (.int 72)⟩)] []]
def exDoc : Node := block [] [block [(.margin .left, .unit ⟨.len .ex, .fin (.int 100)⟩)] []]
/-- The same in points. -/
def pointDoc (x : Num) : Node := block [] [block [(.margin .left, .unit ⟨.len .pt, .fin x⟩)] []]

theorem instead_margin {R : LKind → Num → Val → Prop} {v w : Val} (h : Instead R v w) :
    DocRel (fun _ => Instead R) (block [] [block [(.margin .left, v)] []]) (block [] [block [(.margin .left, w)] []]) := by
  refine .mk (fun p _ => Or.inl rfl) rfl ?_
  intro x hx
  simp only [List.zip_cons_cons, List.zip_nil_right, List.mem_cons, List.not_mem_nil, or_false] at hx
  subst hx
  refine .mk (fun p _ => ?_) rfl (by simp)
  by_cases e : p = .margin .left
  · subst e; exact h
  · left
    cases p with
    | margin s => cases s <;> first | rfl | exact absurd rfl e
    | _ => rfl

example : DocRel (fun _ => Instead EmAsPoints) emDoc (pointDoc (.int (-72))) :=
  instead_margin (Or.inr ⟨.em, .int 72, by simp, rfl, rfl, rfl⟩)

/-- 72em is a margin of minus 96 pixels at 96 dpi. -/
example : (laidBox .b64 screen96 emDoc [0]).map (·.margin.left) = some (.num (.int (-96))) ∧
    laidBox .b64 screen96 emDoc [0] = laidBox .b64 screen96 (pointDoc (.int (-72))) [0] := by constructor <;> decide +kernel

example : DocRel (fun _ => Instead FontAsPoints) exDoc (pointDoc (.flt (-(65 / 100) * (Num.int 100).val))) :=
  instead_margin (Or.inr ⟨.ex, .int 100, by simp, rfl, Or.inl ⟨rfl, rfl⟩⟩)

example : (laidBox .exact screen96 exDoc [0]).map (·.margin.left) = some (.num (.flt (-5547 / 64))) := by decide +kernel

/-- CSS prescribes minus 96 pixels for 72em with this font at 96 dpi. -/
example : CssPixels ⟨screen96, minusFont, none⟩ .em (Num.int 72).val (-96) := by
  have := CssPixels.points (c := ⟨screen96, minusFont, none⟩) .em (Num.int 72).val _ rfl
  convert this using 1
  norm_num [Num.val, screen96, minusFont]

end Colosseum
