import Verif.Props.Pixels

/-!
# C07: the ratios of the physical units with rounding

With rounding the two sides of `1in = 72pt` can fall on different sides of a tie (`C07_false_ratio_b64`), but never more than one layout unit apart.
-/

namespace Colosseum

theorem Approx.bound7 {n : Nat} (hn : n ≤ 7) {x y : Rat} (h : Approx n x y) : |x - y| ≤ |y| * (8 * ulp) := by
  refine le_trans (h.le hn) (mul_le_mul_of_nonneg_left ?_ (abs_nonneg y))
  norm_num [ulp]

/-- The same length written in two units. -/
theorem scaled_near {fp : FP} (S : fp.Sharp) {a b f g d : Num} {q r : Rat} (hb : Approx 1 b.val (r * a.val)) (hf : Approx 1 f.val (r * q)) (hg : Approx 1 g.val q)
    (hs : |a.val * (r * q) / 72 * d.val| ≤ 2 ^ 40) {l m : Int} (hl : luScaled fp (.fin a) f d = .ok l) (hm : luScaled fp (.fin b) g d = .ok m) :
    |(pxOfLu fp l).val - (pxOfLu fp m).val| ≤ 1 / 64 := by
  rw [luScaled_fin S.toLaws] at hl hm
  cases hl
  cases hm
  have A := (((((Approx.refl a.val).const_mul 64).rnd S).mul (div72_approx S f 1 _ hf)).rnd S).mul (toFloat_approx S.toLaws d) |>.rnd S
  have B := ((((hb.const_mul 64).rnd S).mul (div72_approx S g 1 _ hg)).rnd S).mul (toFloat_approx S.toLaws d) |>.rnd S
  rw [pxOfLu_val, pxOfLu_val, S.toLaws.div_64, S.toLaws.div_64, near_round S.toLaws, near_round S.toLaws]
  have A := A.bound7 (by omega)
  have B := B.bound7 (by omega)
  rw [show 64 * (r * a.val) * (q / 72) * d.val = 64 * a.val * (r * q / 72) * d.val by ring] at B
  have hy : |64 * a.val * (r * q / 72) * d.val| ≤ 2 ^ 46 := by
    rw [show 64 * a.val * (r * q / 72) * d.val = 64 * (a.val * (r * q) / 72 * d.val) by ring, abs_mul]
    have : |(64 : Rat)| = 64 := by norm_num
    rw [this]
    linarith
  have hu : |64 * a.val * (r * q / 72) * d.val| * (8 * ulp) < 1 / 2 := by
    refine lt_of_le_of_lt (mul_le_mul_of_nonneg_right hy (by norm_num [ulp])) (by norm_num [ulp])
  obtain ⟨a1, a2, _⟩ := pyRound_spec (fp.rnd (fp.rnd (fp.rnd (64 * a.val) * (f.div fp (.int 72)).val) * d.toFloat fp))
  obtain ⟨b1, b2, _⟩ := pyRound_spec (fp.rnd (fp.rnd (fp.rnd (64 * b.val) * (g.div fp (.int 72)).val) * d.toFloat fp))
  generalize fp.rnd (fp.rnd (fp.rnd (64 * a.val) * (f.div fp (.int 72)).val) * d.toFloat fp) = x at *
  generalize fp.rnd (fp.rnd (fp.rnd (64 * b.val) * (g.div fp (.int 72)).val) * d.toFloat fp) = x' at *
  generalize |64 * a.val * (r * q / 72) * d.val| * (8 * ulp) = e at *
  generalize 64 * a.val * (r * q / 72) * d.val = y at *
  rw [_root_.abs_le] at A B
  have h1 : ((pyRound x - pyRound x' : Int) : Rat) < ((2 : Int) : Rat) := by push_cast; linarith
  have h2 : ((-2 : Int) : Rat) < ((pyRound x - pyRound x' : Int) : Rat) := by push_cast; linarith
  have h1 := Int.cast_lt.1 h1
  have h2 := Int.cast_lt.1 h2
  have h3 : ((pyRound x - pyRound x' : Int) : Rat) ≤ ((1 : Int) : Rat) := Int.cast_le.2 (by omega)
  have h4 : ((-1 : Int) : Rat) ≤ ((pyRound x - pyRound x' : Int) : Rat) := Int.cast_le.2 (by omega)
  push_cast at h3 h4
  rw [_root_.abs_le]
  constructor <;> linarith

theorem mul_int_approx {fp : FP} (S : fp.Sharp) (i : Int) (hi : i.natAbs ≤ 2 ^ 53) (v : Num) :
    ∃ w, (PyNum.fin (.int i)).mul fp (.fin v) = .fin w ∧ Approx 1 w.val (i * v.val) := by
  rcases v with j | q
  · exact ⟨.int (i * j), rfl, by simpa using (Approx.refl _).le (by omega)⟩
  · refine ⟨_, rfl, ?_⟩
    have : ((Num.int i).mul fp (.flt q)).val = fp.rnd (i * q) := by
      simp only [Num.mul, Num.toFloat, Num.val, S.small i hi]
    rw [this]
    exact (Approx.refl _).rnd S

/-- **C07** with rounding, for lengths up to 2^40 pixels: an inch and 72 points or 6 picas, and a centimetre and 10 millimetres, come to the same number of
pixels or to two neighbours on the grid of 1/64 pixels. -/
theorem C07_ratios_rounded (fp : FP) (S : fp.Sharp) (v : Num) (c : PxCtx) (h : |v.val * c.display.dpi.val| ≤ 2 ^ 40) :
    ∃ inch pt pc cm mm : Num, pxOf fp .inch (.fin v) c = .ok inch ∧ pxOf fp .pt ((PyNum.fin (.int 72)).mul fp (.fin v)) c = .ok pt ∧
      pxOf fp .pc ((PyNum.fin (.int 6)).mul fp (.fin v)) c = .ok pc ∧ pxOf fp .cm (.fin v) c = .ok cm ∧
      pxOf fp .mm ((PyNum.fin (.int 10)).mul fp (.fin v)) c = .ok mm ∧
      |inch.val - pt.val| ≤ 1 / 64 ∧ |inch.val - pc.val| ≤ 1 / 64 ∧ |cm.val - mm.val| ≤ 1 / 64 := by
  obtain ⟨a, ea, va⟩ := mul_int_approx S 72 (by norm_num) v
  obtain ⟨b, eb, vb⟩ := mul_int_approx S 6 (by norm_num) v
  obtain ⟨e, ee, ve⟩ := mul_int_approx S 10 (by norm_num) v
  rw [ea, eb, ee]
  have sc : ∀ w f, ∃ l, luScaled fp (.fin w) f c.display.dpi = .ok l := fun w f => ⟨_, rfl⟩
  obtain ⟨l1, h1⟩ := sc v (.int 72)
  obtain ⟨l2, h2⟩ := sc a (.int 1)
  obtain ⟨l3, h3⟩ := sc b (.int 12)
  obtain ⟨l4, h4⟩ := sc v (.flt (fp.rnd (283465 / 10000)))
  obtain ⟨l5, h5⟩ := sc e (.flt (fp.rnd (283465 / 100000)))
  have pos : (0 : Rat) ≤ |v.val * c.display.dpi.val| := abs_nonneg _
  refine ⟨_, _, _, _, _, by simp only [pxOf, luOf, h1]; rfl, by simp only [pxOf, luOf, h2]; rfl, by simp only [pxOf, luOf, h3]; rfl,
    by simp only [pxOf, luOf, h4]; rfl, by simp only [pxOf, luOf, h5]; rfl, ?_, ?_, ?_⟩
  · refine scaled_near S (q := 1) (r := 72) (by simpa using va) ?_ ?_ ?_ h1 h2
    · simpa using (Approx.refl (72 : Rat)).le (m := 1) (by omega)
    · simpa using (Approx.refl (1 : Rat)).le (m := 1) (by omega)
    · rw [show v.val * (72 * 1) / 72 * c.display.dpi.val = v.val * c.display.dpi.val by ring]; exact h
  · refine scaled_near S (q := 12) (r := 6) (by simpa using vb) ?_ ?_ ?_ h1 h3
    · have := (Approx.refl (72 : Rat)).le (m := 1) (by omega)
      norm_num [Num.val]; exact this
    · simpa using (Approx.refl (12 : Rat)).le (m := 1) (by omega)
    · rw [show v.val * (6 * 12) / 72 * c.display.dpi.val = v.val * c.display.dpi.val by ring]; exact h
  · have hcm : Approx 1 (fp.rnd (283465 / 10000)) (283465 / 10000) := (Approx.refl _).rnd S
    have hmm : Approx 1 (fp.rnd (283465 / 100000)) (283465 / 100000) := (Approx.refl _).rnd S
    have e10 : (10 : Rat) * (283465 / 100000) = 283465 / 10000 := by norm_num
    refine scaled_near S (f := .flt (fp.rnd (283465 / 10000))) (g := .flt (fp.rnd (283465 / 100000))) (q := 283465 / 100000) (r := 10)
      (by simpa using ve) (by rw [e10]; exact hcm) hmm ?_ h4 h5
    · rw [show v.val * (10 * (283465 / 100000)) / 72 * c.display.dpi.val = v.val * c.display.dpi.val * (283465 / 720000) by ring, abs_mul]
      rw [show |(283465 / 720000 : Rat)| = 283465 / 720000 by norm_num [abs_of_pos]]
      nlinarith

/-- One layout unit is reached: the case of `C07_false_ratio_b64` is within the bound and the two values are neighbours. -/
example :
    let c : PxCtx := ⟨⟨.int 25, .int 1024, .int 768, .int 1, .int 3, .int 5⟩, sampleCtx.font, none⟩
    let v := FP.b64.rnd (7059375 / 10000000)
    |v * c.display.dpi.val| ≤ 2 ^ 40 ∧
    ∃ a b, pxOf .b64 .inch (.fin (.flt v)) c = .ok a ∧ pxOf .b64 .pc ((PyNum.fin (.int 6)).mul .b64 (.fin (.flt v))) c = .ok b ∧ |a.val - b.val| = 1 / 64 :=
  ⟨by decide +kernel, .flt (1130 / 64), .flt (1129 / 64), by decide +kernel, by decide +kernel, by decide +kernel⟩

end Colosseum
