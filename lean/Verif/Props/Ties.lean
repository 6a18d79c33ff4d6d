import Verif.Props.Ieee

/-!
# C105: numbers halfway between two floats

A number that is equally far from two floats is rounded to the one whose last bit is 0.
-/

namespace Colosseum

/-- Multiples of the last bit are not nearer than the rounded number. -/
theorem rounded_nearest (q : Rat) (e m : Int) : |(pyRound (q * 2 ^ (-e)) : Rat) * 2 ^ e - q| ≤ |(m : Rat) * 2 ^ e - q| := by
  have hp := zpow_two_pos e
  have e1 : q = q * 2 ^ (-e) * 2 ^ e := by rw [mul_assoc, ← zpow_add₀ (by norm_num)]; simp
  have e2 : ∀ z : Rat, |z * 2 ^ e - q| = |z - q * 2 ^ (-e)| * 2 ^ e := by
    intro z
    conv_lhs => rw [e1]
    rw [← sub_mul, abs_mul, abs_of_pos hp]
  rw [e2, e2]
  refine mul_le_mul_of_nonneg_right ?_ hp.le
  obtain ⟨a, b, _⟩ := pyRound_spec (q * 2 ^ (-e))
  generalize q * 2 ^ (-e) = x at *
  by_cases hm : m = pyRound x
  · rw [hm]
  · have d : 1 ≤ |m - pyRound x| := Int.one_le_abs (sub_ne_zero.2 hm)
    have d : (1 : Rat) ≤ |(m : Rat) - pyRound x| := by exact_mod_cast d
    have t := abs_sub_le (m : Rat) x (pyRound x : Rat)
    have u : |(pyRound x : Rat) - x| ≤ 1 / 2 := by rw [abs_le]; constructor <;> linarith
    have w : |x - (pyRound x : Rat)| = |(pyRound x : Rat) - x| := abs_sub_comm _ _
    linarith

/-- Another multiple of the last bit as near as the rounded number: the two are one bit apart, and the rounded one is even. -/
theorem rounded_tie (q : Rat) (e m : Int) (hm : m ≠ pyRound (q * 2 ^ (-e)))
    (h : |(m : Rat) * 2 ^ e - q| = |(pyRound (q * 2 ^ (-e)) : Rat) * 2 ^ e - q|) :
    Even (pyRound (q * 2 ^ (-e))) ∧ (m = pyRound (q * 2 ^ (-e)) + 1 ∨ m = pyRound (q * 2 ^ (-e)) - 1) := by
  have hp := zpow_two_pos e
  have e1 : q = q * 2 ^ (-e) * 2 ^ e := by rw [mul_assoc, ← zpow_add₀ (by norm_num)]; simp
  have e2 : ∀ z : Rat, |z * 2 ^ e - q| = |z - q * 2 ^ (-e)| * 2 ^ e := by
    intro z
    conv_lhs => rw [e1]
    rw [← sub_mul, abs_mul, abs_of_pos hp]
  rw [e2, e2] at h
  have h := mul_right_cancel₀ hp.ne' h
  obtain ⟨a, b, c⟩ := pyRound_spec (q * 2 ^ (-e))
  generalize q * 2 ^ (-e) = x at *
  generalize pyRound x = r at *
  rcases lt_or_gt_of_ne hm with hlt | hlt
  · have d : (m : Rat) ≤ r - 1 := by exact_mod_cast Int.le_sub_one_of_lt hlt
    have hmx : (m : Rat) ≤ x := by linarith
    rw [abs_of_nonpos (by linarith)] at h
    rcases abs_cases ((r : Rat) - x) with ⟨u, _⟩ | ⟨u, _⟩ <;> rw [u] at h
    · have hr : (r : Rat) - x = 1 / 2 := by linarith
      have hm' : (m : Rat) = ((r - 1 : Int) : Rat) := by push_cast; linarith
      refine ⟨Int.even_iff.2 (c (Or.inl (by linarith))), Or.inr (by exact_mod_cast hm')⟩
    · exfalso; linarith
  · have d : (r : Rat) + 1 ≤ m := by exact_mod_cast hlt
    have hmx : x ≤ (m : Rat) := by linarith
    rw [abs_of_nonneg (by linarith)] at h
    rcases abs_cases ((r : Rat) - x) with ⟨u, _⟩ | ⟨u, _⟩ <;> rw [u] at h
    · exfalso; linarith
    · have hr : (r : Rat) - x = -(1 / 2) := by linarith
      have hm' : (m : Rat) = ((r + 1 : Int) : Rat) := by push_cast; linarith
      refine ⟨Int.even_iff.2 (c (Or.inr (by linarith))), Or.inl (by exact_mod_cast hm')⟩

/-- The numbers of 53 bits, with any exponent. -/
def IsFloat (y : Rat) : Prop := ∃ n k : Int, n.natAbs < 2 ^ 53 ∧ y = (n : Rat) * 2 ^ k

theorem isFloat_of {n k : Int} (hn : n.natAbs ≤ 2 ^ 53) : IsFloat ((n : Rat) * 2 ^ k) := by
  by_cases h : n.natAbs < 2 ^ 53
  · exact ⟨n, k, h, rfl⟩
  · refine ⟨n / 2, k + 1, by omega, ?_⟩
    have e : n = 2 * (n / 2) := by omega
    rw [zpow_add₀ (by norm_num), zpow_one]
    conv_lhs => rw [e]
    push_cast
    ring

/-- A number of lower exponent is farther away than the power of two below `q`. -/
theorem lower_farther {q : Rat} (hq : q ≠ 0) (n k : Int) (hn : n.natAbs < 2 ^ 53) (hk : k < Int.log 2 |q| - 52) :
    |(pyRound (q * 2 ^ (-(Int.log 2 |q| - 52))) : Rat) * 2 ^ (Int.log 2 |q| - 52) - q| < |(n : Rat) * 2 ^ k - q| := by
  obtain ⟨l1, _⟩ := log_bounds hq
  generalize Int.log 2 |q| = l at *
  have hlt : |(n : Rat) * 2 ^ k| < 2 ^ l := by
    rw [abs_mul, abs_of_pos (zpow_two_pos k)]
    have h1 : |(n : Rat)| < 2 ^ (53 : Int) := by
      have : (n.natAbs : Rat) < 2 ^ 53 := by exact_mod_cast hn
      rw [Nat.cast_natAbs, Int.cast_abs] at this
      exact_mod_cast this
    calc |(n : Rat)| * 2 ^ k < 2 ^ (53 : Int) * 2 ^ k := mul_lt_mul_of_pos_right h1 (zpow_two_pos k)
      _ = 2 ^ (53 + k) := by rw [← zpow_add₀ (by norm_num)]
      _ ≤ 2 ^ l := zpow_le_of_log (by omega)
  have e52 : (2 : Rat) ^ l = ((2 ^ 52 : Int) : Rat) * 2 ^ (l - 52) := by
    rw [zpow_sub₀ (by norm_num)]; push_cast; norm_num; ring
  obtain ⟨y1, y2⟩ := abs_lt.1 hlt
  rcases lt_or_gt_of_ne hq with h0 | h0
  · have := rounded_nearest q (l - 52) (-2 ^ 52)
    have e : ((-2 ^ 52 : Int) : Rat) * 2 ^ (l - 52) = -2 ^ l := by rw [e52]; push_cast; ring
    rw [e] at this
    rw [abs_of_neg h0] at l1
    generalize (2 : Rat) ^ l = P at *
    generalize (n : Rat) * 2 ^ k = Y at *
    refine lt_of_le_of_lt this ?_
    rw [abs_of_nonneg (by linarith), abs_of_nonneg (by linarith)]
    linarith
  · have := rounded_nearest q (l - 52) (2 ^ 52)
    rw [← e52] at this
    rw [abs_of_pos h0] at l1
    generalize (2 : Rat) ^ l = P at *
    generalize (n : Rat) * 2 ^ k = Y at *
    refine lt_of_le_of_lt this ?_
    rw [abs_of_nonpos (by linarith), abs_of_nonpos (by linarith)]
    linarith

/-- **C105, the arithmetic.** If another double is as near to `q`, the rounded number is an even multiple of their distance: its
last bit is 0. -/
theorem C105_ties (q y : Rat) (hy : IsDouble y) (hne : y ≠ Ieee.rnd q) (h : |y - q| = |Ieee.rnd q - q|) :
    ∃ m : Int, Ieee.rnd q = (2 * m : Int) * (y - Ieee.rnd q) := by
  by_cases hq : q = 0
  · subst hq
    rw [Ieee.rnd_zero, sub_zero, sub_zero, abs_zero, abs_eq_zero] at h
    exact absurd (h.trans Ieee.rnd_zero.symm) hne
  obtain ⟨n, k, hn, hk, rfl⟩ := hy
  have er : Ieee.rnd q = (pyRound (q * 2 ^ (-max (Int.log 2 |q| - 52) (-1074))) : Rat) * 2 ^ max (Int.log 2 |q| - 52) (-1074) := by
    simp only [Ieee.rnd, hq, if_false]
  by_cases hk' : max (Int.log 2 |q| - 52) (-1074) ≤ k
  · obtain ⟨j, hj⟩ := Int.le.dest hk'
    have ey : (n : Rat) * 2 ^ k = ((n * 2 ^ j : Int) : Rat) * 2 ^ max (Int.log 2 |q| - 52) (-1074) := by
      rw [← hj, zpow_add₀ (by norm_num)]
      push_cast
      rw [zpow_natCast]
      ring
    rw [ey] at hne h ⊢
    rw [er] at hne h ⊢
    generalize n * 2 ^ j = m at *
    generalize max (Int.log 2 |q| - 52) (-1074) = e at *
    obtain ⟨⟨s, hs⟩, hm⟩ := rounded_tie q e m (fun u => hne (by rw [u])) h
    rcases hm with hm | hm <;> rw [hm] <;> generalize pyRound (q * 2 ^ (-e)) = r at *
    · refine ⟨s, ?_⟩
      rw [show 2 * s = r by omega]; push_cast; ring
    · refine ⟨-s, ?_⟩
      rw [show 2 * -s = -r by omega]; push_cast; ring
  · exfalso
    have hmax : max (Int.log 2 |q| - 52) (-1074) = Int.log 2 |q| - 52 := by omega
    rw [hmax] at hk' er
    rw [er] at h
    exact (lower_farther hq n k hn (by omega)).ne h.symm

/-- **C105, the arithmetic.** These three facts determine the rounded number: a double, none nearer, and its last bit is 0 if another
is as near. -/
theorem C105_rounding (q r : Rat) : Ieee.rnd q = r ↔ IsDouble r ∧ (∀ y, IsDouble y → |r - q| ≤ |y - q|) ∧
    ∀ y, IsDouble y → y ≠ r → |y - q| = |r - q| → ∃ m : Int, r = (2 * m : Int) * (y - r) := by
  constructor
  · rintro rfl
    exact ⟨(C105_nearest q).1, (C105_nearest q).2, fun y hy hne h => C105_ties q y hy hne h⟩
  rintro ⟨h1, h2, h3⟩
  by_contra hne
  have e : |Ieee.rnd q - q| = |r - q| := le_antisymm ((C105_nearest q).2 r h1) (h2 _ (C105_nearest q).1)
  obtain ⟨m, hm⟩ := h3 _ (C105_nearest q).1 hne e
  obtain ⟨m', hm'⟩ := C105_ties q r h1 (fun u => hne u.symm) e.symm
  generalize Ieee.rnd q = s at *
  have d : r - s ≠ 0 := sub_ne_zero.2 fun u => hne u.symm
  have : ((-(2 * m) - 2 * m' : Int) : Rat) * (r - s) = 1 * (r - s) := by push_cast at hm hm' ⊢; linarith
  have := mul_right_cancel₀ d this
  have : -(2 * m) - 2 * m' = 1 := by exact_mod_cast this
  omega

/-- If another number of 53 bits is as near to `q`, the rounded number is an even multiple of their distance: its
last bit is 0. -/
theorem float_ties (q y : Rat) (hy : IsFloat y) (hne : y ≠ FP.b64.rnd q) (h : |y - q| = |FP.b64.rnd q - q|) :
    ∃ m : Int, FP.b64.rnd q = (2 * m : Int) * (y - FP.b64.rnd q) := by
  by_cases hq : q = 0
  · subst hq
    have z : FP.b64.rnd 0 = 0 := round53_zero
    rw [z, sub_zero, sub_zero, abs_zero, abs_eq_zero] at h
    exact absurd (h.trans z.symm) hne
  obtain ⟨n, k, hn, rfl⟩ := hy
  have er : FP.b64.rnd q = (pyRound (q * 2 ^ (-(Int.log 2 |q| - 52))) : Rat) * 2 ^ (Int.log 2 |q| - 52) := by
    simp only [FP.b64, round53, hq, if_false, neg_sub]
  by_cases hk' : (Int.log 2 |q| - 52) ≤ k
  · obtain ⟨j, hj⟩ := Int.le.dest hk'
    have ey : (n : Rat) * 2 ^ k = ((n * 2 ^ j : Int) : Rat) * 2 ^ (Int.log 2 |q| - 52) := by
      rw [← hj, zpow_add₀ (by norm_num)]
      push_cast
      rw [zpow_natCast]
      ring
    rw [ey] at hne h ⊢
    rw [er] at hne h ⊢
    generalize n * 2 ^ j = m at *
    generalize (Int.log 2 |q| - 52) = e at *
    obtain ⟨⟨s, hs⟩, hm⟩ := rounded_tie q e m (fun u => hne (by rw [u])) h
    rcases hm with hm | hm <;> rw [hm] <;> generalize pyRound (q * 2 ^ (-e)) = r at *
    · refine ⟨s, ?_⟩
      rw [show 2 * s = r by omega]; push_cast; ring
    · refine ⟨-s, ?_⟩
      rw [show 2 * -s = -r by omega]; push_cast; ring
  · exfalso
    rw [er] at h
    exact (lower_farther hq n k hn (by omega)).ne h.symm

/-- No number of 53 bits is nearer than the rounded one. -/
theorem float_nearest (q : Rat) : IsFloat (FP.b64.rnd q) ∧ ∀ y, IsFloat y → |FP.b64.rnd q - q| ≤ |y - q| := by
  refine ⟨?_, ?_⟩
  · obtain ⟨n, k, hn, e⟩ := round53_form q
    exact (show FP.b64.rnd q = _ from e) ▸ isFloat_of hn
  rintro y ⟨n, k, hn, rfl⟩
  by_cases hq : q = 0
  · rw [hq, show FP.b64.rnd 0 = 0 from round53_zero, sub_zero, abs_zero]; exact abs_nonneg _
  have er : FP.b64.rnd q = (pyRound (q * 2 ^ (-(Int.log 2 |q| - 52))) : Rat) * 2 ^ (Int.log 2 |q| - 52) := by
    simp only [FP.b64, round53, hq, if_false, neg_sub]
  rw [er]
  by_cases hk' : Int.log 2 |q| - 52 ≤ k
  · obtain ⟨j, hj⟩ := Int.le.dest hk'
    have ey : (n : Rat) * 2 ^ k = ((n * 2 ^ j : Int) : Rat) * 2 ^ (Int.log 2 |q| - 52) := by
      rw [← hj, zpow_add₀ (by norm_num)]
      push_cast
      rw [zpow_natCast]
      ring
    rw [ey]
    exact rounded_nearest _ _ _
  · exact (lower_farther hq n k hn (by omega)).le

/-- **C105, without limits of the exponent.** The arithmetic of all other theorems on floats rounds to the nearest number of 53 bits,
and to the even one of two. -/
theorem C105_unlimited (q r : Rat) : FP.b64.rnd q = r ↔ IsFloat r ∧ (∀ y, IsFloat y → |r - q| ≤ |y - q|) ∧
    ∀ y, IsFloat y → y ≠ r → |y - q| = |r - q| → ∃ m : Int, r = (2 * m : Int) * (y - r) := by
  constructor
  · rintro rfl
    exact ⟨(float_nearest q).1, (float_nearest q).2, fun y hy hne h => float_ties q y hy hne h⟩
  rintro ⟨h1, h2, h3⟩
  by_contra hne
  have e : |FP.b64.rnd q - q| = |r - q| := le_antisymm ((float_nearest q).2 r h1) (h2 _ (float_nearest q).1)
  obtain ⟨m, hm⟩ := h3 _ (float_nearest q).1 hne e
  obtain ⟨m', hm'⟩ := float_ties q r h1 (fun u => hne u.symm) e.symm
  generalize FP.b64.rnd q = s at *
  have d : r - s ≠ 0 := sub_ne_zero.2 fun u => hne u.symm
  have : ((-(2 * m) - 2 * m' : Int) : Rat) * (r - s) = 1 * (r - s) := by push_cast at hm hm' ⊢; linarith
  have := mul_right_cancel₀ d this
  have : -(2 * m) - 2 * m' = 1 := by exact_mod_cast this
  omega

/-- 0.1 as Python reads it, and no other number, is the nearest of 53 bits. -/
example : IsFloat (3602879701896397 / 36028797018963968) ∧
    ∀ y, IsFloat y → |(3602879701896397 / 36028797018963968 : Rat) - 1 / 10| ≤ |y - 1 / 10| :=
  have h := (C105_unlimited (1 / 10) (3602879701896397 / 36028797018963968)).1 (by decide +kernel)
  ⟨h.1, h.2.1⟩

example : IsDouble (3602879701896397 / 36028797018963968) ∧
    ∀ y, IsDouble y → |(3602879701896397 / 36028797018963968 : Rat) - 1 / 10| ≤ |y - 1 / 10| :=
  have h := (C105_rounding (1 / 10) (3602879701896397 / 36028797018963968)).1 (by decide +kernel)
  ⟨h.1, h.2.1⟩

/-- `2^53 + 1` and `2^53 + 3` are halfway between doubles: the one is rounded down to `2^53`, the other up to `2^53 + 4`. -/
example : (∃ m : Int, Ieee.rnd (2 ^ 53 + 1) = (2 * m : Int) * ((2 ^ 53 + 2) - Ieee.rnd (2 ^ 53 + 1))) ∧
    (∃ m : Int, Ieee.rnd (2 ^ 53 + 3) = (2 * m : Int) * ((2 ^ 53 + 2) - Ieee.rnd (2 ^ 53 + 3))) ∧
    Ieee.rnd (2 ^ 53 + 1) = 2 ^ 53 ∧ Ieee.rnd (2 ^ 53 + 3) = 2 ^ 53 + 4 := by
  have hy : IsDouble (2 ^ 53 + 2) := ⟨2 ^ 52 + 1, 1, by decide, by decide, by norm_num⟩
  have e1 : Ieee.rnd (2 ^ 53 + 1) = 2 ^ 53 := by decide +kernel
  have e2 : Ieee.rnd (2 ^ 53 + 3) = 2 ^ 53 + 4 := by decide +kernel
  refine ⟨C105_ties _ _ hy (by rw [e1]; norm_num) ?_, C105_ties _ _ hy (by rw [e2]; norm_num) ?_, e1, e2⟩
  · rw [e1]; norm_num
  · rw [e2]; norm_num

end Colosseum
