import Verif.Py.Float64

/-!
# Rounding with subnormal numbers

`FP.ieee` is rounding to binary64 with its smallest exponent but without a largest one: below `2^-1022` there are
fewer than 53 bits.  `ieee_laws` shows that it satisfies the laws, so every theorem with the hypothesis `fp.Laws`
is one about subnormal numbers too.
-/

namespace Colosseum

/-- Rounding to a binary64 number, ties to even, before the check for overflow: 53 bits, but no bit below
`2^-1074` (the arithmetic of `/repo/src/colosseum/units.py:55-62,100-153` is on Python floats). -/
def Ieee.rnd (q : Rat) : Rat :=
  if q = 0 then 0
  else
    let e := max (Int.log 2 |q| - 52) (-1074)
    (pyRound (q * 2 ^ (-e)) : Rat) * 2 ^ e

/-- Arithmetic with subnormal numbers. -/
def FP.ieee : FP := ⟨Ieee.rnd⟩

/-- Away from the limits rounding is rounding to 53 bits. -/
theorem Ieee.rnd_eq {q : Rat} (h : q = 0 ∨ (2 : Rat) ^ (-1022 : Int) ≤ |q|) : Ieee.rnd q = round53 q := by
  by_cases hq : q = 0
  · simp [Ieee.rnd, round53, hq]
  have h := h.resolve_left hq
  have hl : -1022 ≤ Int.log 2 |q| := by
    have l := (log_bounds hq).2
    have : (2 : Rat) ^ (-1022 : Int) < 2 ^ (Int.log 2 |q| + 1) := lt_of_le_of_lt h l
    have := (zpow_lt_zpow_iff_right₀ (by norm_num)).1 this
    omega
  simp only [Ieee.rnd, round53, hq, if_false]
  rw [max_eq_left (by omega), neg_sub]

/-- A binary64 number, up to the check for overflow. -/
theorem Ieee.rnd_fix (n : Int) (k : Int) (h : n.natAbs ≤ 2 ^ 53) (hk : -1074 ≤ k) :
    Ieee.rnd ((n : Rat) * 2 ^ k) = (n : Rat) * 2 ^ k := by
  by_cases hq : (n : Rat) * 2 ^ k = 0
  · rw [hq]; simp [Ieee.rnd]
  by_cases hm : -1074 ≤ Int.log 2 |(n : Rat) * 2 ^ k| - 52
  · have := round53_fix n k h
    refine Eq.trans ?_ this
    simp only [Ieee.rnd, round53, hq, if_false, max_eq_left hm, neg_sub]
  · simp only [Ieee.rnd, hq, if_false]
    rw [max_eq_right (by omega)]
    obtain ⟨j, hj⟩ := Int.le.dest hk
    have e : (n : Rat) * 2 ^ k * 2 ^ (-(-1074) : Int) = ((n * 2 ^ j : Int) : Rat) := by
      rw [mul_assoc, ← zpow_add₀ (by norm_num), show k + -(-1074) = (j : Int) by omega]
      push_cast
      rw [zpow_natCast]
    rw [e, pyRound_int, ← e, mul_assoc, ← zpow_add₀ (by norm_num)]
    simp

theorem Ieee.rnd_neg (q : Rat) : Ieee.rnd (-q) = -Ieee.rnd q := by
  unfold Ieee.rnd
  by_cases h : q = 0
  · simp [h]
  · simp only [neg_eq_zero, h, if_false, abs_neg, neg_mul, pyRound_neg]
    push_cast
    ring

/-- The form of a binary64 number. -/
theorem Ieee.rnd_form (q : Rat) : ∃ n k : Int, n.natAbs ≤ 2 ^ 53 ∧ -1074 ≤ k ∧ Ieee.rnd q = (n : Rat) * 2 ^ k := by
  by_cases h : q = 0
  · exact ⟨0, 0, by simp, by norm_num, by simp [h, Ieee.rnd]⟩
  by_cases hm : -1074 ≤ Int.log 2 |q| - 52
  · obtain ⟨l1, l2⟩ := log_bounds h
    have er : Ieee.rnd q = (pyRound (q * 2 ^ (52 - Int.log 2 |q|)) : Rat) * 2 ^ (Int.log 2 |q| - 52) := by
      simp only [Ieee.rnd, h, if_false, max_eq_left hm, neg_sub]
    refine ⟨_, _, ?_, hm, er⟩
    clear er
    generalize Int.log 2 |q| = e at *
    have hb : |q * 2 ^ (52 - e)| ≤ (((2 ^ 53 : Int)) : Rat) := by
      rw [abs_mul, abs_of_pos (zpow_two_pos _)]
      have : (((2 ^ 53 : Int)) : Rat) = 2 ^ (e + 1) * 2 ^ (52 - e) := by
        rw [← zpow_add₀ (by norm_num), show e + 1 + (52 - e) = 53 by ring]; norm_num
      rw [this]
      exact mul_le_mul_of_nonneg_right l2.le (zpow_two_pos _).le
    obtain ⟨b1, b2⟩ := abs_le.1 hb
    have u := pyRound_mono b2
    have l := pyRound_mono b1
    rw [← Int.cast_neg, pyRound_int] at l
    rw [pyRound_int] at u
    norm_num at u l
    omega
  · refine ⟨pyRound (q * 2 ^ (-(-1074) : Int)), -1074, ?_, le_refl _, by
      simp only [Ieee.rnd, h, if_false]; rw [max_eq_right (by omega)]⟩
    obtain ⟨_, l2⟩ := log_bounds h
    have hb : |q * 2 ^ (-(-1074) : Int)| ≤ (((2 ^ 53 : Int)) : Rat) := by
      rw [abs_mul, abs_of_pos (zpow_two_pos _)]
      have e1 : |q| ≤ 2 ^ (-1021 : Int) := le_trans l2.le (zpow_le_of_log (by omega))
      have : (((2 ^ 53 : Int)) : Rat) = 2 ^ (-1021 : Int) * 2 ^ (-(-1074) : Int) := by
        rw [← zpow_add₀ (by norm_num)]; norm_num
      rw [this]
      exact mul_le_mul_of_nonneg_right e1 (zpow_two_pos _).le
    obtain ⟨b1, b2⟩ := abs_le.1 hb
    have u := pyRound_mono b2
    have l := pyRound_mono b1
    rw [← Int.cast_neg, pyRound_int] at l
    rw [pyRound_int] at u
    norm_num at u l ⊢
    omega

theorem Ieee.rnd_zero : Ieee.rnd 0 = 0 := by simp [Ieee.rnd]

/-- Small numbers are rounded to multiples of `2^-1074`. -/
theorem Ieee.rnd_small {q : Rat} (h : |q| < 2 ^ (-1021 : Int)) :
    Ieee.rnd q = (pyRound (q * 2 ^ (1074 : Int)) : Rat) * 2 ^ (-1074 : Int) := by
  by_cases hq : q = 0
  · have : pyRound 0 = 0 := by have := pyRound_int 0; simpa using this
    simp [hq, Ieee.rnd, this]
  have l := (log_bounds hq).1
  have : Int.log 2 |q| < -1021 := (zpow_lt_zpow_iff_right₀ (by norm_num)).1 (lt_of_le_of_lt l h)
  simp only [Ieee.rnd, hq, if_false]
  rw [max_eq_right (by omega)]
  rfl

theorem Ieee.rnd_nonneg {q : Rat} (h : 0 ≤ q) : 0 ≤ Ieee.rnd q := by
  unfold Ieee.rnd
  split
  · exact le_refl _
  · refine mul_nonneg ?_ (zpow_two_pos _).le
    have := pyRound_mono (mul_nonneg h (zpow_two_pos (-max (Int.log 2 |q| - 52) (-1074))).le)
    have z : pyRound 0 = 0 := by have := pyRound_int 0; simpa using this
    rw [z] at this
    exact_mod_cast this

theorem Ieee.rnd_mono_nonneg {a b : Rat} (ha : 0 ≤ a) (h : a ≤ b) : Ieee.rnd a ≤ Ieee.rnd b := by
  have hb : 0 ≤ b := le_trans ha h
  have small : ∀ {c d : Rat}, 0 ≤ c → c ≤ d → d < 2 ^ (-1021 : Int) → Ieee.rnd c ≤ Ieee.rnd d := by
    intro c d hc hcd hd
    rw [Ieee.rnd_small (by rw [abs_of_nonneg hc]; exact lt_of_le_of_lt hcd hd), Ieee.rnd_small (by rw [abs_of_nonneg (le_trans hc hcd)]; exact hd)]
    have e3 := zpow_two_pos (-1074)
    have e4 := zpow_two_pos 1074
    generalize (2 : Rat) ^ (-1074 : Int) = d' at *
    generalize (2 : Rat) ^ (1074 : Int) = u at *
    have := pyRound_mono (mul_le_mul_of_nonneg_right hcd e4.le)
    exact mul_le_mul_of_nonneg_right (Int.cast_le.2 this) e3.le
  have large : ∀ {c d : Rat}, 2 ^ (-1022 : Int) ≤ c → c ≤ d → Ieee.rnd c ≤ Ieee.rnd d := by
    intro c d hc hcd
    have hd := le_trans hc hcd
    rw [Ieee.rnd_eq (.inr (le_trans hc (le_abs_self c))), Ieee.rnd_eq (.inr (le_trans hd (le_abs_self d)))]
    exact round53_mono hcd
  rcases le_or_gt (2 ^ (-1022 : Int)) a with h1 | h1
  · exact large h1 h
  rcases le_or_gt (2 ^ (-1022 : Int)) b with h2 | h2
  · exact le_trans (small ha h1.le ((zpow_lt_zpow_iff_right₀ (by norm_num)).2 (by norm_num))) (large (le_refl _) h2)
  · exact small ha h (lt_of_lt_of_le h2 (zpow_le_of_log (by norm_num)))

theorem Ieee.rnd_mono {a b : Rat} (h : a ≤ b) : Ieee.rnd a ≤ Ieee.rnd b := by
  rcases le_total 0 a with ha | ha
  · exact Ieee.rnd_mono_nonneg ha h
  have ha' : Ieee.rnd a ≤ 0 := by
    have := Ieee.rnd_nonneg (q := -a) (by linarith)
    rw [Ieee.rnd_neg] at this; linarith
  rcases le_total 0 b with hb | hb
  · exact le_trans ha' (Ieee.rnd_nonneg hb)
  · have := Ieee.rnd_mono_nonneg (a := -b) (b := -a) (by linarith) (by linarith)
    rw [Ieee.rnd_neg, Ieee.rnd_neg] at this; linarith

theorem Ieee.tiny : (2 : Rat) ^ (-1022 : Int) ≤ 1 / 2 ^ 100 := by
  have := zpow_le_of_log (a := -1022) (b := -100) (by norm_num)
  rw [show (2 : Rat) ^ (-100 : Int) = 1 / 2 ^ 100 by rw [zpow_neg]; norm_num] at this
  exact this

theorem Ieee.rnd_int (n : Int) : Ieee.rnd (n : Rat) = round53 n := by
  apply Ieee.rnd_eq
  by_cases h : n = 0
  · left; simp [h]
  · right
    have : (1 : Rat) ≤ |(n : Rat)| := by rw [← Int.cast_abs]; exact_mod_cast Int.one_le_abs h
    exact le_trans Ieee.tiny (le_trans (by norm_num) this)

/-- Rounding with subnormal numbers satisfies the laws. -/
theorem ieee_laws : FP.ieee.Laws where
  mono _ _ h := Ieee.rnd_mono h
  odd := Ieee.rnd_neg
  idem q := by
    obtain ⟨n, k, hn, hk, e⟩ := Ieee.rnd_form q
    change Ieee.rnd (Ieee.rnd q) = Ieee.rnd q
    rw [e]; exact Ieee.rnd_fix n k hn hk
  small n h := by
    have := Ieee.rnd_fix n 0 h (by norm_num)
    simp only [zpow_zero, mul_one] at this
    exact this
  two q h := by
    change Ieee.rnd (2 * q) = 2 * Ieee.rnd q
    rcases h with h | h
    · change Ieee.rnd q = q at h
      obtain ⟨n, k, hn, hk, e⟩ := Ieee.rnd_form q
      have e2 : 2 * q = (n : Rat) * 2 ^ (k + 1) := by
        rw [zpow_add₀ (by norm_num), zpow_one, ← mul_assoc, ← e, h, mul_comm]
      rw [h, e2]
      exact Ieee.rnd_fix n (k + 1) hn (by omega)
    · have h1 := le_trans Ieee.tiny h
      have h2 : (2 : Rat) ^ (-1022 : Int) ≤ |2 * q| := by
        rw [abs_mul, abs_of_pos (by norm_num)]
        have := abs_nonneg q
        linarith
      rw [Ieee.rnd_eq (.inr h1), Ieee.rnd_eq (.inr h2), round53_two]
  near q n h := by
    change |(n : Rat) - Ieee.rnd q| < 1 at h
    change Ieee.rnd (n : Rat) = n
    obtain ⟨m, k, hm, hk, e⟩ := Ieee.rnd_form q
    rw [Ieee.rnd_int]
    apply round53_near (Ieee.rnd q)
    rw [e, round53_fix m k hm, ← e]
    exact h
  err q := by
    change |Ieee.rnd q - q| ≤ _
    rcases le_or_gt (2 ^ (-1022 : Int)) |q| with h | h
    · rw [Ieee.rnd_eq (.inr h)]
      exact le_trans (round53_rel q) (mul_le_mul_of_nonneg_right (le_max_left _ _) (by norm_num))
    · rw [Ieee.rnd_small (lt_of_lt_of_le h (zpow_le_of_log (by norm_num)))]
      refine le_trans ?_ (mul_le_mul_of_nonneg_right (le_max_right _ _) (by norm_num))
      have e1 : (2 : Rat) ^ (1074 : Int) * 2 ^ (-1074 : Int) = 1 := by rw [← zpow_add₀ (by norm_num)]; norm_num
      have e2 : (2 : Rat) ^ (-1074 : Int) ≤ 1 / 2 ^ 153 := by
        have := zpow_le_of_log (a := -1074) (b := -153) (by norm_num)
        rw [show (2 : Rat) ^ (-153 : Int) = 1 / 2 ^ 153 by rw [zpow_neg]; norm_num] at this
        exact this
      have e3 := zpow_two_pos (-1074)
      generalize (2 : Rat) ^ (-1074 : Int) = d at *
      generalize (2 : Rat) ^ (1074 : Int) = u at *
      obtain ⟨a, b, _⟩ := pyRound_spec (q * u)
      have : (pyRound (q * u) : Rat) * d - q = ((pyRound (q * u) : Rat) - q * u) * d := by
        rw [sub_mul, mul_assoc, e1, mul_one]
      rw [this, abs_mul, abs_of_pos e3]
      have h12 : |(pyRound (q * u) : Rat) - q * u| ≤ 1 := by rw [abs_le]; constructor <;> linarith
      have : |(pyRound (q * u) : Rat) - q * u| * d ≤ 1 * (1 / 2 ^ 153) := mul_le_mul h12 e2 e3.le (by norm_num)
      refine le_trans this ?_
      norm_num

/-- It has no bounded relative error: half of the smallest number is rounded to zero. -/
theorem ieee_not_sharp : ¬FP.ieee.Sharp := fun h => by
  have := h.rel (2 ^ (-1075 : Int))
  have e : FP.ieee.rnd (2 ^ (-1075 : Int)) = 0 := by
    change Ieee.rnd _ = 0
    have hp := zpow_two_pos (-1075)
    rw [Ieee.rnd_small (by rw [abs_of_pos hp]; exact (zpow_lt_zpow_iff_right₀ (by norm_num)).2 (by norm_num)), ← zpow_add₀ (by norm_num)]
    have : pyRound (2 ^ ((-1075 : Int) + 1074)) = 0 := by decide +kernel
    rw [this]
    simp
  have hp := zpow_two_pos (-1075)
  rw [e, zero_sub, abs_neg, abs_of_pos hp] at this
  generalize (2 : Rat) ^ (-1075 : Int) = x at *
  norm_num at this
  linarith

end Colosseum
