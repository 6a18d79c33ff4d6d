import Verif.Lemmas.Round
import Mathlib.Data.Int.Log
import Mathlib.Algebra.Order.Field.Power

/-!
# Binary floating point

`FP.Laws` collects the laws of rounding the theorems use.  `FP.b64` is rounding to 53 significant bits,
ties to even: IEEE binary64 without its exponent limits (no overflow, no subnormals).  `FP.ieee`
(`Verif/Py/Ieee.lean`) has subnormal numbers.  `b64_laws`, `ieee_laws` and `exact_laws` show that they and exact
arithmetic satisfy the laws, so a theorem with hypothesis `fp.Laws` covers all three.  A few theorems on relative
errors assume `fp.Sharp`, which subnormal numbers do not satisfy.
-/

namespace Colosseum

/-- Laws of floating point rounding. -/
structure FP.Laws (fp : FP) : Prop where
  mono : fp.Mono
  odd : fp.Odd
  idem : fp.Idem
  /-- integers up to 2^53 are exact -/
  small : ∀ n : Int, n.natAbs ≤ 2 ^ 53 → fp.rnd (n : Rat) = n
  /-- scaling by two is exact, for floats and for numbers that are not tiny -/
  two : ∀ q, fp.rnd q = q ∨ 1 / 2 ^ 100 ≤ |q| → fp.rnd (2 * q) = 2 * fp.rnd q
  /-- the integers next to a float are floats -/
  near : ∀ (q : Rat) (n : Int), |(n : Rat) - fp.rnd q| < 1 → fp.rnd (n : Rat) = n
  /-- the error is at most 2^-53 of the number, and next to zero at most 2^-100 of that -/
  err : ∀ q, |fp.rnd q - q| ≤ max |q| (1 / 2 ^ 100) * (1 / 2 ^ 53)

/-- Laws of rounding with unlimited exponents. -/
structure FP.Sharp (fp : FP) : Prop extends FP.Laws fp where
  /-- the relative error is at most 2^-53 -/
  rel : ∀ q, |fp.rnd q - q| ≤ |q| * (1 / 2 ^ 53)

theorem err_of_rel {fp : FP} (h : ∀ q, |fp.rnd q - q| ≤ |q| * (1 / 2 ^ 53)) (q : Rat) :
    |fp.rnd q - q| ≤ max |q| (1 / 2 ^ 100) * (1 / 2 ^ 53) :=
  le_trans (h q) (mul_le_mul_of_nonneg_right (le_max_left _ _) (by norm_num))

theorem exact_sharp : FP.exact.Sharp :=
  have r : ∀ q, |FP.exact.rnd q - q| ≤ |q| * (1 / 2 ^ 53) := fun q => by
    have : FP.exact.rnd q - q = 0 := sub_self q
    rw [this, abs_zero]
    exact mul_nonneg (abs_nonneg _) (by norm_num)
  ⟨⟨FP.exact_mono, FP.exact_odd, FP.exact_idem, fun _ _ => rfl, fun _ _ => rfl, fun _ _ _ => rfl, err_of_rel r⟩, r⟩

theorem exact_laws : FP.exact.Laws := exact_sharp.toLaws

/-- Round to 53 significant bits, ties to even. -/
def round53 (q : Rat) : Rat :=
  if q = 0 then 0
  else (pyRound (q * 2 ^ (52 - Int.log 2 |q|)) : Rat) * 2 ^ (Int.log 2 |q| - 52)

/-- Binary64 rounding with unbounded exponent. -/
def FP.b64 : FP := ⟨round53⟩

theorem zpow_two_pos (k : Int) : (0 : Rat) < 2 ^ k := zpow_pos (by norm_num) k

theorem log_bounds {q : Rat} (h : q ≠ 0) :
    (2 : Rat) ^ Int.log 2 |q| ≤ |q| ∧ |q| < 2 ^ (Int.log 2 |q| + 1) :=
  ⟨by simpa using Int.zpow_log_le_self (R := Rat) (b := 2) (by norm_num) (abs_pos.2 h),
   by simpa using Int.lt_zpow_succ_log_self (R := Rat) (b := 2) (by norm_num) |q|⟩

theorem zpow_le_of_log {a b : Int} (h : a ≤ b) : (2 : Rat) ^ a ≤ 2 ^ b :=
  zpow_le_zpow_right₀ (by norm_num) h

theorem log_unique {q : Rat} {e : Int} (h1 : (2 : Rat) ^ e ≤ |q|) (h2 : |q| < 2 ^ (e + 1)) :
    Int.log 2 |q| = e := by
  have h0 : q ≠ 0 := by
    rintro rfl
    have := zpow_two_pos e
    simp at h1
    linarith
  obtain ⟨l1, l2⟩ := log_bounds h0
  have a1 : e < Int.log 2 |q| + 1 := by
    have : (2 : Rat) ^ e < 2 ^ (Int.log 2 |q| + 1) := lt_of_le_of_lt h1 l2
    exact (zpow_lt_zpow_iff_right₀ (by norm_num)).1 this
  have a2 : Int.log 2 |q| < e + 1 := by
    have : (2 : Rat) ^ Int.log 2 |q| < 2 ^ (e + 1) := lt_of_le_of_lt l1 h2
    exact (zpow_lt_zpow_iff_right₀ (by norm_num)).1 this
  omega

theorem round53_zero : round53 0 = 0 := by simp [round53]

theorem round53_neg (q : Rat) : round53 (-q) = -round53 q := by
  unfold round53
  by_cases h : q = 0
  · simp [h]
  · simp only [neg_eq_zero, h, if_false, abs_neg, neg_mul, pyRound_neg]
    push_cast
    ring

theorem round53_two (q : Rat) : round53 (2 * q) = 2 * round53 q := by
  unfold round53
  by_cases h : q = 0
  · simp [h]
  · have hl : Int.log 2 |2 * q| = Int.log 2 |q| + 1 := by
      obtain ⟨l1, l2⟩ := log_bounds h
      apply log_unique
      · rw [abs_mul, zpow_add₀ (by norm_num)]; simp; linarith
      · rw [abs_mul, zpow_add₀ (by norm_num)]; simp; linarith
    have h2 : (2 : Rat) * q ≠ 0 := by simpa using h
    simp only [h, h2, if_false, hl]
    have e1 : (2 : Rat) * q * 2 ^ (52 - (Int.log 2 |q| + 1)) = q * 2 ^ (52 - Int.log 2 |q|) := by
      have : (2 : Rat) ^ (52 - Int.log 2 |q|) = 2 ^ (52 - (Int.log 2 |q| + 1)) * 2 := by
        rw [← zpow_add_one₀ (by norm_num)]; congr 1; ring
      rw [this]; ring
    have e2 : (2 : Rat) ^ (Int.log 2 |q| + 1 - 52) = 2 * 2 ^ (Int.log 2 |q| - 52) := by
      rw [mul_comm, ← zpow_add_one₀ (by norm_num)]; congr 1; ring
    rw [e1, e2]; ring

/-- Multiples of a power of two with at most 53 bits are exact. -/
theorem round53_fix (n : Int) (k : Int) (h : n.natAbs ≤ 2 ^ 53) :
    round53 ((n : Rat) * 2 ^ k) = (n : Rat) * 2 ^ k := by
  by_cases hq : (n : Rat) * 2 ^ k = 0
  · rw [hq, round53_zero]
  · have hn : n ≠ 0 := by rintro rfl; simp at hq
    obtain ⟨l1, l2⟩ := log_bounds hq
    have habs : |(n : Rat) * 2 ^ k| = (n.natAbs : Rat) * 2 ^ k := by
      rw [abs_mul, abs_of_pos (zpow_two_pos k)]
      congr 1
      rw [Nat.cast_natAbs]; push_cast; rfl
    have key : ∃ m : Int, (n : Rat) * 2 ^ k * 2 ^ (52 - Int.log 2 |(n : Rat) * 2 ^ k|) = m := by
      generalize he : Int.log 2 |(n : Rat) * 2 ^ k| = e at *
      by_cases hk : e - 52 ≤ k
      · obtain ⟨j, hj⟩ := Int.le.dest hk
        refine ⟨n * 2 ^ j, ?_⟩
        rw [mul_assoc, ← zpow_add₀ (by norm_num)]
        have : k + (52 - e) = (j : Int) := by omega
        rw [this]; push_cast; rw [zpow_natCast]
      · have hk : k + 53 ≤ e := by omega
        have h53 : (n.natAbs : Rat) ≤ 2 ^ 53 := by exact_mod_cast h
        have hge : (2 : Rat) ^ (k + 53) ≤ n.natAbs * 2 ^ k := by
          rw [← habs]; exact le_trans (zpow_le_of_log hk) l1
        have hz : (2 : Rat) ^ (k + 53) = 2 ^ 53 * 2 ^ k := by
          rw [zpow_add₀ (by norm_num)]; norm_num; ring
        have hpos := zpow_two_pos k
        rw [hz] at hge
        have hge' : (2 : Rat) ^ 53 ≤ n.natAbs := le_of_mul_le_mul_right hge hpos
        have heq : (n.natAbs : Rat) = 2 ^ 53 := le_antisymm h53 hge'
        have heq' : n.natAbs = 2 ^ 53 := by exact_mod_cast heq
        have hlt : (2 : Rat) ^ e ≤ 2 ^ (k + 53) := by
          rw [hz, ← heq, ← habs]; exact l1
        have : e ≤ k + 53 := (zpow_le_zpow_iff_right₀ (by norm_num)).1 hlt
        have hek : e = k + 53 := by omega
        subst hek
        have h2 : (2 : Rat) ^ k * 2 ^ (52 - (k + 53)) = 1 / 2 := by
          rw [← zpow_add₀ (by norm_num)]
          have : k + (52 - (k + 53)) = -1 := by omega
          rw [this]; norm_num
        rw [mul_assoc, h2]
        rcases Int.natAbs_eq n with h' | h' <;> rw [h', heq']
        · exact ⟨2 ^ 52, by norm_num⟩
        · exact ⟨-2 ^ 52, by norm_num⟩
    obtain ⟨m, hm⟩ := key
    unfold round53
    rw [if_neg hq, hm, pyRound_int, ← hm, mul_assoc, ← zpow_add₀ (by norm_num)]
    have : (52 - Int.log 2 |(n : Rat) * 2 ^ k| + (Int.log 2 |(n : Rat) * 2 ^ k| - 52)) = 0 := by ring
    rw [this]; simp

theorem round53_form (q : Rat) : ∃ n k : Int, n.natAbs ≤ 2 ^ 53 ∧ round53 q = (n : Rat) * 2 ^ k := by
  by_cases h : q = 0
  · exact ⟨0, 0, by simp, by simp [h, round53_zero]⟩
  · obtain ⟨l1, l2⟩ := log_bounds h
    refine ⟨pyRound (q * 2 ^ (52 - Int.log 2 |q|)), Int.log 2 |q| - 52, ?_, by simp [round53, h]⟩
    generalize Int.log 2 |q| = e at *
    have hp := zpow_two_pos (52 - e)
    have hb : |q * 2 ^ (52 - e)| ≤ 2 ^ 53 := by
      rw [abs_mul, abs_of_pos hp]
      have : (2 : Rat) ^ 53 = 2 ^ (e + 1) * 2 ^ (52 - e) := by
        rw [← zpow_add₀ (by norm_num)]
        have : e + 1 + (52 - e) = (53 : Nat) := by push_cast; ring
        rw [this, zpow_natCast]
      rw [this]
      exact mul_le_mul_of_nonneg_right (le_of_lt l2) (le_of_lt hp)
    obtain ⟨b1, b2⟩ := abs_le.1 hb
    have u : pyRound (q * 2 ^ (52 - e)) ≤ 2 ^ 53 := by
      have := pyRound_mono b2
      have e1 : pyRound ((2 : Rat) ^ 53) = 2 ^ 53 := by
        have := pyRound_int (2 ^ 53); push_cast at this; exact this
      rwa [e1] at this
    have l : -2 ^ 53 ≤ pyRound (q * 2 ^ (52 - e)) := by
      have := pyRound_mono b1
      have e1 : pyRound (-(2 : Rat) ^ 53) = -2 ^ 53 := by
        have := pyRound_int (-2 ^ 53); push_cast at this; exact this
      rwa [e1] at this
    omega

theorem round53_pos_le {q : Rat} (h : 0 < q) :
    (2 : Rat) ^ Int.log 2 |q| ≤ round53 q ∧ round53 q ≤ 2 ^ (Int.log 2 |q| + 1) := by
  obtain ⟨l1, l2⟩ := log_bounds (ne_of_gt h)
  unfold round53
  rw [if_neg (ne_of_gt h)]
  rw [abs_of_pos h] at *
  generalize Int.log 2 q = e at *
  have hp := zpow_two_pos (52 - e)
  have hp' := zpow_two_pos (e - 52)
  have s1 : (2 : Rat) ^ e * 2 ^ (52 - e) = 2 ^ 52 := by
    rw [← zpow_add₀ (by norm_num)]
    have : e + (52 - e) = (52 : Nat) := by push_cast; ring
    rw [this, zpow_natCast]
  have s2 : (2 : Rat) ^ (e + 1) * 2 ^ (52 - e) = 2 ^ 53 := by
    rw [← zpow_add₀ (by norm_num)]
    have : e + 1 + (52 - e) = (53 : Nat) := by push_cast; ring
    rw [this, zpow_natCast]
  have t1 : (2 : Rat) ^ e = 2 ^ 52 * 2 ^ (e - 52) := by
    rw [← zpow_natCast, ← zpow_add₀ (by norm_num)]; congr 1; push_cast; ring
  have t2 : (2 : Rat) ^ (e + 1) = 2 ^ 53 * 2 ^ (e - 52) := by
    rw [← zpow_natCast, ← zpow_add₀ (by norm_num)]; congr 1; push_cast; ring
  have i1 : (2 : Rat) ^ 52 ≤ q * 2 ^ (52 - e) := by
    rw [← s1]; exact mul_le_mul_of_nonneg_right l1 (le_of_lt hp)
  have i2 : q * 2 ^ (52 - e) ≤ (2 : Rat) ^ 53 := by
    rw [← s2]; exact mul_le_mul_of_nonneg_right (le_of_lt l2) (le_of_lt hp)
  have r1 : pyRound ((2 : Rat) ^ 52) = 2 ^ 52 := by
    have := pyRound_int (2 ^ 52); push_cast at this; exact this
  have r2 : pyRound ((2 : Rat) ^ 53) = 2 ^ 53 := by
    have := pyRound_int (2 ^ 53); push_cast at this; exact this
  have j1 : (2 : Rat) ^ 52 ≤ (pyRound (q * 2 ^ (52 - e)) : Rat) := by
    have := pyRound_mono i1; rw [r1] at this; exact_mod_cast this
  have j2 : (pyRound (q * 2 ^ (52 - e)) : Rat) ≤ 2 ^ 53 := by
    have := pyRound_mono i2; rw [r2] at this; exact_mod_cast this
  constructor
  · rw [t1]; exact mul_le_mul_of_nonneg_right j1 (le_of_lt hp')
  · rw [t2]; exact mul_le_mul_of_nonneg_right j2 (le_of_lt hp')

theorem round53_pos {q : Rat} (h : 0 < q) : 0 < round53 q :=
  lt_of_lt_of_le (zpow_two_pos _) (round53_pos_le h).1

theorem round53_mono_pos {a b : Rat} (ha : 0 < a) (h : a ≤ b) : round53 a ≤ round53 b := by
  have hb : 0 < b := lt_of_lt_of_le ha h
  have hl : Int.log 2 |a| ≤ Int.log 2 |b| := by
    rw [abs_of_pos ha, abs_of_pos hb]; exact Int.log_mono_right ha h
  rcases eq_or_lt_of_le hl with heq | hlt
  · unfold round53
    rw [if_neg (ne_of_gt ha), if_neg (ne_of_gt hb), heq]
    have hp := zpow_two_pos (52 - Int.log 2 |b|)
    have := pyRound_mono (mul_le_mul_of_nonneg_right h (le_of_lt hp))
    exact mul_le_mul_of_nonneg_right (by exact_mod_cast this) (le_of_lt (zpow_two_pos _))
  · exact le_trans (round53_pos_le ha).2
      (le_trans (zpow_le_of_log (by omega)) (round53_pos_le hb).1)

theorem round53_mono {a b : Rat} (h : a ≤ b) : round53 a ≤ round53 b := by
  rcases lt_trichotomy 0 a with ha | ha | ha
  · exact round53_mono_pos ha h
  · subst ha
    rw [round53_zero]
    rcases eq_or_lt_of_le h with rfl | hb
    · rw [round53_zero]
    · exact le_of_lt (round53_pos hb)
  · rcases lt_trichotomy 0 b with hb | hb | hb
    · have : round53 a < 0 := by
        have := round53_pos (q := -a) (by linarith)
        rw [round53_neg] at this; linarith
      exact le_of_lt (lt_trans this (round53_pos hb))
    · subst hb
      rw [round53_zero]
      have := round53_pos (q := -a) (by linarith)
      rw [round53_neg] at this; linarith
    · have := round53_mono_pos (a := -b) (b := -a) (by linarith) (by linarith)
      rw [round53_neg, round53_neg] at this; linarith

theorem round53_near (q : Rat) (n : Int) (h : |(n : Rat) - round53 q| < 1) :
    round53 (n : Rat) = n := by
  obtain ⟨m, k, hm, e⟩ := round53_form q
  by_cases hk : 0 ≤ k
  · obtain ⟨j, rfl⟩ := Int.eq_ofNat_of_zero_le hk
    have e' : round53 q = ((m * 2 ^ j : Int) : Rat) := by rw [e]; push_cast; rfl
    rw [e', ← Int.cast_sub, ← Int.cast_abs] at h
    have h1 : |n - m * 2 ^ j| < 1 := by exact_mod_cast h
    have h2 : n = m * 2 ^ j := by
      rw [Int.abs_lt_one_iff] at h1; omega
    have := round53_fix m j hm
    rw [h2]; push_cast; exact_mod_cast this
  · have hb : |round53 q| ≤ 2 ^ 53 / 2 := by
      rw [e, abs_mul, abs_of_pos (zpow_two_pos k)]
      have h1 : |(m : Rat)| ≤ 2 ^ 53 := by
        have : (m.natAbs : Rat) ≤ 2 ^ 53 := by exact_mod_cast hm
        rwa [Nat.cast_natAbs, Int.cast_abs] at this
      have h2 : (2 : Rat) ^ k ≤ 1 / 2 := by
        have := zpow_le_of_log (a := k) (b := -1) (by omega)
        simpa using this
      calc |(m : Rat)| * 2 ^ k ≤ 2 ^ 53 * (1 / 2) :=
            mul_le_mul h1 h2 (le_of_lt (zpow_two_pos k)) (by norm_num)
        _ = 2 ^ 53 / 2 := by ring
    obtain ⟨b1, b2⟩ := abs_le.1 hb
    obtain ⟨c1, c2⟩ := abs_lt.1 h
    have u : n ≤ 2 ^ 53 := by
      have : (n : Rat) ≤ 2 ^ 53 := by linarith
      exact_mod_cast this
    have l : -2 ^ 53 ≤ n := by
      have : (-2 ^ 53 : Rat) ≤ n := by linarith
      exact_mod_cast this
    have := round53_fix n 0 (by omega)
    simpa using this

theorem round53_rel (q : Rat) : |round53 q - q| ≤ |q| * (1 / 2 ^ 53) := by
  by_cases h : q = 0
  · simp [h, round53_zero]
  · obtain ⟨l1, _⟩ := log_bounds h
    unfold round53
    rw [if_neg h]
    generalize Int.log 2 |q| = e at *
    have hp := zpow_two_pos (e - 52)
    have hq : q = q * 2 ^ (52 - e) * 2 ^ (e - 52) := by
      rw [mul_assoc, ← zpow_add₀ (by norm_num)]
      simp
    have hd : |(pyRound (q * 2 ^ (52 - e)) : Rat) - q * 2 ^ (52 - e)| ≤ 1 / 2 := by
      obtain ⟨a, b, _⟩ := pyRound_spec (q * 2 ^ (52 - e))
      rw [abs_le]; constructor <;> linarith
    have he : (2 : Rat) ^ (e - 52) = 2 ^ e / 2 ^ 52 := by
      rw [zpow_sub₀ (by norm_num)]; norm_num
    calc |(pyRound (q * 2 ^ (52 - e)) : Rat) * 2 ^ (e - 52) - q|
        = |((pyRound (q * 2 ^ (52 - e)) : Rat) - q * 2 ^ (52 - e)) * 2 ^ (e - 52)| := by
          rw [sub_mul, ← hq]
      _ = |(pyRound (q * 2 ^ (52 - e)) : Rat) - q * 2 ^ (52 - e)| * 2 ^ (e - 52) := by
          rw [abs_mul, abs_of_pos hp]
      _ ≤ 1 / 2 * 2 ^ (e - 52) := mul_le_mul_of_nonneg_right hd (le_of_lt hp)
      _ = 2 ^ e * (1 / 2 ^ 53) := by rw [he]; ring
      _ ≤ |q| * (1 / 2 ^ 53) := mul_le_mul_of_nonneg_right l1 (by norm_num)

/-- Binary64 rounding satisfies the laws. -/
theorem b64_sharp : FP.b64.Sharp where
  mono _ _ h := round53_mono h
  odd := round53_neg
  idem q := by
    obtain ⟨n, k, hn, e⟩ := round53_form q
    change round53 (round53 q) = round53 q
    rw [e]; exact round53_fix n k hn
  small n h := by
    have := round53_fix n 0 h
    simp only [zpow_zero, mul_one] at this
    exact this
  two q _ := round53_two q
  near := round53_near
  err := err_of_rel (fp := FP.b64) round53_rel
  rel := round53_rel

theorem b64_laws : FP.b64.Laws := b64_sharp.toLaws

namespace FP.Laws
variable {fp : FP} (L : fp.Laws)
include L

theorem one : fp.rnd 1 = 1 := by have := L.small 1 (by norm_num); simpa using this
theorem zero : fp.rnd 0 = 0 := by have := L.small 0 (by norm_num); simpa using this

/-- The relative error of a number of ordinary size. -/
theorem rel_of {q : Rat} (h : 1 / 2 ^ 100 ≤ |q|) : |fp.rnd q - q| ≤ |q| * (1 / 2 ^ 53) := by
  have := L.err q
  rwa [max_eq_left h] at this

/-- The absolute error of a number up to `b`. -/
theorem err_le {q b : Rat} (h : |q| ≤ b) (hb : 1 / 2 ^ 100 ≤ b) : |fp.rnd q - q| ≤ b * (1 / 2 ^ 53) :=
  le_trans (L.err q) (mul_le_mul_of_nonneg_right (max_le h hb) (by norm_num))

/-- Twice a float is a float. -/
theorem two_held {q : Rat} (h : fp.rnd q = q) : fp.rnd (2 * q) = 2 * q := by
  rw [L.two q (.inl h), h]

theorem mul_pow (k : Nat) {q : Rat} (h : fp.rnd q = q) : fp.rnd (2 ^ k * q) = 2 ^ k * q := by
  induction k with
  | zero => simpa using h
  | succ k ih => rw [pow_succ', mul_assoc, L.two_held ih]

/-- Sixty-four times a float is a float. -/
theorem mul_64 {q : Rat} (h : fp.rnd q = q) : fp.rnd (64 * q) = 64 * q := by
  have := L.mul_pow 6 h; norm_num at this; exact this

theorem mul_pow_of (k : Nat) {q : Rat} (h : 1 / 2 ^ 100 ≤ |q|) : fp.rnd (2 ^ k * q) = 2 ^ k * fp.rnd q := by
  induction k with
  | zero => simp
  | succ k ih =>
    rw [pow_succ', mul_assoc, L.two _ (.inr ?_), ih]; · ring
    rw [abs_mul, abs_of_pos (by positivity)]
    have : (1 : Rat) ≤ 2 ^ k := one_le_pow₀ (by norm_num)
    nlinarith [abs_nonneg q]

/-- Rounding commutes with the scaling of whole numbers by 64. -/
theorem mul_64_int (n : Int) : fp.rnd (64 * (n : Rat)) = 64 * fp.rnd (n : Rat) := by
  by_cases h : n = 0
  · subst h; simp [L.zero]
  · have := L.mul_pow_of 6 (q := n) (by
      have : (1 : Rat) ≤ |(n : Rat)| := by rw [← Int.cast_abs]; exact_mod_cast Int.one_le_abs h
      exact le_trans (by norm_num) this)
    norm_num at this; exact this

theorem div_64 (n : Int) : fp.rnd ((n : Rat) / 64) = fp.rnd (n : Rat) / 64 := by
  by_cases h : n = 0
  · subst h; simp [L.zero]
  · have := L.mul_pow_of 6 (q := (n : Rat) / 64) (by
      have : (1 : Rat) ≤ |(n : Rat)| := by rw [← Int.cast_abs]; exact_mod_cast Int.one_le_abs h
      rw [abs_div, abs_of_pos (by norm_num : (0 : Rat) < 64), le_div_iff₀ (by norm_num)]
      exact le_trans (by norm_num) this)
    rw [show (2 : Rat) ^ 6 * ((n : Rat) / 64) = n by ring] at this
    rw [this]; ring

/-- Layout positions below 2^47 pixels are exact. -/
theorem grid (n : Int) (h : n.natAbs ≤ 2 ^ 53) : fp.rnd ((n : Rat) / 64) = (n : Rat) / 64 := by
  rw [L.div_64, L.small n h]

theorem natCast (n : Nat) (h : n ≤ 2 ^ 53) : fp.rnd (n : Rat) = n := by
  have := L.small (n : Int) (by simpa using h)
  simpa using this

theorem nonneg {q : Rat} (h : 0 ≤ q) : 0 ≤ fp.rnd q := by
  have := L.mono _ _ h
  rwa [L.zero] at this

theorem nonpos {q : Rat} (h : q ≤ 0) : fp.rnd q ≤ 0 := by
  have := L.mono _ _ h
  rwa [L.zero] at this

end FP.Laws

end Colosseum
