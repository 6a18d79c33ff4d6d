import Verif.Spec.Angles
import Verif.Py.Float64
import Mathlib.Tactic.Linarith
import Mathlib.Tactic.Positivity
import Mathlib.Tactic.FieldSimp

/-!
# Lemmas: angles
-/

namespace Colosseum

/-- Three errors one after the other. -/
theorem product_error {n x f s r u : ℝ} (hu : 0 ≤ u) (hu' : u ≤ 1 / 100) (hf : 0 < f) (hx : |x - n| ≤ |n| * u) (hs : |s - f| ≤ f * (1.4 * u))
    (hr : |r - x * s| ≤ |x * s| * u) : |r - n * f| ≤ |n * f| * (4 * u) := by
  have hn := abs_nonneg n
  have hx' : |x| ≤ |n| * (1 + u) := by
    have : |x| ≤ |x - n| + |n| := by simpa using abs_add_le (x - n) n
    linarith
  have hs' : |s| ≤ f * (1 + 1.4 * u) := by
    have : |s| ≤ |s - f| + |f| := by simpa using abs_add_le (s - f) f
    rw [abs_of_pos hf] at this
    linarith
  have hxs : |x * s| ≤ |n| * (1 + u) * (f * (1 + 1.4 * u)) := by
    rw [abs_mul]
    exact mul_le_mul hx' hs' (abs_nonneg _) (by positivity)
  have h1 : |r - n * f| ≤ |r - x * s| + |x - n| * |s| + |n| * |s - f| := by
    rw [← abs_mul, ← abs_mul]
    have e : r - n * f = (r - x * s) + (x - n) * s + n * (s - f) := by ring
    rw [e]
    exact (abs_add_le _ _).trans (by linarith [abs_add_le (r - x * s) ((x - n) * s)])
  have h2 : |x - n| * |s| ≤ |n| * u * (f * (1 + 1.4 * u)) := mul_le_mul hx hs' (abs_nonneg _) (by positivity)
  have h3 : |n| * |s - f| ≤ |n| * (f * (1.4 * u)) := mul_le_mul_of_nonneg_left hs hn
  have h4 : |x * s| * u ≤ |n| * (1 + u) * (f * (1 + 1.4 * u)) * u := mul_le_mul_of_nonneg_right hxs hu
  rw [abs_mul n f, abs_of_pos hf]
  have h5 : |r - n * f| ≤ |n| * f * u * ((1 + u) * (1 + 1.4 * u) + (1 + 1.4 * u) + 1.4) := by nlinarith
  have h6 : (1 + u) * (1 + 1.4 * u) + (1 + 1.4 * u) + 1.4 ≤ 4 := by nlinarith
  have h7 : 0 ≤ |n| * f * u := by positivity
  nlinarith

/-- `180 / math.pi` is near `180 / π`. -/
theorem pi_error : |((180 / mathPi : Rat) : ℝ) - 180 / Real.pi| ≤ 180 / Real.pi * (0.36 * (1 / 2 ^ 53)) := by
  have h1 := Real.pi_gt_d20
  have h2 := Real.pi_lt_d20
  have hp := Real.pi_pos
  have e : ((180 / mathPi : Rat) : ℝ) - 180 / Real.pi = 180 / Real.pi * ((Real.pi - 884279719003555 / 281474976710656) / (884279719003555 / 281474976710656)) := by
    unfold mathPi
    push_cast
    field_simp
  rw [e, abs_mul, abs_of_pos (by positivity : 0 < 180 / Real.pi)]
  refine mul_le_mul_of_nonneg_left ?_ (by positivity)
  rw [abs_le]
  constructor
  · rw [le_div_iff₀ (by norm_num)]; norm_num at h1 h2 ⊢; linarith
  · rw [div_le_iff₀ (by norm_num)]; norm_num at h1 h2 ⊢; linarith

theorem rel_real {fp : FP} (L : fp.Laws) {q : Rat} (hq : 1 / 2 ^ 100 ≤ |q|) : |(fp.rnd q : ℝ) - (q : ℝ)| ≤ |(q : ℝ)| * (1 / 2 ^ 53) := by
  have h := L.rel_of hq
  have h' : ((|fp.rnd q - q| : Rat) : ℝ) ≤ ((|q| * (1 / 2 ^ 53) : Rat) : ℝ) := by exact_mod_cast h
  push_cast at h'
  exact h'

theorem toFloat_error {fp : FP} (L : fp.Laws) (n : Num) : |(n.toFloat fp : ℝ) - (n.val : ℝ)| ≤ |(n.val : ℝ)| * (1 / 2 ^ 53) := by
  cases n with
  | int i =>
    by_cases h : i = 0
    · subst h
      have : (Num.int 0).toFloat fp = 0 := by simpa [Num.toFloat] using L.zero
      rw [this]
      simp [Num.val]
    · refine rel_real L (le_trans (by norm_num) (?_ : (1 : Rat) ≤ |(i : Rat)|))
      rw [← Int.cast_abs]; exact_mod_cast Int.one_le_abs h
  | flt q =>
    show |(q : ℝ) - (q : ℝ)| ≤ _
    rw [sub_self, abs_zero]
    positivity

theorem degrees_mul (k : AKind) (x : ℝ) : k.degrees x = x * k.degrees 1 := by
  unfold AKind.degrees
  ring

theorem degrees_one_pos (k : AKind) : 0 < k.degrees 1 := by
  have := Real.pi_pos
  unfold AKind.degrees
  cases k <;> simp only [AKind.circle] <;> positivity

theorem scale_error {fp : FP} (L : fp.Laws) (k : AKind) : |((k.scale fp).toFloat fp : ℝ) - k.degrees 1| ≤ k.degrees 1 * (1.4 * (1 / 2 ^ 53)) := by
  have hp := degrees_one_pos k
  cases k with
  | deg =>
    have e : ((AKind.deg.scale fp).toFloat fp) = 1 := by exact_mod_cast L.small 1 (by norm_num)
    rw [e]
    norm_num [AKind.degrees, AKind.circle]
  | turn =>
    have e : ((AKind.turn.scale fp).toFloat fp) = 360 := by exact_mod_cast L.small 360 (by norm_num)
    rw [e]
    norm_num [AKind.degrees, AKind.circle]
  | grad =>
    have h := rel_real L (q := 9 / 10) (by norm_num)
    have e : AKind.grad.degrees 1 = 9 / 10 := by norm_num [AKind.degrees, AKind.circle]
    show |((fp.rnd (9 / 10) : Rat) : ℝ) - _| ≤ _
    rw [e]
    push_cast at h
    refine h.trans ?_
    rw [abs_of_pos (by norm_num)]
    norm_num
  | rad =>
    have h := rel_real L (q := 180 / mathPi) (by norm_num [mathPi])
    have h' := pi_error
    have e : AKind.rad.degrees 1 = 180 / Real.pi := by
      have := Real.pi_pos
      unfold AKind.degrees AKind.circle
      field_simp
      norm_num
    show |((fp.rnd (180 / mathPi) : Rat) : ℝ) - _| ≤ _
    rw [e] at hp ⊢
    generalize 180 / Real.pi = f at *
    generalize ((180 / mathPi : Rat) : ℝ) = g at *
    generalize ((fp.rnd (180 / mathPi) : Rat) : ℝ) = r at *
    have hg : |g| ≤ f * (1 + 0.36 * (1 / 2 ^ 53)) := by
      have := abs_add_le (g - f) f
      rw [sub_add_cancel, abs_of_pos hp] at this
      linarith
    have : |r - f| ≤ |r - g| + |g - f| := by
      have := abs_add_le (r - g) (g - f)
      rwa [sub_add_sub_cancel] at this
    norm_num at *
    nlinarith

end Colosseum
