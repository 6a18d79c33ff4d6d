import Verif.Spec.Colors
import Verif.Model.Colors
import Verif.Lemmas.Pixels

/-!
# The CSS conversion of HSL colours and the sectors and rounding errors of `hsl.rgb`
-/

namespace Colosseum

/-! ## The CSS conversion as three clamped distances -/

/-- Limit to `[0, 1]`. -/
def clamp01 (x : Rat) : Rat := max 0 (min 1 x)

theorem clamp01_lip (x y : Rat) : |clamp01 x - clamp01 y| ≤ |x - y| := by
  unfold clamp01
  have h1 : |max 0 (min 1 x) - max 0 (min 1 y)| ≤ |min 1 x - min 1 y| := by
    generalize min 1 x = u
    generalize min 1 y = w
    rcases le_total 0 u with a | a <;> rcases le_total 0 w with b | b <;>
      simp only [max_eq_left, max_eq_right, a, b] <;>
      rw [abs_le] <;> constructor <;> rcases abs_cases (u - w) with ⟨c, d⟩ | ⟨c, d⟩ <;> linarith
  have h2 : |min 1 x - min 1 y| ≤ |x - y| := by
    rcases le_total 1 x with a | a <;> rcases le_total 1 y with b | b <;>
      simp only [min_eq_left, min_eq_right, a, b] <;>
      rw [abs_le] <;> constructor <;> rcases abs_cases (x - y) with ⟨c, d⟩ | ⟨c, d⟩ <;> linarith
  exact le_trans h1 h2

theorem clamp01_mid {x : Rat} (h0 : 0 ≤ x) (h1 : x ≤ 1) : clamp01 x = x := by
  rw [clamp01, min_eq_right h1, max_eq_right h0]
theorem clamp01_low {x : Rat} (h0 : x ≤ 0) : clamp01 x = 0 := by
  rw [clamp01, min_eq_right (by linarith), max_eq_left h0]
theorem clamp01_high {x : Rat} (h0 : 1 ≤ x) : clamp01 x = 1 := by
  rw [clamp01, min_eq_left h0, max_eq_right (by norm_num)]

/-- Share of the chroma in a channel whose peak is at hue `p` (in sixths of a turn). -/
def share (p t : Rat) : Rat := clamp01 (2 - |t - p|)

theorem share_lip (p t u : Rat) : |share p t - share p u| ≤ |t - u| := by
  refine le_trans (clamp01_lip _ _) ?_
  have : 2 - |t - p| - (2 - |u - p|) = |u - p| - |t - p| := by ring
  rw [this]
  have := abs_abs_sub_abs_le_abs_sub (u - p) (t - p)
  have e : u - p - (t - p) = -(t - u) := by ring
  rwa [e, abs_neg] at this

theorem cssHue_share (m1 m2 t : Rat) (h0 : 0 ≤ t) (h6 : t ≤ 6) :
    cssHue m1 m2 (t / 6) = m1 + (m2 - m1) * share 2 t := by
  have e1 : ¬ t / 6 < 0 := by linarith
  have e2 : ¬ 1 < t / 6 := by linarith
  simp only [cssHue, e1, e2, if_false, share]
  by_cases a1 : t < 1
  · rw [if_pos (by linarith), abs_of_neg (by linarith), clamp01_mid (by linarith) (by linarith)]
    ring
  · rw [if_neg (by linarith)]
    by_cases a2 : t < 3
    · rw [if_pos (by linarith), clamp01_high]
      · ring
      · rcases abs_cases (t - 2) with ⟨c, d⟩ | ⟨c, d⟩ <;> linarith
    · rw [if_neg (by linarith)]
      by_cases a3 : t < 4
      · rw [if_pos (by linarith), abs_of_nonneg (by linarith), clamp01_mid (by linarith) (by linarith)]
        ring
      · rw [if_neg (by linarith), abs_of_nonneg (by linarith), clamp01_low (by linarith)]
        ring

theorem cssHue_wrap_up (m1 m2 h : Rat) (h0 : h < 0) (h1 : -1 ≤ h) :
    cssHue m1 m2 h = cssHue m1 m2 (h + 1) := by
  have e1 : ¬ h + 1 < 0 := by linarith
  have e2 : ¬ 1 < h + 1 := by linarith
  simp only [cssHue, h0, e1, e2, if_true, if_false]

theorem cssHue_wrap_down (m1 m2 h : Rat) (h0 : 1 < h) (h1 : h ≤ 2) :
    cssHue m1 m2 h = cssHue m1 m2 (h - 1) := by
  have e0 : ¬ h < 0 := by linarith
  have e1 : ¬ h - 1 < 0 := by linarith
  have e2 : ¬ 1 < h - 1 := by linarith
  simp only [cssHue, h0, e0, e1, e2, if_true, if_false]

/-- Chroma and offset of CSS's HSL model. -/
def chroma (s l : Rat) : Rat := (1 - |2 * l - 1|) * s
/-- See `chroma`. -/
def offset (s l : Rat) : Rat := l - chroma s l / 2
/-- The share of the chroma in the red channel. -/
def redShare (t : Rat) : Rat := clamp01 (|t - 3| - 1)

theorem redShare_lip (t u : Rat) : |redShare t - redShare u| ≤ |t - u| := by
  refine le_trans (clamp01_lip _ _) ?_
  have : |t - 3| - 1 - (|u - 3| - 1) = |t - 3| - |u - 3| := by ring
  rw [this]
  have := abs_abs_sub_abs_le_abs_sub (t - 3) (u - 3)
  have e : t - 3 - (u - 3) = t - u := by ring
  rwa [e] at this

theorem cssHsl_eq (t s l : Rat) (h0 : 0 ≤ t) (h6 : t ≤ 6) :
    cssHsl (t / 6) s l = (offset s l + chroma s l * redShare t, offset s l + chroma s l * share 2 t,
      offset s l + chroma s l * share 4 t) := by
  have hm : ∀ m2, m2 = (if l ≤ 1 / 2 then l * (s + 1) else l + s - l * s) →
      l * 2 - m2 = offset s l ∧ m2 - (l * 2 - m2) = chroma s l := by
    rintro m2 rfl
    unfold offset chroma
    split
    · rename_i h
      rw [abs_of_nonpos (by linarith)]
      constructor <;> ring
    · rename_i h
      rw [abs_of_nonneg (by linarith)]
      constructor <;> ring
  simp only [cssHsl]
  obtain ⟨e1, e2⟩ := hm _ rfl
  have r : ∀ u m1 m2, 0 ≤ u → u ≤ 6 → m1 = offset s l → m2 - m1 = chroma s l →
      cssHue m1 m2 (u / 6) = offset s l + chroma s l * share 2 u := by
    intro u m1 m2 a b c d
    rw [cssHue_share m1 m2 u a b, d, c]
  refine Prod.ext ?_ (Prod.ext ?_ ?_)
  · show cssHue _ _ (t / 6 + 1 / 3) = _
    by_cases h : t ≤ 4
    · rw [show t / 6 + 1 / 3 = (t + 2) / 6 by ring, r _ _ _ (by linarith) (by linarith) e1 e2]
      congr 2
      unfold share redShare
      by_cases h3 : t ≤ 3
      · rw [abs_of_nonneg (show (0 : Rat) ≤ t + 2 - 2 by linarith), abs_of_nonpos (show t - 3 ≤ 0 by linarith)]
        congr 1; ring
      · rw [abs_of_nonneg (show (0 : Rat) ≤ t + 2 - 2 by linarith), abs_of_nonneg (show (0 : Rat) ≤ t - 3 by linarith),
          clamp01_low (by linarith), clamp01_low (by linarith)]
    · rw [cssHue_wrap_down _ _ _ (by linarith) (by linarith),
        show t / 6 + 1 / 3 - 1 = (t - 4) / 6 by ring, r _ _ _ (by linarith) (by linarith) e1 e2]
      congr 2
      unfold share redShare
      rw [abs_of_nonpos (show t - 4 - 2 ≤ 0 by linarith), abs_of_nonneg (show (0 : Rat) ≤ t - 3 by linarith)]
      congr 1; ring
  · exact r _ _ _ h0 h6 e1 e2
  · show cssHue _ _ (t / 6 - 1 / 3) = _
    by_cases h : t < 2
    · rw [cssHue_wrap_up _ _ _ (by linarith) (by linarith),
        show t / 6 - 1 / 3 + 1 = (t + 4) / 6 by ring, r _ _ _ (by linarith) (by linarith) e1 e2]
      congr 2
      unfold share
      rw [abs_of_nonneg (show (0 : Rat) ≤ t + 4 - 2 by linarith), abs_of_nonpos (show t - 4 ≤ 0 by linarith),
        clamp01_low (by linarith), clamp01_low (by linarith)]
    · rw [show t / 6 - 1 / 3 = (t - 2) / 6 by ring, r _ _ _ (by linarith) (by linarith) e1 e2]
      congr 2
      unfold share
      congr 3; ring

/-! ## The sectors of the code -/

/-- `1 - |t mod 2 - 1|`. -/
def tri (t : Rat) : Rat := 1 - |fmod2 t - 1|

theorem fmod2_of (t : Rat) (k : Int) (h0 : 2 * (k : Rat) ≤ t) (h1 : t < 2 * k + 2) : fmod2 t = t - 2 * k := by
  have : (t / 2).floor = k := by
    have h : ⌊t / 2⌋ = k := Int.floor_eq_iff.2 ⟨by linarith, by linarith⟩
    exact h
  rw [fmod2, this]

theorem fmod2_range (t : Rat) : 0 ≤ fmod2 t ∧ fmod2 t < 2 := by
  have h1 := floor_le (t / 2)
  have h2 := lt_floor (t / 2)
  unfold fmod2
  constructor <;> linarith

/-- The branch `hsl.rgb` takes, applied to the three channel values. -/
def sector (t c x z : Rat) : Rat × Rat × Rat :=
  if t < 1 then (c, x, z)
  else if t < 2 then (x, c, z)
  else if t < 3 then (z, c, x)
  else if t < 4 then (z, x, c)
  else if t < 5 then (z, x, c)
  else (c, z, x)

theorem sector_shares (t : Rat) (h0 : 0 ≤ t) (h6 : t ≤ 6) (hb : ¬ (4 < t ∧ t < 5)) :
    sector t 1 (tri t) 0 = (redShare t, share 2 t, share 4 t) := by
  unfold sector tri
  by_cases a1 : t < 1
  · rw [if_pos a1, fmod2_of t 0 (by simpa using h0) (by push_cast; linarith)]
    push_cast
    unfold redShare share
    rw [abs_of_nonpos (show t - 3 ≤ 0 by linarith), abs_of_nonpos (show t - 2 ≤ 0 by linarith),
      abs_of_nonpos (show t - 4 ≤ 0 by linarith), abs_of_nonpos (by linarith),
      clamp01_high (by linarith), clamp01_mid (by linarith) (by linarith), clamp01_low (by linarith)]
    ring_nf
  rw [if_neg a1]
  by_cases a2 : t < 2
  · rw [if_pos a2, fmod2_of t 0 (by simpa using h0) (by push_cast; linarith)]
    push_cast
    unfold redShare share
    rw [abs_of_nonpos (show t - 3 ≤ 0 by linarith), abs_of_nonpos (show t - 2 ≤ 0 by linarith),
      abs_of_nonpos (show t - 4 ≤ 0 by linarith), abs_of_nonneg (by linarith),
      clamp01_mid (by linarith) (by linarith), clamp01_high (by linarith), clamp01_low (by linarith)]
    ring_nf
  rw [if_neg a2]
  by_cases a3 : t < 3
  · rw [if_pos a3, fmod2_of t 1 (by push_cast; linarith) (by push_cast; linarith)]
    push_cast
    unfold redShare share
    rw [abs_of_nonpos (show t - 3 ≤ 0 by linarith), abs_of_nonneg (show 0 ≤ t - 2 by linarith),
      abs_of_nonpos (show t - 4 ≤ 0 by linarith), abs_of_nonpos (by linarith),
      clamp01_low (by linarith), clamp01_high (by linarith), clamp01_mid (by linarith) (by linarith)]
    ring_nf
  rw [if_neg a3]
  by_cases a4 : t < 4
  · rw [if_pos a4, fmod2_of t 1 (by push_cast; linarith) (by push_cast; linarith)]
    push_cast
    unfold redShare share
    rw [abs_of_nonneg (show 0 ≤ t - 3 by linarith), abs_of_nonneg (show 0 ≤ t - 2 by linarith),
      abs_of_nonpos (show t - 4 ≤ 0 by linarith), abs_of_nonneg (by linarith),
      clamp01_low (by linarith), clamp01_mid (by linarith) (by linarith), clamp01_high (by linarith)]
    ring_nf
  rw [if_neg a4]
  by_cases a5 : t < 5
  · have : t = 4 := by
      by_contra h
      exact hb ⟨lt_of_le_of_ne (by linarith) (Ne.symm h), a5⟩
    subst this
    rw [if_pos a5, fmod2_of 4 2 (by norm_num) (by norm_num)]
    norm_num [redShare, share, clamp01]
  rw [if_neg a5]
  unfold redShare share
  rw [abs_of_nonneg (show 0 ≤ t - 3 by linarith), abs_of_nonneg (show 0 ≤ t - 2 by linarith),
      abs_of_nonneg (show 0 ≤ t - 4 by linarith)]
  by_cases a6 : t < 6
  · rw [fmod2_of t 2 (by push_cast; linarith) (by push_cast; linarith)]
    push_cast
    rw [abs_of_nonneg (by linarith),
      clamp01_high (by linarith), clamp01_low (by linarith), clamp01_mid (by linarith) (by linarith)]
    ring_nf
  · have : t = 6 := by linarith
    subst this
    rw [fmod2_of 6 3 (by norm_num) (by norm_num)]
    norm_num [clamp01]

theorem sector_affine (t c m x : Rat) : sector t (c + m) (c * x + m) m =
    ((sector t 1 x 0).1 * c + m, (sector t 1 x 0).2.1 * c + m, (sector t 1 x 0).2.2 * c + m) := by
  unfold sector
  split_ifs <;> simp [mul_comm]

/-! ## Rounding errors -/

/-- The error of one rounding of a number up to `2`. -/
def eps : Rat := 1 / 2 ^ 52

theorem eps_pos : 0 < eps := by norm_num [eps]

theorem rnd_err {fp : FP} (L : fp.Laws) {q : Rat} (h : |q| ≤ 2) : |fp.rnd q - q| ≤ eps := by
  refine le_trans (L.err_le h (by norm_num)) ?_
  norm_num [eps]

theorem rnd_near {fp : FP} (L : fp.Laws) {q y k : Rat} (h : |q - y| ≤ k) (hq : |q| ≤ 2) :
    |fp.rnd q - y| ≤ k + eps := by
  have := rnd_err L hq
  have h3 : |fp.rnd q - y| ≤ |fp.rnd q - q| + |q - y| := abs_sub_le _ _ _
  linarith

theorem chroma_range {s l : Rat} (s0 : 0 ≤ s) (s1 : s ≤ 1) (l0 : 0 ≤ l) (l1 : l ≤ 1) :
    0 ≤ chroma s l ∧ chroma s l ≤ 1 ∧ 0 ≤ offset s l ∧ chroma s l + offset s l ≤ 1 ∧ offset s l ≤ 1 := by
  unfold offset chroma
  have hk : 0 ≤ 1 - |2 * l - 1| := by
    rcases abs_cases (2 * l - 1) with ⟨c, d⟩ | ⟨c, d⟩ <;> linarith
  have hk1 : 1 - |2 * l - 1| ≤ 1 := by have := abs_nonneg (2 * l - 1); linarith
  have a := mul_nonneg hk s0
  have b : (1 - |2 * l - 1|) * s ≤ 1 - |2 * l - 1| := mul_le_of_le_one_right hk s1
  have c := le_abs_self (2 * l - 1)
  have d := neg_le_abs (2 * l - 1)
  refine ⟨a, ?_, ?_, ?_, ?_⟩ <;> linarith

theorem tri_range (t : Rat) : 0 ≤ tri t ∧ tri t ≤ 1 := by
  obtain ⟨a, b⟩ := fmod2_range t
  unfold tri
  rcases abs_cases (fmod2 t - 1) with ⟨c, d⟩ | ⟨c, d⟩ <;> constructor <;> linarith

theorem ratAbs_eq (q : Rat) : ratAbs q = |q| := by
  unfold ratAbs
  split
  · rename_i h; rw [abs_of_neg h]
  · rename_i h; rw [abs_of_nonneg (by linarith)]

/-- The three channel values `hsl.rgb` computes, up to rounding. -/
theorem channel_errors {fp : FP} (L : fp.Laws) (s l t : Rat) (s0 : 0 ≤ s) (s1 : s ≤ 1) (l0 : 0 ≤ l)
    (l1 : l ≤ 1) (c x m : Rat)
    (hc : c = fp.rnd (fp.rnd (1 - ratAbs (fp.rnd (fp.rnd (2 * l) - 1))) * s))
    (hx : x = fp.rnd (c * fp.rnd (1 - ratAbs (fp.rnd (fp.rnd (fmod2 t) - 1)))))
    (hm : m = fp.rnd (l - fp.rnd (1 / 2 * c))) :
    |m - offset s l| ≤ 17 * eps ∧ |fp.rnd (c + m) - (chroma s l + offset s l)| ≤ 17 * eps ∧
      |fp.rnd (x + m) - (chroma s l * tri t + offset s l)| ≤ 17 * eps := by
  have ep := eps_pos
  have e1 : eps ≤ 1 / 1000 := by norm_num [eps]
  obtain ⟨C0, C1, M0, CM, M1⟩ := chroma_range s0 s1 l0 l1
  obtain ⟨T0, T1⟩ := tri_range t
  simp only [ratAbs_eq] at hc hx
  -- the lightness factor
  have hk : ∀ y z : Rat, 0 ≤ y → y ≤ 2 → z = fp.rnd (1 - |fp.rnd (fp.rnd y - 1)|) →
      |z - (1 - |y - 1|)| ≤ 3 * eps := by
    intro y z y0 y2 hz
    have a1 : |fp.rnd y - y| ≤ eps := rnd_err L (by rw [abs_of_nonneg y0]; exact y2)
    have b1 := abs_le.1 a1
    have a2 : |fp.rnd (fp.rnd y - 1) - (y - 1)| ≤ eps + eps :=
      rnd_near L (by rwa [show fp.rnd y - 1 - (y - 1) = fp.rnd y - y by ring])
        (by rw [abs_le]; constructor <;> linarith [b1.1, b1.2])
    have a3 : |(|fp.rnd (fp.rnd y - 1)| - |y - 1|)| ≤ eps + eps :=
      le_trans (abs_abs_sub_abs_le_abs_sub _ _) a2
    have b3 := abs_le.1 a3
    have hy : |y - 1| ≤ 1 := by rw [abs_le]; constructor <;> linarith
    have hy0 := abs_nonneg (y - 1)
    have a4 : |fp.rnd (1 - |fp.rnd (fp.rnd y - 1)|) - (1 - |y - 1|)| ≤ eps + eps + eps := by
      refine rnd_near L ?_ ?_
      · rw [abs_le]; constructor <;> linarith [b3.1, b3.2]
      · rw [abs_le]; constructor <;> linarith [b3.1, b3.2]
    rw [hz]; linarith
  have K := hk (2 * l) _ (by linarith) (by linarith) rfl
  have W := hk (fmod2 t) _ (fmod2_range t).1 (le_of_lt (fmod2_range t).2) rfl
  generalize fp.rnd (1 - |fp.rnd (fp.rnd (2 * l) - 1)|) = k at K hc
  generalize fp.rnd (1 - |fp.rnd (fp.rnd (fmod2 t) - 1)|) = w at W hx
  have W' : |w - tri t| ≤ 3 * eps := W
  clear W hk
  have hK0 : |2 * l - 1| ≤ 1 := by rw [abs_le]; constructor <;> linarith
  have hK1 := abs_nonneg (2 * l - 1)
  have bK := abs_le.1 K
  have dc : |k * s - chroma s l| ≤ 3 * eps := by
    have : k * s - chroma s l = (k - (1 - |2 * l - 1|)) * s := by unfold chroma; ring
    rw [this, abs_mul, abs_of_nonneg s0]
    calc |k - (1 - |2 * l - 1|)| * s ≤ |k - (1 - |2 * l - 1|)| * 1 :=
          mul_le_mul_of_nonneg_left s1 (abs_nonneg _)
      _ ≤ 3 * eps := by linarith
  have bc0 := abs_le.1 dc
  have Cerr : |c - chroma s l| ≤ 4 * eps := by
    have : |fp.rnd (k * s) - chroma s l| ≤ 3 * eps + eps :=
      rnd_near L dc (by rw [abs_le]; constructor <;> linarith [bc0.1, bc0.2])
    rw [hc]; linarith
  have bC := abs_le.1 Cerr
  have bW := abs_le.1 W'
  have dx : |c * w - chroma s l * tri t| ≤ 11 * eps := by
    have e : c * w - chroma s l * tri t = (c - chroma s l) * w + chroma s l * (w - tri t) := by ring
    rw [e]
    have h1 : |(c - chroma s l) * w| ≤ 4 * eps * 2 := by
      rw [abs_mul]
      exact mul_le_mul Cerr (by rw [abs_le]; constructor <;> linarith [bW.1, bW.2]) (abs_nonneg _)
        (by linarith)
    have h2 : |chroma s l * (w - tri t)| ≤ 1 * (3 * eps) := by
      rw [abs_mul, abs_of_nonneg C0]
      exact mul_le_mul C1 W' (abs_nonneg _) (by norm_num)
    have h3 := abs_add_le ((c - chroma s l) * w) (chroma s l * (w - tri t))
    linarith
  have CT0 : 0 ≤ chroma s l * tri t := mul_nonneg C0 T0
  have CT1 : chroma s l * tri t ≤ chroma s l := mul_le_of_le_one_right C0 T1
  have bx0 := abs_le.1 dx
  have Xerr : |x - chroma s l * tri t| ≤ 12 * eps := by
    have : |fp.rnd (c * w) - chroma s l * tri t| ≤ 11 * eps + eps :=
      rnd_near L dx (by rw [abs_le]; constructor <;> linarith [bx0.1, bx0.2])
    rw [hx]; linarith
  have bX := abs_le.1 Xerr
  have Herr : |fp.rnd (1 / 2 * c) - chroma s l / 2| ≤ 3 * eps := by
    have : |fp.rnd (1 / 2 * c) - chroma s l / 2| ≤ 2 * eps + eps := by
      refine rnd_near L ?_ ?_
      · rw [abs_le]; constructor <;> linarith [bC.1, bC.2]
      · rw [abs_le]; constructor <;> linarith [bC.1, bC.2]
    linarith
  have bH := abs_le.1 Herr
  have Merr : |m - offset s l| ≤ 4 * eps := by
    have : |fp.rnd (l - fp.rnd (1 / 2 * c)) - offset s l| ≤ 3 * eps + eps := by
      refine rnd_near L ?_ ?_
      · unfold offset; rw [abs_le]; constructor <;> linarith [bH.1, bH.2]
      · rw [abs_le]; constructor <;> linarith [bH.1, bH.2]
    rw [hm]; linarith
  have bM := abs_le.1 Merr
  refine ⟨by linarith, ?_, ?_⟩
  · have : |fp.rnd (c + m) - (chroma s l + offset s l)| ≤ 8 * eps + eps := by
      refine rnd_near L ?_ ?_
      · rw [abs_le]; constructor <;> linarith [bC.1, bC.2, bM.1, bM.2]
      · rw [abs_le]; constructor <;> linarith [bC.1, bC.2, bM.1, bM.2]
    linarith
  · have : |fp.rnd (x + m) - (chroma s l * tri t + offset s l)| ≤ 16 * eps + eps := by
      refine rnd_near L ?_ ?_
      · rw [abs_le]; constructor <;> linarith [bX.1, bX.2, bM.1, bM.2]
      · rw [abs_le]; constructor <;> linarith [bX.1, bX.2, bM.1, bM.2]
    linarith

/-- One channel scaled to a byte. -/
theorem byte_error {fp : FP} (L : fp.Laws) {v V : Rat} (h : |v - V| ≤ 17 * eps) (V0 : 0 ≤ V) (V1 : V ≤ 1) :
    |(pyRound (fp.rnd (v * 255)) : Rat) - 255 * V| ≤ 1 / 2 + 5000 * eps ∧
      0 ≤ pyRound (fp.rnd (v * 255)) ∧ pyRound (fp.rnd (v * 255)) ≤ 255 := by
  have ep := eps_pos
  have e1 : eps ≤ 1 / 1000000 := by norm_num [eps]
  have b := abs_le.1 h
  have hv : |v * 255| ≤ 256 := by rw [abs_le]; constructor <;> linarith [b.1, b.2]
  have hr : |fp.rnd (v * 255) - v * 255| ≤ 128 * eps := by
    refine le_trans (L.err_le hv (by norm_num)) ?_
    norm_num [eps]
  have br := abs_le.1 hr
  obtain ⟨r1, r2, _⟩ := pyRound_spec (fp.rnd (v * 255))
  refine ⟨?_, ?_, ?_⟩
  · rw [abs_le]; constructor <;> linarith [b.1, b.2, br.1, br.2]
  · have : (-1 : Rat) < (pyRound (fp.rnd (v * 255)) : Rat) := by linarith [b.1, b.2, br.1, br.2]
    have : (-1 : Int) < pyRound (fp.rnd (v * 255)) := by exact_mod_cast this
    omega
  · have : (pyRound (fp.rnd (v * 255)) : Rat) < 256 := by linarith [b.1, b.2, br.1, br.2]
    have : pyRound (fp.rnd (v * 255)) < 256 := by exact_mod_cast this
    omega

theorem toFloat_small {fp : FP} (L : fp.Laws) {n : Num} (h0 : 0 ≤ n.val) (h1 : n.val ≤ 360) :
    n.toFloat fp = n.val := by
  cases n with
  | flt q => rfl
  | int i =>
    simp only [Num.val_int] at h0 h1
    have a : 0 ≤ i := by exact_mod_cast h0
    have b : i ≤ 360 := by exact_mod_cast h1
    exact L.small i (by omega)

end Colosseum
