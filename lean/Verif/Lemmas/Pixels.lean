import Verif.Model.Units
import Verif.Py.Float64
import Mathlib.Tactic.Positivity

/-!
# Closed forms of `lu()` and error bounds
-/

namespace Colosseum

@[simp] theorem Num.val_int (i : Int) : (Num.int i).val = i := rfl
@[simp] theorem Num.val_flt (q : Rat) : (Num.flt q).val = q := rfl

theorem Num.pyMax_val (a b : Num) : (a.pyMax b).val = max a.val b.val := by
  unfold Num.pyMax
  split
  · rename_i h; rw [max_eq_right (le_of_lt (of_decide_eq_true h))]
  · rename_i h
    rw [max_eq_left (by simpa [Num.pyLt] using h)]

theorem Num.pyMin_val (a b : Num) : (a.pyMin b).val = min a.val b.val := by
  unfold Num.pyMin
  split
  · rename_i h; rw [min_eq_right (le_of_lt (of_decide_eq_true h))]
  · rename_i h
    rw [min_eq_left (by simpa [Num.pyLt] using h)]

theorem toFloat_eq {fp : FP} (n : Num) (h : n.isInt = true) : n.toFloat fp = fp.rnd n.val := by
  cases n <;> simp_all [Num.isInt, Num.toFloat, Num.val]

section
variable {fp : FP} (L : fp.Laws)
include L

theorem rnd64 : fp.rnd 64 = 64 := by have := L.small 64 (by norm_num); simpa using this
theorem rnd100 : fp.rnd 100 = 100 := by have := L.small 100 (by norm_num); simpa using this
theorem rnd72 : fp.rnd 72 = 72 := by have := L.small 72 (by norm_num); simpa using this

theorem toFloat_nonneg {n : Num} (h : 0 ≤ n.val) : 0 ≤ n.toFloat fp := by
  cases n with
  | int i => exact L.nonneg h
  | flt q => exact h

theorem mul64_toFloat (a : Num) : (luPerPixel.mul fp a).toFloat fp = fp.rnd (64 * a.val) := by
  cases a with
  | int i => simp [luPerPixel, Num.mul, Num.toFloat, Num.val]
  | flt q => simp [luPerPixel, Num.mul, Num.toFloat, Num.val, rnd64 L]

theorem luScaled_fin (a f d : Num) : luScaled fp (.fin a) f d =
    .ok (pyRound (fp.rnd (fp.rnd (fp.rnd (64 * a.val) * (f.div fp (.int 72)).val) * d.toFloat fp))) := by
  have hf : ∃ g, f.div fp (.int 72) = .flt g := by cases f <;> exact ⟨_, rfl⟩
  obtain ⟨g, hg⟩ := hf
  have h1 : (luPerPixel.mul fp a).mul fp (.flt g) = .flt (fp.rnd (fp.rnd (64 * a.val) * g)) := by
    rw [← mul64_toFloat L]
    cases luPerPixel.mul fp a <;> rfl
  simp only [luScaled, hg, PyNum.mul, h1, Num.val]
  cases d <;> rfl

theorem luPercent_fin (a s : Num) :
    ((((PyNum.fin luPerPixel).mul fp (.fin a)).div fp (.flt 100)).mul fp (.fin s)).round =
    .ok (pyRound (fp.rnd (fp.rnd (fp.rnd (64 * a.val) / 100) * s.toFloat fp))) := by
  have h1 : (luPerPixel.mul fp a).div fp (.flt 100) = .flt (fp.rnd (fp.rnd (64 * a.val) / 100)) := by
    rw [← mul64_toFloat L]
    cases luPerPixel.mul fp a <;> rfl
  simp only [PyNum.mul, PyNum.div, h1]
  cases s <;> rfl

omit L in
theorem luViewport_int (i j : Int) : luViewport fp (.fin (.int i)) (.int j) =
    .ok (pyRound (fp.rnd (64 * (i : Rat) * j / 100))) := by
  simp [luViewport, luPerPixel, PyNum.mul, PyNum.div, Num.mul, Num.div, PyNum.round, Num.round]

theorem luViewport_flt (a s : Num) (h : a.isInt = false ∨ s.isInt = false) :
    luViewport fp (.fin a) s =
    .ok (pyRound (fp.rnd (fp.rnd (fp.rnd (64 * a.val) * s.toFloat fp) / 100))) := by
  have h1 : (luPerPixel.mul fp a).mul fp s = .flt (fp.rnd (fp.rnd (64 * a.val) * s.toFloat fp)) := by
    rw [← mul64_toFloat L]
    rcases a with i | q <;> rcases s with j | r <;> first | rfl | simp [Num.isInt] at h
  simp [luViewport, PyNum.mul, PyNum.div, h1, Num.div, Num.toFloat, rnd100 L, PyNum.round, Num.round]

omit L in
theorem luPx_int (i : Int) : ((PyNum.fin luPerPixel).mul fp (.fin (.int i))).round = .ok (64 * i) := rfl

theorem luPx_flt (q : Rat) : ((PyNum.fin luPerPixel).mul fp (.fin (.flt q))).round =
    .ok (pyRound (fp.rnd (64 * q))) := by
  simp [luPerPixel, PyNum.mul, Num.mul, PyNum.round, Num.round, Num.toFloat, rnd64 L]

end

/-- Only finite magnitudes resolve. -/
theorem luOf_ok_fin {fp : FP} {k : LKind} {v : PyNum} {c : PxCtx} {l : Int}
    (h : luOf fp k v c = .ok l) : ∃ a, v = .fin a := by
  rcases v with a | b | _
  · exact ⟨a, rfl⟩
  · exfalso
    have h64 : (PyNum.fin luPerPixel).mul fp (.inf b) = .inf b := by cases b <;> rfl
    have hm : ∀ n : Num, (PyNum.inf b).mul fp (.fin n) = .nan ∨
        ∃ b', (PyNum.inf b).mul fp (.fin n) = .inf b' := by
      intro n; simp only [PyNum.mul]; split <;> simp
    have hs : ∀ f d l, luScaled fp (.inf b) f d ≠ .ok l := by
      intro f d l
      simp only [luScaled, h64]
      rcases hm (f.div fp (.int 72)) with e | ⟨b', e⟩ <;> rw [e]
      · simp [PyNum.mul, PyNum.round]
      · simp only [PyNum.mul]; split <;> simp [PyNum.round]
    have hv : ∀ s l, luViewport fp (.inf b) s ≠ .ok l := by
      intro s l
      simp only [luViewport, h64]
      rcases hm s with e | ⟨b', e⟩ <;> rw [e] <;> simp [PyNum.div, PyNum.round]
    cases k <;> simp only [luOf] at h
    case px => rw [h64] at h; cases h
    case percent =>
      split at h
      · cases h
      · rw [h64] at h
        rename_i s _
        simp only [PyNum.div] at h
        rcases hm s with e | ⟨b', e⟩ <;> rw [e] at h <;> simp [PyNum.round] at h
    all_goals first | exact hs _ _ _ h | exact hv _ _ h
  · exfalso
    cases k <;> simp only [luOf, luScaled, luViewport, PyNum.mul, PyNum.div, PyNum.round] at h
    case percent => split at h <;> cases h
    all_goals cases h

theorem pxOf_ok {fp : FP} {k : LKind} {v : PyNum} {c : PxCtx} {n : Num}
    (h : pxOf fp k v c = .ok n) : ∃ l, luOf fp k v c = .ok l ∧ n = pxOfLu fp l := by
  unfold pxOf at h
  cases hl : luOf fp k v c with
  | error e => rw [hl] at h; cases h
  | ok l => rw [hl] at h; cases h; exact ⟨l, rfl, rfl⟩

theorem pxOfLu_val (fp : FP) (l : Int) : (pxOfLu fp l).val = fp.rnd ((l : Rat) / 64) := by
  simp only [pxOfLu]
  split
  · rename_i h; exact h.symm
  · rfl

theorem pxOfLu_isInt (fp : FP) (l : Int) :
    (pxOfLu fp l).isInt = true ↔ ∃ i : Int, (pxOfLu fp l).val = i := by
  rw [pxOfLu_val, ← pyTrunc_eq_iff]
  simp only [pxOfLu]
  split
  · rename_i h; simp only [Num.isInt, true_iff]; exact h
  · rename_i h; simp only [Num.isInt, Bool.false_eq_true, false_iff]; exact h

/-! ## Relative error -/

/-- The unit roundoff. -/
def ulp : Rat := 1 / 2 ^ 53

theorem ulp_nonneg : 0 ≤ ulp := by norm_num [ulp]

/-- `x` is `y` up to `n` roundings. -/
def Approx (n : Nat) (x y : Rat) : Prop := |x - y| ≤ |y| * ((1 + ulp) ^ n - 1)

theorem Approx.refl (x : Rat) : Approx 0 x x := by simp [Approx]

theorem one_le_pow_ulp (n : Nat) : (1 : Rat) ≤ (1 + ulp) ^ n :=
  one_le_pow₀ (by have := ulp_nonneg; linarith)

theorem Approx.le {n m : Nat} {x y : Rat} (h : Approx n x y) (hm : n ≤ m) : Approx m x y := by
  refine le_trans h (mul_le_mul_of_nonneg_left ?_ (abs_nonneg y))
  have : (1 + ulp) ^ n ≤ (1 + ulp) ^ m :=
    pow_le_pow_right₀ (by have := ulp_nonneg; linarith) hm
  linarith

theorem Approx.abs_le {n : Nat} {x y : Rat} (h : Approx n x y) : |x| ≤ |y| * (1 + ulp) ^ n := by
  have h1 : |x| ≤ |x - y| + |y| := by
    have := abs_add_le (x - y) y
    rwa [sub_add_cancel] at this
  unfold Approx at h
  linarith

theorem Approx.rnd {fp : FP} (L : fp.Sharp) {n : Nat} {x y : Rat} (h : Approx n x y) :
    Approx (n + 1) (fp.rnd x) y := by
  have h1 := L.rel x
  have h2 := h.abs_le
  have h3 : |fp.rnd x - y| ≤ |fp.rnd x - x| + |x - y| := abs_sub_le _ _ _
  have h4 : |x| * (1 / 2 ^ 53) ≤ |y| * (1 + ulp) ^ n * ulp :=
    mul_le_mul_of_nonneg_right h2 (by norm_num)
  have h5 : |y| * (1 + ulp) ^ n * ulp + |y| * ((1 + ulp) ^ n - 1) = |y| * ((1 + ulp) ^ (n + 1) - 1) := by
    rw [pow_succ]; ring
  unfold Approx at h ⊢
  linarith

theorem Approx.mul {n m : Nat} {x y x' y' : Rat} (h : Approx n x y) (h' : Approx m x' y') :
    Approx (n + m) (x * x') (y * y') := by
  have e : x * x' - y * y' = x * (x' - y') + (x - y) * y' := by ring
  have a := h.abs_le
  unfold Approx at *
  rw [e]
  calc |x * (x' - y') + (x - y) * y'| ≤ |x| * |x' - y'| + |x - y| * |y'| := by
        have := abs_add_le (x * (x' - y')) ((x - y) * y')
        rwa [abs_mul, abs_mul] at this
    _ ≤ |y| * (1 + ulp) ^ n * (|y'| * ((1 + ulp) ^ m - 1)) + |y| * ((1 + ulp) ^ n - 1) * |y'| := by
        refine add_le_add (mul_le_mul a h' (abs_nonneg _) ?_) (mul_le_mul_of_nonneg_right h (abs_nonneg _))
        exact mul_nonneg (abs_nonneg _) (by have := one_le_pow_ulp n; linarith)
    _ = |y * y'| * ((1 + ulp) ^ (n + m) - 1) := by rw [abs_mul, pow_add]; ring

theorem Approx.const_mul {n : Nat} {x y : Rat} (c : Rat) (h : Approx n x y) :
    Approx n (c * x) (c * y) := by
  have := (Approx.refl c).mul h
  rwa [zero_add] at this

theorem Approx.div_const {n : Nat} {x y : Rat} (c : Rat) (h : Approx n x y) :
    Approx n (x / c) (y / c) := by
  have := h.const_mul (1 / c)
  rwa [one_div_mul_eq_div, one_div_mul_eq_div] at this

theorem toFloat_approx {fp : FP} (L : fp.Laws) (n : Num) : Approx 1 (n.toFloat fp) n.val := by
  cases n with
  | int i =>
    by_cases h : i = 0
    · subst h
      have : (Num.int 0).toFloat fp = (Num.int 0).val := by simpa [Num.toFloat, Num.val] using L.zero
      rw [this]
      exact (Approx.refl _).le (by omega)
    · have := L.rel_of (q := (i : Rat)) (by
        have : (1 : Rat) ≤ |(i : Rat)| := by rw [← Int.cast_abs]; exact_mod_cast Int.one_le_abs h
        exact le_trans (by norm_num) this)
      show |fp.rnd (i : Rat) - (i : Rat)| ≤ |(i : Rat)| * ((1 + ulp) ^ 1 - 1)
      rw [show (1 + ulp) ^ 1 - 1 = ulp by ring]
      exact this
  | flt q => exact (Approx.refl _).le (by omega)

theorem div72_approx {fp : FP} (L : fp.Sharp) (n : Num) (m : Nat) (y : Rat) (h : Approx m n.val y) :
    Approx (m + 1) (n.div fp (.int 72)).val (y / 72) := by
  cases n with
  | int i => exact ((h.div_const 72).rnd L)
  | flt q =>
    have : ((Num.flt q).div fp (.int 72)).val = fp.rnd (q / 72) := by
      simp [Num.div, Num.val, Num.toFloat, rnd72 L.toLaws]
    rw [this]
    exact (h.div_const 72).rnd L

theorem Approx.bound6 {n : Nat} (hn : n ≤ 6) {x y : Rat} (h : Approx n x y) :
    |x - y| ≤ |y| * (7 * ulp) := by
  refine le_trans (h.le hn) (mul_le_mul_of_nonneg_left ?_ (abs_nonneg y))
  norm_num [ulp]

theorem round_bound {x y : Rat} (h : |x - y| ≤ |y| * (7 * ulp)) :
    |(pyRound x : Rat) / 64 - y / 64| ≤ 1 / 128 + |y / 64| * (7 * ulp) := by
  obtain ⟨a, b, _⟩ := pyRound_spec x
  have e : |y / 64| = |y| / 64 := by rw [abs_div]; norm_num
  rw [e]
  rw [_root_.abs_le] at h ⊢
  constructor <;> linarith [h.1, h.2]

end Colosseum
