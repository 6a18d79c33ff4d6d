import Verif.Lemmas.Angles
import Verif.Lemmas.Repr

/-!
# C92: angles in degrees
-/

namespace Colosseum

theorem angleDeg_fin (fp : FP) (k : AKind) (n : Num) : ∃ r : Num, angleDeg fp k (.fin n) = .ok (.fin r) ∧ r.val = (n.mul fp (k.scale fp)).val ∧
    ((∃ i : Int, r.val = i) → ∃ i, r = .int i) := by
  unfold angleDeg
  simp only [PyNum.mul]
  generalize n.mul fp (k.scale fp) = m
  refine ⟨_, rfl, ?_, ?_⟩
  · split
    · rename_i h; exact h.symm
    · rfl
  · rintro ⟨i, hi⟩
    split
    · exact ⟨_, rfl⟩
    · rename_i h
      rw [if_neg h] at hi
      cases m with
      | int j => exact ⟨j, rfl⟩
      | flt q =>
        refine absurd ?_ h
        show q = ((pyTrunc q : Int) : Rat)
        rw [show q = (i : Rat) from hi, pyTrunc_int]

/-- **C92.** `deg()` of a finite angle is a finite number that is the angle in degrees up to a relative error of 2^-51, in every arithmetic with correctly
rounded operations; if it is a whole number it is an `int`. -/
theorem C92_degrees {fp : FP} (S : fp.Sharp) (k : AKind) (n : Num) : ∃ r : Num, angleDeg fp k (.fin n) = .ok (.fin r) ∧
    |(r.val : ℝ) - k.degrees n.val| ≤ |k.degrees n.val| * (1 / 2 ^ 51) ∧ ((∃ i : Int, r.val = i) → ∃ i, r = .int i) := by
  have L := S.toLaws
  obtain ⟨r, h1, h2, h3⟩ := angleDeg_fin fp k n
  refine ⟨r, h1, ?_, h3⟩
  rw [h2, degrees_mul]
  have key : |((fp.rnd (n.toFloat fp * (k.scale fp).toFloat fp) : Rat) : ℝ) - (n.val : ℝ) * k.degrees 1| ≤ |(n.val : ℝ) * k.degrees 1| * (4 * (1 / 2 ^ 53)) := by
    refine product_error (x := (n.toFloat fp : ℝ)) (s := ((k.scale fp).toFloat fp : ℝ)) (by norm_num) (by norm_num) (degrees_one_pos k) (toFloat_error L n)
      (scale_error L k) ?_
    have := S.rel (n.toFloat fp * (k.scale fp).toFloat fp)
    have := (Rat.cast_le (K := ℝ)).2 this
    push_cast at this
    exact this
  rw [show (4 * (1 / 2 ^ 53) : ℝ) = 1 / 2 ^ 51 by norm_num] at key
  have exact_ : ∀ i j : Int, (j : ℝ) = k.degrees 1 → |(((Num.int i).mul fp (.int j)).val : ℝ) - ((Num.int i).val : ℝ) * k.degrees 1| ≤
      |((Num.int i).val : ℝ) * k.degrees 1| * (1 / 2 ^ 51) := by
    intro i j hj
    have : (((Num.int i).mul fp (.int j)).val : ℝ) - ((Num.int i).val : ℝ) * k.degrees 1 = 0 := by
      rw [← hj]
      show ((((i * j : Int) : Rat)) : ℝ) - ((i : Rat) : ℝ) * _ = 0
      push_cast
      ring
    rw [this, abs_zero]
    positivity
  cases n with
  | flt q => cases k <;> exact key
  | int i =>
    cases k with
    | deg => exact exact_ i 1 (by norm_num [AKind.degrees, AKind.circle])
    | turn => exact exact_ i 360 (by norm_num [AKind.degrees, AKind.circle])
    | grad => exact key
    | rad => exact key

/-- **C92.** Degrees stay what they are, and whole numbers of turns are whole numbers of degrees, without any error. -/
theorem C92_whole (fp : FP) (i : Int) : angleDeg fp .deg (.fin (.int i)) = .ok (.fin (.int i)) ∧
    angleDeg fp .turn (.fin (.int i)) = .ok (.fin (.int (360 * i))) := by
  constructor
  · show Except.ok (PyNum.fin (if ((i * 1 : Int) : Rat) = ((i * 1 : Int) : Rat) then .int (i * 1) else _)) = _
    rw [if_pos rfl, mul_one]
  · show Except.ok (PyNum.fin (if ((i * 360 : Int) : Rat) = ((i * 360 : Int) : Rat) then .int (i * 360) else _)) = _
    rw [if_pos rfl, mul_comm]

/-- **C92.** Ten gradians are nine degrees, without any error, although 0.9 is not a double: as far as the numbers of degrees are doubles. -/
theorem C92_gradians (i : Int) (h : (9 * i).natAbs ≤ 2 ^ 53) (h' : (10 * i).natAbs ≤ 2 ^ 53) :
    angleDeg .b64 .grad (.fin (.int (10 * i))) = .ok (.fin (.int (9 * i))) := by
  have e9 : round53 (9 / 10) = 8106479329266893 / 9007199254740992 := by
    refine round53_close (by norm_num) ?_ (by norm_num) (by norm_num)
    have := round53_fix 8106479329266893 (-53) (by norm_num)
    norm_num at this
    exact this
  have pos : ∀ j : Int, 0 < j → (9 * j).natAbs ≤ 2 ^ 53 → round53 (((10 * j : Int) : Rat) * (8106479329266893 / 9007199254740992)) = ((9 * j : Int) : Rat) := by
    intro j hj hj'
    have hq : (0 : Rat) < (j : Rat) := by exact_mod_cast hj
    refine round53_close (by push_cast; linarith) (b64_laws.small _ hj') ?_ ?_
    · push_cast; norm_num; linarith
    · push_cast; norm_num; linarith
  have e : round53 (((10 * i : Int) : Rat) * (8106479329266893 / 9007199254740992)) = ((9 * i : Int) : Rat) := by
    rcases lt_trichotomy i 0 with hi | rfl | hi
    · have := pos (-i) (by omega) (by omega)
      have e1 : (((10 * i : Int) : Rat) * (8106479329266893 / 9007199254740992)) = -((((10 * -i : Int) : Rat)) * (8106479329266893 / 9007199254740992)) := by
        push_cast; ring
      rw [e1, round53_neg, this]
      push_cast; ring
    · norm_num [round53_zero]
    · exact pos i hi h
  obtain ⟨r, h1, h2, h3⟩ := angleDeg_fin .b64 .grad (.int (10 * i))
  have hv : r.val = ((9 * i : Int) : Rat) := by
    rw [h2]
    show round53 (round53 ((10 * i : Int) : Rat) * round53 (9 / 10)) = _
    rw [e9, show round53 ((10 * i : Int) : Rat) = ((10 * i : Int) : Rat) from b64_laws.small _ h', e]
  obtain ⟨j, rfl⟩ := h3 ⟨_, hv⟩
  rw [h1]
  have : j = 9 * i := Int.cast_injective (α := Rat) hv
  rw [this]

/-- Both `int`, or both `float`. -/
def Num.sameType : Num → Num → Prop
  | .int _, .int _ => True
  | .flt _, .flt _ => True
  | _, _ => False

/-- **C92.** More of a unit is not less in degrees, for two `int`s or two `float`s. -/
theorem C92_mono {fp : FP} (L : fp.Laws) (k : AKind) {n m : Num} (ht : n.sameType m) (h : n.val ≤ m.val) :
    ∃ r s : Num, angleDeg fp k (.fin n) = .ok (.fin r) ∧ angleDeg fp k (.fin m) = .ok (.fin s) ∧ r.val ≤ s.val := by
  obtain ⟨r, h1, h2, _⟩ := angleDeg_fin fp k n
  obtain ⟨s, h3, h4, _⟩ := angleDeg_fin fp k m
  refine ⟨r, s, h1, h3, ?_⟩
  rw [h2, h4]
  have hp : 0 ≤ (k.scale fp).toFloat fp := by
    have z : fp.rnd 0 = 0 := by exact_mod_cast L.small 0 (by norm_num)
    have nn : ∀ q : Rat, 0 ≤ q → 0 ≤ fp.rnd q := fun q hq => z ▸ L.mono 0 q hq
    cases k with
    | deg => exact nn _ (by norm_num)
    | grad => exact nn _ (by norm_num)
    | rad => exact nn _ (by norm_num [mathPi])
    | turn => exact nn _ (by norm_num)
  have key : n.toFloat fp ≤ m.toFloat fp → fp.rnd (n.toFloat fp * (k.scale fp).toFloat fp) ≤ fp.rnd (m.toFloat fp * (k.scale fp).toFloat fp) :=
    fun h => L.mono _ _ (mul_le_mul_of_nonneg_right h hp)
  cases n with
  | flt q =>
    cases m with
    | int j => exact ht.elim
    | flt q' => cases k <;> exact key h
  | int i =>
    cases m with
    | flt q' => exact ht.elim
    | int j =>
      have hij : (i : Rat) ≤ j := h
      have hf : (Num.int i).toFloat fp ≤ (Num.int j).toFloat fp := L.mono _ _ h
      cases k with
      | deg =>
        show ((i * 1 : Int) : Rat) ≤ ((j * 1 : Int) : Rat)
        push_cast; linarith
      | turn =>
        show ((i * 360 : Int) : Rat) ≤ ((j * 360 : Int) : Rat)
        push_cast; linarith
      | grad => exact key hf
      | rad => exact key hf

/-- **C92.** Turning the other way gives the opposite number. -/
theorem C92_opposite {fp : FP} (L : fp.Laws) (k : AKind) (n : Num) :
    ∃ r s : Num, angleDeg fp k (.fin n) = .ok (.fin r) ∧ angleDeg fp k (.fin n.neg) = .ok (.fin s) ∧ s.val = -r.val := by
  obtain ⟨r, h1, h2, _⟩ := angleDeg_fin fp k n
  obtain ⟨s, h3, h4, _⟩ := angleDeg_fin fp k n.neg
  refine ⟨r, s, h1, h3, ?_⟩
  rw [h2, h4]
  have hn : n.neg.toFloat fp = -n.toFloat fp := by
    cases n with
    | int i =>
      show fp.rnd ((-i : Int) : Rat) = -fp.rnd (i : Rat)
      rw [← L.odd]; push_cast; rfl
    | flt q => rfl
  have key : fp.rnd (n.neg.toFloat fp * (k.scale fp).toFloat fp) = -fp.rnd (n.toFloat fp * (k.scale fp).toFloat fp) := by
    rw [hn, neg_mul, L.odd]
  cases n with
  | flt q => cases k <;> exact key
  | int i =>
    cases k with
    | deg =>
      show ((-i * 1 : Int) : Rat) = -((i * 1 : Int) : Rat)
      push_cast; ring
    | turn =>
      show ((-i * 360 : Int) : Rat) = -((i * 360 : Int) : Rat)
      push_cast; ring
    | grad => exact key
    | rad => exact key

/-- **C92.** Infinite and undefined angles have no degrees: `OverflowError` and `ValueError`. -/
theorem C92_infinite (fp : FP) (L : fp.Laws) (k : AKind) (b : Bool) : angleDeg fp k (.inf b) = .error .overflow ∧ angleDeg fp k .nan = .error .value := by
  have hp : (k.scale fp).val ≠ 0 := by
    have hr : ∀ q : Rat, 1 / 2 ^ 100 ≤ q → fp.rnd q ≠ 0 := by
      intro q hq e
      have h0 : 0 < q := lt_of_lt_of_le (by norm_num) hq
      have := L.rel_of (q := q) (by rw [abs_of_pos h0]; exact hq)
      rw [e, zero_sub, abs_neg, abs_of_pos h0] at this
      norm_num at this
      linarith
    cases k with
    | deg => show ((1 : Int) : Rat) ≠ 0; norm_num
    | grad => exact hr _ (by norm_num)
    | rad => exact hr _ (by norm_num [mathPi])
    | turn => show ((360 : Int) : Rat) ≠ 0; norm_num
  refine ⟨?_, rfl⟩
  unfold angleDeg
  simp only [PyNum.mul, if_neg hp]

/-- 400 gradians, half a turn, and π to fifteen digits, with binary64 numbers. -/
example : angleDeg .b64 .grad (.fin (.int 400)) = .ok (.fin (.int 360)) ∧ angleDeg .b64 .turn (.fin (.flt (1 / 2))) = .ok (.fin (.int 180)) ∧
    angleDeg .b64 .rad (.fin (.flt mathPi)) = .ok (.fin (.int 180)) := by
  refine ⟨?_, ?_, ?_⟩ <;> decide +kernel

end Colosseum
