import Verif.Lemmas.Pixels
import Verif.Spec.Pixels
import Verif.Spec.Units

/-!
# C05–C08, C61: resolving lengths to pixels
-/

namespace Colosseum

/-! ## C05 -/

theorem near_round {fp : FP} (L : fp.Laws) (q : Rat) :
    fp.rnd (pyRound (fp.rnd q) : Rat) = pyRound (fp.rnd q) := by
  refine L.near q _ ?_
  obtain ⟨a, b, _⟩ := pyRound_spec (fp.rnd q)
  rw [abs_lt]; constructor <;> linarith

/-- A logical unit count of a length is a float, but for huge `int` pixel magnitudes. -/
theorem lu_is_float {fp : FP} (L : fp.Laws) {k : LKind} {v : PyNum} {c : PxCtx} {l : Int}
    (hv : k = .px → ∀ i, v = .fin (.int i) → fp.rnd (i : Rat) = i) (h : luOf fp k v c = .ok l) :
    fp.rnd (l : Rat) = l := by
  obtain ⟨a, rfl⟩ := luOf_ok_fin h
  have hvp : ∀ s, luViewport fp (.fin a) s = .ok l → fp.rnd (l : Rat) = l := by
    intro s hs
    by_cases hi : a.isInt = false ∨ s.isInt = false
    · rw [luViewport_flt L a s hi] at hs; cases hs; exact near_round L _
    · rcases a with i | q <;> rcases s with j | r <;> simp [Num.isInt] at hi
      rw [luViewport_int] at hs; cases hs; exact near_round L _
  cases k <;> simp only [luOf] at h
  case px =>
    rcases a with i | q
    · rw [luPx_int] at h
      cases h
      push_cast
      rw [L.mul_64 (hv rfl i rfl)]
    · rw [luPx_flt L] at h; cases h; exact near_round L _
  case percent =>
    split at h
    · cases h
    · rw [luPercent_fin L] at h; cases h; exact near_round L _
  all_goals first
    | exact hvp _ h
    | (rw [luScaled_fin L] at h; cases h; exact near_round L _)

/-- C05, first part. Full statement: `px` is `lu / 64`, for every length. What is missing: `int`
magnitudes of plain pixels that no float equals (see `C05_false_huge_int`). -/
theorem C05_px_on_grid_partial (fp : FP) (L : fp.Laws) (k : LKind) (v : PyNum) (c : PxCtx)
    (hv : k = .px → ∀ i, v = .fin (.int i) → fp.rnd (i : Rat) = i) (n : Num)
    (h : pxOf fp k v c = .ok n) :
    ∃ l, luOf fp k v c = .ok l ∧ n.val = (l : Rat) / 64 ∧ (n.isInt = true ↔ ∃ i : Int, n.val = i) := by
  obtain ⟨l, hl, rfl⟩ := pxOf_ok h
  refine ⟨l, hl, ?_, pxOfLu_isInt fp l⟩
  rw [pxOfLu_val, L.div_64, lu_is_float L hv hl]

/-- C05, the type of the result, for every rounding: `int` exactly when integral. -/
theorem C05_px_int_iff_integral (fp : FP) (k : LKind) (v : PyNum) (c : PxCtx) (n : Num)
    (h : pxOf fp k v c = .ok n) : n.isInt = true ↔ ∃ i : Int, n.val = i := by
  obtain ⟨l, _, rfl⟩ := pxOf_ok h
  exact pxOfLu_isInt fp l

/-- `px` raises exactly when `lu` does, with the same exception. -/
theorem C05_px_error_iff (fp : FP) (k : LKind) (v : PyNum) (c : PxCtx) (e : Err) :
    pxOf fp k v c = .error e ↔ luOf fp k v c = .error e := by
  unfold pxOf
  cases luOf fp k v c <;> simp

/-- C05, plain pixels: at most 1/128 px off. -/
theorem C05_px_rounding (fp : FP) (L : fp.Laws) (a : Num) (c : PxCtx) (ha : fp.rnd a.val = a.val) :
    ∃ n, pxOf fp .px (.fin a) c = .ok n ∧ |n.val - a.val| ≤ 1 / 128 := by
  rcases a with i | q
  · refine ⟨pxOfLu fp (64 * i), rfl, ?_⟩
    rw [pxOfLu_val, L.div_64]
    push_cast
    simp only [Num.val_int, Num.val_flt] at ha ⊢
    rw [L.mul_64 ha]
    have : (64 * (i : Rat) / 64) - i = 0 := by ring
    rw [this]; norm_num
  · refine ⟨pxOfLu fp (pyRound (fp.rnd (64 * q))), by simp [pxOf, luOf, luPx_flt L], ?_⟩
    simp only [Num.val_int, Num.val_flt] at ha ⊢
    rw [pxOfLu_val, L.div_64, near_round L, L.mul_64 ha]
    obtain ⟨a1, a2, _⟩ := pyRound_spec (64 * q)
    rw [abs_le]; constructor <;> linarith

/-- C05, plain pixels on the grid are exact. -/
theorem C05_px_grid_exact (fp : FP) (L : fp.Laws) (a : Num) (c : PxCtx) (ha : fp.rnd a.val = a.val)
    (m : Int) (hm : a.val = (m : Rat) / 64) : ∃ n, pxOf fp .px (.fin a) c = .ok n ∧ n.val = a.val := by
  rcases a with i | q
  · refine ⟨pxOfLu fp (64 * i), rfl, ?_⟩
    rw [pxOfLu_val, L.div_64]
    push_cast
    simp only [Num.val_int, Num.val_flt] at ha ⊢
    rw [L.mul_64 ha]; ring
  · refine ⟨pxOfLu fp (pyRound (fp.rnd (64 * q))), by simp [pxOf, luOf, luPx_flt L], ?_⟩
    simp only [Num.val_flt] at ha hm ⊢
    rw [pxOfLu_val, L.div_64, near_round L, L.mul_64 ha]
    have : 64 * q = (m : Rat) := by rw [hm]; ring
    rw [this, pyRound_int, hm]

/-- C05 is false for `9007199254740993px` with an `int` magnitude: 64 times it is an exact `int`, but
dividing that by 64 gives the float next to it. -/
theorem C05_false_huge_int : ∃ n, pxOf .b64 .px (.fin (.int 9007199254740993)) sampleCtx = .ok n ∧
    luOf .b64 .px (.fin (.int 9007199254740993)) sampleCtx = .ok (64 * 9007199254740993) ∧
    n.val ≠ ((64 * 9007199254740993 : Int) : Rat) / 64 := by
  refine ⟨.int 9007199254740992, by decide +kernel, by decide +kernel, by decide +kernel⟩

example : ∃ n, pxOf .b64 .inch (.fin (.flt (1 / 8))) sampleCtx = .ok n ∧ n.val = 12 ∧ n.isInt = true :=
  ⟨.int 12, by decide +kernel, rfl, rfl⟩
example : pxOf .b64 .percent (.fin (.flt (1 / 3))) sampleCtx = .ok (.flt (137 / 64)) := by decide +kernel

/-! ## C06 -/

theorem held_fin {fp : FP} {q : Rat} (h : (PyNum.fin (.flt q)).Held fp) : fp.rnd q = q := h

section
variable {fp : FP} (L : fp.Laws)
include L

theorem mul_toFloat_mono {a b s : Rat} (h : a ≤ b) (hs : 0 ≤ s) :
    fp.rnd (a * s) ≤ fp.rnd (b * s) := L.mono _ _ (mul_le_mul_of_nonneg_right h hs)

theorem rnd64_mono {a b : Rat} (h : a ≤ b) : fp.rnd (64 * a) ≤ fp.rnd (64 * b) :=
  L.mono _ _ (by linarith)

theorem luScaled_mono {a b f d : Num} (h : a.val ≤ b.val) (hf : 0 ≤ f.val) (hd : 0 ≤ d.val) {l m : Int}
    (hl : luScaled fp (.fin a) f d = .ok l) (hm : luScaled fp (.fin b) f d = .ok m) : l ≤ m := by
  rw [luScaled_fin L] at hl hm
  cases hl; cases hm
  have hg : 0 ≤ (f.div fp (.int 72)).val := by
    rcases f with i | q
    · exact L.nonneg (div_nonneg hf (by norm_num))
    · simp only [Num.div, Num.toFloat, Num.val, Int.cast_ofNat, rnd72 L]
      exact L.nonneg (div_nonneg hf (by norm_num))
  exact pyRound_mono (mul_toFloat_mono L (mul_toFloat_mono L (rnd64_mono L h) hg) (toFloat_nonneg L hd))

theorem luViewport_mono {a b s : Num} (h : a.val ≤ b.val) (hab : a.isInt = b.isInt) (hs : 0 ≤ s.val)
    {l m : Int} (hl : luViewport fp (.fin a) s = .ok l) (hm : luViewport fp (.fin b) s = .ok m) :
    l ≤ m := by
  by_cases hi : a.isInt = false ∨ s.isInt = false
  · rw [luViewport_flt L a s hi] at hl
    rw [luViewport_flt L b s (by rwa [hab] at hi)] at hm
    cases hl; cases hm
    refine pyRound_mono (L.mono _ _ (div_le_div_of_nonneg_right ?_ (by norm_num)))
    exact mul_toFloat_mono L (rnd64_mono L h) (toFloat_nonneg L hs)
  · rcases a with i | q <;> rcases s with j | r <;> simp [Num.isInt] at hi
    rcases b with i' | q <;> simp [Num.isInt] at hab
    rw [luViewport_int] at hl hm
    cases hl; cases hm
    simp only [Num.val] at h hs
    refine pyRound_mono (L.mono _ _ (div_le_div_of_nonneg_right ?_ (by norm_num)))
    exact mul_le_mul_of_nonneg_right (by linarith) hs

/-- Logical units are monotone in the magnitude. -/
theorem luOf_mono {k : LKind} {a b : Num} {c : PxCtx} (hc : c.Nonneg)
    (ha : (PyNum.fin a).Held fp) (hb : (PyNum.fin b).Held fp)
    (ht : k.isViewport → a.isInt = b.isInt) (h : a.val ≤ b.val) {l m : Int}
    (hl : luOf fp k (.fin a) c = .ok l) (hm : luOf fp k (.fin b) c = .ok m) : l ≤ m := by
  have n12 : (0 : Rat) ≤ (Num.int 12).val := by norm_num [Num.val]
  have n72 : (0 : Rat) ≤ (Num.int 72).val := by norm_num [Num.val]
  have n1 : (0 : Rat) ≤ (Num.int 1).val := by norm_num [Num.val]
  have ncm : (0 : Rat) ≤ (Num.flt (fp.rnd (283465 / 10000))).val := L.nonneg (by norm_num)
  have nmm : (0 : Rat) ≤ (Num.flt (fp.rnd (283465 / 100000))).val := L.nonneg (by norm_num)
  have nmax : 0 ≤ (vmaxScale c.display).val := by
    simp only [vmaxScale, Num.pyMax]; split; exacts [hc.height, hc.width]
  have nmin : 0 ≤ (vminScale c.display).val := by
    simp only [vminScale, Num.pyMin]; split; exacts [hc.height, hc.width]
  cases k <;> simp only [luOf] at hl hm
  case px =>
    rcases a with i | q <;> rcases b with j | r
    · rw [luPx_int] at hl hm
      cases hl; cases hm
      simp only [Num.val_int, Int.cast_le] at h
      omega
    · rw [luPx_flt L] at hm
      cases hl; cases hm
      rw [L.mul_64 (held_fin hb)]
      have := pyRound_mono (a := ((64 * i : Int) : Rat)) (b := 64 * r) (by
        push_cast; simp only [Num.val] at h; linarith)
      rwa [pyRound_int] at this
    · rw [luPx_flt L] at hl
      cases hl; cases hm
      rw [L.mul_64 (held_fin ha)]
      have := pyRound_mono (b := ((64 * j : Int) : Rat)) (a := 64 * q) (by
        push_cast; simp only [Num.val] at h; linarith)
      rwa [pyRound_int] at this
    · rw [luPx_flt L] at hl hm
      cases hl; cases hm
      exact pyRound_mono (rnd64_mono L h)
  case percent =>
    split at hl
    · cases hl
    · rename_i s hs
      rw [hs] at hm
      simp only at hm
      rw [luPercent_fin L] at hl hm
      cases hl; cases hm
      refine pyRound_mono (mul_toFloat_mono L (L.mono _ _ ?_) (toFloat_nonneg L (hc.size s hs)))
      exact div_le_div_of_nonneg_right (rnd64_mono L h) (by norm_num)
  case em => exact luScaled_mono L h hc.em hc.dpi hl hm
  case ex => exact luScaled_mono L h hc.ex hc.dpi hl hm
  case ch => exact luScaled_mono L h hc.ch hc.dpi hl hm
  case pt => exact luScaled_mono L h n1 hc.dpi hl hm
  case pc => exact luScaled_mono L h n12 hc.dpi hl hm
  case inch => exact luScaled_mono L h n72 hc.dpi hl hm
  case cm => exact luScaled_mono L h ncm hc.dpi hl hm
  case mm => exact luScaled_mono L h nmm hc.dpi hl hm
  case vh => exact luViewport_mono L h (ht (by simp [LKind.isViewport])) hc.height hl hm
  case vw => exact luViewport_mono L h (ht (by simp [LKind.isViewport])) hc.width hl hm
  case vmax => exact luViewport_mono L h (ht (by simp [LKind.isViewport])) nmax hl hm
  case vmin => exact luViewport_mono L h (ht (by simp [LKind.isViewport])) nmin hl hm

end

/-- C06, monotonicity. Full statement: for every unit and all magnitudes. What is missing: comparing an
`int` with a `float` magnitude of a viewport unit (see `C06_false_mixed_viewport`). -/
theorem C06_px_monotone_partial (fp : FP) (L : fp.Laws) (k : LKind) (x y : PyNum) (c : PxCtx)
    (hc : c.Nonneg) (hx : x.Held fp) (hy : y.Held fp) (ht : k.isViewport → x.isInt = y.isInt)
    (hxy : y.pyLt x = false) (n m : Num) (hn : pxOf fp k x c = .ok n) (hm : pxOf fp k y c = .ok m) :
    n.val ≤ m.val := by
  obtain ⟨l, hl, rfl⟩ := pxOf_ok hn
  obtain ⟨l', hl', rfl⟩ := pxOf_ok hm
  obtain ⟨a, rfl⟩ := luOf_ok_fin hl
  obtain ⟨b, rfl⟩ := luOf_ok_fin hl'
  simp only [PyNum.pyLt, Num.pyLt, decide_eq_false_iff_not, not_lt] at hxy
  have := luOf_mono L hc hx hy ht hxy hl hl'
  rw [pxOfLu_val, pxOfLu_val]
  refine L.mono _ _ (div_le_div_of_nonneg_right ?_ (by norm_num))
  exact_mod_cast this

/-- C06 is false when an `int` and an equal `float` magnitude of a viewport unit are compared: the
`int` product is exact, the `float` one is rounded, and at huge magnitudes the results differ. -/
theorem C06_false_mixed_viewport :
    let c : PxCtx := ⟨⟨.int 96, .int 191, .int 768, .int 1, .int 3, .int 5⟩, sampleCtx.font, none⟩
    c.Nonneg ∧ FP.b64.rnd 4779127437726099 = 4779127437726099 ∧
      ∃ n m, pxOf .b64 .vw (.fin (.int 4779127437726099)) c = .ok n ∧
        pxOf .b64 .vw (.fin (.flt 4779127437726099)) c = .ok m ∧ m.val < n.val := by
  refine ⟨⟨by decide +kernel, by decide +kernel, by decide +kernel, by decide +kernel, by decide +kernel,
    by decide +kernel, by simp⟩, by decide +kernel, .int 9128133406056850, .int 9128133406056848, by decide +kernel,
    by decide +kernel, by decide +kernel⟩

theorem pyTrunc_neg (q : Rat) : pyTrunc (-q) = -pyTrunc q := by
  rcases lt_trichotomy q 0 with h | h | h
  · have h1 : ¬ 0 ≤ q := not_le.2 h
    have h2 : 0 ≤ -q := by linarith
    simp [pyTrunc, h1, h2]
  · subst h; rfl
  · have h1 : 0 ≤ q := le_of_lt h
    have h2 : ¬ 0 ≤ -q := by linarith
    simp only [pyTrunc, h1, h2, if_true, if_false, neg_neg]

theorem pxOfLu_neg {fp : FP} (o : fp.Odd) (l : Int) : pxOfLu fp (-l) = (pxOfLu fp l).neg := by
  have e : fp.rnd (((-l : Int) : Rat) / 64) = -fp.rnd ((l : Rat) / 64) := by
    rw [← o]; push_cast; rw [neg_div]
  simp only [pxOfLu, e, pyTrunc_neg]
  push_cast
  simp only [neg_inj]
  split <;> rfl

theorem neg_fin {fp : FP} (L : fp.Laws) {k : UKind} {a : Num} (ha : (PyNum.fin a).Held fp) :
    CUnit.neg fp ⟨k, .fin a⟩ = ⟨k, .fin a.neg⟩ := by
  have e1 : fp.rnd (-1) = -1 := by rw [L.odd, L.one]
  rcases a with i | q
  · simp [CUnit.neg, PyNum.isInt, Num.isInt, PyNum.mul, Num.mul, Num.neg]
  · simp [CUnit.neg, PyNum.isInt, Num.isInt, PyNum.mul, Num.mul, Num.neg, Num.toFloat, L.odd q,
      held_fin ha]

theorem luScaled_neg {fp : FP} (L : fp.Laws) (a f d : Num) :
    luScaled fp (.fin a.neg) f d = (luScaled fp (.fin a) f d).map (- ·) := by
  rw [luScaled_fin L, luScaled_fin L]
  simp only [Num.neg_val, mul_neg, L.odd _, neg_mul, pyRound_neg, Except.map]

theorem luViewport_neg {fp : FP} (L : fp.Laws) (a s : Num) :
    luViewport fp (.fin a.neg) s = (luViewport fp (.fin a) s).map (- ·) := by
  by_cases hi : a.isInt = false ∨ s.isInt = false
  · have hi' : a.neg.isInt = false ∨ s.isInt = false := by
      cases a <;> simpa [Num.neg, Num.isInt] using hi
    rw [luViewport_flt L _ s hi, luViewport_flt L _ s hi']
    simp only [Num.neg_val, mul_neg, L.odd _, neg_mul, neg_div, pyRound_neg, Except.map]
  · rcases a with i | q <;> rcases s with j | r <;> simp [Num.isInt] at hi
    simp only [Num.neg]
    rw [luViewport_int, luViewport_int]
    push_cast
    simp only [mul_neg, L.odd _, neg_mul, neg_div, pyRound_neg, Except.map]

/-- Two non-finite numbers of opposite sign, or both `nan`. -/
inductive Opposite : PyNum → PyNum → Prop
  | nan : Opposite .nan .nan
  | inf (b : Bool) : Opposite (.inf (!b)) (.inf b)

theorem Opposite.mul {fp : FP} {x y : PyNum} (h : Opposite x y) (n : Num) :
    Opposite (x.mul fp (.fin n)) (y.mul fp (.fin n)) := by
  cases h with
  | nan => exact .nan
  | inf b =>
    simp only [PyNum.mul]
    split
    · exact .nan
    · have := Opposite.inf (b != decide (n.val < 0))
      convert this using 2
      cases b <;> cases decide (n.val < 0) <;> rfl

theorem Opposite.div {fp : FP} {x y : PyNum} (h : Opposite x y) (n : Num) :
    Opposite (x.div fp n) (y.div fp n) := by
  cases h with
  | nan => exact .nan
  | inf b => exact .inf b

theorem Opposite.round {x y : PyNum} (h : Opposite x y) : x.round = y.round := by
  cases h <;> rfl

/-- C06, sign symmetry: `(-u).px() == -(u.px())`, and both raise or neither does. -/
theorem C06_px_neg (fp : FP) (L : fp.Laws) (u : CUnit) (c : PxCtx) (hu : u.val.Held fp) :
    (u.neg fp).px fp c = (u.px fp c).map Num.neg := by
  obtain ⟨k, v⟩ := u
  rcases k with k | k
  swap
  · rcases v with (i | q) | b | _ <;> rfl
  rcases v with a | b | _
  · rw [neg_fin L hu]
    suffices h : luOf fp k (.fin a.neg) c = (luOf fp k (.fin a) c).map (- ·) by
      simp only [CUnit.px, pxOf, h]
      cases luOf fp k (.fin a) c with
      | error e => rfl
      | ok l => simp [Except.map, pxOfLu_neg L.odd]
    cases k <;> simp only [luOf]
    case px =>
      rcases a with i | q
      · simp only [Num.neg, luPx_int, Except.map, mul_neg]
      · simp only [Num.neg, luPx_flt L, mul_neg, L.odd _, pyRound_neg, Except.map]
    case percent =>
      split
      · rfl
      · rw [luPercent_fin L, luPercent_fin L]
        simp only [Num.neg_val, mul_neg, L.odd _, neg_mul, neg_div, pyRound_neg, Except.map]
    all_goals first | exact luScaled_neg L _ _ _ | exact luViewport_neg L _ _
  · have h1 : ∀ b v, luOf fp k (.inf b) c ≠ .ok v := fun b v h => by
      obtain ⟨a, e⟩ := luOf_ok_fin h; cases e
    have h2 : luOf fp k (.inf (!b)) c = luOf fp k (.inf b) c := by
      have h64 : ∀ b, (PyNum.fin luPerPixel).mul fp (.inf b) = .inf b := by intro b; cases b <;> rfl
      have hs : ∀ f d, luScaled fp (.inf (!b)) f d = luScaled fp (.inf b) f d := fun f d => by
        simp only [luScaled, h64]
        exact (((Opposite.inf b).mul _).mul _).round
      have hv : ∀ s, luViewport fp (.inf (!b)) s = luViewport fp (.inf b) s := fun s => by
        simp only [luViewport, h64]
        exact (((Opposite.inf b).mul _).div _).round
      cases k <;> simp only [luOf, hs, hv, h64]
      case px => rfl
      case percent =>
        split
        · rfl
        · exact (((Opposite.inf b).div _).mul _).round
    have h3 : (CUnit.neg fp ⟨.len k, .inf b⟩) = ⟨.len k, .inf (!b)⟩ := by
      cases b <;> simp [CUnit.neg, PyNum.isInt, PyNum.mul, Num.val]
    rw [h3]
    simp only [CUnit.px, pxOf, h2]
    cases hl : luOf fp k (.inf b) c with
    | error e => rfl
    | ok l => exact absurd hl (h1 _ _)
  · have h3 : (CUnit.neg fp ⟨.len k, .nan⟩) = ⟨.len k, .nan⟩ := rfl
    rw [h3]
    simp only [CUnit.px, pxOf]
    cases hl : luOf fp k .nan c with
    | error e => rfl
    | ok l => obtain ⟨a, e⟩ := luOf_ok_fin hl; cases e

example : sampleCtx.Nonneg :=
  ⟨by decide +kernel, by decide +kernel, by decide +kernel, by decide +kernel, by decide +kernel,
    by decide +kernel, by simp [sampleCtx, Num.val]⟩
example : pxOf .b64 .em (.fin (.flt (-3 / 2))) sampleCtx = .ok (.int (-24)) := by decide +kernel

/-! ## C07 -/

/-- C07: `vmin` and `vmax` are `vw` or `vh`, whichever measures the smaller or larger extent. Any
rounding, any magnitude. -/
theorem C07_vmin_vmax (fp : FP) (v : PyNum) (c : PxCtx) :
    (c.display.contentWidth.val ≤ c.display.contentHeight.val →
      pxOf fp .vmin v c = pxOf fp .vw v c) ∧
    (c.display.contentHeight.val < c.display.contentWidth.val →
      pxOf fp .vmin v c = pxOf fp .vh v c ) ∧
    (c.display.contentHeight.val ≤ c.display.contentWidth.val →
      pxOf fp .vmax v c = pxOf fp .vw v c) ∧
    (c.display.contentWidth.val < c.display.contentHeight.val →
      pxOf fp .vmax v c = pxOf fp .vh v c) := by
  have lt : ∀ {a b : Num}, a.val < b.val → a.pyLt b = true := fun h => decide_eq_true h
  have ge : ∀ {a b : Num}, b.val ≤ a.val → ¬ a.pyLt b = true := fun h => by
    simpa [Num.pyLt] using h
  refine ⟨fun h => ?_, fun h => ?_, fun h => ?_, fun h => ?_⟩
  · have e : vminScale c.display = vwScale c.display := if_neg (ge h)
    simp only [pxOf, luOf, e]
  · have e : vminScale c.display = vhScale c.display := if_pos (lt h)
    simp only [pxOf, luOf, e]
  · have e : vmaxScale c.display = vwScale c.display := if_neg (ge h)
    simp only [pxOf, luOf, e]
  · have e : vmaxScale c.display = vhScale c.display := if_pos (lt h)
    simp only [pxOf, luOf, e]

/-- C07 for the physical units. Full statement: also with rounding. What is missing: with binary64
rounding the ratios only hold up to the last logical unit (see `C07_false_ratio_b64`,
`C61_px_accurate`). -/
theorem C07_physical_ratios_partial (fp : FP) (E : fp.Exact) (v : Num) (c : PxCtx) :
    pxOf fp .inch (.fin v) c = pxOf fp .pt ((PyNum.fin (.int 72)).mul fp (.fin v)) c ∧
    pxOf fp .inch (.fin v) c = pxOf fp .pc ((PyNum.fin (.int 6)).mul fp (.fin v)) c ∧
    pxOf fp .cm (.fin v) c = pxOf fp .mm ((PyNum.fin (.int 10)).mul fp (.fin v)) c := by
  have hfp : fp = .exact := by
    obtain ⟨r⟩ := fp
    have : r = fun q => q := funext E
    subst this; rfl
  subst hfp
  have hmul : ∀ (i : Int), ∃ w, (PyNum.fin (.int i)).mul .exact (.fin v) = .fin w ∧ w.val = i * v.val := by
    intro i
    rcases v with j | q
    · exact ⟨.int (i * j), rfl, by simp⟩
    · exact ⟨.flt (i * q), rfl, by simp⟩
  obtain ⟨a, ea, va⟩ := hmul 72
  obtain ⟨b, eb, vb⟩ := hmul 6
  obtain ⟨d, ed, vd⟩ := hmul 10
  have hd : ∀ i : Int, ((Num.int i).div .exact (.int 72)).val = (i : Rat) / 72 := fun i => by
    simp [Num.div, Num.val, FP.exact]
  have hd' : ∀ q : Rat, ((Num.flt q).div .exact (.int 72)).val = q / 72 := fun i => by
    simp [Num.div, Num.val, FP.exact, Num.toFloat]
  rw [ea, eb, ed]
  simp only [pxOf, luOf, luScaled_fin exact_laws, va, vb, vd, hd, hd']
  refine ⟨?_, ?_, ?_⟩
  all_goals
    simp only [FP.exact]
    congr 4
    push_cast
    ring

/-- C07 is false with binary64 rounding: 0.7059375in and 6 * 0.7059375pc at 25 dpi. -/
theorem C07_false_ratio_b64 : ∃ q : Rat, FP.b64.rnd q = q ∧
    ∃ c : PxCtx, pxOf .b64 .inch (.fin (.flt q)) c
      ≠ pxOf .b64 .pc ((PyNum.fin (.int 6)).mul .b64 (.fin (.flt q))) c := by
  refine ⟨FP.b64.rnd (7059375 / 10000000), b64_laws.idem _,
    ⟨⟨.int 25, .int 1024, .int 768, .int 1, .int 3, .int 5⟩, sampleCtx.font, none⟩, ?_⟩
  decide +kernel

example : pxOf .exact .inch (.fin (.flt (1 / 3))) sampleCtx = .ok (.int 32) := by decide +kernel

/-! ## C61 -/

/-- C61: every length resolves to the number of pixels CSS prescribes, up to half a logical unit
(1/128 px) and a relative error of 7 ulp; for centimetres and millimetres the relative error is two
millionths, because the code uses 28.3465 points per centimetre. -/
theorem C61_px_accurate (fp : FP) (S : fp.Sharp) (k : LKind) (a : Num) (c : PxCtx) (n : Num) (p : Rat)
    (hn : pxOf fp k (.fin a) c = .ok n) (hp : CssPixels c k a.val p) :
    |n.val - p| ≤ 1 / 128 + |p| * (if k = .cm ∨ k = .mm then 2 / 10 ^ 6 else 7 / 2 ^ 53) := by
  have L := S.toLaws
  obtain ⟨l, hl, rfl⟩ := pxOf_ok hn
  have u7 : (7 : Rat) / 2 ^ 53 = 7 * ulp := by norm_num [ulp]
  -- every unit but plain pixels
  have fin : ∀ x y : Rat, ∀ m, m ≤ 6 → y = 64 * p → l = pyRound x → (∃ z, x = fp.rnd z) → Approx m x y →
      |(pxOfLu fp l).val - p| ≤ 1 / 128 + |p| * (7 / 2 ^ 53) := by
    rintro x y m hm rfl rfl ⟨z, rfl⟩ hA
    have := round_bound (hA.bound6 hm)
    rw [show (64 * p / 64) = p by ring] at this
    rw [pxOfLu_val, L.div_64, near_round L, u7]
    exact this
  have loosen : |(pxOfLu fp l).val - p| ≤ 1 / 128 + |p| * (7 / 2 ^ 53) →
      |(pxOfLu fp l).val - p| ≤ 1 / 128 + |p| * (if k = .cm ∨ k = .mm then 2 / 10 ^ 6 else 7 / 2 ^ 53) := by
    intro h
    split
    · refine le_trans h ?_
      have : |p| * (7 / 2 ^ 53) ≤ |p| * (2 / 10 ^ 6) :=
        mul_le_mul_of_nonneg_left (by norm_num) (abs_nonneg p)
      linarith
    · exact h
  have h64 : Approx 1 (fp.rnd (64 * a.val)) (64 * a.val) := (Approx.refl _).rnd S
  -- the scaled units
  have sc : ∀ (f : Num) (m : Nat) (q : Rat), m ≤ 1 → Approx m f.val q →
      luScaled fp (.fin a) f c.display.dpi = .ok l → p = a.val * q / 72 * c.display.dpi.val →
      |(pxOfLu fp l).val - p| ≤ 1 / 128 + |p| * (7 / 2 ^ 53) := by
    intro f m q hm hf hlu hpp
    rw [luScaled_fin L] at hlu
    cases hlu
    have A := (((h64.mul (div72_approx S f m q hf)).rnd S).mul (toFloat_approx L c.display.dpi)).rnd S
    exact fin _ _ _ (by omega) (by rw [hpp]; ring) rfl ⟨_, rfl⟩ A
  have vp : ∀ (s : Num) (q : Rat), s.val = q → luViewport fp (.fin a) s = .ok l → p = a.val * q / 100 →
      |(pxOfLu fp l).val - p| ≤ 1 / 128 + |p| * (7 / 2 ^ 53) := by
    rintro s _ rfl hlu hpp
    by_cases hi : a.isInt = false ∨ s.isInt = false
    · rw [luViewport_flt L a s hi] at hlu
      cases hlu
      have A := (((h64.mul (toFloat_approx L s)).rnd S).div_const 100).rnd S
      exact fin _ _ _ (by omega) (by rw [hpp]; ring) rfl ⟨_, rfl⟩ A
    · rcases a with i | q <;> rcases s with j | r <;> simp [Num.isInt] at hi
      rw [luViewport_int] at hlu
      cases hlu
      have A := (Approx.refl (64 * (i : Rat) * j / 100)).rnd S
      exact fin _ _ _ (by omega) (by rw [hpp]; simp only [Num.val]; ring) rfl ⟨_, rfl⟩ A
  have rf : ∀ q : Rat, Approx 0 q q := Approx.refl
  cases hp with
  | px v =>
    apply loosen
    rcases a with i | q
    · simp only [luOf, luPx_int] at hl
      cases hl
      have A := ((Approx.refl (i : Rat)).rnd S).bound6 (by omega)
      rw [pxOfLu_val, L.div_64]
      push_cast
      rw [L.mul_64_int, show 64 * fp.rnd (i : Rat) / 64 = fp.rnd (i : Rat) by ring, u7]
      simp only [Num.val_int]
      linarith
    · simp only [luOf, luPx_flt L] at hl
      cases hl
      exact fin _ _ _ (by omega) rfl rfl ⟨_, rfl⟩ h64
  | points _ _ q hq =>
    have cmmm : ∀ (d : Rat), 0 < d → k = .cm ∨ k = .mm →
        luScaled fp (.fin a) (.flt (fp.rnd (283465 / d))) c.display.dpi = .ok l →
        q = 72 * 10000 / 254 * 100 / d →
        |(pxOfLu fp l).val - a.val * q / 72 * c.display.dpi.val| ≤ 1 / 128 +
          |a.val * q / 72 * c.display.dpi.val| *
            (if k = .cm ∨ k = .mm then 2 / 10 ^ 6 else 7 / 2 ^ 53) := by
      intro d hd hk hlu hq
      rw [if_pos hk]
      have hd' : d ≠ 0 := ne_of_gt hd
      rw [luScaled_fin L] at hlu
      cases hlu
      have A := (((h64.mul (div72_approx S (.flt (fp.rnd (283465 / d))) 1 _
        ((rf (283465 / d)).rnd S))).rnd S).mul (toFloat_approx L c.display.dpi)).rnd S
      have B := round_bound (A.bound6 (by omega))
      rw [pxOfLu_val, L.div_64, near_round L]
      set P : Rat := a.val * q / 72 * c.display.dpi.val with hP
      have eP : 64 * a.val * (283465 / d / 72) * c.display.dpi.val / 64 = P * (283465 * 254 / 72000000) := by
        rw [hP, hq]; field_simp; ring
      rw [eP, abs_mul] at B
      have t := abs_sub_le
        ((pyRound (fp.rnd (fp.rnd (fp.rnd (64 * a.val) *
          ((Num.flt (fp.rnd (283465 / d))).div fp (.int 72)).val) * c.display.dpi.toFloat fp)) : Rat) / 64)
        (P * (283465 * 254 / 72000000)) P
      have t2 : |P * (283465 * 254 / 72000000) - P| = |P| * (283465 * 254 / 72000000 - 1) := by
        rw [show P * (283465 * 254 / 72000000) - P = P * (283465 * 254 / 72000000 - 1) by ring, abs_mul]
        congr 1
        norm_num [abs_of_pos]
      have t3 : |(283465 * 254 / 72000000 : Rat)| = 283465 * 254 / 72000000 := by norm_num [abs_of_pos]
      rw [t3] at B
      have t4 : |P| * (283465 * 254 / 72000000) * (7 * ulp) + |P| * (283465 * 254 / 72000000 - 1)
          ≤ |P| * (2 / 10 ^ 6) := by
        rw [mul_assoc, ← mul_add]
        refine mul_le_mul_of_nonneg_left ?_ (abs_nonneg _)
        norm_num [ulp]
      linarith
    cases k <;> simp only [cssPoints] at hq <;> simp only [luOf] at hl <;> cases hq
    case points.em.refl => exact loosen (sc _ 0 _ (by omega) (rf _) hl rfl)
    case points.ex.refl => exact loosen (sc _ 0 _ (by omega) (rf _) hl rfl)
    case points.ch.refl => exact loosen (sc _ 0 _ (by omega) (rf _) hl rfl)
    case points.pt.refl => exact loosen (sc _ 0 1 (by omega) (by simpa using rf 1) hl rfl)
    case points.pc.refl => exact loosen (sc _ 0 _ (by omega) (by norm_num [Num.val]; exact rf 12) hl rfl)
    case points.inch.refl => exact loosen (sc _ 0 72 (by omega) (by simpa using rf 72) hl rfl)
    case points.cm.refl => exact cmmm 10000 (by norm_num) (by simp) hl (by norm_num)
    case points.mm.refl => exact cmmm 100000 (by norm_num) (by simp) hl (by norm_num)
  | extent _ _ e he =>
    apply loosen
    cases k <;> simp only [cssExtent] at he <;> simp only [luOf] at hl <;> cases he
    case extent.vh.refl => exact vp _ _ rfl hl rfl
    case extent.vw.refl => exact vp _ _ rfl hl rfl
    case extent.vmax.refl => exact vp _ _ (Num.pyMax_val _ _) hl rfl
    case extent.vmin.refl => exact vp _ _ (Num.pyMin_val _ _) hl rfl
  | percent _ s hs =>
    apply loosen
    simp only [luOf, hs] at hl
    rw [luPercent_fin L] at hl
    cases hl
    have A := ((((h64.div_const 100).rnd S).mul (toFloat_approx L s)).rnd S)
    exact fin _ _ _ (by omega) (by ring) rfl ⟨_, rfl⟩ A

/-- C61: with a finite magnitude and a known containing size, resolving never raises. -/
theorem C61_px_total (fp : FP) (k : LKind) (a : Num) (c : PxCtx)
    (h : k = .percent → c.size ≠ none) : ∃ n, pxOf fp k (.fin a) c = .ok n := by
  suffices ∃ l, luOf fp k (.fin a) c = .ok l by
    obtain ⟨l, hl⟩ := this
    exact ⟨pxOfLu fp l, by simp [pxOf, hl]⟩
  have vp : ∀ s, ∃ l, luViewport fp (.fin a) s = .ok l := fun s => ⟨_, rfl⟩
  have sc : ∀ f d, ∃ l, luScaled fp (.fin a) f d = .ok l := fun f d => ⟨_, rfl⟩
  cases k <;> simp only [luOf]
  case px => exact ⟨_, rfl⟩
  case percent =>
    cases hs : c.size with
    | none => exact absurd hs (h rfl)
    | some s => exact ⟨_, rfl⟩
  all_goals first | exact vp _ | exact sc _ _

/-- 2.54cm at 96 dpi is 96 pixels to within the bound. -/
example : CssPixels sampleCtx .cm (Num.flt (254 / 100)).val 96 := by
  have := CssPixels.points (c := sampleCtx) .cm (Num.flt (254 / 100)).val _ rfl
  convert this using 1
  norm_num [Num.val, sampleCtx]

/-! ## C08 -/

/-- C08: `p%` of a size, in exact arithmetic. Full statement: also with rounding. What is missing: with
binary64 the bound is exceeded near ties (see `C08_false_b64`), and `C61_px_accurate` gives the bound
that holds. -/
theorem C08_percent_proportional_partial (fp : FP) (E : fp.Exact) (p s : Num) (c : PxCtx)
    (hs : c.size = some s) :
    ∃ n, pxOf fp .percent (.fin p) c = .ok n ∧ |n.val - s.val * p.val / 100| ≤ 1 / 128 := by
  have hfp : fp = .exact := by
    obtain ⟨r⟩ := fp
    have : r = fun q => q := funext E
    subst this; rfl
  subst hfp
  refine ⟨pxOfLu .exact (pyRound (64 * p.val / 100 * s.val)), ?_, ?_⟩
  · simp only [pxOf, luOf, hs]
    rw [luPercent_fin exact_laws]
    cases s <;> rfl
  · rw [pxOfLu_val]
    simp only [FP.exact]
    obtain ⟨a, b, _⟩ := pyRound_spec (64 * p.val / 100 * s.val)
    rw [abs_le]; constructor <;> linarith

/-- C08 for any rounding with a bounded relative error: within 1/128 px and 7 ulp. -/
theorem C08_percent_rounded (fp : FP) (S : fp.Sharp) (p s : Num) (c : PxCtx) (hs : c.size = some s) :
    ∃ n, pxOf fp .percent (.fin p) c = .ok n ∧
      |n.val - s.val * p.val / 100| ≤ 1 / 128 + |s.val * p.val / 100| * (7 / 2 ^ 53) := by
  obtain ⟨n, hn⟩ := C61_px_total fp .percent p c (by simp [hs])
  refine ⟨n, hn, ?_⟩
  have := C61_px_accurate fp S .percent p c n _ hn (.percent _ s hs)
  rw [mul_comm s.val]
  simpa using this

/-- C08 is false with binary64: 0.1% of 7.8125px is 0, although 0.1 is slightly more than 1/10. -/
theorem C08_false_b64 :
    let c : PxCtx := { sampleCtx with size := some (.flt (78125 / 10000)) }
    let p := FP.b64.rnd (1 / 10)
    ∃ n, pxOf .b64 .percent (.fin (.flt p)) c = .ok n ∧ 1 / 128 < |n.val - 78125 / 10000 * p / 100| := by
  refine ⟨.int 0, by decide +kernel, by decide +kernel⟩

/-- C08: 0% is zero. -/
theorem C08_percent_zero (fp : FP) (L : fp.Laws) (p s : Num) (c : PxCtx) (hs : c.size = some s)
    (hp : p.val = 0) : pxOf fp .percent (.fin p) c = .ok (.int 0) := by
  simp only [pxOf, luOf, hs]
  rw [luPercent_fin L]
  have h0 : pyRound 0 = 0 := by have := pyRound_int 0; simpa using this
  have t0 : pyTrunc 0 = 0 := by have := pyTrunc_int 0; simpa using this
  simp [hp, L.zero, h0, pxOfLu, t0]

/-- C08: 100% of a size on the layout grid is that size. -/
theorem C08_percent_hundred (fp : FP) (L : fp.Laws) (p s : Num) (c : PxCtx) (hs : c.size = some s)
    (hp : p.val = 100) (m : Int) (hm : s.val = (m : Rat) / 64) (hr : fp.rnd s.val = s.val) :
    ∃ n, pxOf fp .percent (.fin p) c = .ok n ∧ n.val = s.val := by
  refine ⟨pxOfLu fp m, ?_, ?_⟩
  · simp only [pxOf, luOf, hs]
    rw [luPercent_fin L]
    have e1 : fp.rnd (64 * p.val) = 6400 := by
      rw [hp, L.mul_64 (rnd100 L)]; norm_num
    have e2 : fp.rnd (6400 / 100) = 64 := by norm_num; exact rnd64 L
    have e3 : s.toFloat fp = s.val := by
      cases s with
      | int i => exact hr
      | flt q => rfl
    rw [e1, e2, e3, L.mul_64 hr, hm]
    have : 64 * ((m : Rat) / 64) = m := by ring
    rw [this, pyRound_int]
  · rw [pxOfLu_val, ← hm, hr]

/-- C08: a percentage of an unknown size raises `TypeError`. -/
theorem C08_percent_none (fp : FP) (p : PyNum) (c : PxCtx) (hs : c.size = none) :
    pxOf fp .percent p c = .error .type := by
  simp [pxOf, luOf, hs]

example : pxOf .b64 .percent (.fin (.int 100)) sampleCtx = .ok (.int 640) := by decide +kernel

end Colosseum
