import Verif.Model.Arith
import Verif.Props.Pixels

/-!
# C104: the products by which callers write lengths
-/

namespace Colosseum

/-- The number `-x`. -/
def PyNum.opposite : PyNum → PyNum
  | .fin (.int i) => .fin (.int (-i))
  | .fin (.flt q) => .fin (.flt (-q))
  | .inf s => .inf !s
  | .nan => .nan

/-- `-u` only changes the magnitude, to its opposite. -/
theorem C104_neg (fp : FP) (L : fp.Laws) (u : CUnit) (hu : u.val.Held fp) :
    u.neg fp = ⟨u.kind, u.val.opposite⟩ := by
  obtain ⟨k, (i | q) | b | _⟩ := u
  · rw [neg_fin L hu]; rfl
  · rw [neg_fin L hu]; rfl
  · cases b <;> simp [CUnit.neg, PyNum.isInt, PyNum.mul, PyNum.opposite, Num.val]
  · simp [CUnit.neg, PyNum.isInt, PyNum.mul, PyNum.opposite]

theorem PyNum.Held.opposite {fp : FP} (L : fp.Laws) {x : PyNum} (h : x.Held fp) : x.opposite.Held fp := by
  rcases x with (i | q) | b | _
  · trivial
  · show fp.rnd (-q) = -q
    rw [L.odd, show fp.rnd q = q from h]
  · trivial
  · trivial

theorem PyNum.opposite_opposite (x : PyNum) : x.opposite.opposite = x := by
  rcases x with (i | q) | b | _ <;> simp [PyNum.opposite]

/-- A number times a unit is a unit of the same kind: whole numbers multiply exactly, and otherwise the
magnitude is the float next to the exact product of the two numbers (each one a float can hold). -/
theorem C104_scale (fp : FP) (x : PyNum) (u : CUnit) :
    ∃ w, timesUnit fp (.num x) u = .ok (.unit w) ∧ w.kind = u.kind ∧
      (∀ i j, x = .fin (.int i) → u.val = .fin (.int j) → w.val = .fin (.int (i * j))) ∧
      (∀ a b, x = .fin a → u.val = .fin b → ¬ (a.isInt = true ∧ b.isInt = true) →
        fp.rnd a.val = a.val → fp.rnd b.val = b.val → w.val = .fin (.flt (fp.rnd (a.val * b.val)))) := by
  refine ⟨_, rfl, rfl, ?_, ?_⟩
  · rintro i j rfl hu
    simp [CUnit.rmul, hu, PyNum.mul, Num.mul, mul_comm]
  · rintro a b rfl hu h ha hb
    rcases a with i | p <;> rcases b with j | q
    · exact absurd ⟨rfl, rfl⟩ h
    all_goals
      simp only [Num.val] at ha hb
      simp [CUnit.rmul, hu, PyNum.mul, Num.mul, Num.toFloat, Num.val, ha, hb, mul_comm]

/-- `1 * u` is `u`, `(-1) * u` is `-u` and `-(-u)` is `u`. -/
theorem C104_one (fp : FP) (L : fp.Laws) (u : CUnit) (hu : u.val.Held fp) :
    u.rmul fp (.fin (.int 1)) = u ∧ u.rmul fp (.fin (.int (-1))) = u.neg fp ∧ (u.neg fp).neg fp = u := by
  have e1 : fp.rnd (-1) = -1 := by rw [L.odd, L.one]
  refine ⟨?_, ?_, ?_⟩
  · obtain ⟨k, (i | q) | b | _⟩ := u
    · simp [CUnit.rmul, PyNum.mul, Num.mul]
    · simp [CUnit.rmul, PyNum.mul, Num.mul, Num.toFloat, L.one, show fp.rnd q = q from hu]
    · cases b <;> simp [CUnit.rmul, PyNum.mul, Num.val]
    · simp [CUnit.rmul, PyNum.mul]
  · rw [C104_neg fp L u hu]
    obtain ⟨k, (i | q) | b | _⟩ := u
    · simp [CUnit.rmul, PyNum.mul, Num.mul, PyNum.opposite]
    · simp [CUnit.rmul, PyNum.mul, Num.mul, Num.toFloat, e1, PyNum.opposite, L.odd q, show fp.rnd q = q from hu]
    · cases b <;> simp [CUnit.rmul, PyNum.mul, Num.val, PyNum.opposite]
    · simp [CUnit.rmul, PyNum.mul, PyNum.opposite]
  · rw [C104_neg fp L u hu, C104_neg fp L _ (PyNum.Held.opposite L hu)]
    simp [PyNum.opposite_opposite]

/-- The product `a * b` is held. -/
theorem mul_held {fp : FP} (L : fp.Laws) (a b : PyNum) : (a.mul fp b).Held fp := by
  rcases a with (i | p) | s | _ <;> rcases b with (j | q) | t | _ <;> simp only [PyNum.mul, Num.mul] <;>
    (try split) <;> first | trivial | exact L.idem _

theorem mul_opposite_left {fp : FP} (L : fp.Laws) (a b : PyNum) :
    a.opposite.mul fp b = (a.mul fp b).opposite := by
  have key : ∀ (r : Rat) (t : Bool), r ≠ 0 →
      (PyNum.inf (t != decide (-r < 0)) : PyNum) = .inf (!(t != decide (r < 0))) := by
    intro r t h
    rcases lt_or_gt_of_ne h with h | h
    · simp [h, not_lt.2 h.le]
    · simp [h, not_lt.2 h.le]
  rcases a with (i | p) | s | _ <;> rcases b with (j | q) | t | _ <;>
    simp only [PyNum.opposite, PyNum.mul, Num.mul, Num.toFloat, Num.val, neg_mul, L.odd _, Int.cast_neg,
      neg_eq_zero, Bool.not_bne]
  case fin.int.inf =>
    by_cases h : (i : Rat) = 0
    · simp [h]
    · simp only [h, if_false]; exact key _ _ h
  case fin.flt.inf =>
    by_cases h : p = 0
    · simp [h]
    · simp only [h, if_false]; exact key _ _ h
  case inf.fin.int =>
    by_cases h : (j : Rat) = 0
    · simp [h]
    · simp [h]
  case inf.fin.flt =>
    by_cases h : q = 0
    · simp [h]
    · simp [h]

theorem PyNum.mul_comm (fp : FP) (a b : PyNum) : a.mul fp b = b.mul fp a := by
  rcases a with (i | p) | s | _ <;> rcases b with (j | q) | t | _ <;>
    simp [PyNum.mul, Num.mul, _root_.mul_comm]
  cases s <;> cases t <;> rfl

/-- The sign of a product is that of either factor: `(-x) * u` and `x * (-u)` are both `-(x * u)`. -/
theorem C104_sign (fp : FP) (L : fp.Laws) (x : PyNum) (u : CUnit) (hu : u.val.Held fp) :
    u.rmul fp x.opposite = (u.rmul fp x).neg fp ∧ (u.neg fp).rmul fp x = (u.rmul fp x).neg fp := by
  rw [C104_neg fp L (u.rmul fp x) (mul_held L _ _), C104_neg fp L u hu]
  constructor
  · simp [CUnit.rmul, PyNum.mul_comm fp u.val, mul_opposite_left L]
  · simp [CUnit.rmul, mul_opposite_left L]

/-- C104, products of products: `x * (y * u)` is `(x * y) * u` when the three numbers are whole, and for
all numbers when `u` is one of the eighteen units themselves. -/
theorem C104_assoc_partial (fp : FP) (L : fp.Laws) (x y : PyNum) (u : CUnit)
    (h : u = u.kind.base ∨ ∃ i j k, x = .fin (.int i) ∧ y = .fin (.int j) ∧ u.val = .fin (.int k))
    (hy : y.Held fp) : (u.rmul fp y).rmul fp x = u.rmul fp (x.mul fp y) := by
  have one : ∀ (k : UKind) (x : PyNum), x.Held fp → (k.base).rmul fp x = ⟨k, x⟩ := by
    intro k x hx
    have := (C104_one fp L ⟨k, x⟩ hx).1
    rw [CUnit.rmul, PyNum.mul_comm] at this
    exact this
  rcases h with h | ⟨i, j, k, rfl, rfl, h⟩
  · rw [h, one _ _ hy, one _ _ (mul_held L _ _), CUnit.rmul, PyNum.mul_comm]
  · simp only [CUnit.rmul, h, PyNum.mul, Num.mul]
    congr 3
    ring

/-- The part that is false: with floats the two products differ in the last place,
`0.3 * (0.2 * (0.1 * px))` is `0.006000000000000001px` and `(0.3 * 0.2) * (0.1 * px)` is `0.006px`. -/
theorem C104_false_assoc : ∃ (x y : PyNum) (u : CUnit), x.Held .b64 ∧ y.Held .b64 ∧ u.val.Held .b64 ∧
    ((u.rmul .b64 y).rmul .b64 x).pyEq (u.rmul .b64 (x.mul .b64 y)) = false := by
  refine ⟨.fin (.flt (FP.b64.rnd (3 / 10))), .fin (.flt (FP.b64.rnd (2 / 10))),
    ⟨.len .px, .fin (.flt (FP.b64.rnd (1 / 10)))⟩, b64_laws.idem _, b64_laws.idem _, b64_laws.idem _, ?_⟩
  decide +kernel

/-- Nothing but a number times a unit is a unit: with any other value in front the product is silently
`None`, except for another unit of the same class, and behind the unit nothing is accepted at all. -/
theorem C104_only_numbers (fp : FP) (v : Val) (u : CUnit) :
    (∀ w, timesUnit fp v u = .ok (.unit w) → ∃ x, v = .num x) ∧
    ((∀ x, v ≠ .num x) → (∀ w, v ≠ .unit w) → timesUnit fp v u = .ok .none ∧ unitTimes fp u v = .error .type) ∧
    (∀ x, v = .num x → unitTimes fp u v = .error .type) ∧
    (∀ w, v = .unit w → unitTimes fp u v = timesUnit fp (.unit u) w ∧
      (timesUnit fp v u = .error .type ∨ timesUnit fp v u = .ok .none)) := by
  refine ⟨?_, ?_, ?_, ?_⟩
  · intro w h
    cases v <;> simp only [timesUnit] at h
    case num x => exact ⟨x, rfl⟩
    case unit w => split at h <;> cases h
    all_goals cases h
  · intro h1 h2
    cases v <;> first | exact ⟨rfl, rfl⟩ | exact absurd rfl (h1 _) | exact absurd rfl (h2 _)
  · rintro x rfl; rfl
  · rintro w rfl
    refine ⟨rfl, ?_⟩
    simp only [timesUnit]
    split
    · exact .inl rfl
    · exact .inr rfl

/-- Two units never make a unit: `TypeError` when both are font units, both physical, both of the
viewport, both angles, both pixels or both percentages; `None` otherwise. -/
theorem C104_two_units (fp : FP) (a b : CUnit) :
    (((∃ k l, a.kind = .ang k ∧ b.kind = .ang l) ∨
      ∃ ks ∈ [[LKind.px], [.em, .ex, .ch], [.pt, .pc, .inch, .cm, .mm], [.vh, .vmax, .vmin, .vw],
          [.percent]], ∃ k ∈ ks, ∃ l ∈ ks, a.kind = .len k ∧ b.kind = .len l) →
      timesUnit fp (.unit a) b = .error .type) ∧
    (¬ ((∃ k l, a.kind = .ang k ∧ b.kind = .ang l) ∨
      ∃ ks ∈ [[LKind.px], [.em, .ex, .ch], [.pt, .pc, .inch, .cm, .mm], [.vh, .vmax, .vmin, .vw],
          [.percent]], ∃ k ∈ ks, ∃ l ∈ ks, a.kind = .len k ∧ b.kind = .len l) →
      timesUnit fp (.unit a) b = .ok .none) := by
  obtain ⟨k, x⟩ := a
  obtain ⟨l, y⟩ := b
  rcases k with k | k <;> rcases l with l | l <;> cases k <;> cases l <;> simp [timesUnit, UKind.cls]

example : timesUnit .b64 (.num (.fin (.int 10))) (UKind.len .px).base = .ok (.unit ⟨.len .px, .fin (.int 10)⟩) := rfl
example : (UKind.len .em).base.rmul .b64 (.fin (.flt (3 / 2))) = ⟨.len .em, .fin (.flt (3 / 2))⟩ := by
  decide +kernel
/-- `"3" * px` is `None`: the width is then not what was meant, and no exception tells. -/
example : timesUnit .b64 (.str (lit "3")) (UKind.len .px).base = .ok .none := rfl
example : timesUnit .b64 (.unit (UKind.len .em).base) (UKind.len .ex).base = .error .type := rfl
example : timesUnit .b64 (.unit (UKind.len .em).base) (UKind.len .px).base = .ok .none := rfl

end Colosseum
