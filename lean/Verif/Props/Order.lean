import Verif.Model.Order
import Verif.Spec.Order
import Verif.Props.Percentages
import Verif.Props.Pixels

/-!
# C112: the order of percentages
-/

namespace Colosseum

theorem pyLt_point (x y : PyNum) : x.pyLt y = true ↔ x.Before y := by
  unfold PyNum.Before
  rcases x with a | s | _ <;> rcases y with b | t | _ <;> (try cases s) <;> (try cases t) <;>
    simp [PyNum.pyLt, PyNum.point, Num.pyLt]
  exact WithBot.coe_lt_coe.2 (WithTop.coe_lt_top _)

theorem pyEq_point (x y : PyNum) : x.pyEq y = true ↔ x.Same y := by
  unfold PyNum.Same
  rcases x with a | s | _ <;> rcases y with b | t | _ <;> (try cases s) <;> (try cases t) <;>
    simp [PyNum.pyEq, PyNum.point, Num.pyEq]
  exact eq_comm

/-- A percentage can be compared with every unit, and `a < b` says that the number of `a` lies before that
of `b`. -/
theorem C112_less (x : PyNum) (w : CUnit) :
    ∃ t, lessThan (percentage x) (.unit w) = .ok t ∧ (t = true ↔ x.Before w.val) :=
  ⟨x.pyLt w.val, rfl, pyLt_point x w.val⟩

/-- Of two percentages whose numbers are not `nan`, exactly one of `a < b`, `a == b`, `b < a` is true. -/
theorem C112_trichotomy (x y : PyNum) (hx : x ≠ .nan) (hy : y ≠ .nan) :
    (lessThan (percentage x) (percentage y) = .ok true ∧ (percentage x).pyEq (percentage y) = false ∧
      lessThan (percentage y) (percentage x) = .ok false) ∨
    (lessThan (percentage x) (percentage y) = .ok false ∧ (percentage x).pyEq (percentage y) = true ∧
      lessThan (percentage y) (percentage x) = .ok false) ∨
    (lessThan (percentage x) (percentage y) = .ok false ∧ (percentage x).pyEq (percentage y) = false ∧
      lessThan (percentage y) (percentage x) = .ok true) := by
  have e1 : ∀ x y, lessThan (percentage x) (percentage y) = .ok (x.pyLt y) := fun _ _ => rfl
  have e2 : (percentage x).pyEq (percentage y) = x.pyEq y := by simp [percentage, Val.pyEq, CUnit.pyEq]
  simp only [e1, e2, Except.ok.injEq]
  obtain ⟨p, hp⟩ : ∃ p, x.point = some p := by rcases x with a | s | _ <;> [skip; cases s; exact absurd rfl hx] <;> exact ⟨_, rfl⟩
  obtain ⟨q, hq⟩ : ∃ q, y.point = some q := by rcases y with a | s | _ <;> [skip; cases s; exact absurd rfl hy] <;> exact ⟨_, rfl⟩
  have l1 : x.pyLt y = true ↔ p < q := by rw [pyLt_point]; simp [PyNum.Before, hp, hq]
  have l2 : y.pyLt x = true ↔ q < p := by rw [pyLt_point]; simp [PyNum.Before, hp, hq]
  have l3 : x.pyEq y = true ↔ p = q := by rw [pyEq_point]; simp [PyNum.Same, hp, hq, eq_comm]
  simp only [← Bool.not_eq_true, l1, l2, l3]
  rcases lt_trichotomy p q with h | h | h
  · exact .inl ⟨h, h.ne, h.not_gt⟩
  · exact .inr (.inl ⟨h.not_lt, h, h.not_gt⟩)
  · exact .inr (.inr ⟨h.not_gt, h.ne', h⟩)

/-- `a < b` and `b < c` give `a < c`, and no percentage is less than itself. -/
theorem C112_strict (x y z : PyNum) :
    lessThan (percentage x) (percentage x) = .ok false ∧
    (lessThan (percentage x) (percentage y) = .ok true → lessThan (percentage y) (percentage z) = .ok true →
      lessThan (percentage x) (percentage z) = .ok true) := by
  have e1 : ∀ x y, lessThan (percentage x) (percentage y) = .ok (x.pyLt y) := fun _ _ => rfl
  simp only [e1, Except.ok.injEq, ← Bool.not_eq_true, pyLt_point]
  constructor
  · rintro ⟨p, q, h1, h2, h⟩
    rw [h1] at h2
    exact h.ne (Option.some.inj h2)
  · rintro ⟨p, q, h1, h2, h⟩ ⟨q', r, h3, h4, h'⟩
    rw [h2] at h3
    cases Option.some.inj h3
    exact ⟨p, r, h1, h4, h.trans h'⟩

/-- `nan` per cent is not less than, equal to or greater than anything with a number. -/
theorem C112_nan (w : CUnit) :
    lessThan (percentage .nan) (.unit w) = .ok false ∧ greaterThan (percentage .nan) (percentage w.val) = .ok false ∧
      (percentage .nan).pyEq (.unit w) = false := by
  obtain ⟨k, (a | s | _)⟩ := w <;> (try cases s) <;>
    simp [lessThan, greaterThan, percentLt, percentage, PyNum.pyLt, Val.pyEq, CUnit.pyEq, PyNum.pyEq]

/-- `a > b` is `b < a`, with the same exceptions. -/
theorem C112_mirror (a b : Val) : greaterThan a b = lessThan b a := rfl

/-- What a comparison raises: `a < b` is a `TypeError` unless `a` is a percentage, whatever `b` is; a
percentage against a value that is no unit is an `AttributeError`, not the `TypeError` of Python's
protocol; there is no other exception. -/
theorem C112_raises (a b : Val) :
    (lessThan a b = .error .type ↔ ∀ x, a ≠ percentage x) ∧
    (lessThan a b = .error .attribute ↔ (∃ x, a = percentage x) ∧ ∀ u, b ≠ .unit u) ∧
    ((∃ t, lessThan a b = .ok t) ↔ (∃ x, a = percentage x) ∧ ∃ u, b = .unit u) := by
  cases a
  case unit u =>
    obtain ⟨k, x⟩ := u
    by_cases hk : k = .len .percent
    · subst hk
      cases b <;> simp [lessThan, percentLt, percentage]
    · simp [lessThan, percentage, hk]
  all_goals simp [lessThan, percentage]

/-- Of two percentages of the same container, the lesser is not the wider: `a < b` means that `a` comes to
at most as many pixels as `b`, wherever both come to some. -/
theorem C112_pixels (fp : FP) (L : fp.Laws) (x y : PyNum) (c : PxCtx) (hc : c.Nonneg) (hx : x.Held fp)
    (hy : y.Held fp) (h : lessThan (percentage x) (percentage y) = .ok true) (n m : Num)
    (hn : pxOf fp .percent x c = .ok n) (hm : pxOf fp .percent y c = .ok m) : n.val ≤ m.val := by
  refine C06_px_monotone_partial fp L .percent x y c hc hx hy (by simp [LKind.isViewport]) ?_ n m hn hm
  have h : x.pyLt y = true := Except.ok.inj h
  by_contra h'
  rw [Bool.not_eq_false, pyLt_point] at h'
  rw [pyLt_point] at h
  obtain ⟨p, q, h1, h2, h3⟩ := h
  obtain ⟨p', q', h4, h5, h6⟩ := h'
  rw [h1] at h5; rw [h2] at h4
  cases Option.some.inj h5; cases Option.some.inj h4
  exact lt_asymm h3 h6

/-- The validator of percentages refuses exactly those values that denote a percentage less than
`Percent(0)`, in that order, or none. -/
theorem C112_validator (fp : FP) (L : fp.Laws) (v : Val) (hv : v.Held fp) :
    (∃ w, isPercentage fp v = .ok w) ↔
      ∃ x, Denotes fp v ⟨.len .percent, x⟩ ∧ lessThan (percentage x) (percentage (.fin (.int 0))) = .ok false := by
  have e : ∀ x : PyNum, lessThan (percentage x) (percentage (.fin (.int 0))) = .ok false ↔ ¬ x.Negative := by
    intro x
    rw [show lessThan (percentage x) (percentage (.fin (.int 0))) = .ok (x.pyLt (.fin (.int 0))) from rfl]
    rcases x with a | s | _ <;> (try cases s) <;> simp [PyNum.pyLt, Num.pyLt, PyNum.Negative, Num.val]
  simp only [e, C106_accepts fp L v _ hv]
  constructor
  · rintro ⟨_, x, rfl, h⟩; exact ⟨x, h⟩
  · rintro ⟨x, h⟩; exact ⟨_, x, rfl, h⟩

/-- The order is not one of sizes: it compares bare numbers, so that `50% < 60px` is true although half of a
container of 640 pixels is 320 pixels; and `60px < 50%` cannot be asked. -/
theorem C112_false_units :
    lessThan (percentage (.fin (.int 50))) (.unit ⟨.len .px, .fin (.int 60)⟩) = .ok true ∧
      lessThan (.unit ⟨.len .px, .fin (.int 60)⟩) (percentage (.fin (.int 50))) = .error .type ∧
      ∃ n m, pxOf .b64 .percent (.fin (.int 50)) { sampleCtx with size := some (.int 640) } = .ok n ∧
        pxOf .b64 .px (.fin (.int 60)) { sampleCtx with size := some (.int 640) } = .ok m ∧ m.val < n.val := by
  refine ⟨by decide +kernel, rfl, .int 320, .int 60, by decide +kernel, by decide +kernel, by decide +kernel⟩

/-- Percentages that are less or equal cannot be asked whether they are: `<=` and `>=` raise `TypeError` for
all units, although `<` and `==` both answer. -/
theorem C112_false_le (x y : PyNum) :
    lessEqual (percentage x) (percentage y) = .error .type ∧ greaterEqual (percentage x) (percentage y) = .error .type ∧
      (∃ t, lessThan (percentage x) (percentage y) = .ok t) := ⟨rfl, rfl, _, rfl⟩

example : lessThan (percentage (.fin (.int 10))) (percentage (.fin (.flt (25 / 2)))) = .ok true ∧
    lessThan (percentage (.fin (.flt 10))) (percentage (.fin (.int 10))) = .ok false ∧
    greaterThan (percentage (.inf false)) (percentage (.fin (.int 10))) = .ok true ∧
    lessThan (percentage (.fin (.int 10))) (.num (.fin (.int 20))) = .error .attribute ∧
    greaterThan (.num (.fin (.int 20))) (percentage (.fin (.int 10))) = .error .attribute ∧
    lessThan (.num (.fin (.int 20))) (percentage (.fin (.int 10))) = .error .type := by decide +kernel

/-- The hypotheses of `C112_pixels`. -/
example : lessThan (percentage (.fin (.int 10))) (percentage (.fin (.int 50))) = .ok true ∧
    pxOf .b64 .percent (.fin (.int 10)) { sampleCtx with size := some (.int 640) } = .ok (.int 64) ∧
    pxOf .b64 .percent (.fin (.int 50)) { sampleCtx with size := some (.int 640) } = .ok (.int 320) := by decide +kernel

end Colosseum
