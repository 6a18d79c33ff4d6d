import Verif.Props.Units
import Verif.Lemmas.Accept

/-!
# C106: `is_percentage`
-/

namespace Colosseum

/-- Less than zero; `nan` is not. -/
def PyNum.Negative : PyNum → Prop
  | .fin a => a.val < 0
  | .inf s => s = true
  | .nan => False

theorem pyLt_zero (x : PyNum) : x.pyLt (.fin (.int 0)) = true ↔ x.Negative := by
  rcases x with a | s | _
  · simp [PyNum.pyLt, Num.pyLt, PyNum.Negative, Num.val]
  · cases s <;> simp [PyNum.pyLt, PyNum.Negative]
  · simp [PyNum.pyLt, PyNum.Negative]

/-- **C106.** `is_percentage` accepts a value if and only if it denotes a percentage that is not negative, and returns this percentage. -/
theorem C106_accepts (fp : FP) (L : fp.Laws) (v w : Val) (hv : v.Held fp) :
    isPercentage fp v = .ok w ↔ ∃ x, w = .unit ⟨.len .percent, x⟩ ∧ Denotes fp v ⟨.len .percent, x⟩ ∧ ¬x.Negative := by
  simp only [← C03_units_accepts fp L v hv]
  constructor
  · intro h
    unfold isPercentage at h
    split at h
    · cases h
    · rename_i u hu
      split at h
      · rename_i hk
        split at h
        · exact absurd h (raiseFmt_ne_ok _ _ _)
        · rename_i hn
          cases h
          obtain ⟨k, x⟩ := u
          cases (show k = _ from hk)
          exact ⟨x, rfl, toValidation_ok hu, fun c => hn ((pyLt_zero x).2 c)⟩
      · exact absurd h (raiseFmt_ne_ok _ _ _)
  · rintro ⟨x, rfl, hu, hn⟩
    unfold isPercentage
    rw [hu]
    simp only [toValidation, if_true]
    rw [if_neg fun c => hn ((pyLt_zero x).1 c)]

/-- **C106.** Every other value is rejected: with `ValidationError`, unless it denotes a length that is infinite or not a number, in which case the
attempt to put it into the message raises. -/
theorem C106_rejects (fp : FP) (L : fp.Laws) (v : Val) (hv : v.Held fp) (hf : v.fmtErr = none ∨ ∃ k x, v = .unit ⟨.len k, x⟩)
    (h : ¬∃ x, Denotes fp v ⟨.len .percent, x⟩ ∧ ¬x.Negative) :
    (isPercentage fp v = .error .validation ∧ ∀ k x, Denotes fp v ⟨k, x⟩ → ∃ a, x = .fin a) ∨
    (isPercentage fp v = .error .overflow ∧ ∃ k s, Denotes fp v ⟨k, .inf s⟩) ∨
    (isPercentage fp v = .error .value ∧ ∃ k, Denotes fp v ⟨k, .nan⟩) := by
  cases hu : units fp v with
  | error e =>
    left
    have hd : ¬∃ u, Denotes fp v u := by
      rintro ⟨u, hd⟩
      rw [(C03_units_accepts fp L v hv u).2 hd] at hu
      cases hu
    have hf : v.fmtErr = none := by
      rcases hf with hf | ⟨k, x, rfl⟩
      · exact hf
      · exact absurd ⟨_, Denotes.unit k x⟩ hd
    have he := C03_units_rejects_partial fp L v hv hf hd
    refine ⟨?_, fun k x hx => absurd ⟨_, hx⟩ hd⟩
    unfold isPercentage
    rw [he]
    rfl
  | ok u =>
    have hd := (C03_units_accepts fp L v hv u).1 hu
    have hr : isPercentage fp v = raiseFmt .validation (.unit u) := by
      unfold isPercentage
      rw [hu]
      simp only [toValidation]
      split
      · rename_i hk
        obtain ⟨k, x⟩ := u
        cases (show k = _ from hk)
        rw [if_pos]
        by_contra hn
        exact h ⟨x, hd, fun c => hn ((pyLt_zero x).2 c)⟩
      · rfl
    rw [hr]
    obtain ⟨k, x⟩ := u
    rcases x with a | s | _
    · left
      refine ⟨rfl, fun k' x hx => ?_⟩
      have := (C03_units_accepts fp L v hv _).2 hx
      rw [hu] at this
      cases this
      exact ⟨a, rfl⟩
    · exact .inr (.inl ⟨rfl, k, s, hd⟩)
    · exact .inr (.inr ⟨rfl, k, hd⟩)

/-- Behind `is_length`, `is_percentage` decides nothing. -/
theorem percentage_idle (E : Env) (at_ : List Nat) (v : Val) : tryValidators E at_ v [.length, .percentage] = tryValidators E at_ v [.length] := by
  simp only [tryValidators, Validator.run, isLength, isPercentage]
  cases units E.fp v with
  | ok u => rfl
  | error e =>
    simp only [toValidation]
    cases e.isValueError
    · cases e <;> rfl
    · rfl

/-- The properties that take percentages: margins, paddings, sizes and their limits, offsets, and the indentation of text. -/
def LH.TakesPercent (p : LH) : Prop := (∃ s, p = .margin s) ∨ (∃ s, p = .padding s) ∨
  p ∈ [.width, .height, .minWidth, .minHeight, .maxWidth, .maxHeight, .top, .right, .bottom, .left, .textIndent]

theorem percentage_listed (p : LH) : (p.TakesPercent → p.choices.validators = [.length, .percentage]) ∧
    (¬p.TakesPercent → Validator.percentage ∉ p.choices.validators) := by
  constructor
  · rintro (⟨s, rfl⟩ | ⟨s, rfl⟩ | h)
    · rfl
    · rfl
    · simp only [List.mem_cons, List.not_mem_nil, or_false] at h
      rcases h with rfl | rfl | rfl | rfl | rfl | rfl | rfl | rfl | rfl | rfl | rfl <;> rfl
  · intro h
    cases p <;> first
      | (simp [LH.choices, borderWidthChoices, borderColorChoices, borderStyleChoices, outlineWidthChoices, outlineStyleChoices, outlineColorChoices]; done)
      | (exact absurd (by simp [LH.TakesPercent]) h)

/-- **C106 is of no effect in any property**: a property that lists `is_percentage` validates as if it did not. -/
theorem C106_idle (E : Env) (at_ : List Nat) (v : Val) (p : LH) :
    p.choices.validate E at_ v = { p.choices with validators := p.choices.validators.filter (· ≠ Validator.percentage) }.validate E at_ v := by
  unfold Choices.validate
  by_cases h : p.TakesPercent
  · simp only [(percentage_listed p).1 h]
    rw [percentage_idle]
    rfl
  · have e : p.choices.validators.filter (· ≠ Validator.percentage) = p.choices.validators := by
      rw [List.filter_eq_self]
      intro a ha
      have := (percentage_listed p).2 h
      simp only [decide_not, Bool.not_eq_true', decide_eq_false_iff_not]
      rintro rfl
      exact this ha
    simp only [e]

/-- So every property that takes percentages takes negative ones: a padding of -10%. -/
theorem C106_false_negative (E : Env) (L : E.fp.Laws) (at_ : List Nat) (v : Val) (hv : v.Held E.fp) (x : PyNum) (p : LH)
    (h : p.TakesPercent) (hx : Denotes E.fp v ⟨.len .percent, x⟩) :
    p.choices.validate E at_ v = .ok (.unit ⟨.len .percent, x⟩) := by
  simp only [Choices.validate, (percentage_listed p).1 h, tryValidators, Validator.run, isLength, (C03_units_accepts E.fp L v hv _).2 hx]
  rfl

/-- **C106 where it would count.** The gaps of grids are percentages that are not negative; every other value that denotes something finite, or nothing,
is refused with `ValueError`. -/
theorem C106_gap (E : Env) (L : E.fp.Laws) (at_ : List Nat) (v : Val) (hv : v.Held E.fp) :
    (∀ w, gridGapChoices.validate E at_ v = .ok w ↔ ∃ x, w = .unit ⟨.len .percent, x⟩ ∧ Denotes E.fp v ⟨.len .percent, x⟩ ∧ ¬x.Negative) ∧
    (v.fmtErr = none → (∀ k x, Denotes E.fp v ⟨k, x⟩ → ∃ a, x = .fin a) → (¬∃ x, Denotes E.fp v ⟨.len .percent, x⟩ ∧ ¬x.Negative) →
      gridGapChoices.validate E at_ v = .error .value) := by
  have key : ∀ r, isPercentage E.fp v = r → gridGapChoices.validate E at_ v =
      match r with | .error .validation => .error .value | r => r := by
    intro r hr
    simp only [gridGapChoices, Choices.validate, tryValidators, Validator.run, hr, findConst, List.find?_nil]
    cases r with
    | ok w => rfl
    | error e => cases e <;> rfl
  constructor
  · intro w
    rw [← C106_accepts E.fp L v w hv, key _ rfl]
    cases isPercentage E.fp v with
    | ok w' => rfl
    | error e => cases e <;> simp
  · intro hf hd h
    rcases C106_rejects E.fp L v hv (.inl hf) h with ⟨e, _⟩ | ⟨_, k, s, h'⟩ | ⟨_, k, h'⟩
    · rw [key _ e]
    · obtain ⟨a, ha⟩ := hd _ _ h'; cases ha
    · obtain ⟨a, ha⟩ := hd _ _ h'; cases ha

/-- `10%`, `-10%` and `10px`. -/
example : isPercentage .b64 (.str (lit "10%")) = .ok (.unit ⟨.len .percent, .fin (.flt 10)⟩) ∧
    isPercentage .b64 (.str (lit "-10%")) = .error .validation ∧ isPercentage .b64 (.str (lit "10px")) = .error .validation ∧
    isPercentage .b64 (.unit ⟨.len .px, .inf false⟩) = .error .overflow := by
  have u1 : units .b64 (.str (lit "10%")) = .ok ⟨.len .percent, .fin (.flt 10)⟩ := by decide +kernel
  have u2 : units .b64 (.str (lit "-10%")) = .ok ⟨.len .percent, .fin (.flt (-10))⟩ := by decide +kernel
  have u3 : units .b64 (.str (lit "10px")) = .ok ⟨.len .px, .fin (.flt 10)⟩ := by decide +kernel
  have n : PyNum.pyLt (.fin (.flt (-10))) (.fin (.int 0)) = true := by decide +kernel
  have m : PyNum.pyLt (.fin (.flt 10)) (.fin (.int 0)) = false := by decide +kernel
  refine ⟨?_, ?_, ?_, rfl⟩
  · simp only [isPercentage, u1, toValidation, m]; rfl
  · simp only [isPercentage, u2, toValidation, n]; rfl
  · simp only [isPercentage, u3, toValidation]; rfl

end Colosseum
