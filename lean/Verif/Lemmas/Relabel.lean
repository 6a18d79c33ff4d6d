import Verif.Spec.Forget
import Verif.Lemmas.Decl

/-!
# Results do not depend on the labels of the objects created

`Val.forget` makes all objects that are compared by identity anonymous.
-/

namespace Colosseum

/-- The same result up to the identity of objects. -/
def Alike (r s : Res Val) : Prop := r.map Val.forget = s.map Val.forget

theorem Alike.refl (r : Res Val) : Alike r r := rfl
theorem Alike.symm {r s : Res Val} (h : Alike r s) : Alike s r := Eq.symm h
theorem Alike.trans {r s t : Res Val} (h : Alike r s) (h' : Alike s t) : Alike r t := Eq.trans h h'

theorem Alike.ok {r s : Res Val} {w : Val} (h : Alike r s) (hr : r = .ok w) : ∃ w', s = .ok w' ∧ w'.forget = w.forget := by
  subst hr
  cases s with
  | ok w' => exact ⟨w', rfl, by simpa [Alike, Except.map] using h.symm⟩
  | error e => simp [Alike, Except.map] at h

theorem Alike.error {r s : Res Val} {e : Err} (h : Alike r s) (hr : r = .error e) : s = .error e := by
  subst hr
  cases s with
  | ok w' => simp [Alike, Except.map] at h
  | error e' => simpa [Alike, Except.map] using h.symm

theorem Alike.toValidation {r s : Res Val} (h : Alike r s) : Alike (toValidation r) (toValidation s) := by
  cases hr : r with
  | ok w =>
    obtain ⟨w', hs, hw⟩ := h.ok hr
    rw [hs]
    simp [Colosseum.toValidation, Alike, Except.map, hw]
  | error e => rw [h.error hr]; exact Alike.refl _

theorem alike_colorStr (fp : FP) (r r' : Ref) (s : PyStr) : Alike (colorStr fp r s) (colorStr fp r' s) := by
  have key : ∀ x : Res Color, Alike (x.map (.color r)) (x.map (.color r')) := by
    intro x; cases x <;> rfl
  unfold colorStr
  split
  · exact Alike.refl _
  · split
    · exact key _
    split
    · exact key _
    split
    · exact key _
    split
    · exact key _
    split
    · exact key _
    exact Alike.refl _

theorem alike_color (fp : FP) (a b : List Nat) (v : Val) : Alike (color fp a v) (color fp b v) := by
  cases v with
  | str s => exact alike_colorStr ..
  | _ => exact Alike.refl _

theorem alike_borderSpacing (fp : FP) (a b : List Nat) (v : Val) :
    Alike (borderSpacing fp a v) (borderSpacing fp b v) := by
  unfold borderSpacing
  simp only
  split
  · exact Alike.refl _
  · rename_i h _
    cases units fp h <;> rfl
  · rename_i h w _
    cases units fp h with
    | error e => rfl
    | ok u => cases units fp w <;> rfl
  · exact Alike.refl _

theorem cursorLoop_alike (a b : List Nat) (whole : Val) (vs : List Val) : ∀ i j has,
    (cursorLoop a whole i has vs).map (·.map CurItem.forget) = (cursorLoop b whole j has vs).map (·.map CurItem.forget) := by
  induction vs with
  | nil => intros; rfl
  | cons v vs ih =>
    intro i j has
    cases v with
    | str s =>
      simp only [cursorLoop]
      split
      · split
        · unfold raiseFmt; split <;> rfl
        · have := ih i j true
          cases h1 : cursorLoop a whole i true vs <;> cases h2 : cursorLoop b whole j true vs <;>
            simp_all [Except.map]
      · split
        · unfold raiseFmt; split <;> rfl
        · split
          · rfl
          · have := ih (i + 1) (j + 1) has
            cases h1 : cursorLoop a whole (i + 1) has vs <;> cases h2 : cursorLoop b whole (j + 1) has vs <;>
              simp_all [Except.map, CurItem.forget]
    | _ =>
      simp only [cursorLoop]

theorem alike_cursor (a b : List Nat) (v : Val) : Alike (cursor a v) (cursor b v) := by
  unfold cursor
  simp only
  split
  · exact Alike.refl _
  · rename_i vs _
    have := cursorLoop_alike a b v vs 0 0 false
    cases h1 : cursorLoop a v 0 false vs <;> cases h2 : cursorLoop b v 0 false vs <;>
      simp_all [Except.map, Alike, Val.forget]

theorem alike_run (E : Env) (a b : List Nat) (v : Val) (x : Validator) : Alike (x.run E a v) (x.run E b v) := by
  cases x with
  | color => exact (alike_color ..).toValidation
  | borderSpacing => exact (alike_borderSpacing ..).toValidation
  | cursor => exact (alike_cursor ..).toValidation
  | _ => exact Alike.refl _

theorem alike_try (E : Env) (a b : List Nat) (v : Val) (xs : List Validator) :
    (tryValidators E a v xs).map (Except.map Val.forget) = (tryValidators E b v xs).map (Except.map Val.forget) := by
  induction xs with
  | nil => rfl
  | cons x xs ih =>
    have := alike_run E a b v x
    simp only [tryValidators]
    cases hr : x.run E a v with
    | ok w =>
      obtain ⟨w', hs, hw⟩ := this.ok hr
      rw [hs]
      simp [Except.map, hw]
    | error e =>
      rw [this.error hr]
      cases e <;> first | exact ih | rfl

/-- Validation does not depend on labels. -/
theorem alike_validate (E : Env) (a b : List Nat) (c : Choices) (v : Val) :
    Alike (c.validate E a v) (c.validate E b v) := by
  have := alike_try E a b v c.validators
  unfold Choices.validate
  cases h1 : tryValidators E a v c.validators <;> cases h2 : tryValidators E b v c.validators
  · exact Alike.refl _
  · rw [h1, h2] at this; cases this
  · rw [h1, h2] at this; cases this
  · rw [h1, h2] at this
    simpa [Alike] using this

/-- Whether a value is accepted, and the exception otherwise, do not depend on labels. -/
theorem validate_ok_relabel {E : Env} {a b : List Nat} {c : Choices} {v w : Val} (h : c.validate E a v = .ok w) :
    ∃ w', c.validate E b v = .ok w' ∧ w'.forget = w.forget := (alike_validate E a b c v).ok h

end Colosseum
