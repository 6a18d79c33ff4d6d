import Verif.Lemmas.Survive
import Verif.Props.Style
import Verif.Props.Lists

/-!
# Which exceptions an assignment raises; numeric validators: C58, C59
-/

namespace Colosseum

/-! ## C58 -/

/-- The values for which each kind of property raises nothing but `ValueError`. -/
def Kind.decent (v : Val) : Kind → Prop
  | .length => True
  | .color => v ≠ .str []
  | .integer => ∀ b, v ≠ .num (.inf b)
  | .spacing => (∃ s, v = .str s) ∨ (∃ x, v = .num x) ∨ (asSeq v).isSome
  | .rect => ∃ s, v = .str s
  | .quotes => (∃ items, QuoteItems v items) ∨ ((∀ s, v ≠ .str s) ∧ asSeq v = none)
  | .cursor => (∃ s, v = .str s) ∨ (asSeq v).isSome

theorem raiseFmt_none {α : Type} {e : Err} {v : Val} (h : v.fmtErr = none) :
    (raiseFmt e v : Res α) = .error e := by
  unfold raiseFmt
  rw [h]

theorem units_error {fp : FP} {v : Val} {e : Err} (hf : v.fmtErr = none) (h : units fp v = .error e) :
    e = .value := by
  cases v with
  | str s =>
    rcases C03_units_string_total fp s with ⟨u, hu⟩ | hu
    · rw [hu] at h; cases h
    · rw [hu] at h; cases h; rfl
  | num x => cases h
  | unit u =>
    obtain ⟨k, x⟩ := u
    cases k with
    | len l => cases h
    | ang a =>
      simp only [units, unitsIn, raiseFmt_none hf] at h
      cases h; rfl
  | _ =>
    simp only [units, unitsIn, raiseFmt_none hf] at h
    cases h; rfl

/-- Results of the colour helper functions: a colour or `ValueError`. -/
def OnlyValue {α : Type} (r : Res α) : Prop := ∀ e, r = .error e → e = .value

theorem OnlyValue.bind {α β : Type} {r : Res α} {f : α → Res β} (h : OnlyValue r) (hf : ∀ a, OnlyValue (f a)) :
    OnlyValue (r >>= f) := by
  intro e he
  cases r with
  | ok a => exact hf a e he
  | error e' =>
    have : e' = e := by cases he; rfl
    exact this ▸ h e' rfl

theorem OnlyValue.map {α β : Type} {r : Res α} {f : α → β} (h : OnlyValue r) : OnlyValue (r.map f) := by
  intro e he
  cases r with
  | ok a => cases he
  | error e' => cases he; exact h _ rfl

theorem onlyValue_pure {α : Type} (a : α) : OnlyValue (pure a : Res α) := fun _ h => by cases h
theorem onlyValue_value {α : Type} : OnlyValue (.error .value : Res α) := fun _ h => by cases h; rfl

theorem onlyValue_intOf (s : PyStr) : OnlyValue (intOf s) := by
  intro e h; unfold intOf at h; split at h <;> cases h; rfl
theorem onlyValue_hexOf (s : PyStr) : OnlyValue (hexOf s) := by
  intro e h; unfold hexOf at h; split at h <;> cases h; rfl
theorem onlyValue_floatOf (fp : FP) (s : PyStr) : OnlyValue (floatOf fp s) := by
  intro e h; unfold floatOf at h; split at h <;> cases h; rfl
theorem onlyValue_pctOf (fp : FP) (s : PyStr) : OnlyValue (pctOf fp s) := by
  intro e h; unfold pctOf at h; split at h
  · cases h
  · rename_i he; cases h; exact onlyValue_intOf _ _ he

theorem onlyValue_pound (fp : FP) (s : PyStr) : OnlyValue (poundSignColor fp s) := by
  unfold poundSignColor
  split
  · exact (onlyValue_hexOf _).bind fun _ => (onlyValue_hexOf _).bind fun _ => (onlyValue_hexOf _).bind fun _ =>
      onlyValue_pure _
  · exact (onlyValue_hexOf _).bind fun _ => (onlyValue_hexOf _).bind fun _ => (onlyValue_hexOf _).bind fun _ =>
      (onlyValue_hexOf _).bind fun _ => onlyValue_pure _
  · exact (onlyValue_hexOf _).bind fun _ => (onlyValue_hexOf _).bind fun _ => (onlyValue_hexOf _).bind fun _ =>
      onlyValue_pure _
  · exact (onlyValue_hexOf _).bind fun _ => (onlyValue_hexOf _).bind fun _ => (onlyValue_hexOf _).bind fun _ =>
      (onlyValue_hexOf _).bind fun _ => onlyValue_pure _
  · exact onlyValue_value

theorem onlyValue_rgba (fp : FP) (s : PyStr) : OnlyValue (rgbaColor fp s) := by
  unfold rgbaColor
  split
  · exact (onlyValue_intOf _).bind fun _ => (onlyValue_intOf _).bind fun _ => (onlyValue_intOf _).bind fun _ =>
      (onlyValue_floatOf _ _).bind fun _ => onlyValue_pure _
  · exact onlyValue_value

theorem onlyValue_rgb (s : PyStr) : OnlyValue (rgbColor s) := by
  unfold rgbColor
  split
  · exact (onlyValue_intOf _).bind fun _ => (onlyValue_intOf _).bind fun _ => (onlyValue_intOf _).bind fun _ =>
      onlyValue_pure _
  · exact onlyValue_value

theorem onlyValue_hsla (fp : FP) (s : PyStr) : OnlyValue (hslaColor fp s) := by
  unfold hslaColor
  split
  · exact (onlyValue_intOf _).bind fun _ => (onlyValue_pctOf _ _).bind fun _ => (onlyValue_pctOf _ _).bind fun _ =>
      (onlyValue_floatOf _ _).bind fun _ => onlyValue_pure _
  · exact onlyValue_value

theorem onlyValue_hsl (fp : FP) (s : PyStr) : OnlyValue (hslColor fp s) := by
  unfold hslColor
  split
  · exact (onlyValue_intOf _).bind fun _ => (onlyValue_pctOf _ _).bind fun _ => (onlyValue_pctOf _ _).bind fun _ =>
      onlyValue_pure _
  · exact onlyValue_value

theorem onlyValue_colorStr (fp : FP) (ref : Ref) (s : PyStr) (hs : s ≠ []) : OnlyValue (colorStr fp ref s) := by
  unfold colorStr
  split
  · exact absurd rfl hs
  · split
    · exact (onlyValue_pound fp _).map
    split
    · exact (onlyValue_rgba fp _).map
    split
    · exact (onlyValue_rgb _).map
    split
    · exact (onlyValue_hsla fp _).map
    split
    · exact (onlyValue_hsl fp _).map
    split
    · exact onlyValue_pure _
    · exact onlyValue_value

theorem fmtErr_items {v : Val} {xs : List Val} (hs : asSeq v = some xs) (hf : v.fmtErr = none) :
    ∀ x ∈ xs, x.fmtErr = none := by
  have key : ∀ xs : List Val, fmtErrList xs = none → ∀ x ∈ xs, x.fmtErr = none := by
    intro xs
    induction xs with
    | nil => simp
    | cons x xs ih =>
      intro h y hy
      simp only [fmtErrList] at h
      rw [Option.orElse_eq_orElse, Option.orElse_eq_or, Option.or_eq_none_iff] at h
      rcases List.mem_cons.1 hy with rfl | hy
      · exact h.1
      · exact ih h.2 y hy
  cases v with
  | seq t ys => cases hs; exact key _ (by simpa [Val.fmtErr] using hf)
  | cursor ys =>
    cases hs
    intro x hx
    obtain ⟨y, _, rfl⟩ := List.mem_map.1 hx
    cases y <;> rfl
  | _ => cases hs

theorem onlyValue_units {fp : FP} {v : Val} (hf : v.fmtErr = none) : OnlyValue (units fp v) :=
  fun _ h => units_error hf h

theorem onlyValue_spacing {fp : FP} {at_ : List Nat} {v : Val} (hf : v.fmtErr = none)
    (h : (∃ s, v = .str s) ∨ (∃ x, v = .num x) ∨ (asSeq v).isSome) : OnlyValue (borderSpacing fp at_ v) := by
  have go : ∀ xs : List Val, (∀ x ∈ xs, x.fmtErr = none) →
      OnlyValue (match (Except.ok xs : Res (List Val)) with
        | .error e => .error e
        | .ok [h] => do
          let h ← units fp h
          pure (Val.borderSpacing (.heap at_) h none)
        | .ok [h, w] => do
          let h ← units fp h
          let w ← units fp w
          pure (.borderSpacing (.heap at_) h (some w))
        | .ok _ => raiseFmt .value v) := by
    intro xs hxs
    match xs with
    | [] => simp only [raiseFmt_none hf]; exact onlyValue_value
    | [a] => exact (onlyValue_units (hxs a (by simp))).bind fun _ => onlyValue_pure _
    | [a, b] =>
      exact (onlyValue_units (hxs a (by simp))).bind fun _ => (onlyValue_units (hxs b (by simp))).bind fun _ =>
        onlyValue_pure _
    | _ :: _ :: _ :: _ => simp only [raiseFmt_none hf]; exact onlyValue_value
  cases hs : asSeq v with
  | some xs =>
    simp only [borderSpacing, hs]
    exact go xs (fmtErr_items hs hf)
  | none =>
    rcases h with ⟨s, rfl⟩ | ⟨x, rfl⟩ | h
    · simp only [borderSpacing, asSeq]
      exact go _ (by intro x hx; obtain ⟨w, _, rfl⟩ := List.mem_map.1 hx; rfl)
    · simp only [borderSpacing, asSeq]
      exact go [.num x] (by intro y hy; rw [List.mem_singleton.1 hy]; rfl)
    · rw [hs] at h; cases h

theorem onlyValue_cursorLoop {at_ : List Nat} {whole : Val} (hf : whole.fmtErr = none) (vs : List Val) :
    ∀ i has, (∀ v ∈ vs, v.fmtErr = none) → OnlyValue (cursorLoop at_ whole i has vs) := by
  induction vs with
  | nil => exact fun i has _ => onlyValue_pure _
  | cons v vs ih =>
    intro i has hv
    have ih' := fun i has => ih i has fun x hx => hv x (by simp [hx])
    simp only [cursorLoop]
    split
    · split
      · split
        · rw [raiseFmt_none hf]; exact onlyValue_value
        · split
          · rename_i e he; intro e' h'; cases h'; exact ih' _ _ _ he
          · exact onlyValue_pure _
      · split
        · rw [raiseFmt_none hf]; exact onlyValue_value
        · split
          · exact onlyValue_value
          · split
            · rename_i e he; intro e' h'; cases h'; exact ih' _ _ _ he
            · exact onlyValue_pure _
    · split
      · rw [raiseFmt_none hf]; exact onlyValue_value
      · rw [raiseFmt_none (hv v (by simp))]; exact onlyValue_value

theorem onlyValue_cursor {at_ : List Nat} {v : Val} (hf : v.fmtErr = none)
    (h : (∃ s, v = .str s) ∨ (asSeq v).isSome) : OnlyValue (cursor at_ v) := by
  unfold cursor
  rcases h with ⟨s, rfl⟩ | h
  · simp only
    split
    · rename_i e he
      intro e' h'
      cases h'
      exact onlyValue_cursorLoop rfl _ _ _ (by intro x hx; obtain ⟨w, _, rfl⟩ := List.mem_map.1 hx; rfl) _ he
    · exact onlyValue_pure _
  · obtain ⟨xs, hxs⟩ := Option.isSome_iff_exists.1 h
    have fin : OnlyValue (match cursorLoop at_ v 0 false xs with
        | .error e => .error e
        | .ok r => .ok (Val.cursor r)) := by
      split
      · rename_i e he
        intro e' h'
        cases h'
        exact onlyValue_cursorLoop hf _ _ _ (fmtErr_items hxs hf) _ he
      · exact onlyValue_pure _
    cases v with
    | str s => cases hxs
    | _ => simp only [hxs]; exact fin

theorem onlyValue_rect {fp : FP} (s : PyStr) : OnlyValue (rect fp (.str s)) := by
  unfold rect
  simp only
  split
  · exact (onlyValue_units rfl).bind fun _ => (onlyValue_units rfl).bind fun _ => (onlyValue_units rfl).bind fun _ =>
      (onlyValue_units rfl).bind fun _ => onlyValue_pure _
  · exact onlyValue_value

theorem onlyValue_quotes {E : Env} {v : Val} (hf : v.fmtErr = none)
    (h : (∃ items, QuoteItems v items) ∨ ((∀ s, v ≠ .str s) ∧ asSeq v = none)) : OnlyValue (quotes E v) := by
  rcases h with ⟨items, h⟩ | ⟨hs, h⟩
  · intro e he
    by_cases hb : items.length = 0 ∨ items.length % 2 = 1 ∨ [] ∈ items
    · rw [C18_rejects E v items h hb] at he; cases he; rfl
    · push Not at hb
      obtain ⟨q, hq, _⟩ := C18_pairs E v items h (by omega) (by omega) fun x hx e => hb.2.2 (e ▸ hx)
      rw [hq] at he; cases he
  · cases v with
    | str s => exact absurd rfl (hs s)
    | _ => simp only [quotes, h, raiseFmt_none hf]; exact onlyValue_value

/-- The validator of a kind raises nothing but `ValidationError` on decent values. -/
def OnlyValidation {α : Type} (r : Res α) : Prop := ∀ e, r = .error e → e = .validation

theorem OnlyValue.toValidation {α : Type} {r : Res α} (h : OnlyValue r) : OnlyValidation (toValidation r) := by
  intro e he
  cases r with
  | ok a => cases he
  | error e' =>
    cases h e' rfl
    cases he
    rfl

theorem OnlyValidation.try_single {E : Env} {at_ : List Nat} {v : Val} {a : Validator}
    (h : OnlyValidation (a.run E at_ v)) (e : Err) : tryValidators E at_ v [a] ≠ some (.error e) := by
  intro ht
  simp only [tryValidators] at ht
  split at ht
  · cases ht
  · cases ht
  · rename_i hne he
    exact hne (h _ he)

theorem coerce_overflow {fp : FP} {t : NumType} {v : Val} (h : coerce fp t v = .error .overflow) :
    ∃ b, v = .num (.inf b) := by
  cases t <;> cases v with
  | num x => cases x <;> first | exact ⟨_, rfl⟩ | cases h
  | str s => simp only [coerce] at h; split at h <;> cases h
  | _ => cases h

theorem try_no_error {E : Env} {at_ : List Nat} {p : LH} {v : Val} (hf : v.fmtErr = none)
    (hd : ∀ k, kindOf p = some k → k.decent v) (e : Err) :
    tryValidators E at_ v p.choices.validators ≠ some (.error e) := by
  have hv := validators_kind p
  cases hk : kindOf p with
  | none => rw [hk] at hv; simp only at hv; rw [hv]; simp [tryValidators]
  | some k =>
    rw [hk] at hv
    have hd := hd k hk
    cases k <;> simp only [Kind.validators] at hv <;> simp only [Kind.decent] at hd
    · have hu := (onlyValue_units (fp := E.fp) hf).toValidation
      cases hx : toValidation (units E.fp v) with
      | ok u =>
        rcases hv with hv | hv <;> rw [hv] <;> simp [tryValidators, Validator.run, isLength, hx, Except.map]
      | error e' =>
        cases hu _ hx
        rcases hv with hv | hv <;> rw [hv] <;>
          simp [tryValidators, Validator.run, isLength, isPercentage, hx, Except.map]
    all_goals rw [hv]; refine OnlyValidation.try_single ?_ e
    · refine OnlyValue.toValidation ?_
      cases v with
      | str s => exact onlyValue_colorStr _ _ _ fun e => hd (by rw [e])
      | _ =>
        simp only [color]
        first
          | exact onlyValue_pure _
          | (simp only [raiseFmt_none hf]; exact onlyValue_value)
    · intro e he
      simp only [Validator.run, isInteger, numericValidator, raiseFmt_none hf, belowMin, aboveMax] at he
      split at he
      · rename_i ho
        exfalso
        obtain ⟨b, rfl⟩ := coerce_overflow ho
        exact hd b rfl
      · cases he; rfl
      · cases he
    · exact (onlyValue_spacing hf hd).toValidation
    · obtain ⟨s, rfl⟩ := hd
      exact (onlyValue_rect s).toValidation
    · intro e he
      have := onlyValue_quotes (E := E) hf hd
      simp only [Validator.run, isQuote] at he
      cases hq : quotes E v with
      | ok q => rw [hq] at he; cases he
      | error e' =>
        rw [hq] at he
        cases this e' hq
        simp only [Err.isValueError, if_true, raiseFmt_none hf] at he
        cases he; rfl
    · exact (onlyValue_cursor hf hd).toValidation

theorem validate_error {E : Env} {at_ : List Nat} {p : LH} {v : Val} {e : Err} (hf : v.fmtErr = none)
    (hd : ∀ k, kindOf p = some k → k.decent v) (h : p.choices.validate E at_ v = .error e) : e = .value := by
  unfold Choices.validate at h
  split at h
  · rename_i r hr
    subst h
    exact absurd hr (try_no_error hf hd e)
  · split at h
    · cases h
    · split at h <;> cases h
      rfl

/-- C58. Full statement: assigning any value to any single property succeeds or raises `ValueError`.
What is missing: the values that are not `Kind.decent` for the property, values that cannot be printed in
the message (an infinite or nan magnitude), and nodes without a box; each is refuted below. -/
theorem C58_value_error_partial (E : Env) (at_ : List Nat) (d d' : Decl) (p : LH) (v : Val) (e : Err)
    (hl : d.link ≠ .noBox) (hf : v.fmtErr = none) (hd : ∀ k, kindOf p = some k → k.decent v)
    (h : d.setAttr E at_ (.lh p) v = (d', some e)) : e = .value := by
  have h : d.set E at_ p v = (d', some e) := h
  unfold Decl.set at h
  split at h
  · rename_i e' he
    have hv : e' = .value := validate_error hf hd he
    subst hv
    rw [hf] at h
    simp only [Err.isValueError, if_true] at h
    cases h; rfl
  · split at h
    · unfold Decl.markDirty at h
      split at h
      · cases h
      · rename_i hb; exact absurd hb hl
      · cases h
    · cases h

/-- Keyword properties raise nothing but `ValueError`, whatever printable value is assigned. -/
theorem C58_keyword_properties (E : Env) (at_ : List Nat) (d d' : Decl) (p : LH) (v : Val) (e : Err)
    (hl : d.link ≠ .noBox) (hf : v.fmtErr = none) (hk : kindOf p = none ∨ kindOf p = some .length)
    (h : d.setAttr E at_ (.lh p) v = (d', some e)) : e = .value := by
  refine C58_value_error_partial E at_ d d' p v e hl hf ?_ h
  intro k hk'
  rcases hk with hk | hk <;> rw [hk] at hk' <;> cases hk'
  trivial

/-- Texts: every non-empty string, for every property but `quotes`. -/
theorem C58_texts (E : Env) (at_ : List Nat) (d d' : Decl) (p : LH) (s : PyStr) (e : Err)
    (hl : d.link ≠ .noBox) (hs : s ≠ []) (hp : p ≠ .quotes)
    (h : d.setAttr E at_ (.lh p) (.str s) = (d', some e)) : e = .value := by
  refine C58_value_error_partial E at_ d d' p (.str s) e hl rfl ?_ h
  intro k hk
  cases k with
  | length => trivial
  | color => exact fun h => hs (by cases h; rfl)
  | integer => exact fun b h => by cases h
  | spacing => exact Or.inl ⟨s, rfl⟩
  | rect => exact ⟨s, rfl⟩
  | cursor => exact Or.inl ⟨s, rfl⟩
  | quotes => exfalso; revert hk hp; cases p <;> simp [kindOf]

example : (Decl.mk CSS.empty .unbound).setAttr exampleEnv [] (.lh .clip) (.str (lit "rect(1px)"))
    = (Decl.mk CSS.empty .unbound, some .value) := by rfl

/-- C58 is false: `color = ""` raises `IndexError`. -/
theorem C58_false_empty_color (E : Env) (at_ : List Nat) (d : Decl) :
    d.setAttr E at_ (.lh .color) (.str []) = (d, some .index) := rfl

/-- C58 is false: `cursor = None` and `cursor = 3` raise `TypeError`. -/
theorem C58_false_cursor (E : Env) (at_ : List Nat) (d : Decl) :
    d.setAttr E at_ (.lh .cursor) .none = (d, some .type) ∧
    ∀ x, d.setAttr E at_ (.lh .cursor) (.num x) = (d, some .type) := ⟨rfl, fun _ => rfl⟩

/-- C58 is false: assigning anything but a string to `clip` raises `AttributeError`, even a `Rect`. -/
theorem C58_false_clip (E : Env) (at_ : List Nat) (d : Decl) (v : Val) (h : ∀ s, v ≠ .str s) :
    d.setAttr E at_ (.lh .clip) v = (d, some .attribute) := by
  cases v with
  | str s => exact absurd rfl (h s)
  | _ => rfl

/-- C58 is false: `border_spacing = None` raises `AttributeError`. -/
theorem C58_false_spacing (E : Env) (at_ : List Nat) (d : Decl) :
    d.setAttr E at_ (.lh .borderSpacing) .none = (d, some .attribute) := rfl

/-- C58 is false: an infinite number for an integer property raises `OverflowError`. -/
theorem C58_false_integer (E : Env) (at_ : List Nat) (d : Decl) (b : Bool) :
    d.setAttr E at_ (.lh .zIndex) (.num (.inf b)) = (d, some .overflow) := rfl

/-- C58 is false: `quotes = [1, 2]` raises `TypeError`. -/
theorem C58_false_quotes (E : Env) (at_ : List Nat) (d : Decl) (a b : PyNum) :
    d.setAttr E at_ (.lh .quotes) (.seq false [.num a, .num b]) = (d, some .type) := rfl

/-- C58 is false: an infinite angle assigned to a length raises `OverflowError` while the message is
being formatted. -/
theorem C58_false_infinite_angle (E : Env) (at_ : List Nat) (d : Decl) (a : AKind) (b : Bool) :
    d.setAttr E at_ (.lh .width) (.unit ⟨.ang a, .inf b⟩) = (d, some .overflow) := rfl

/-! ## C59: numeric validators -/

/-- The number Python's `int` and `float` make of a value. -/
inductive Coerces (fp : FP) : NumType → Val → PyNum → Prop
  | int (i : Int) : Coerces fp .int (.num (.fin (.int i))) (.fin (.int i))
  | trunc (q : Rat) (i : Int) : |(i : Rat)| ≤ |q| → |q - i| < 1 → 0 ≤ q * i →
      Coerces fp .int (.num (.fin (.flt q))) (.fin (.int i))
  | intText (s : PyStr) (i : Int) : IntLit s i → Coerces fp .int (.str s) (.fin (.int i))
  | floatInt (i : Int) : Coerces fp .float (.num (.fin (.int i))) (.fin (.flt (fp.rnd i)))
  | float (q : Rat) : Coerces fp .float (.num (.fin (.flt q))) (.fin (.flt q))
  | inf (b : Bool) : Coerces fp .float (.num (.inf b)) (.inf b)
  | nan : Coerces fp .float (.num .nan) .nan
  | floatText (s : PyStr) (x : PyNum) : FloatLit fp s x → Coerces fp .float (.str s) x

/-- The number lies below the bound. -/
def PyNum.Under : PyNum → Rat → Prop
  | .fin n, m => n.val < m
  | .inf true, _ => True
  | _, _ => False

/-- The number lies above the bound. -/
def PyNum.Over : PyNum → Rat → Prop
  | .fin n, m => m < n.val
  | .inf false, _ => True
  | _, _ => False

/-- Not outside the given bounds. -/
def PyNum.Admissible (x : PyNum) (lo hi : Option Num) : Prop :=
  (∀ m, lo = some m → ¬ x.Under m.val) ∧ ∀ m, hi = some m → ¬ x.Over m.val

theorem belowMin_iff (x : PyNum) (lo : Option Num) : belowMin x lo = true ↔ ∃ m, lo = some m ∧ x.Under m.val := by
  cases lo with
  | none => simp [belowMin]
  | some m =>
    rcases x with n | b | _
    · simp [belowMin, PyNum.pyLt, Num.pyLt, PyNum.Under]
    · cases b <;> simp [belowMin, PyNum.pyLt, PyNum.Under]
    · simp [belowMin, PyNum.pyLt, PyNum.Under]

theorem aboveMax_iff (x : PyNum) (hi : Option Num) : aboveMax x hi = true ↔ ∃ m, hi = some m ∧ x.Over m.val := by
  cases hi with
  | none => simp [aboveMax]
  | some m =>
    rcases x with n | b | _
    · simp [aboveMax, PyNum.pyLt, Num.pyLt, PyNum.Over]
    · cases b <;> simp [aboveMax, PyNum.pyLt, PyNum.Over]
    · simp [aboveMax, PyNum.pyLt, PyNum.Over]

theorem pyTrunc_spec (q : Rat) : |(pyTrunc q : Rat)| ≤ |q| ∧ |q - pyTrunc q| < 1 ∧ 0 ≤ q * pyTrunc q := by
  have key : ∀ r : Rat, 0 ≤ r → (0 : Rat) ≤ r.floor ∧ (r.floor : Rat) ≤ r ∧ r < r.floor + 1 := by
    intro r hr
    refine ⟨?_, Rat.floor_le r, ?_⟩
    · exact_mod_cast (Rat.le_floor_iff).2 (by simpa using hr)
    · have := Rat.lt_floor_add_one r
      simpa using this
  unfold pyTrunc
  split
  · rename_i h
    obtain ⟨h0, h1, h2⟩ := key q h
    refine ⟨by rw [abs_of_nonneg h0, abs_of_nonneg h]; exact h1, ?_, mul_nonneg h h0⟩
    rw [abs_of_nonneg (by linarith)]; linarith
  · rename_i h
    have h : q < 0 := lt_of_not_ge h
    obtain ⟨h0, h1, h2⟩ := key (-q) (by linarith)
    push_cast
    refine ⟨?_, ?_, ?_⟩
    · rw [abs_neg, abs_of_nonneg h0, abs_of_neg h]; exact h1
    · rw [abs_of_nonpos (by linarith)]; linarith
    · nlinarith

theorem trunc_unique {q : Rat} {i j : Int} (hi : |(i : Rat)| ≤ |q| ∧ |q - i| < 1 ∧ 0 ≤ q * i)
    (hj : |(j : Rat)| ≤ |q| ∧ |q - j| < 1 ∧ 0 ≤ q * j) : i = j := by
  have lt1 : ∀ a b : Int, |((a : Rat) - b)| < 1 → a = b := by
    intro a b h
    have : |a - b| < 1 := by exact_mod_cast h
    have := Int.abs_lt_one_iff.1 this
    omega
  refine lt1 i j ?_
  obtain ⟨a1, a2, a3⟩ := hi
  obtain ⟨b1, b2, b3⟩ := hj
  rcases lt_trichotomy q 0 with hq | hq | hq
  · have hi0 : (i : Rat) ≤ 0 := by by_contra h; push Not at h; nlinarith
    have hj0 : (j : Rat) ≤ 0 := by by_contra h; push Not at h; nlinarith
    rw [abs_of_nonpos hi0, abs_of_neg hq] at a1
    rw [abs_of_nonpos hj0, abs_of_neg hq] at b1
    rw [abs_lt] at *
    constructor <;> linarith
  · subst hq
    simp only [abs_zero] at a1 b1
    have := abs_nonpos_iff.1 a1
    have := abs_nonpos_iff.1 b1
    simp [*]
  · have hi0 : 0 ≤ (i : Rat) := by by_contra h; push Not at h; nlinarith
    have hj0 : 0 ≤ (j : Rat) := by by_contra h; push Not at h; nlinarith
    rw [abs_of_nonneg hi0, abs_of_pos hq] at a1
    rw [abs_of_nonneg hj0, abs_of_pos hq] at b1
    rw [abs_lt] at *
    constructor <;> linarith

theorem coerce_iff (fp : FP) (t : NumType) (v : Val) (x : PyNum) : coerce fp t v = .ok x ↔ Coerces fp t v x := by
  constructor
  · intro h
    cases t <;> cases v with
    | num y =>
      rcases y with (i | q) | b | _ <;> first
        | (cases h; exact .int i)
        | (cases h; exact .trunc q _ (pyTrunc_spec q).1 (pyTrunc_spec q).2.1 (pyTrunc_spec q).2.2)
        | (cases h; exact .floatInt i)
        | (cases h; exact .float q)
        | (cases h; exact .inf b)
        | (cases h; exact .nan)
        | cases h
    | str s =>
      simp only [coerce] at h
      split at h
      · rename_i hp
        cases h
        first | exact .intText s _ (parseInt_iff.1 hp) | exact .floatText s _ (parseFloat_iff.1 hp)
      · cases h
    | _ => cases h
  · intro h
    cases h with
    | trunc q i h1 h2 h3 =>
      rw [trunc_unique ⟨h1, h2, h3⟩ (pyTrunc_spec q)]
      rfl
    | intText s i hp => simp only [coerce, parseInt_iff.2 hp]
    | floatText s x hp => simp only [coerce, parseFloat_iff.2 hp]
    | _ => rfl

/-- C59, acceptance: `is_integer` / `is_number` with any bounds return `int(v)` / `float(v)` exactly when
it exists and lies outside neither bound. -/
theorem C59_accepts (fp : FP) (t : NumType) (lo hi : Option Num) (v w : Val) :
    numericValidator fp t lo hi v = .ok w ↔ ∃ x, w = .num x ∧ Coerces fp t v x ∧ x.Admissible lo hi := by
  unfold numericValidator
  constructor
  · intro h
    split at h
    · cases h
    · exact absurd h (raiseFmt_ne_ok _ _ _)
    · rename_i x hx
      split at h
      · cases h
      · split at h
        · cases h
        · rename_i h1 h2
          cases h
          rw [belowMin_iff] at h1
          rw [aboveMax_iff] at h2
          exact ⟨x, rfl, (coerce_iff ..).1 hx, fun m hm hu => h1 ⟨m, hm, hu⟩, fun m hm hu => h2 ⟨m, hm, hu⟩⟩
  · rintro ⟨x, rfl, hx, h1, h2⟩
    rw [(coerce_iff ..).2 hx]
    simp only
    rw [if_neg, if_neg]
    · rw [aboveMax_iff]; rintro ⟨m, hm, hu⟩; exact h2 m hm hu
    · rw [belowMin_iff]; rintro ⟨m, hm, hu⟩; exact h1 m hm hu

/-- C59, the result lies within the bounds, unless it is `nan`. -/
theorem C59_within_partial (fp : FP) (t : NumType) (lo hi : Num) (v w : Val)
    (h : numericValidator fp t (some lo) (some hi) v = .ok w) (hn : w ≠ .num .nan) :
    ∃ n, w = .num (.fin n) ∧ lo.val ≤ n.val ∧ n.val ≤ hi.val := by
  obtain ⟨x, rfl, _, h1, h2⟩ := (C59_accepts ..).1 h
  have h1 := h1 lo rfl
  have h2 := h2 hi rfl
  rcases x with n | b | _
  · exact ⟨n, rfl, not_lt.1 h1, not_lt.1 h2⟩
  · cases b
    · exact absurd trivial h2
    · exact absurd trivial h1
  · exact absurd rfl hn

/-- C59, rejection: every other printable value raises `ValidationError`, except an infinite number given
to `is_integer`, which raises `OverflowError`. -/
theorem C59_rejects (fp : FP) (t : NumType) (lo hi : Option Num) (v : Val) (hf : v.fmtErr = none)
    (h : ¬ ∃ x, Coerces fp t v x ∧ x.Admissible lo hi) :
    numericValidator fp t lo hi v = .error .validation ∨
      (t = .int ∧ (∃ b, v = .num (.inf b)) ∧ numericValidator fp t lo hi v = .error .overflow) := by
  cases hv : numericValidator fp t lo hi v with
  | ok w => obtain ⟨x, _, hx⟩ := (C59_accepts ..).1 hv; exact absurd ⟨x, hx⟩ h
  | error e =>
    have hv' := hv
    unfold numericValidator at hv
    split at hv
    · rename_i ho
      cases hv
      obtain ⟨b, rfl⟩ := coerce_overflow ho
      cases t
      · exact Or.inr ⟨rfl, ⟨b, rfl⟩, rfl⟩
      · cases ho
    · rw [raiseFmt_none hf] at hv; cases hv; exact Or.inl rfl
    · split at hv
      · cases hv; exact Or.inl rfl
      · split at hv
        · cases hv; exact Or.inl rfl
        · cases hv

example : numericValidator FP.b64 .int (some (.int 0)) (some (.int 5)) (.num (.fin (.flt (7 / 2)))) =
    .ok (.num (.fin (.int 3))) ∧
    numericValidator FP.b64 .int (some (.int 0)) (some (.int 5)) (.num (.fin (.int 6))) = .error .validation := by
  refine ⟨?_, ?_⟩
  · rw [C59_accepts]
    refine ⟨_, rfl, .trunc _ _ ?_ ?_ ?_, ?_, ?_⟩
    · norm_num
    · norm_num
    · norm_num
    · rintro m hm; cases hm; simp [PyNum.Under, Num.val]
    · rintro m hm; cases hm; norm_num [PyNum.Over, Num.val]
  · rcases C59_rejects FP.b64 .int (some (.int 0)) (some (.int 5)) (.num (.fin (.int 6))) rfl
      (by
        rintro ⟨x, hx, _, h2⟩
        cases hx
        exact h2 _ rfl (by norm_num [PyNum.Over, Num.val])) with h | ⟨_, ⟨b, hb⟩, _⟩
    · exact h
    · cases hb

/-- C59 is false: `int(inf)` raises `OverflowError`, which `is_integer` does not turn into
`ValidationError`. -/
theorem C59_false_infinite (fp : FP) (lo hi : Option Num) (b : Bool) :
    numericValidator fp .int lo hi (.num (.inf b)) = .error .overflow := rfl

/-- C59 is false: `nan` passes every range check of `is_number`. -/
theorem C59_false_nan (fp : FP) (lo hi : Option Num) :
    numericValidator fp .float lo hi (.num .nan) = .ok (.num .nan) := by
  cases lo <;> cases hi <;> rfl

end Colosseum
