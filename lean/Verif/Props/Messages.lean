import Verif.Model.Messages
import Verif.Spec.Messages
import Verif.Props.Names
import Verif.Props.Errors

/-!
# C73: error messages
-/

namespace Colosseum

theorem mem_addText (x y : PyStr) (ys : List PyStr) : y ∈ addText x ys ↔ y = x ∨ y ∈ ys := by
  induction ys with
  | nil => simp [addText]
  | cons z ys ih =>
    simp only [addText]
    split
    · rename_i e; subst e; simp
    · split
      · simp
      · simp only [List.mem_cons, ih]; tauto

theorem mem_sortedSet (y : PyStr) (xs : List PyStr) : y ∈ sortedSet xs ↔ y ∈ xs := by
  induction xs with
  | nil => simp [sortedSet]
  | cons x xs ih => rw [sortedSet, mem_addText, ih, List.mem_cons]

theorem before_trans {a b c : PyStr} (h : Before a b) (h' : Before b c) : Before a c := by
  induction h generalizing c with
  | nil c s => cases h' with
    | head h => exact .nil _ _
    | tail c h => exact .nil _ _
  | head h => cases h' with
    | head h2 => exact .head (h.trans h2)
    | tail c h2 => exact .head h
  | tail c h ih => cases h' with
    | head h2 => exact .head h2
    | tail c h2 => exact .tail c (ih h2)

theorem addText_sorted {x : PyStr} {ys : List PyStr} (h : ys.Pairwise Before) : (addText x ys).Pairwise Before := by
  induction ys with
  | nil => simp [addText]
  | cons y ys ih =>
    rw [List.pairwise_cons] at h
    simp only [addText]
    split
    · exact List.pairwise_cons.2 h
    · rename_i hxy
      split
      · rename_i hle
        have hb : Before x y := (before_of_strLe hle).resolve_left hxy
        rw [List.pairwise_cons]
        refine ⟨fun z hz => ?_, List.pairwise_cons.2 h⟩
        rcases List.mem_cons.1 hz with rfl | hz
        · exact hb
        · exact before_trans hb (h.1 z hz)
      · rename_i hle
        rw [List.pairwise_cons]
        refine ⟨fun z hz => ?_, ih h.2⟩
        rcases (mem_addText _ _ _).1 hz with rfl | hz
        · have := (strLe_total z y).resolve_left hle
          exact (before_of_strLe this).resolve_left fun e => hxy e.symm
        · exact h.1 z hz

theorem sortedSet_sorted (xs : List PyStr) : (sortedSet xs).Pairwise Before := by
  induction xs with
  | nil => exact .nil
  | cons x xs ih => exact addText_sorted ih

/-- The texts of the choices of a property that do not depend on the printer. -/
def fixedTexts (c : Choices) : List PyStr :=
  (c.constants.filterMap fun v => match v with
    | .none => some (lit "none")
    | .str s => some (replaceChar '_' '-' (lower s))
    | _ => none) ++ c.validators.map Validator.description ++
  c.defaults.filterMap fun v => match v with
    | .str s => some s
    | _ => none

theorem fixedTexts_spec : ∀ p ∈ allLH, (∀ s ∈ keywordNames p ++ notations p, s.toList ∈ fixedTexts p.choices) ∧
    ∀ x ∈ fixedTexts p.choices, ∃ s ∈ keywordNames p ++ notations p, x = s.toList := by decide +kernel

theorem mem_fixedTexts (p : LH) (x : PyStr) : x ∈ fixedTexts p.choices ↔ Stands p x := by
  obtain ⟨h1, h2⟩ := fixedTexts_spec p (mem_allLH p)
  constructor
  · intro h
    obtain ⟨s, hs, e⟩ := h2 x h
    exact ⟨s, List.mem_append.1 hs, e⟩
  · rintro ⟨s, hs, rfl⟩
    exact h1 s (List.mem_append.2 hs)

theorem texts_fixed (P : Printer) (p : LH) (h : ¬ (p = .color ∨ p = .backgroundColor)) : P.texts p.choices = .ok (fixedTexts p.choices) := by
  cases p <;> first | rfl | exact absurd (Or.inl rfl) h | exact absurd (Or.inr rfl) h

theorem texts_color (P : Printer) (p : LH) (h : p = .color ∨ p = .backgroundColor) {o : PyStr} (ho : P.str .dflt = .ok o) :
    P.texts p.choices = .ok (replaceChar '_' '-' (lower o) :: fixedTexts p.choices) := by
  have : P.constant .dflt = .ok (replaceChar '_' '-' (lower o)) := by unfold Printer.constant; rw [ho]; rfl
  rcases h with rfl | rfl <;> simp [Printer.texts, LH.choices, this, fixedTexts] <;> rfl

/-- C73. The message of a refused value names the value and the property, and lists its keywords and the notations of its other values, each once and in
alphabetical order; for `color` and `background-color` also the `default` object of colosseum. -/
theorem C73_message (P : Printer) (E : Env) (at_ : List Nat) (d : Decl) (p : LH) (v : Val) (t o : PyStr)
    (h : (d.set E at_ p v).2 = some .value) (ht : P.str v = .ok t) (ho : P.str .dflt = .ok o) :
    ∃ xs, P.setMessage E at_ p v = some (.ok ("Invalid value '".toList ++ t ++ "' for CSS property '".toList ++ p.name ++ "'; Valid values are: ".toList ++
        List.intercalate ", ".toList xs)) ∧ xs.Pairwise Before ∧
      ∀ x, x ∈ xs ↔ Stands p x ∨ (p = .color ∨ p = .backgroundColor) ∧ x = replaceChar '_' '-' (lower o) := by
  have he : ∃ e, p.choices.validate E at_ v = .error e ∧ e.isValueError = true := by
    unfold Decl.set at h
    split at h
    · rename_i e he
      refine ⟨e, he, ?_⟩
      split at h
      · assumption
      · cases h
        rename_i hx
        exact absurd rfl hx
    · exfalso
      split at h
      · unfold Decl.markDirty at h
        split at h <;> cases h
      · cases h
  obtain ⟨e, he, hv⟩ := he
  have hx : ∃ xs, P.texts p.choices = .ok xs ∧ ∀ x, x ∈ xs ↔ Stands p x ∨ (p = .color ∨ p = .backgroundColor) ∧ x = replaceChar '_' '-' (lower o) := by
    by_cases hp : p = .color ∨ p = .backgroundColor
    · refine ⟨_, texts_color P p hp ho, fun x => ?_⟩
      rw [List.mem_cons, mem_fixedTexts]
      simp only [hp, true_and]
      exact or_comm
    · refine ⟨_, texts_fixed P p hp, fun x => ?_⟩
      rw [mem_fixedTexts]
      simp [hp]
  obtain ⟨xs, h1, h2⟩ := hx
  refine ⟨sortedSet xs, ?_, sortedSet_sorted xs, fun x => by rw [mem_sortedSet, h2]⟩
  unfold Printer.setMessage
  rw [he]
  simp only [hv, if_true]
  unfold Printer.refusal Printer.choices
  rw [ht, h1]
  rfl

/-- C73. What the message lists can be used: every text that is not a notation can be assigned. -/
theorem C73_usable (E : Env) (at_ : List Nat) (d : Decl) (hl : d.link ≠ .noBox) (p : LH) (x : PyStr) (hx : Stands p x) :
    (∃ s ∈ notations p, x = s.toList) ∨ (d.setAttr E at_ (.lh p) (.str x)).2 = none := by
  obtain ⟨s, hs | hs, rfl⟩ := hx
  · exact Or.inr ((C57_accepts E at_ d hl p _).2 ⟨_, Or.inl (.word s hs)⟩)
  · exact Or.inl ⟨s, hs, rfl⟩

/-- C73. Nothing is missing: a text that can be assigned is listed, or the property lists a notation and the text is a value of that kind. -/
theorem C73_complete (E : Env) (at_ : List Nat) (d : Decl) (hl : d.link ≠ .noBox) (p : LH) (x : PyStr)
    (h : (d.setAttr E at_ (.lh p) (.str x)).2 = none) :
    Stands p x ∨ notations p ≠ [] ∧ ∃ k w, kindOf p = some k ∧ k.parse E at_ (.str x) = .ok w := by
  obtain ⟨w, hw | ⟨k, h1, h2⟩⟩ := (C57_accepts E at_ d hl p _).1 h
  · generalize hv : Val.str x = v at hw
    cases hw with
    | word s hs => cases hv; exact Or.inl ⟨s, Or.inl hs, rfl⟩
    | none => cases hv
    | dflt => cases hv
  · refine Or.inr ⟨fun hn => ?_, k, w, h1, h2⟩
    cases p <;> first | (cases hn; done) | (cases h1; done)

/-- `visibility = "shown"`. -/
example (P : Printer) (E : Env) : P.setMessage E [] .visibility (.str (lit "shown")) =
      some (.ok (lit "Invalid value 'shown' for CSS property 'visibility'; Valid values are: collapse, hidden, visible")) ∧
    ((Decl.mk CSS.empty .unbound).set E [] .visibility (.str (lit "shown"))).2 = some .value := ⟨by rfl, by rfl⟩

/-- `clip = "oval"`: `auto`, `inherit` and the notation of rectangles. -/
example (P : Printer) : P.choices (LH.choices .clip) = .ok (lit "<rect>, auto, inherit") := by rfl

/-- C73 is false for `color` and `background-color`: the message also lists the text of an internal object, which is refused. -/
theorem C73_false_object (P : Printer) (E : Env) (ho : P.str .dflt = .ok (lit "<object object at 0x7f3c5a8e1c60>")) :
    P.setMessage E [] .color (.str (lit "none")) =
      some (.ok (lit "Invalid value 'none' for CSS property 'color'; Valid values are: <color>, <object object at 0x7f3c5a8e1c60>")) ∧
    ((Decl.mk CSS.empty .unbound).set E [] .color (.str (lit "<object object at 0x7f3c5a8e1c60>"))).2 = some .value := by
  constructor
  · have h : (LH.choices .color).validate E [] (.str (lit "none")) = .error .value := by rfl
    unfold Printer.setMessage
    rw [h]
    show some (P.refusal .color (.str (lit "none"))) = _
    unfold Printer.refusal Printer.choices
    rw [texts_color P .color (Or.inl rfl) ho]
    rfl
  · rfl

/-- C73 is false for the widths of borders and outlines and for spacings: percentages are accepted, but not listed. -/
theorem C73_false_percentage (E : Env) (p : LH) (hp : p ∈ [LH.borderWidth .top, .outlineWidth, .letterSpacing, .wordSpacing]) :
    ((Decl.mk CSS.empty .unbound).set E [] p (.str (lit "50%"))).2 = none ∧ "<percentage>" ∉ notations p := by
  simp only [List.mem_cons, List.not_mem_nil, or_false] at hp
  rcases hp with rfl | rfl | rfl | rfl <;> exact ⟨by rfl, by decide⟩

theorem CUnit.fmtErr_kind (u : CUnit) : u.fmtErr ≠ some .validation := by
  unfold CUnit.fmtErr
  split <;> simp

theorem orElse_kind {a b : Option Err} (ha : a ≠ some .validation) (hb : b ≠ some .validation) : (a <|> b) ≠ some .validation := by
  cases a with
  | none => exact hb
  | some e => exact ha

mutual
theorem Val.fmtErr_kind : ∀ v : Val, v.fmtErr ≠ some .validation
  | .unit u => by simp only [Val.fmtErr]; exact u.fmtErr_kind
  | .rect a b c d => by
    simp only [Val.fmtErr]
    exact orElse_kind a.fmtErr_kind (orElse_kind b.fmtErr_kind (orElse_kind c.fmtErr_kind d.fmtErr_kind))
  | .borderSpacing _ h v => by
    simp only [Val.fmtErr]
    refine orElse_kind h.fmtErr_kind ?_
    cases v with
    | none => simp
    | some v => exact v.fmtErr_kind
  | .seq _ xs => by simp only [Val.fmtErr]; exact fmtErrList_kind xs
  | .none | .str _ | .num _ | .color _ _ | .uri _ _ | .quotes _ | .cursor _ | .dflt | .obj _ => by simp [Val.fmtErr]

theorem fmtErrList_kind : ∀ xs : List Val, fmtErrList xs ≠ some .validation
  | [] => by simp [fmtErrList]
  | v :: vs => by
    simp only [fmtErrList]
    exact orElse_kind v.fmtErr_kind (fmtErrList_kind vs)
end

theorem raiseFmt_kind {α : Type} (v : Val) : (raiseFmt .value v : Res α) ≠ .error .validation := by
  unfold raiseFmt
  split
  · rename_i e he
    intro h
    cases h
    exact v.fmtErr_kind he
  · intro h; cases h

theorem parsePart_error {E : Env} {at_ : List Nat} {v : Val} {dict : List (Part × Val)} {l : List (Part × Choices)} :
    parsePart E at_ v dict l ≠ .error .validation := by
  induction l with
  | nil =>
    unfold parsePart
    exact raiseFmt_kind v
  | cons x l ih =>
    obtain ⟨k, c⟩ := x
    unfold parsePart
    split
    · rename_i e he
      split
      · exact ih
      · rename_i hv
        intro h
        cases h
        exact hv rfl
    · split <;> (intro h; cases h)

theorem parseParts_error {E : Env} {at_ : List Nat} {tries : List (Part × Choices)} {vs : List Val} :
    ∀ {i : Nat} {dict : List (Part × Val)}, parseParts E at_ tries i dict vs ≠ .error .validation := by
  induction vs with
  | nil => intro i dict h; cases h
  | cons v vs ih =>
    intro i dict
    unfold parseParts
    split
    · intro h; cases h
    · split
      · rename_i e he
        intro h
        cases h
        exact parsePart_error he
      · exact ih

/-- C73 is false for the shorthand properties: the message with the name of the property is never used. -/
theorem C73_false_shorthand (P : Printer) (E : Env) (at_ : List Nat) (s : SH) (v : Val) : P.shorthandMessage E at_ s v = none := by
  have : parseShorthand E at_ s v ≠ .error .validation := by
    unfold parseShorthand
    split
    · intro h; cases h
    · exact parseParts_error
    · split
      · intro h; cases h
      · exact parseParts_error
      · exact raiseFmt_kind _
  unfold Printer.shorthandMessage
  split
  · rename_i h; exact absurd h this
  · rfl

/-- A refused shorthand. -/
example (E : Env) : ((Decl.mk CSS.empty .unbound).setSH E [] .border (.str (lit "bogus"))).2 = some .value := by rfl

end Colosseum
