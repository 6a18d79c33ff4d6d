import Verif.Lemmas.Style
import Verif.Props.Units

/-! # What a property accepts -/

namespace Colosseum

/-- The parser for each kind of value. -/
def Kind.parse (E : Env) (at_ : List Nat) (v : Val) : Kind → Res Val
  | .length => (units E.fp v).map .unit
  | .color => Colosseum.color E.fp at_ v
  | .integer => isInteger E.fp v
  | .spacing => borderSpacing E.fp at_ v
  | .rect => Colosseum.rect E.fp v
  | .quotes => Colosseum.quotes E v
  | .cursor => Colosseum.cursor at_ v

theorem toValidation_map_ok {α : Type} {r : Res α} {x : α} (h : r = .ok x) : toValidation r = .ok x := by
  rw [h]; rfl

theorem isQuote_ok_iff {E : Env} {v w : Val} : isQuote E v = .ok w ↔ quotes E v = .ok w := by
  unfold isQuote
  cases quotes E v with
  | ok q => rfl
  | error e =>
    simp only
    split
    · exact ⟨fun h => absurd h (raiseFmt_ne_ok _ _ _), fun h => by cases h⟩
    · rfl

theorem isPercentage_units {fp : FP} {v w : Val} (h : isPercentage fp v = .ok w) :
    (units fp v).map .unit = .ok w := by
  unfold isPercentage at h
  split at h
  · cases h
  · rename_i u hu
    rw [toValidation_ok hu]
    split at h
    · split at h
      · exact absurd h (raiseFmt_ne_ok _ _ _)
      · cases h; rfl
    · exact absurd h (raiseFmt_ne_ok _ _ _)

theorem isLength_units {fp : FP} {v w : Val} : isLength fp v = .ok w ↔ (units fp v).map .unit = .ok w := by
  unfold isLength
  constructor
  · intro h
    obtain ⟨u, hu, rfl⟩ := except_map_ok h
    rw [toValidation_ok hu]; rfl
  · intro h
    obtain ⟨u, hu, rfl⟩ := except_map_ok h
    rw [hu]; rfl

theorem run_parse {E : Env} {at_ : List Nat} {v w : Val} {p : LH} {a : Validator}
    (ha : a ∈ p.choices.validators) (h : a.run E at_ v = .ok w) :
    ∃ k, kindOf p = some k ∧ k.parse E at_ v = .ok w := by
  have hv := validators_kind p
  cases hk : kindOf p with
  | none => rw [hk] at hv; simp only at hv; rw [hv] at ha; cases ha
  | some k =>
    refine ⟨k, rfl, ?_⟩
    rw [hk] at hv
    cases k <;> simp only [Kind.validators] at hv
    · have : a = .length ∨ a = .percentage := by
        rcases hv with hv | hv <;> rw [hv] at ha <;> simp at ha <;> tauto
      rcases this with rfl | rfl
      · exact isLength_units.1 h
      · exact isPercentage_units h
    all_goals
      rw [hv] at ha
      simp only [List.mem_cons, List.not_mem_nil, or_false] at ha
      subst ha
    · exact toValidation_ok h
    · exact h
    · exact toValidation_ok h
    · exact toValidation_ok h
    · exact isQuote_ok_iff.1 h
    · exact toValidation_ok h

theorem parse_try {E : Env} {at_ : List Nat} {v w : Val} {p : LH} {k : Kind} (hk : kindOf p = some k)
    (h : k.parse E at_ v = .ok w) : tryValidators E at_ v p.choices.validators = some (.ok w) := by
  have hv := validators_kind p
  rw [hk] at hv
  cases k <;> simp only [Kind.validators] at hv
  · have := isLength_units.2 h
    rcases hv with hv | hv <;> rw [hv] <;> simp only [tryValidators, Validator.run, this]
  all_goals rw [hv]; simp only [Kind.parse] at h
  · simp only [tryValidators, Validator.run, isColor, toValidation_map_ok h]
  · simp only [tryValidators, Validator.run, h]
  · simp only [tryValidators, Validator.run, isBorderSpacing, toValidation_map_ok h]
  · simp only [tryValidators, Validator.run, isRect, toValidation_map_ok h]
  · simp only [tryValidators, Validator.run, isQuote_ok_iff.2 h]
  · simp only [tryValidators, Validator.run, isCursor, toValidation_map_ok h]

theorem keywordOf_iff (p : LH) (v w : Val) : KeywordOf p v w ↔ w = noneOf v ∧ noneOf v ∈ keywords p := by
  have hnn : ∀ p ∈ allLH, ∀ c ∈ (keywords p).map Val.code, c ≠ (2, lit "none") := by decide +kernel
  constructor
  · intro h
    cases h with
    | word s hs =>
      have e : keywordVal s = noneOf (.str s.toList) := by
        rw [noneOf_str, keywordVal]
        by_cases e : s = "none"
        · subst e; rfl
        · have : s.toList ≠ lit "none" := fun h => e (String.ext (by simpa [lit] using h))
          rw [if_neg e, if_neg this]
      exact ⟨e, e ▸ List.mem_append.2 (Or.inl (List.mem_map.2 ⟨s, hs, rfl⟩))⟩
    | none hs => exact ⟨rfl, List.mem_append.2 (Or.inl (List.mem_map.2 ⟨_, hs, rfl⟩))⟩
    | dflt hp => exact ⟨rfl, List.mem_append.2 (Or.inr (by rw [if_pos hp]; exact List.mem_singleton.2 rfl))⟩
  · rintro ⟨rfl, h⟩
    rcases keyword_cases h with ⟨s, hs, e⟩ | ⟨e, hp⟩
    · rw [e]
      by_cases hsn : s = "none"
      · subst hsn
        cases v <;> first
          | (cases e; done)
          | exact KeywordOf.none hs
          | skip
        rename_i t
        rw [noneOf_str] at e
        split at e
        · rename_i ht; rw [ht]; exact KeywordOf.word "none" hs
        · cases e
      · simp only [keywordVal, if_neg hsn] at e
        cases v <;> first
          | (cases e)
          | skip
        rename_i t
        rw [noneOf_str] at e
        split at e
        · cases e
        · cases e; exact KeywordOf.word s hs
    · rw [e]
      cases v <;> first
        | (cases e; done)
        | exact KeywordOf.dflt hp
        | skip
      rename_i t
      rw [noneOf_str] at e
      split at e <;> cases e

theorem none_str_try {E : Env} {at_ : List Nat} {p : LH} (h : "none" ∈ keywordNames p) :
    tryValidators E at_ (.str (lit "none")) p.choices.validators = none := by
  cases hk : kindOf p with
  | none => have hv := validators_kind p; rw [hk] at hv; simp only at hv; rw [hv]; rfl
  | some k =>
    have : k = .length ∨ p = .quotes := by
      have : ∀ p ∈ allLH, "none" ∈ keywordNames p → kindOf p = none ∨ kindOf p = some .length ∨ p = .quotes := by
        decide +kernel
      rcases this p (mem_allLH p) h with h | h | h
      · rw [hk] at h; cases h
      · rw [hk] at h; cases h; exact Or.inl rfl
      · exact Or.inr h
    rcases this with rfl | rfl
    · exact length_try hk (units_str_error (by decide +kernel))
    · have hw : splitWs (lit "none") = [lit "none"] := by decide
      simp only [LH.choices, tryValidators, Validator.run, isQuote, quotes, quotesOf, hw, List.map_cons,
        List.map_nil]
      rfl

theorem validate_iff (E : Env) (at_ : List Nat) (p : LH) (v w : Val) :
    p.choices.validate E at_ v = .ok w ↔
      KeywordOf p v w ∨ ∃ k, kindOf p = some k ∧ k.parse E at_ v = .ok w := by
  constructor
  · intro h
    cases ht : tryValidators E at_ v p.choices.validators with
    | some r =>
      have : r = .ok w := by simpa only [Choices.validate, ht] using h
      subst this
      obtain ⟨a, ha, hr⟩ := tryValidators_ok ht
      exact Or.inr (run_parse ha hr)
    | none =>
      refine Or.inl ((keywordOf_iff p v w).2 ?_)
      by_cases hk : noneOf v ∈ keywords p
      · rw [validate_keyword ht hk] at h
        cases h
        exact ⟨rfl, hk⟩
      · rw [validate_no_keyword ht hk] at h; cases h
  · rintro (h | ⟨k, hk, h⟩)
    · obtain ⟨rfl, hm⟩ := (keywordOf_iff p v w).1 h
      refine validate_keyword ?_ hm
      have key : ∀ v, noneOf v = v → noneOf v ∈ keywords p →
          tryValidators E at_ v p.choices.validators = none := fun v e hm => keyword_try (e ▸ hm)
      cases v <;> first
        | exact key _ rfl hm
        | skip
      rename_i s
      by_cases e : s = lit "none"
      · subst e
        refine none_str_try ?_
        rw [noneOf_str, if_pos rfl] at hm
        rcases keyword_cases hm with ⟨t, ht, e⟩ | ⟨e, _⟩
        · rw [keywordVal] at e
          split at e
          · rename_i e'; exact e' ▸ ht
          · cases e
        · cases e
      · exact key _ (by rw [noneOf_str, if_neg e]) hm
    · unfold Choices.validate
      rw [parse_try hk h]

end Colosseum
