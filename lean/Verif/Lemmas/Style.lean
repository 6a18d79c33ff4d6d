import Verif.Spec.Style
import Verif.Props.Lists

/-! # Helper lemmas on `Choices.validate` and the property tables -/

namespace Colosseum

theorem mem_allSides (s : Side) : s ∈ allSides := by cases s <;> decide

theorem mem_allLH (p : LH) : p ∈ allLH := by
  cases p with
  | margin s => cases s <;> decide
  | padding s => cases s <;> decide
  | borderWidth s => cases s <;> decide
  | borderColor s => cases s <;> decide
  | borderStyle s => cases s <;> decide
  | _ => decide

/-- A code for the values that occur as keywords. -/
def Val.code : Val → Nat × PyStr
  | .none => (0, [])
  | .dflt => (1, [])
  | .str s => (2, s)
  | _ => (3, [])

theorem code_inj {v w : Val} (h : v.code = w.code) (hw : w.code.1 ≠ 3) : v = w := by
  cases w <;> first
    | exact absurd rfl hw
    | (cases v <;> simp only [Val.code, Prod.mk.injEq] at h <;> first
        | rfl
        | (exact absurd h.1 (by decide))
        | (rw [h.2]))

/-- The constants of the code are the keywords of the specification. -/
theorem mem_keywords (p : LH) (v : Val) :
    v ∈ p.choices.constants ∨ v ∈ p.choices.defaults ↔ v ∈ keywords p := by
  have h1 : ∀ p ∈ allLH, ∀ c ∈ (p.choices.constants ++ p.choices.defaults).map Val.code,
      c.1 ≠ 3 ∧ c ∈ (keywords p).map Val.code := by decide +kernel
  have h2 : ∀ p ∈ allLH, ∀ c ∈ (keywords p).map Val.code,
      c.1 ≠ 3 ∧ c ∈ (p.choices.constants ++ p.choices.defaults).map Val.code := by decide +kernel
  rw [← List.mem_append]
  constructor
  · intro hv
    have hc := List.mem_map_of_mem (f := Val.code) hv
    obtain ⟨h3, hm⟩ := h1 p (mem_allLH p) _ hc
    obtain ⟨w, hw, e⟩ := List.mem_map.1 hm
    rw [← code_inj e h3]; exact hw
  · intro hv
    have hc := List.mem_map_of_mem (f := Val.code) hv
    obtain ⟨h3, hm⟩ := h2 p (mem_allLH p) _ hc
    obtain ⟨w, hw, e⟩ := List.mem_map.1 hm
    rw [← code_inj e h3]; exact hw

theorem keywords_code (p : LH) (v : Val) (h : v ∈ keywords p) : v.code.1 ≠ 3 := by
  have h2 : ∀ p ∈ allLH, ∀ c ∈ (keywords p).map Val.code, c.1 ≠ 3 := by decide +kernel
  exact h2 p (mem_allLH p) _ (List.mem_map_of_mem (f := Val.code) h)

/-- Which validators a property has. -/
def Kind.validators : Kind → List Validator
  | .length => [.length]
  | .color => [.color]
  | .integer => [.integer]
  | .spacing => [.borderSpacing]
  | .rect => [.rect]
  | .quotes => [.quote]
  | .cursor => [.cursor]

/-- The validators of the code are those of the kind of the property; `percentage` may follow
`length`. -/
theorem validators_kind (p : LH) :
    match kindOf p with
    | none => p.choices.validators = []
    | some .length => p.choices.validators = [.length] ∨ p.choices.validators = [.length, .percentage]
    | some k => p.choices.validators = k.validators := by
  cases p <;> first | rfl | exact Or.inl rfl | exact Or.inr rfl

theorem raiseFmt_ne_ok {α : Type} (e : Err) (v : Val) (x : α) : raiseFmt e v ≠ .ok x := by
  unfold raiseFmt
  split <;> simp

theorem toValidation_ok {α : Type} {r : Res α} {x : α} (h : toValidation r = .ok x) : r = .ok x := by
  cases r with
  | ok y => exact h
  | error e => simp only [toValidation] at h; split at h <;> cases h

theorem except_map_ok {α β : Type} {f : α → β} {r : Res α} {y : β} (h : r.map f = .ok y) :
    ∃ x, r = .ok x ∧ y = f x := by
  cases r with
  | ok x => cases h; exact ⟨x, rfl, rfl⟩
  | error e => cases h

theorem isLength_ok {fp : FP} {v w : Val} (h : isLength fp v = .ok w) : ∃ u, w = .unit u := by
  obtain ⟨u, _, rfl⟩ := except_map_ok h
  exact ⟨u, rfl⟩

theorem isPercentage_ok {fp : FP} {v w : Val} (h : isPercentage fp v = .ok w) : ∃ u, w = .unit u := by
  unfold isPercentage at h
  split at h
  · cases h
  · split at h
    · split at h
      · exact absurd h (raiseFmt_ne_ok _ _ _)
      · cases h; exact ⟨_, rfl⟩
    · exact absurd h (raiseFmt_ne_ok _ _ _)

theorem colorStr_ok {fp : FP} {ref : Ref} {s : PyStr} {w : Val} (h : colorStr fp ref s = .ok w) :
    ∃ r c, w = .color r c := by
  unfold colorStr at h
  split at h
  · cases h
  · split at h
    · obtain ⟨c, _, rfl⟩ := except_map_ok h; exact ⟨_, c, rfl⟩
    split at h
    · obtain ⟨c, _, rfl⟩ := except_map_ok h; exact ⟨_, c, rfl⟩
    split at h
    · obtain ⟨c, _, rfl⟩ := except_map_ok h; exact ⟨_, c, rfl⟩
    split at h
    · obtain ⟨c, _, rfl⟩ := except_map_ok h; exact ⟨_, c, rfl⟩
    split at h
    · obtain ⟨c, _, rfl⟩ := except_map_ok h; exact ⟨_, c, rfl⟩
    split at h
    · rename_i v hv
      cases h
      unfold namedColor at hv
      split at hv
      · cases hv; exact ⟨_, _, rfl⟩
      · cases hv
    · cases h

theorem color_ok {fp : FP} {at_ : List Nat} {v w : Val} (h : color fp at_ v = .ok w) :
    ∃ r c, w = .color r c := by
  unfold color at h
  split at h
  · cases h; exact ⟨_, _, rfl⟩
  · exact colorStr_ok h
  · exact absurd h (raiseFmt_ne_ok _ _ _)

theorem isInteger_ok {fp : FP} {v w : Val} (h : isInteger fp v = .ok w) :
    ∃ i : Int, w = .num (.fin (.int i)) := by
  unfold isInteger numericValidator at h
  split at h
  · cases h
  · exact absurd h (raiseFmt_ne_ok _ _ _)
  · rename_i x hx
    simp only [belowMin, aboveMax, Bool.false_eq_true, if_false] at h
    cases h
    unfold coerce at hx
    split at hx
    · obtain ⟨i, _, rfl⟩ := except_map_ok hx; exact ⟨i, rfl⟩
    · split at hx
      · cases hx; exact ⟨_, rfl⟩
      · cases hx
    · rename_i e; cases e
    · rename_i e; cases e
    · cases hx

theorem borderSpacing_ok {fp : FP} {at_ : List Nat} {v w : Val} (h : borderSpacing fp at_ v = .ok w) :
    ∃ r x y, w = .borderSpacing r x y := by
  unfold borderSpacing at h
  simp only at h
  split at h
  · cases h
  · obtain ⟨x, _, h⟩ := bind_ok h; cases h; exact ⟨_, _, _, rfl⟩
  · obtain ⟨x, _, h⟩ := bind_ok h
    obtain ⟨y, _, h⟩ := bind_ok h
    cases h; exact ⟨_, _, _, rfl⟩
  · exact absurd h (raiseFmt_ne_ok _ _ _)

theorem rect_ok {fp : FP} {v w : Val} (h : rect fp v = .ok w) : ∃ a b c d, w = .rect a b c d := by
  unfold rect at h
  split at h
  · split at h
    · obtain ⟨_, _, h⟩ := bind_ok h
      obtain ⟨_, _, h⟩ := bind_ok h
      obtain ⟨_, _, h⟩ := bind_ok h
      obtain ⟨_, _, h⟩ := bind_ok h
      cases h; exact ⟨_, _, _, _, rfl⟩
    · cases h
  · cases h

theorem checkQuoteLen_ok {v : Val} {o c : QVal} (h : checkQuoteLen v o c = .ok ()) :
    o.nonEmpty ∧ c.nonEmpty := by
  have ne : ∀ (q : QVal) (n : Nat), q.len = some n → n ≠ 0 → q.nonEmpty := by
    intro q n hq hn
    cases q with
    | str s =>
      simp only [QVal.len, Option.some.injEq] at hq
      rintro rfl
      exact hn hq.symm
    | other t m =>
      simp only [QVal.len] at hq
      subst hq
      exact ⟨by simp, by simpa using hn⟩
  unfold checkQuoteLen at h
  split at h
  · cases h
  · exact absurd h (raiseFmt_ne_ok _ _ _)
  · rename_i n hn0 hn
    split at h
    · cases h
    · exact absurd h (raiseFmt_ne_ok _ _ _)
    · rename_i m hm0 hm
      exact ⟨ne o n hn hn0, ne c m hm hm0⟩

theorem quotePairs_ok' {v : Val} (xs : List (Res QVal)) {q : List (QVal × QVal)}
    (h : quotePairs v xs = .ok q) : (2 ≤ xs.length → q ≠ []) ∧ ∀ p ∈ q, p.1.nonEmpty ∧ p.2.nonEmpty := by
  match xs with
  | [] => cases h; exact ⟨by simp, by simp⟩
  | [a] => simp only [quotePairs] at h; cases h; exact ⟨by simp, by simp⟩
  | o :: c :: rest =>
    simp only [quotePairs] at h
    split at h
    · cases h
    split at h
    · cases h
    split at h
    · cases h
    rename_i hc
    split at h
    · cases h
    rename_i ps hps
    cases h
    refine ⟨by simp, ?_⟩
    intro p hp
    rcases List.mem_cons.1 hp with rfl | hp
    · exact checkQuoteLen_ok hc
    · exact (quotePairs_ok' rest hps).2 p hp

theorem quotes_ok {E : Env} {v w : Val} (h : quotes E v = .ok w) : Kind.quotes.has w := by
  have qo : ∀ xs, quotesOf v xs = .ok w → Kind.quotes.has w := by
    intro xs h
    unfold quotesOf at h
    split at h
    · rename_i hg
      simp only [Bool.and_eq_true, decide_eq_true_eq, beq_iff_eq] at hg
      split at h
      · cases h
      · rename_i ps hps
        cases h
        obtain ⟨h1, h2⟩ := quotePairs_ok' xs hps
        exact ⟨ps, rfl, h1 (by omega), h2⟩
    · cases h
  unfold quotes at h
  split at h
  · exact qo _ h
  · split at h
    · split at h
      · cases h
      · exact qo _ h
    · exact absurd h (raiseFmt_ne_ok _ _ _)

theorem cursorLoop_shape (at_ : List Nat) (whole : Val) (vs : List Val) :
    ∀ i has r, cursorLoop at_ whole i has vs = .ok r → ∃ urls kw, r = urls ++ kw ∧
      kw.length ≤ (if has then 0 else 1) ∧ (has = true → urls = []) ∧ (∀ u ∈ urls, ∃ r x, u = .uri r x) ∧
      ∀ k ∈ kw, ∃ w ∈ cssCursors, k = .opt w.toList := by
  induction vs with
  | nil => intro i has r h; cases h; exact ⟨[], [], rfl, by simp, by simp, by simp, by simp⟩
  | cons v vs ih =>
    intro i has r h
    simp only [cursorLoop] at h
    split at h
    · split at h
      · rename_i s hs
        split at h
        · exact absurd h (raiseFmt_ne_ok _ _ _)
        · rename_i hh
          split at h
          · cases h
          · rename_i r' hr
            cases h
            obtain ⟨urls, kw, rfl, h1, h2, h3, h4⟩ := ih _ _ _ hr
            simp only [if_true] at h1
            have hu := h2 rfl
            subst hu
            have hk : kw = [] := by simpa using h1
            subst hk
            obtain ⟨k, hk, e⟩ := (cursorOptions_iff s).1 hs
            refine ⟨[], [.opt s], rfl, by simp [hh], by simp, by simp, ?_⟩
            intro x hx
            simp at hx
            exact ⟨k, hk, by rw [hx, e]⟩
      · split at h
        · exact absurd h (raiseFmt_ne_ok _ _ _)
        · rename_i hh
          split at h
          · cases h
          · split at h
            · cases h
            · rename_i r' hr
              cases h
              obtain ⟨urls, kw, rfl, h1, h2, h3, h4⟩ := ih _ _ _ hr
              refine ⟨_ :: urls, kw, rfl, h1, fun h => absurd h hh, ?_, h4⟩
              intro u hu
              rcases List.mem_cons.1 hu with rfl | hu
              · exact ⟨_, _, rfl⟩
              · exact h3 u hu
    · split at h <;> exact absurd h (raiseFmt_ne_ok _ _ _)

theorem cursor_ok {at_ : List Nat} {v w : Val} (h : cursor at_ v = .ok w) : Kind.cursor.has w := by
  unfold cursor at h
  simp only at h
  split at h
  · cases h
  · split at h
    · cases h
    · rename_i r hr
      cases h
      obtain ⟨urls, kw, rfl, h1, _, h3, h4⟩ := cursorLoop_shape at_ v _ 0 false r hr
      exact ⟨urls, kw, rfl, by simpa using h1, h3, h4⟩

theorem tryValidators_ok {E : Env} {at_ : List Nat} {v w : Val} {ws : List Validator}
    (h : tryValidators E at_ v ws = some (.ok w)) : ∃ a ∈ ws, a.run E at_ v = .ok w := by
  induction ws with
  | nil => cases h
  | cons a ws ih =>
    simp only [tryValidators] at h
    split at h
    · rename_i hr
      cases h
      exact ⟨a, by simp, hr⟩
    · obtain ⟨b, hb, hr⟩ := ih h
      exact ⟨b, by simp [hb], hr⟩
    · cases h

/-- What a validator of a property returns is of the kind of the property. -/
theorem run_kind {E : Env} {at_ : List Nat} {v w : Val} {p : LH} {a : Validator}
    (ha : a ∈ p.choices.validators) (h : a.run E at_ v = .ok w) : ∃ k, kindOf p = some k ∧ k.has w := by
  have hv := validators_kind p
  cases hk : kindOf p with
  | none => rw [hk] at hv; simp only at hv; rw [hv] at ha; cases ha
  | some k =>
    refine ⟨k, rfl, ?_⟩
    rw [hk] at hv
    cases k <;> simp only [Kind.validators] at hv
    · have : a = .length ∨ a = .percentage := by
        rcases hv with hv | hv <;> rw [hv] at ha <;> simp at ha <;> tauto
      rcases this with rfl | rfl
      · exact isLength_ok h
      · exact isPercentage_ok h
    all_goals
      rw [hv] at ha
      simp only [List.mem_cons, List.not_mem_nil, or_false] at ha
      subst ha
    · exact color_ok (toValidation_ok h)
    · exact isInteger_ok h
    · exact borderSpacing_ok (toValidation_ok h)
    · exact rect_ok (toValidation_ok h)
    · simp only [Validator.run, isQuote] at h
      split at h
      · rename_i q hq; cases h; exact quotes_ok hq
      · split at h
        · exact absurd h (raiseFmt_ne_ok _ _ _)
        · cases h
    · exact cursor_ok (toValidation_ok h)

/-- An accepted value is canonical. -/
theorem validate_canonical {E : Env} {at_ : List Nat} {p : LH} {v w : Val}
    (h : p.choices.validate E at_ v = .ok w) : Canonical p w := by
  unfold Choices.validate at h
  split at h
  · rename_i r hr
    subst h
    obtain ⟨a, ha, hrun⟩ := tryValidators_ok hr
    exact Or.inr (run_kind ha hrun)
  · split at h
    · rename_i k hk
      cases h
      exact Or.inl ((mem_keywords p _).1 (Or.inl (List.mem_of_find?_eq_some hk)))
    · split at h
      · rename_i k hk
        cases h
        exact Or.inl ((mem_keywords p _).1 (Or.inr (List.mem_of_find?_eq_some hk)))
      · cases h

/-! ## Keywords -/

theorem pyEq_atom {v k : Val} (hk : k.code.1 ≠ 3) : v.pyEq k = true ↔ v = k := by
  cases k <;> first
    | exact absurd rfl hk
    | (cases v <;> simp [Val.pyEq])

theorem findConst_mem {v : Val} {cs : List Val} (hc : ∀ c ∈ cs, c.code.1 ≠ 3) (h : v ∈ cs) :
    findConst v cs = some v := by
  induction cs with
  | nil => cases h
  | cons c cs ih =>
    simp only [findConst, List.find?_cons]
    by_cases hv : v.pyEq c = true
    · rw [hv, (pyEq_atom (hc c (by simp))).1 hv]
    · rw [Bool.not_eq_true] at hv
      rw [hv]
      have hne : v ≠ c := by
        intro e
        rw [(pyEq_atom (hc c (by simp))).2 e] at hv
        cases hv
      exact ih (fun d hd => hc d (by simp [hd])) ((List.mem_cons.1 h).resolve_left hne)

theorem findConst_not_mem {v : Val} {cs : List Val} (hc : ∀ c ∈ cs, c.code.1 ≠ 3) (h : v ∉ cs) :
    findConst v cs = none := by
  rw [findConst, List.find?_eq_none]
  intro c hcm hv
  exact h ((pyEq_atom (hc c hcm)).1 hv ▸ hcm)

theorem atoms_of (p : LH) : (∀ c ∈ p.choices.constants, c.code.1 ≠ 3) ∧ ∀ c ∈ p.choices.defaults, c.code.1 ≠ 3 :=
  ⟨fun c h => keywords_code p c ((mem_keywords p c).1 (Or.inl h)),
   fun c h => keywords_code p c ((mem_keywords p c).1 (Or.inr h))⟩

/-- The keyword phase of validation. -/
theorem validate_keyword {E : Env} {at_ : List Nat} {p : LH} {v : Val}
    (ht : tryValidators E at_ v p.choices.validators = none) (h : noneOf v ∈ keywords p) :
    p.choices.validate E at_ v = .ok (noneOf v) := by
  unfold Choices.validate
  rw [ht]
  simp only
  by_cases hc : noneOf v ∈ p.choices.constants
  · rw [findConst_mem (atoms_of p).1 hc]
  · rw [findConst_not_mem (atoms_of p).1 hc]
    have hd := ((mem_keywords p _).2 h).resolve_left hc
    rw [findConst_mem (atoms_of p).2 hd]

theorem validate_no_keyword {E : Env} {at_ : List Nat} {p : LH} {v : Val}
    (ht : tryValidators E at_ v p.choices.validators = none) (h : noneOf v ∉ keywords p) :
    p.choices.validate E at_ v = .error .value := by
  unfold Choices.validate
  rw [ht]
  simp only
  rw [findConst_not_mem (atoms_of p).1 fun hc => h ((mem_keywords p _).1 (Or.inl hc)),
    findConst_not_mem (atoms_of p).2 fun hc => h ((mem_keywords p _).1 (Or.inr hc))]

theorem noneOf_str (s : PyStr) : noneOf (.str s) = if s = lit "none" then .none else .str s := by
  simp only [noneOf, Val.pyEq, beq_iff_eq]

theorem noneOf_id {v : Val} (h : ∀ s, v ≠ .str s) : noneOf v = v := by
  cases v <;> first | rfl | exact absurd rfl (h _)

theorem keywords_noneOf (p : LH) (k : Val) (h : k ∈ keywords p) : noneOf k = k := by
  have h2 : ∀ p ∈ allLH, ∀ c ∈ (keywords p).map Val.code, c ≠ (2, lit "none") := by decide +kernel
  have := h2 p (mem_allLH p) _ (List.mem_map_of_mem (f := Val.code) h)
  cases k <;> first
    | rfl
    | (rename_i s
       rw [noneOf_str, if_neg]
       intro e
       exact this (by rw [e]; rfl))

/-! ### Keywords are not values of the validators -/

theorem floatBody_some (fp fp' : FP) (n : Bool) (m : PyStr) :
    (floatBody fp n m).isSome = (floatBody fp' n m).isSome := by
  unfold floatBody
  split
  · rfl
  split
  · rfl
  split <;> rfl

theorem parseFloat_some (fp fp' : FP) (s : PyStr) : (parseFloat fp s).isSome = (parseFloat fp' s).isSome := by
  unfold parseFloat
  split
  · rfl
  · exact floatBody_some ..

theorem unitsLoop_isSome (fp fp' : FP) (s : PyStr) (r : Registry) :
    (unitsLoop fp s r).isSome = (unitsLoop fp' s r).isSome := by
  induction r with
  | nil => rfl
  | cons a r ih =>
    obtain ⟨suf, u⟩ := a
    simp only [unitsLoop]
    split
    · have := parseFloat_some fp fp' (dropSuffix s suf)
      cases h1 : parseFloat fp (dropSuffix s suf) <;> cases h2 : parseFloat fp' (dropSuffix s suf) <;>
        simp_all
    · exact ih

theorem unitsStr_isSome (fp fp' : FP) (r : Registry) (s : PyStr) :
    (unitsStr fp r s).isSome = (unitsStr fp' r s).isSome := by
  have h := unitsLoop_isSome fp fp' s r
  have h' := parseFloat_some fp fp' s
  unfold unitsStr
  cases h1 : unitsLoop fp s r <;> cases h2 : unitsLoop fp' s r <;> simp_all
  cases h3 : parseFloat fp s <;> cases h4 : parseFloat fp' s <;> simp_all

theorem units_str_error {fp : FP} {s : PyStr} (h : (unitsStr FP.exact baseRegistry s).isSome = false) :
    units fp (.str s) = .error .value := by
  rw [unitsStr_isSome FP.exact fp] at h
  have : unitsStr fp baseRegistry s = none := by
    cases h1 : unitsStr fp baseRegistry s with
    | none => rfl
    | some u => rw [h1] at h; cases h
  simp only [units, unitsIn, this]

theorem length_try {E : Env} {at_ : List Nat} {v : Val} {p : LH} (hk : kindOf p = some .length)
    (h : units E.fp v = .error .value) : tryValidators E at_ v p.choices.validators = none := by
  have h1 : isLength E.fp v = .error .validation := by simp only [isLength, h]; rfl
  have h2 : isPercentage E.fp v = .error .validation := by simp only [isPercentage, h]; rfl
  have hv := validators_kind p
  rw [hk] at hv
  rcases hv with hv | hv <;> rw [hv] <;> simp only [tryValidators, Validator.run, h1, h2]

/-- Keyword strings that no colour grammar takes. -/
def notColor (s : PyStr) : Bool :=
  match s with
  | [] => false
  | c :: _ => c != '#' && !startsWith s (lit "rgb") && !startsWith s (lit "hsl")
      && (namedColor (lower s)).isNone

theorem startsWith_trans {s a b : PyStr} (h : startsWith s (a ++ b) = true) : startsWith s a = true := by
  simp only [startsWith] at *
  rw [List.isPrefixOf_iff_prefix] at *
  exact (List.prefix_append a b).trans h

theorem colorStr_not {fp : FP} {ref : Ref} {s : PyStr} (h : notColor s = true) :
    colorStr fp ref s = .error .value := by
  cases s with
  | nil => cases h
  | cons c s =>
    simp only [notColor, Bool.and_eq_true, bne_iff_ne, ne_eq, Bool.not_eq_eq_eq_not, Bool.not_true] at h
    obtain ⟨⟨⟨h1, h2⟩, h3⟩, h4⟩ := h
    have h2' : startsWith (c :: s) (lit "rgba") = false := by
      rw [← Bool.not_eq_true] at h2 ⊢
      exact fun h => h2 (startsWith_trans (a := lit "rgb") (b := lit "a") h)
    have h3' : startsWith (c :: s) (lit "hsla") = false := by
      rw [← Bool.not_eq_true] at h3 ⊢
      exact fun h => h3 (startsWith_trans (a := lit "hsl") (b := lit "a") h)
    simp only [colorStr, beq_iff_eq, if_neg h1, h2, h3, h2', h3', Bool.false_eq_true, if_false]
    cases hn : namedColor (lower (c :: s)) with
    | none => rfl
    | some v => rw [hn] at h4; cases h4

/-- A keyword as a word. -/
theorem keyword_cases {p : LH} {k : Val} (h : k ∈ keywords p) :
    (∃ s ∈ keywordNames p, k = keywordVal s) ∨ (k = .dflt ∧ (p = .color ∨ p = .backgroundColor)) := by
  rcases List.mem_append.1 h with h | h
  · obtain ⟨s, hs, rfl⟩ := List.mem_map.1 h
    exact Or.inl ⟨s, hs, rfl⟩
  · split at h
    · rename_i hp
      exact Or.inr ⟨by simpa using h, hp⟩
    · cases h

theorem keyword_try {E : Env} {at_ : List Nat} {p : LH} {k : Val} (h : k ∈ keywords p) :
    tryValidators E at_ k p.choices.validators = none := by
  have hv := validators_kind p
  have hlen : ∀ p ∈ allLH, kindOf p = some .length → ∀ s ∈ keywordNames p, s ≠ "none" →
      (unitsStr FP.exact baseRegistry s.toList).isSome = false := by decide +kernel
  have hcol : ∀ p ∈ allLH, kindOf p = some .color → ∀ s ∈ keywordNames p, s ≠ "none" ∧
      notColor s.toList = true := by decide +kernel
  have hint : ∀ p ∈ allLH, kindOf p = some .integer → ∀ s ∈ keywordNames p, s ≠ "none" ∧
      parseInt s.toList = none := by decide +kernel
  have hd : ∀ p ∈ allLH, p = .color ∨ p = .backgroundColor → kindOf p = some .color := by decide
  have hs : ∀ s : String, s ≠ "none" → keywordVal s = .str s.toList := fun s h => if_neg h
  cases hk : kindOf p with
  | none => rw [hk] at hv; simp only at hv; rw [hv]; rfl
  | some kd =>
    rcases keyword_cases h with ⟨s, hm, rfl⟩ | ⟨rfl, hp⟩
    swap
    · rw [hd p (mem_allLH p) hp, Option.some.injEq] at hk
      subst hk
      rw [hd p (mem_allLH p) hp] at hv
      simp only at hv
      rw [hv]; rfl
    · cases kd
      · apply length_try hk
        by_cases e : s = "none"
        · subst e; rfl
        · rw [hs s e]
          exact units_str_error (hlen p (mem_allLH p) hk s hm e)
      all_goals rw [hk] at hv; simp only [Kind.validators] at hv; rw [hv]
      · obtain ⟨e, hc⟩ := hcol p (mem_allLH p) hk s hm
        rw [hs s e]
        simp only [tryValidators, Validator.run, isColor, color, colorStr_not hc, toValidation]
        rfl
      · obtain ⟨e, hc⟩ := hint p (mem_allLH p) hk s hm
        rw [hs s e]
        simp only [tryValidators, Validator.run, isInteger, numericValidator, coerce, hc]
        rfl
      · have hp : p = .borderSpacing := by cases p <;> first | rfl | cases hk
        subst hp
        simp only [keywordNames, List.mem_singleton] at hm
        subst hm
        have : units E.fp (.str (lit "inherit")) = .error .value := units_str_error (by decide +kernel)
        have hw : splitWs (lit "inherit") = [lit "inherit"] := by decide
        have hst : strip (lit "inherit") = lit "inherit" := by decide
        show tryValidators E at_ (.str (lit "inherit")) _ = _
        simp only [tryValidators, Validator.run, isBorderSpacing, borderSpacing, asSeq, hw, List.map_cons,
          List.map_nil, hst, this]
        rfl
      · have hp : p = .clip := by cases p <;> first | rfl | cases hk
        subst hp
        simp only [keywordNames, List.mem_cons, List.not_mem_nil, or_false] at hm
        rcases hm with rfl | rfl <;> rfl
      · have hp : p = .quotes := by cases p <;> first | rfl | cases hk
        subst hp
        simp only [keywordNames, List.mem_cons, List.not_mem_nil, or_false] at hm
        rcases hm with rfl | rfl | rfl
        · rfl
        · have hw : splitWs (lit "initial") = [lit "initial"] := by decide
          show tryValidators E at_ (.str (lit "initial")) _ = _
          simp only [tryValidators, Validator.run, isQuote, quotes, quotesOf, hw, List.map_cons, List.map_nil]
          rfl
        · have hw : splitWs (lit "inherit") = [lit "inherit"] := by decide
          show tryValidators E at_ (.str (lit "inherit")) _ = _
          simp only [tryValidators, Validator.run, isQuote, quotes, quotesOf, hw, List.map_cons, List.map_nil]
          rfl
      · have hp : p = .cursor := by cases p <;> first | rfl | cases hk
        subst hp
        simp only [keywordNames, List.mem_singleton] at hm
        subst hm
        rfl

/-- A keyword of a property validates to itself. -/
theorem keyword_stable {E : Env} {at_ : List Nat} {p : LH} {k : Val} (h : k ∈ keywords p) :
    p.choices.validate E at_ k = .ok k := by
  have hn := keywords_noneOf p k h
  rw [validate_keyword (keyword_try h) (by rw [hn]; exact h), hn]

end Colosseum
