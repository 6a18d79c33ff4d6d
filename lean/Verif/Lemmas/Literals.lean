import Verif.Spec.Literals
import Verif.Lemmas.Digits
import Verif.Lemmas.Split
import Mathlib.Tactic.FieldSimp
import Mathlib.Tactic.Ring
import Mathlib.Data.List.Induction

/-!
# The literal parsers accept the grammar
-/

namespace Colosseum

/-! ## Digits -/

theorem scriptZeros_eq : scriptZeros.map Char.toNat = 48 :: wideZeros := by decide +kernel

theorem digitChar_iff {c : Char} {d : Nat} : DigitChar c d ↔ isDecimal c = true ∧ decimalVal c = d := by
  have zs : (∃ z ∈ scriptZeros, c.toNat = z.toNat + d) ↔ c.toNat = 48 + d ∨ ∃ z ∈ wideZeros, c.toNat = z + d := by
    have : (∃ z ∈ scriptZeros, c.toNat = z.toNat + d) ↔ ∃ z ∈ scriptZeros.map Char.toNat, c.toNat = z + d := by simp
    rw [this, scriptZeros_eq]
    simp
  have big : ∀ z ∈ wideZeros, 128 ≤ z := by decide
  unfold DigitChar
  rw [zs]
  constructor
  · rintro ⟨hd, h | h⟩
    · have hD : isDigit c = true := by
        simp only [isDigit, Bool.and_eq_true, decide_eq_true_eq]
        show 48 ≤ c.toNat ∧ c.toNat ≤ 57
        omega
      refine ⟨isDigit_isDecimal hD, ?_⟩
      rw [decimalVal_digit hD]
      show c.toNat - 48 = d
      omega
    · have hw := wideDigit_spec.2 ⟨hd, h⟩
      obtain ⟨z, hz, e⟩ := h
      have := big z hz
      have hD : isDigit c = false := by
        cases hD : isDigit c with
        | false => rfl
        | true => have := isDigit_range hD; omega
      simp [isDecimal, decimalVal, hD, hw]
  · rintro ⟨h, rfl⟩
    by_cases hD : isDigit c = true
    · have := isDigit_range hD
      rw [decimalVal_digit hD]
      have e : digitVal c = c.toNat - 48 := rfl
      exact ⟨by omega, Or.inl (by omega)⟩
    · simp only [isDecimal, hD, Bool.or_eq_true, false_or, Bool.false_eq_true] at h
      obtain ⟨d, hd⟩ := Option.isSome_iff_exists.1 h
      have := wideDigit_spec.1 hd
      simp only [decimalVal, hD, hd, Option.getD_some, Bool.false_eq_true, if_false]
      exact ⟨this.1, Or.inr this.2⟩

theorem decimal_digits (cs : PyStr) : decimal (cs.map decimalVal) = decimalsVal cs := by
  unfold decimal
  induction cs using List.reverseRecOn with
  | nil => rfl
  | append_singleton cs c ih =>
    rw [List.map_append, List.reverse_append, decimalsVal_append]
    simp only [List.map_cons, List.map_nil, List.reverse_cons, List.reverse_nil, List.nil_append, List.singleton_append, Nat.ofDigits_cons, ih,
      List.length_cons, List.length_nil]
    simp [decimalsVal]
    ring

/-! ## From the parser to the grammar -/

theorem under_head {prev : Option Char} {c : Char} {t u : PyStr} (h : dropUnderscores prev t = some (c :: u)) (hp : prev ≠ some '_') :
    (∃ t', t = c :: t' ∧ c ≠ '_' ∧ dropUnderscores (some c) t' = some u) ∨
    ∃ d t', prev = some d ∧ isDecimal d = true ∧ isDecimal c = true ∧ t = '_' :: c :: t' ∧ dropUnderscores (some c) t' = some u := by
  cases t with
  | nil => simp [dropUnderscores, hp] at h
  | cons a t =>
    by_cases ha : a = '_'
    · subst ha
      simp only [dropUnderscores, beq_self_eq_true, if_true] at h
      cases prev with
      | none => cases h
      | some d =>
        simp only at h
        split at h
        · rename_i hd
          cases t with
          | nil => simp [dropUnderscores] at h
          | cons a2 t2 =>
            simp only [dropUnderscores] at h
            by_cases h2 : a2 = '_'
            · subst h2
              simp [show isDecimal '_' = false by decide] at h
            · simp only [beq_iff_eq, h2, if_false] at h
              by_cases h3 : isDecimal a2 = true
              · simp only [h3, Bool.not_true, Bool.and_false, Bool.false_eq_true, if_false] at h
                cases hr : dropUnderscores (some a2) t2 with
                | none => rw [hr] at h; cases h
                | some r =>
                  rw [hr] at h
                  simp only [Option.map_some, Option.some.injEq, List.cons.injEq] at h
                  obtain ⟨rfl, rfl⟩ := h
                  exact Or.inr ⟨d, t2, rfl, hd, h3, rfl, hr⟩
              · simp [h3] at h
        · cases h
    · simp only [dropUnderscores, beq_iff_eq, ha, if_false] at h
      rw [if_neg (by simp [hp])] at h
      cases hr : dropUnderscores (some a) t with
      | none => rw [hr] at h; cases h
      | some r =>
        rw [hr] at h
        simp only [Option.map_some, Option.some.injEq, List.cons.injEq] at h
        obtain ⟨rfl, rfl⟩ := h
        exact Or.inl ⟨t, rfl, ha, hr⟩

theorem under_nil {prev : Option Char} {t : PyStr} (h : dropUnderscores prev t = some []) : t = [] := by
  induction t generalizing prev with
  | nil => rfl
  | cons a t ih =>
    exfalso
    simp only [dropUnderscores] at h
    split at h
    · split at h
      · split at h
        · have := ih h
          subst this
          simp [dropUnderscores] at h
        · cases h
      · cases h
    · split at h
      · cases h
      · cases hr : dropUnderscores (some a) t with
        | none => rw [hr] at h; cases h
        | some r => rw [hr] at h; simp at h

/-- A character that is not a digit stands where it stood. -/
theorem under_other {prev : Option Char} {c : Char} {t u : PyStr} (h : dropUnderscores prev t = some (c :: u)) (hp : prev ≠ some '_')
    (hc : isDecimal c = false) : ∃ t', t = c :: t' ∧ c ≠ '_' ∧ dropUnderscores (some c) t' = some u := by
  rcases under_head h hp with h | ⟨d, t', _, _, h, _⟩
  · exact h
  · rw [hc] at h; cases h

theorem digit_ne_under {c : Char} (h : isDecimal c = true) : c ≠ '_' := by
  rintro rfl
  exact absurd h (by decide)

theorem under_tail {u : PyStr} : ∀ {d : Char} {t : PyStr}, isDecimal d = true → dropUnderscores (some d) t = some u →
    ∃ t1 t2 d', t = t1 ++ t2 ∧ DigitTail t1 ((u.takeWhile isDecimal).map decimalVal) ∧ isDecimal d' = true ∧
      dropUnderscores (some d') t2 = some (u.dropWhile isDecimal) := by
  induction u with
  | nil =>
    intro d t hd h
    exact ⟨[], t, d, rfl, .nil, hd, h⟩
  | cons c u ih =>
    intro d t hd h
    by_cases hc : isDecimal c = true
    · simp only [List.takeWhile_cons, hc, if_true, List.dropWhile_cons, List.map_cons]
      rcases under_head h (by simpa using digit_ne_under hd) with ⟨t', rfl, _, h'⟩ | ⟨_, t', _, _, _, rfl, h'⟩
      · obtain ⟨t1, t2, d', rfl, g1, g2, g3⟩ := ih hc h'
        exact ⟨c :: t1, t2, d', rfl, .digit (digitChar_iff.2 ⟨hc, rfl⟩) g1, g2, g3⟩
      · obtain ⟨t1, t2, d', rfl, g1, g2, g3⟩ := ih hc h'
        exact ⟨'_' :: c :: t1, t2, d', rfl, .grouped (digitChar_iff.2 ⟨hc, rfl⟩) g1, g2, g3⟩
    · simp only [List.takeWhile_cons, hc, List.dropWhile_cons, Bool.false_eq_true, if_false, List.map_nil]
      exact ⟨[], t, d, rfl, .nil, hd, h⟩

/-- The digits at the start, behind a character that is no digit. -/
theorem under_part {u t : PyStr} {prev : Option Char} (h : dropUnderscores prev t = some u) (hp : ∀ d, prev = some d → d ≠ '_' ∧ isDecimal d = false)
    (hu : u.takeWhile isDecimal ≠ []) :
    ∃ t1 t2 d', t = t1 ++ t2 ∧ DigitPart t1 ((u.takeWhile isDecimal).map decimalVal) ∧ isDecimal d' = true ∧
      dropUnderscores (some d') t2 = some (u.dropWhile isDecimal) := by
  cases u with
  | nil => simp at hu
  | cons c u =>
    by_cases hc : isDecimal c = true
    · rcases under_head h (by rintro rfl; exact (hp _ rfl).1 rfl) with ⟨t', rfl, _, h'⟩ | ⟨d, t', e, hd, _, rfl, h'⟩
      · obtain ⟨t1, t2, d', rfl, g1, g2, g3⟩ := under_tail hc h'
        simp only [List.takeWhile_cons, hc, if_true, List.dropWhile_cons, List.map_cons]
        exact ⟨c :: t1, t2, d', rfl, .mk (digitChar_iff.2 ⟨hc, rfl⟩) g1, g2, g3⟩
      · rw [(hp d e).2] at hd; cases hd
    · simp [hc] at hu

theorem under_same {u t : PyStr} {prev : Option Char} (h : dropUnderscores prev t = some u) (hp : ∀ d, prev = some d → d ≠ '_' ∧ isDecimal d = false)
    (hu : ∀ c ∈ u, isDecimal c = false) : t = u := by
  induction u generalizing prev t with
  | nil => exact under_nil h
  | cons c u ih =>
    obtain ⟨t', rfl, hc, h'⟩ := under_other h (by rintro rfl; exact (hp _ rfl).1 rfl) (hu c (by simp))
    rw [ih h' (by rintro d hd; cases hd; exact ⟨hc, hu _ (by simp)⟩) fun d hd => hu d (by simp [hd])]

theorem pow10_zpow (e : Int) : pow10 e = (10 : Rat) ^ e := by
  cases e with
  | ofNat n => simp [pow10]
  | negSucc n => simp [pow10, zpow_negSucc]

theorem takeSign_cases (r : PyStr) : (∃ r', r = '-' :: r' ∧ takeSign r = (true, r')) ∨ (∃ r', r = '+' :: r' ∧ takeSign r = (false, r')) ∨
    takeSign r = (false, r) := by
  unfold takeSign
  split
  · exact Or.inl ⟨_, rfl, rfl⟩
  · exact Or.inr (Or.inl ⟨_, rfl, rfl⟩)
  · exact Or.inr (Or.inr rfl)

/-- A sign at the front. -/
theorem under_sign {prev : Option Char} {t r : PyStr} (h : dropUnderscores prev t = some r) (hp : ∀ d, prev = some d → d ≠ '_' ∧ isDecimal d = false) :
    ∃ g t' prev', t = g ++ t' ∧ SignText g (takeSign r).1 ∧ dropUnderscores prev' t' = some (takeSign r).2 ∧
      ∀ d, prev' = some d → d ≠ '_' ∧ isDecimal d = false := by
  have hp' : prev ≠ some '_' := by rintro rfl; exact (hp _ rfl).1 rfl
  rcases takeSign_cases r with ⟨r', rfl, e⟩ | ⟨r', rfl, e⟩ | e
  · obtain ⟨t', rfl, _, h'⟩ := under_other h hp' (by decide)
    rw [e]
    exact ⟨['-'], t', some '-', rfl, .minus, h', by rintro d hd; cases hd; decide⟩
  · obtain ⟨t', rfl, _, h'⟩ := under_other h hp' (by decide)
    rw [e]
    exact ⟨['+'], t', some '+', rfl, .plus, h', by rintro d hd; cases hd; decide⟩
  · rw [e]
    exact ⟨[], t, prev, rfl, .none, h, hp⟩

/-- The exponent. -/
theorem under_exp {prev : Option Char} {t r : PyStr} {e : Int} (h : dropUnderscores prev t = some r) (hp : prev ≠ some '_') (he : parseExp r = some e) :
    (t = [] ∧ e = 0) ∨ ∃ c g x neg xs, t = c :: (g ++ x) ∧ (c = 'e' ∨ c = 'E') ∧ SignText g neg ∧ DigitPart x xs ∧
      e = if neg then -(decimal xs : Int) else (decimal xs : Int) := by
  cases r with
  | nil =>
    simp only [parseExp, Option.some.injEq] at he
    exact Or.inl ⟨under_nil h, he.symm⟩
  | cons c r =>
    simp only [parseExp] at he
    split at he
    · rename_i hc
      have hc : c = 'e' ∨ c = 'E' := by simpa using hc
      split at he
      · cases he
      · rename_i hd
        simp only [Bool.or_eq_true, List.isEmpty_iff, Bool.not_eq_true', not_or, Bool.not_eq_false] at hd
        obtain ⟨t', rfl, hcu, h'⟩ := under_other h hp (by rcases hc with rfl | rfl <;> decide)
        obtain ⟨g, t2, prev', rfl, hg, h2, hp2⟩ := under_sign h' (by rintro d hd; cases hd; rcases hc with rfl | rfl <;> decide)
        have all : (takeSign r).2.takeWhile isDecimal = (takeSign r).2 := takeWhile_all _ _ hd.2
        obtain ⟨x, t3, d', rfl, hx, _, h3⟩ := under_part h2 hp2 (by rw [all]; exact hd.1)
        rw [dropWhile_all _ _ hd.2] at h3
        have := under_nil h3
        subst this
        rw [all] at hx
        refine Or.inr ⟨c, g, x, _, _, by simp, hc, hg, hx, ?_⟩
        rw [decimal_digits]
        exact (Option.some.injEq _ _ ▸ he).symm
    · cases he

theorem under_number {prev : Option Char} {t u : PyStr} {q : Rat} (h : dropUnderscores prev t = some u)
    (hp : ∀ d, prev = some d → d ≠ '_' ∧ isDecimal d = false) (hq : parseDecimal u = some q) : FloatNumber t q := by
  have hp' : prev ≠ some '_' := by rintro rfl; exact (hp _ rfl).1 rfl
  unfold parseDecimal at hq
  simp only at hq
  split at hq
  · cases hq
  · rename_i hne
    simp only [Bool.and_eq_true, List.isEmpty_iff, not_and] at hne
    split at hq
    · cases hq
    · rename_i e he
      simp only [Option.some.injEq] at hq
      -- what comes after the number
      have fin : ∀ (t1 t2 : PyStr) (pr : Option Char) (v : Rat), t = t1 ++ t2 → pr ≠ some '_' →
          dropUnderscores pr t2 = some (fracPart (u.dropWhile isDecimal)).2 → NumberText t1 v →
          v * (10 : Rat) ^ e = q → FloatNumber t q := by
        intro t1 t2 pr v ht hpr hd hv hvq
        rcases under_exp hd hpr he with ⟨rfl, rfl⟩ | ⟨c, g, x, neg, xs, rfl, hc, hg, hx, hxe⟩
        · rw [ht, List.append_nil, ← hvq]
          simpa using FloatNumber.plain hv
        · rw [ht, ← hvq, hxe]
          exact .exponent hv hc hg hx
      -- what comes after the whole part
      have val : (decimalsVal (u.takeWhile isDecimal ++ (fracPart (u.dropWhile isDecimal)).1) : Rat) * pow10 (e - ((fracPart (u.dropWhile isDecimal)).1.length : Int)) =
          ((decimalsVal (u.takeWhile isDecimal) : Rat) + (decimalsVal (fracPart (u.dropWhile isDecimal)).1 : Rat) / 10 ^ (fracPart (u.dropWhile isDecimal)).1.length) * (10 : Rat) ^ e := by
        rw [decimalsVal_append, pow10_zpow, zpow_sub₀ (by norm_num)]
        push_cast
        rw [zpow_natCast]
        field_simp
      rw [val] at hq
      by_cases hip : u.takeWhile isDecimal = []
      · -- no whole part
        have hr : u.dropWhile isDecimal = u := by
          have := List.takeWhile_append_dropWhile (p := isDecimal) (l := u)
          rw [hip] at this; simpa using this
        rw [hr] at hq fin hne
        rw [hip] at hq
        have hfr := hne hip
        have hdot : ∃ r, u = '.' :: r := by
          unfold fracPart at hfr
          split at hfr
          · exact ⟨_, rfl⟩
          · exact absurd rfl hfr
        obtain ⟨r, rfl⟩ := hdot
        simp only [fracPart] at hq fin hfr
        obtain ⟨t', rfl, _, h'⟩ := under_other h hp' (by decide)
        obtain ⟨f, t2, d', rfl, hf, hd', h2⟩ := under_part h' (by rintro d hd; cases hd; decide) hfr
        refine fin ('.' :: f) t2 (some d') _ rfl (by simpa using digit_ne_under hd') h2 (.fraction hf) ?_
        rw [← hq, decimal_digits]
        simp [decimalsVal]
      · obtain ⟨s, t2, d', rfl, hs, hd', h2⟩ := under_part h hp hip
        have hd'' : (some d' : Option Char) ≠ some '_' := by simpa using digit_ne_under hd'
        by_cases hdot : ∃ r, u.dropWhile isDecimal = '.' :: r
        · obtain ⟨r, hr⟩ := hdot
          rw [hr] at h2
          obtain ⟨t3, rfl, _, h3⟩ := under_other h2 hd'' (by decide)
          rw [hr] at hq fin
          simp only [fracPart] at hq fin
          by_cases hfr : r.takeWhile isDecimal = []
          · have hr2 : r.dropWhile isDecimal = r := by
              have := List.takeWhile_append_dropWhile (p := isDecimal) (l := r)
              rw [hfr] at this; simpa using this
            rw [hfr] at hq
            rw [hr2] at fin
            refine fin (s ++ ['.']) t3 (some '.') _ (by simp) (by decide) h3 (.dot hs) ?_
            rw [← hq, decimal_digits]
            simp [decimalsVal]
          · obtain ⟨f, t4, d2, rfl, hf, hd2, h4⟩ := under_part h3 (by rintro d hd; cases hd; decide) hfr
            refine fin (s ++ '.' :: f) t4 (some d2) _ (by simp) (by simpa using digit_ne_under hd2) h4 (.both hs hf) ?_
            rw [← hq, decimal_digits, decimal_digits]
            simp
        · have hfp : fracPart (u.dropWhile isDecimal) = ([], u.dropWhile isDecimal) := by
            unfold fracPart
            split
            · rename_i r hr; exact absurd ⟨r, hr⟩ hdot
            · rfl
          rw [hfp] at hq fin
          refine fin s t2 (some d') _ rfl hd'' h2 (.whole hs) ?_
          rw [← hq, decimal_digits]
          simp [decimalsVal]

/-! ## From the grammar to the parser -/

theorem under_prev {r : PyStr} (h : r.head? ≠ some '_') (prev : Option Char) (hp : prev ≠ some '_') : dropUnderscores prev r = dropUnderscores none r := by
  cases r with
  | nil => simp [dropUnderscores, hp]
  | cons c r =>
    have hc : c ≠ '_' := by simpa using h
    simp only [dropUnderscores, beq_iff_eq, hc, if_false]
    rw [if_neg (by simp [hp]), if_neg (by simp)]

theorem DigitTail.under {s : PyStr} {ds : List Nat} (h : DigitTail s ds) : ∃ cs : PyStr, cs.all isDecimal = true ∧ cs.map decimalVal = ds ∧
    ∀ (d : Char) (r : PyStr), isDecimal d = true → r.head? ≠ some '_' → dropUnderscores (some d) (s ++ r) = (dropUnderscores none r).map (cs ++ ·) := by
  induction h with
  | nil =>
    refine ⟨[], rfl, rfl, fun d r hd hr => ?_⟩
    rw [List.nil_append, under_prev hr _ (by simpa using digit_ne_under hd)]
    cases dropUnderscores none r <;> simp
  | @digit c d s ds hc _ ih =>
    obtain ⟨cs, h1, h2, h3⟩ := ih
    obtain ⟨hc1, hc2⟩ := digitChar_iff.1 hc
    refine ⟨c :: cs, by simp [hc1, h1], by simp [hc2, h2], fun d' r hd hr => ?_⟩
    simp only [List.cons_append, dropUnderscores, beq_iff_eq, digit_ne_under hc1, if_false]
    rw [if_neg (by simp [digit_ne_under hd]), h3 c r hc1 hr]
    cases dropUnderscores none r <;> simp
  | @grouped c d s ds hc _ ih =>
    obtain ⟨cs, h1, h2, h3⟩ := ih
    obtain ⟨hc1, hc2⟩ := digitChar_iff.1 hc
    refine ⟨c :: cs, by simp [hc1, h1], by simp [hc2, h2], fun d' r hd hr => ?_⟩
    simp only [List.cons_append, dropUnderscores, beq_iff_eq, beq_self_eq_true, if_true, hd, digit_ne_under hc1, if_false, hc1, Bool.not_true,
      Bool.and_false, Bool.false_eq_true]
    rw [h3 c r hc1 hr]
    cases dropUnderscores none r <;> simp

theorem DigitPart.under {s : PyStr} {ds : List Nat} (h : DigitPart s ds) : ∃ cs : PyStr, cs.all isDecimal = true ∧ cs ≠ [] ∧ cs.map decimalVal = ds ∧
    ∀ (r : PyStr), r.head? ≠ some '_' → dropUnderscores none (s ++ r) = (dropUnderscores none r).map (cs ++ ·) := by
  obtain ⟨hc, ht⟩ := h
  rename_i c d s ds
  obtain ⟨hc1, hc2⟩ := digitChar_iff.1 hc
  obtain ⟨cs, h1, h2, h3⟩ := ht.under
  refine ⟨c :: cs, by simp [hc1, h1], by simp, by simp [hc2, h2], fun r hr => ?_⟩
  simp only [List.cons_append, dropUnderscores, beq_iff_eq, digit_ne_under hc1, if_false]
  rw [if_neg (by simp), h3 c r hc1 hr]
  cases dropUnderscores none r <;> simp

theorem DigitPart.head {s : PyStr} {ds : List Nat} (h : DigitPart s ds) (r : PyStr) : (s ++ r).head? ≠ some '_' := by
  obtain ⟨hc, ht⟩ := h
  simpa using digit_ne_under (digitChar_iff.1 hc).1

theorem under_cons {c : Char} {r : PyStr} (hc : c ≠ '_') (hr : r.head? ≠ some '_') :
    dropUnderscores none (c :: r) = (dropUnderscores none r).map (c :: ·) := by
  simp only [dropUnderscores, beq_iff_eq, hc, if_false]
  rw [if_neg (by simp), under_prev hr _ (by simpa using hc)]

theorem DigitPart.alone {s : PyStr} {ds : List Nat} (h : DigitPart s ds) : ∃ cs : PyStr, cs.all isDecimal = true ∧ cs ≠ [] ∧ cs.map decimalVal = ds ∧
    dropUnderscores none s = some cs := by
  obtain ⟨cs, h1, h2, h3, h4⟩ := h.under
  exact ⟨cs, h1, h2, h3, by simpa [dropUnderscores] using h4 [] (by simp)⟩

/-- What `takeWhile`/`dropWhile` find behind digits. -/
theorem digits_before {cs r : PyStr} (h : cs.all isDecimal = true) (hr : ∀ c, r.head? = some c → isDecimal c = false) :
    (cs ++ r).takeWhile isDecimal = cs ∧ (cs ++ r).dropWhile isDecimal = r := by
  have h' : ∀ c ∈ cs, isDecimal c = true := by simpa using h
  rw [List.takeWhile_append_of_pos h', List.dropWhile_append_of_pos h']
  cases r with
  | nil => simp
  | cons c r => simp [hr c rfl]

/-- A literal's exponent part with underscores removed. -/
structure ExpPart (t r : PyStr) (e : Int) : Prop where
  under : dropUnderscores none t = some r
  head : t.head? ≠ some '_'
  first : ∀ c, r.head? = some c → isDecimal c = false ∧ c ≠ '.'
  parse : parseExp r = some e

theorem expPart_nil : ExpPart [] [] 0 := ⟨rfl, by simp, by simp, rfl⟩

theorem expPart_mk {c : Char} {g x : PyStr} {neg : Bool} {xs : List Nat} (hc : c = 'e' ∨ c = 'E') (hg : SignText g neg) (hx : DigitPart x xs) :
    ∃ r, ExpPart (c :: (g ++ x)) r (if neg then -(decimal xs : Int) else (decimal xs : Int)) := by
  obtain ⟨cs, h1, h2, h3, h4⟩ := hx.alone
  have hgh : (g ++ x).head? ≠ some '_' := by
    cases hg with
    | none => simpa using hx.head []
    | plus => simp
    | minus => simp
  have hcu : c ≠ '_' := by rcases hc with rfl | rfl <;> decide
  have hxh : x.head? ≠ some '_' := by simpa using hx.head []
  have e1 : dropUnderscores none (g ++ x) = some (g ++ cs) := by
    cases hg with
    | none => simpa using h4
    | plus => simp only [List.singleton_append]; rw [under_cons (by decide) hxh, h4]; rfl
    | minus => simp only [List.singleton_append]; rw [under_cons (by decide) hxh, h4]; rfl
  have e2 : takeSign (g ++ cs) = (neg, cs) := by
    cases hg with
    | none =>
      rw [List.nil_append, takeSign_none]
      intro c hcc
      have : isDecimal c = true := by
        have h1' : ∀ c ∈ cs, isDecimal c = true := by simpa using h1
        exact h1' c (List.mem_of_head? hcc)
      constructor <;> rintro rfl <;> exact absurd this (by decide)
    | plus => rfl
    | minus => rfl
  refine ⟨c :: (g ++ cs), ?_, by simpa using hcu, ?_, ?_⟩
  · rw [under_cons hcu hgh, e1]; rfl
  · intro c' hc'
    cases hc'
    rcases hc with rfl | rfl <;> decide
  · simp only [parseExp, e2]
    rw [if_pos (by rcases hc with rfl | rfl <;> decide), if_neg (by simp [h1, h2]), ← h3, decimal_digits]

theorem parseDecimal_parts {ip fr r : PyStr} {e : Int} (hip : ip.all isDecimal = true) (hne : ¬ (ip = [] ∧ fr = []))
    (u : PyStr) (h1 : u.takeWhile isDecimal = ip) (h2 : fracPart (u.dropWhile isDecimal) = (fr, r)) (hr : parseExp r = some e) :
    parseDecimal u = some (((decimalsVal ip : Rat) + (decimalsVal fr : Rat) / 10 ^ fr.length) * (10 : Rat) ^ e) := by
  unfold parseDecimal
  simp only [h1, h2, hr]
  rw [if_neg (by simpa using hne), decimalsVal_append, pow10_zpow, zpow_sub₀ (by norm_num)]
  congr 1
  push_cast
  rw [zpow_natCast]
  field_simp

theorem numberText_parse {s t r : PyStr} {q : Rat} {e : Int} (h : NumberText s q) (ht : ExpPart t r e) :
    ∃ u, dropUnderscores none (s ++ t) = some u ∧ parseDecimal u = some (q * (10 : Rat) ^ e) ∧
      ∃ c, u.head? = some c ∧ (isDecimal c = true ∨ c = '.') := by
  obtain ⟨hu, hh, hf, hp⟩ := ht
  have hd : ∀ c, r.head? = some c → isDecimal c = false := fun c hc => (hf c hc).1
  have nodot : fracPart r = ([], r) := by
    unfold fracPart
    split
    · exact absurd rfl (hf '.' rfl).2
    · rfl
  have first : ∀ (cs x : PyStr), cs.all isDecimal = true → cs ≠ [] → ∃ c, (cs ++ x).head? = some c ∧ (isDecimal c = true ∨ c = '.') := by
    intro cs x h1 h2
    cases cs with
    | nil => exact absurd rfl h2
    | cons c cs => exact ⟨c, rfl, Or.inl (by simp at h1; exact h1.1)⟩
  cases h with
  | @whole _ ds hs =>
    obtain ⟨cs, h1, h2, h3, h4⟩ := hs.under
    refine ⟨cs ++ r, by rw [h4 t hh, hu]; rfl, ?_, first cs r h1 h2⟩
    rw [parseDecimal_parts h1 (fr := []) (by simp [h2]) (cs ++ r) (digits_before h1 hd).1 (by rw [(digits_before h1 hd).2, nodot]) hp,
      ← h3, decimal_digits]
    simp [decimalsVal]
  | @dot s ds hs =>
    obtain ⟨cs, h1, h2, h3, h4⟩ := hs.under
    have hd' : ∀ c, ('.' :: r).head? = some c → isDecimal c = false := by rintro c hc; cases hc; decide
    refine ⟨cs ++ '.' :: r, ?_, ?_, first cs _ h1 h2⟩
    · rw [List.append_assoc, List.singleton_append, h4 _ (by simp), under_cons (by decide) hh, hu]; rfl
    · have hfr : fracPart ('.' :: r) = ([], r) := by
        have := digits_before (cs := []) (r := r) rfl hd
        simp only [List.nil_append] at this
        simp only [fracPart, this]
      rw [parseDecimal_parts h1 (fr := []) (by simp [h2]) _ (digits_before h1 hd').1 (by rw [(digits_before h1 hd').2, hfr]) hp,
        ← h3, decimal_digits]
      simp [decimalsVal]
  | @fraction f fs hs =>
    obtain ⟨cs, h1, h2, h3, h4⟩ := hs.under
    refine ⟨'.' :: (cs ++ r), ?_, ?_, '.', rfl, Or.inr rfl⟩
    · rw [List.cons_append, under_cons (by decide) (hs.head t), h4 t hh, hu]; rfl
    · have hfr : fracPart ('.' :: (cs ++ r)) = (cs, r) := by simp only [fracPart, digits_before h1 hd]
      rw [parseDecimal_parts (ip := []) rfl (fr := cs) (by simp [h2]) _ (by rw [List.takeWhile_cons_of_neg (by decide)]) (by
        rw [List.dropWhile_cons_of_neg (by decide), hfr]) hp, ← h3, decimal_digits]
      simp [decimalsVal]
  | @both s f ds fs hs hf' =>
    obtain ⟨cs, h1, h2, h3, h4⟩ := hs.under
    obtain ⟨cf, k1, k2, k3, k4⟩ := hf'.under
    have hd' : ∀ c, ('.' :: (cf ++ r)).head? = some c → isDecimal c = false := by rintro c hc; cases hc; decide
    refine ⟨cs ++ '.' :: (cf ++ r), ?_, ?_, first cs _ h1 h2⟩
    · rw [List.append_assoc, List.cons_append, h4 _ (by simp), under_cons (by decide) (hf'.head t), k4 t hh, hu]; rfl
    · have hfr : fracPart ('.' :: (cf ++ r)) = (cf, r) := by simp only [fracPart, digits_before k1 hd]
      rw [parseDecimal_parts h1 (fr := cf) (by simp [h2]) _ (digits_before h1 hd').1 (by rw [(digits_before h1 hd').2, hfr]) hp,
        ← h3, ← k3, decimal_digits, decimal_digits]
      simp

theorem floatNumber_parse {s : PyStr} {q : Rat} (h : FloatNumber s q) :
    ∃ u, dropUnderscores none s = some u ∧ parseDecimal u = some q ∧ ∃ c, u.head? = some c ∧ (isDecimal c = true ∨ c = '.') := by
  cases h with
  | plain h => simpa using numberText_parse h expPart_nil
  | exponent h hc hg hx =>
    obtain ⟨r, hr⟩ := expPart_mk hc hg hx
    exact numberText_parse h hr

/-! ## Blanks -/

theorem blanks_space {b : PyStr} : Blanks b ↔ ∀ c ∈ b, isSpaceC c = true := by
  simp only [Blanks, isSpaceC, List.mem_cons, List.not_mem_nil, or_false, Bool.or_eq_true, beq_iff_eq, isWideBlank_iff]
  constructor <;> intro h c hc <;> have := h c hc <;> tauto

theorem mem_takeWhile_imp {p : Char → Bool} {s : PyStr} {c : Char} (h : c ∈ s.takeWhile p) : p c = true := by
  induction s with
  | nil => simp at h
  | cons a s ih =>
    rw [List.takeWhile_cons] at h
    split at h
    · rcases List.mem_cons.1 h with rfl | h
      · assumption
      · exact ih h
    · cases h

theorem stripBy_decomp (p : Char → Bool) (s : PyStr) : ∃ b b', s = b ++ stripBy p s ++ b' ∧ (∀ c ∈ b, p c = true) ∧ ∀ c ∈ b', p c = true := by
  refine ⟨s.takeWhile p, ((s.dropWhile p).reverse.takeWhile p).reverse, ?_, ?_, ?_⟩
  · unfold stripBy
    rw [List.append_assoc, ← List.reverse_append, List.takeWhile_append_dropWhile, List.reverse_reverse, List.takeWhile_append_dropWhile]
  · intro c hc; exact mem_takeWhile_imp hc
  · intro c hc; exact mem_takeWhile_imp (List.mem_reverse.1 hc)

theorem stripBy_inner (p : Char → Bool) (b y b' : PyStr) (hb : ∀ c ∈ b, p c = true) (hb' : ∀ c ∈ b', p c = true) (hy : ∀ c ∈ y, p c = false)
    (hne : y ≠ []) : stripBy p (b ++ y ++ b') = y := by
  unfold stripBy
  rw [List.append_assoc, dropWhile_blank b _ hb, dropWhile_none p (y ++ b') fun c hc => by
      cases y with
      | nil => exact absurd rfl hne
      | cons d y => cases hc; exact hy _ (by simp),
    List.reverse_append, dropWhile_blank b'.reverse _ (by simpa using hb'), dropWhile_none p y.reverse fun c hc => hy c (by
      simpa using List.mem_of_head? hc), List.reverse_reverse]

def SolidC (s : PyStr) : Prop := ∀ c ∈ s, isSpaceC c = false

theorem SolidC.append {s t : PyStr} (hs : SolidC s) (ht : SolidC t) : SolidC (s ++ t) := by
  intro c hc
  rcases List.mem_append.1 hc with h | h
  · exact hs c h
  · exact ht c h

theorem SolidC.cons {c : Char} {t : PyStr} (hs : isSpaceC c = false) (ht : SolidC t) : SolidC (c :: t) := by
  intro d hd
  rcases List.mem_cons.1 hd with rfl | h
  · exact hs
  · exact ht d h

theorem solidC_nil : SolidC [] := by intro c hc; cases hc

theorem DigitChar.solid {c : Char} {d : Nat} (h : DigitChar c d) : isSpaceC c = false :=
  isDecimal_not_space c (digitChar_iff.1 h).1

theorem DigitTail.solid {s : PyStr} {ds : List Nat} (h : DigitTail s ds) : SolidC s := by
  induction h with
  | nil => exact solidC_nil
  | digit hc _ ih => exact ih.cons hc.solid
  | grouped hc _ ih => exact (ih.cons hc.solid).cons (by decide)

theorem DigitPart.solid {s : PyStr} {ds : List Nat} (h : DigitPart s ds) : SolidC s := by
  cases h with
  | mk hc ht => exact ht.solid.cons hc.solid

theorem DigitPart.ne_nil {s : PyStr} {ds : List Nat} (h : DigitPart s ds) : s ≠ [] := by
  cases h with
  | mk hc ht => simp

theorem SignText.solid {g : PyStr} {neg : Bool} (h : SignText g neg) : SolidC g := by
  cases h with
  | none => exact solidC_nil
  | plus => exact solidC_nil.cons (by decide)
  | minus => exact solidC_nil.cons (by decide)

theorem NumberText.solid {s : PyStr} {q : Rat} (h : NumberText s q) : SolidC s := by
  cases h with
  | whole h => exact h.solid
  | dot h => exact h.solid.append (solidC_nil.cons (by decide))
  | fraction h => exact h.solid.cons (by decide)
  | both h h' => exact h.solid.append (h'.solid.cons (by decide))

theorem FloatNumber.solid {s : PyStr} {q : Rat} (h : FloatNumber s q) : SolidC s := by
  cases h with
  | plain h => exact h.solid
  | exponent h hc hg hx => exact h.solid.append ((hg.solid.append hx.solid).cons (by rcases hc with rfl | rfl <;> decide))

theorem solid_of_lower {s w : PyStr} (h : s.map Char.toLower = w) (hw : SolidC w) : SolidC s := by
  intro c hc
  cases h2 : isSpaceC c with
  | false => rfl
  | true =>
    exfalso
    have h1 : c.toLower ∈ w := by rw [← h]; exact List.mem_map_of_mem hc
    have h3 := hw _ h1
    have e : c.toLower = c := by
      rcases isSpaceC_low h2 with h | h
      · exact toLower_of_not_upper (by omega)
      · have := isWideBlank_ge h
        exact toLower_of_not_upper (by omega)
    rw [e, h2] at h3
    cases h3

theorem FloatBody.solid {fp : FP} {neg : Bool} {s : PyStr} {x : PyNum} (h : FloatBody fp neg s x) : SolidC s := by
  cases h with
  | number h => exact h.solid
  | inf h =>
    rcases h with h | h
    · exact solid_of_lower h (by unfold SolidC; decide)
    · exact solid_of_lower h (by unfold SolidC; decide)
  | nan h => exact solid_of_lower h (by unfold SolidC; decide)

/-! ## The two parsers -/

/-- No digit and no underscore in a word that is one of the special values in lower case. -/
theorem plain_of_lower {s w : PyStr} (h : s.map Char.toLower = w) (hw : ∀ c ∈ w, isDecimal c = false ∧ c ≠ '_' ∧ c ≠ '+' ∧ c ≠ '-') :
    ∀ c ∈ s, isDecimal c = false ∧ c ≠ '_' ∧ c ≠ '+' ∧ c ≠ '-' := by
  intro c hc
  have h1 : c.toLower ∈ w := by rw [← h]; exact List.mem_map_of_mem hc
  have h2 := hw _ h1
  refine ⟨?_, ?_, ?_, ?_⟩
  · cases h3 : isDecimal c with
    | false => rfl
    | true =>
      exfalso
      rw [toLower_decimal c h3, h3] at h2
      cases h2.1
  · rintro rfl; exact h2.2.1 (by decide)
  · rintro rfl; exact h2.2.2.1 (by decide)
  · rintro rfl; exact h2.2.2.2 (by decide)

theorem special_plain {s : PyStr} (h : (s.map Char.toLower = lit "inf" ∨ s.map Char.toLower = lit "infinity") ∨ s.map Char.toLower = lit "nan") :
    ∀ c ∈ s, isDecimal c = false ∧ c ≠ '_' ∧ c ≠ '+' ∧ c ≠ '-' := by
  rcases h with (h | h) | h
  · exact plain_of_lower h (by decide)
  · exact plain_of_lower h (by decide)
  · exact plain_of_lower h (by decide)

theorem floatBody_under {fp : FP} {neg : Bool} {prev : Option Char} {t u : PyStr} {x : PyNum} (h : dropUnderscores prev t = some u)
    (hp : ∀ d, prev = some d → d ≠ '_' ∧ isDecimal d = false) (hx : floatBody fp neg u = some x) : FloatBody fp neg t x := by
  unfold floatBody at hx
  split at hx
  · rename_i hw
    have hw : u.map Char.toLower = lit "inf" ∨ u.map Char.toLower = lit "infinity" := by simpa using hw
    rw [under_same h hp fun c hc => (special_plain (Or.inl hw) c hc).1]
    cases hx
    exact .inf hw
  · split at hx
    · rename_i hw
      rw [under_same h hp fun c hc => (special_plain (Or.inr hw) c hc).1]
      cases hx
      exact .nan hw
    · cases hq : parseDecimal u with
      | none => rw [hq] at hx; cases hx
      | some q =>
        rw [hq] at hx
        cases hx
        exact .number (under_number h hp hq)

theorem under_plain {s : PyStr} (h : ∀ c ∈ s, c ≠ '_') : dropUnderscores none s = some s := by
  induction s with
  | nil => rfl
  | cons c s ih =>
    rw [under_cons (h c (by simp)) (by
      intro e
      exact h '_' (List.mem_cons_of_mem _ (List.mem_of_head? e)) rfl), ih fun d hd => h d (by simp [hd])]
    rfl

theorem FloatBody.ne_nil {fp : FP} {neg : Bool} {s : PyStr} {x : PyNum} (h : FloatBody fp neg s x) : s ≠ [] := by
  cases h with
  | number h =>
    obtain ⟨u, h1, _, c, h2, _⟩ := floatNumber_parse h
    rintro rfl
    cases h1
    cases h2
  | inf h => rintro rfl; rcases h with h | h <;> cases h
  | nan h => rintro rfl; cases h

theorem FloatBody.parse {fp : FP} {neg : Bool} {s : PyStr} {x : PyNum} (h : FloatBody fp neg s x) :
    ∃ u, dropUnderscores none s = some u ∧ floatBody fp neg u = some x ∧ s.head? ≠ some '_' ∧ ∀ c, u.head? = some c → c ≠ '-' ∧ c ≠ '+' := by
  cases h with
  | @number q h =>
    obtain ⟨u, h1, h2, c, h3, h4⟩ := floatNumber_parse h
    have hw : ¬ ((u.map Char.toLower = lit "inf" ∨ u.map Char.toLower = lit "infinity") ∨ u.map Char.toLower = lit "nan") := by
      intro hw
      rcases h4 with h4 | rfl
      · rw [(special_plain hw c (List.mem_of_head? h3)).1] at h4; cases h4
      · have h5 : ('.' : Char) ∈ u.map Char.toLower := by
          have := List.mem_map_of_mem (f := Char.toLower) (List.mem_of_head? h3)
          exact this
        rcases hw with (h | h) | h <;> rw [h] at h5 <;> revert h5 <;> decide
    rw [not_or, not_or] at hw
    refine ⟨u, h1, ?_, ?_, ?_⟩
    · unfold floatBody
      rw [if_neg (by simpa using hw.1), if_neg hw.2, h2]
    · intro e
      cases s with
      | nil => cases e
      | cons a s => cases e; simp [dropUnderscores] at h1
    · intro d hd
      rw [h3] at hd
      cases hd
      constructor <;> rintro rfl <;> revert h4 <;> decide
  | inf h =>
    have hp := special_plain (Or.inl h)
    refine ⟨s, under_plain fun c hc => (hp c hc).2.1, ?_, fun e => (hp _ (List.mem_of_head? e)).2.1 rfl,
      fun c hc => ⟨(hp c (List.mem_of_head? hc)).2.2.2, (hp c (List.mem_of_head? hc)).2.2.1⟩⟩
    unfold floatBody
    have h' : s.map Char.toLower = lit "inf" ∨ s.map Char.toLower = lit "infinity" := h
    rw [if_pos (by simpa using h')]
  | nan h =>
    have hp := special_plain (Or.inr h)
    refine ⟨s, under_plain fun c hc => (hp c hc).2.1, ?_, fun e => (hp _ (List.mem_of_head? e)).2.1 rfl,
      fun c hc => ⟨(hp c (List.mem_of_head? hc)).2.2.2, (hp c (List.mem_of_head? hc)).2.2.1⟩⟩
    unfold floatBody
    have h' : s.map Char.toLower = lit "nan" := h
    rw [if_neg (by rw [h']; decide), if_pos h']

/-- `float(s)` reads exactly the float literals. -/
theorem parseFloat_iff {fp : FP} {s : PyStr} {x : PyNum} : parseFloat fp s = some x ↔ FloatLit fp s x := by
  constructor
  · intro h
    unfold parseFloat at h
    cases hu : dropUnderscores none (stripBy isSpaceC s) with
    | none => rw [hu] at h; cases h
    | some t =>
      rw [hu] at h
      obtain ⟨g, m, prev', e, hg, hm, hp⟩ := under_sign hu (by simp)
      obtain ⟨b, b', hs, hb, hb'⟩ := stripBy_decomp isSpaceC s
      rw [e] at hs
      exact ⟨b, g, m, b', _, blanks_space.2 hb, blanks_space.2 hb', hg, floatBody_under hm hp h, hs⟩
  · rintro ⟨b, g, m, b', neg, hb, hb', hg, hm, rfl⟩
    obtain ⟨u, h1, h2, h3, h4⟩ := hm.parse
    have e1 : stripBy isSpaceC (b ++ (g ++ m) ++ b') = g ++ m := stripBy_inner _ _ _ _ (blanks_space.1 hb) (blanks_space.1 hb')
      (hg.solid.append hm.solid) (by simp [hm.ne_nil])
    have e2 : dropUnderscores none (g ++ m) = some (g ++ u) := by
      cases hg with
      | none => simpa using h1
      | plus => simp only [List.singleton_append]; rw [under_cons (by decide) h3, h1]; rfl
      | minus => simp only [List.singleton_append]; rw [under_cons (by decide) h3, h1]; rfl
    have e3 : takeSign (g ++ u) = (neg, u) := by
      cases hg with
      | none => rw [List.nil_append, takeSign_none u h4]
      | plus => rfl
      | minus => rfl
    unfold parseFloat
    rw [e1, e2]
    simp only [e3, h2]

/-- `int(s)` reads exactly the integer literals. -/
theorem parseInt_iff {s : PyStr} {i : Int} : parseInt s = some i ↔ IntLit s i := by
  constructor
  · intro h
    unfold parseInt at h
    cases hu : dropUnderscores none (takeSign (stripBy isSpaceC s)).2 with
    | none => rw [hu] at h; cases h
    | some d =>
      rw [hu] at h
      simp only at h
      split at h
      · cases h
      · rename_i hd
        simp only [Bool.or_eq_true, List.isEmpty_iff, Bool.not_eq_true', not_or, Bool.not_eq_false] at hd
        have all : d.takeWhile isDecimal = d := takeWhile_all _ _ hd.2
        obtain ⟨m, t3, d', e, hx, _, h3⟩ := under_part hu (by simp) (by rw [all]; exact hd.1)
        rw [dropWhile_all _ _ hd.2] at h3
        have := under_nil h3
        subst this
        rw [all] at hx
        rw [List.append_nil] at e
        have hg : ∃ g, SignText g (takeSign (stripBy isSpaceC s)).1 ∧ stripBy isSpaceC s = g ++ m := by
          rw [← e]
          rcases takeSign_cases (stripBy isSpaceC s) with ⟨r', e1, e2⟩ | ⟨r', e1, e2⟩ | e2
          · exact ⟨['-'], by rw [e2]; exact .minus, by rw [e2]; exact e1⟩
          · exact ⟨['+'], by rw [e2]; exact .plus, by rw [e2]; exact e1⟩
          · exact ⟨[], by rw [e2]; exact .none, by rw [e2]; rfl⟩
        obtain ⟨g, hg, e1⟩ := hg
        obtain ⟨b, b', hs, hb, hb'⟩ := stripBy_decomp isSpaceC s
        rw [e1] at hs
        refine ⟨b, g, m, b', _, _, blanks_space.2 hb, blanks_space.2 hb', hg, hx, hs, ?_⟩
        rw [decimal_digits]
        exact (Option.some.injEq _ _ ▸ h).symm
  · rintro ⟨b, g, m, b', neg, ds, hb, hb', hg, hm, rfl, rfl⟩
    obtain ⟨cs, h1, h2, h3, h4⟩ := hm.alone
    have e1 : stripBy isSpaceC (b ++ (g ++ m) ++ b') = g ++ m := stripBy_inner _ _ _ _ (blanks_space.1 hb) (blanks_space.1 hb')
      (hg.solid.append hm.solid) (by simp [hm.ne_nil])
    have e3 : takeSign (g ++ m) = (neg, m) := by
      cases hg with
      | none =>
        rw [List.nil_append, takeSign_none]
        intro c hc
        cases hm with
        | mk hc' _ =>
          cases hc
          have := (digitChar_iff.1 hc').1
          constructor <;> rintro rfl <;> revert this <;> decide
      | plus => rfl
      | minus => rfl
    unfold parseInt
    rw [e1, e3]
    simp only [h4]
    rw [if_neg (by simp [h1, h2]), ← h3, decimal_digits]

instance (fp : FP) (s : PyStr) (x : PyNum) : Decidable (FloatLit fp s x) := decidable_of_iff _ parseFloat_iff
instance (s : PyStr) (i : Int) : Decidable (IntLit s i) := decidable_of_iff _ parseInt_iff

end Colosseum
