import Verif.Py.Lit
import Verif.Spec.Wide

/-! Digits and white space outside ASCII. -/

namespace Colosseum

theorem isWideBlank_ge {c : Char} (h : isWideBlank c = true) : 128 ≤ c.toNat := by
  simp only [isWideBlank, Bool.and_eq_true, decide_eq_true_eq] at h
  exact h.1

theorem wideDigit_ge {c : Char} (h : (wideDigit c).isSome = true) : 128 ≤ c.toNat := by
  unfold wideDigit at h
  split at h
  · cases h
  · omega

theorem isDigit_range {c : Char} (h : isDigit c = true) : 48 ≤ c.toNat ∧ c.toNat ≤ 57 := by
  simp only [isDigit, Bool.and_eq_true, decide_eq_true_eq] at h
  exact h

theorem wideDigit_digit {c : Char} (h : isDigit c = true) : wideDigit c = none := by
  have := isDigit_range h
  unfold wideDigit
  rw [if_pos (by omega)]

theorem isDigit_isDecimal {c : Char} (h : isDigit c = true) : isDecimal c = true := by simp [isDecimal, h]

theorem all_isDecimal {s : PyStr} (h : s.all isDigit = true) : s.all isDecimal = true := by
  rw [List.all_eq_true] at h ⊢
  exact fun c hc => isDigit_isDecimal (h c hc)

theorem decimalVal_digit {c : Char} (h : isDigit c = true) : decimalVal c = digitVal c := by simp [decimalVal, h]

theorem decimalVal_map {s : PyStr} (h : s.all isDigit = true) : s.map decimalVal = s.map digitVal :=
  List.map_congr_left fun c hc => decimalVal_digit (List.all_eq_true.1 h c hc)

theorem decimalsVal_digits {s : PyStr} (h : s.all isDigit = true) : decimalsVal s = digitsVal s := by
  unfold decimalsVal digitsVal
  generalize 0 = n
  induction s generalizing n with
  | nil => rfl
  | cons c s ih =>
    simp only [List.all_cons, Bool.and_eq_true] at h
    simp only [List.foldl_cons]
    rw [decimalVal_digit h.1, ih h.2]

theorem isDecimal_ne (c d : Char) (h : isDecimal c = true) (hd : isDecimal d = false) : c ≠ d := by
  rintro rfl
  rw [h] at hd
  cases hd

theorem wide_disjoint : ∀ b ∈ wideBlanks, (wideZeros.find? fun z => decide (z ≤ b) && decide (b < z + 10)) = none := by decide

theorem wideDigit_not_blank {c : Char} (h : (wideDigit c).isSome = true) : isWideBlank c = false := by
  cases hb : isWideBlank c with
  | false => rfl
  | true =>
    exfalso
    have h1 := isWideBlank_ge hb
    simp only [isWideBlank, Bool.and_eq_true, List.contains_iff_mem] at hb
    unfold wideDigit at h
    rw [if_neg (by omega), wide_disjoint _ hb.2] at h
    cases h

/-- A blank of `float()` is one of six ASCII characters or lies outside ASCII. -/
theorem isSpaceC_cases {c : Char} (h : isSpaceC c = true) :
    c ∈ [' ', '\t', '\n', '\r', '\x0b', '\x0c'] ∨ isWideBlank c = true := by
  simp only [isSpaceC, Bool.or_eq_true, beq_iff_eq] at h
  simp only [List.mem_cons, List.not_mem_nil, or_false]
  simpa only [or_assoc] using h

theorem isSpaceC_low {c : Char} (h : isSpaceC c = true) : c.toNat ≤ 32 ∨ isWideBlank c = true := by
  rcases isSpaceC_cases h with h | h
  · left
    simp only [List.mem_cons, List.not_mem_nil, or_false] at h
    rcases h with rfl | rfl | rfl | rfl | rfl | rfl <;> decide
  · exact Or.inr h

theorem not_space_of_range {c : Char} (h1 : 32 < c.toNat) (h2 : c.toNat < 128) : isSpaceC c = false := by
  cases h : isSpaceC c with
  | false => rfl
  | true =>
    rcases isSpaceC_low h with h | h
    · omega
    · have := isWideBlank_ge h; omega

theorem isDecimal_not_space (c : Char) (h : isDecimal c = true) : isSpaceC c = false := by
  simp only [isDecimal, Bool.or_eq_true] at h
  rcases h with h | h
  · have := isDigit_range h
    exact not_space_of_range (by omega) (by omega)
  · cases hs : isSpaceC c with
    | false => rfl
    | true =>
      have h1 := wideDigit_ge h
      rcases isSpaceC_low hs with h2 | h2
      · omega
      · rw [wideDigit_not_blank h] at h2; cases h2

theorem toLower_of_not_upper {c : Char} (h : c.toNat < 65 ∨ 90 < c.toNat) : c.toLower = c := by
  unfold Char.toLower
  split
  · rename_i hh
    have h65 : (65 : UInt32).toNat ≤ c.val.toNat := hh.1
    have h90 : c.val.toNat ≤ (90 : UInt32).toNat := hh.2
    have : c.val.toNat = c.toNat := rfl
    have e : (65 : UInt32).toNat = 65 := rfl
    have e' : (90 : UInt32).toNat = 90 := rfl
    omega
  · rfl

theorem isDecimal_range {c : Char} (h : isDecimal c = true) : 48 ≤ c.toNat ∧ c.toNat ≤ 57 ∨ 128 ≤ c.toNat := by
  simp only [isDecimal, Bool.or_eq_true] at h
  rcases h with h | h
  · exact Or.inl (isDigit_range h)
  · exact Or.inr (wideDigit_ge h)

theorem toLower_decimal (c : Char) (h : isDecimal c = true) : c.toLower = c := by
  have := isDecimal_range h
  exact toLower_of_not_upper (by omega)

theorem wideDigit_spec {c : Char} {d : Nat} : wideDigit c = some d ↔ d < 10 ∧ ∃ z ∈ wideZeros, c.toNat = z + d := by
  have apart : wideZeros.Pairwise (fun a b => a + 10 ≤ b) := by decide
  have big : ∀ z ∈ wideZeros, 128 ≤ z := by decide
  constructor
  · intro h
    unfold wideDigit at h
    split at h
    · cases h
    · rw [Option.map_eq_some_iff] at h
      obtain ⟨z, hz, rfl⟩ := h
      have h1 := List.find?_some hz
      have h2 := List.mem_of_find?_eq_some hz
      simp only [Bool.and_eq_true, decide_eq_true_eq] at h1
      exact ⟨by omega, z, h2, by omega⟩
  · rintro ⟨hd, z, hz, e⟩
    have hb := big z hz
    unfold wideDigit
    rw [if_neg (by omega)]
    have : (wideZeros.find? fun w => decide (w ≤ c.toNat) && decide (c.toNat < w + 10)) = some z := by
      clear hb big
      generalize wideZeros = l at *
      induction l with
      | nil => cases hz
      | cons w l ih =>
        rw [List.pairwise_cons] at apart
        rw [List.find?_cons]
        rcases List.mem_cons.1 hz with rfl | hz
        · simp only [e]
          rw [show (decide (z ≤ z + d) && decide (z + d < z + 10)) = true by simp; omega]
        · have := apart.1 z hz
          rw [show (decide (w ≤ c.toNat) && decide (c.toNat < w + 10)) = false by simp; omega]
          exact ih apart.2 hz
    rw [this]
    simp only [Option.map_some, Option.some.injEq]
    omega

theorem wideSpaces_eq : wideSpaces.map Char.toNat = wideBlanks := by decide +kernel

theorem isWideBlank_iff {c : Char} : isWideBlank c = true ↔ c ∈ wideSpaces := by
  have big : ∀ b ∈ wideBlanks, 128 ≤ b := by decide
  have inj : ∀ a b : Char, a.toNat = b.toNat → a = b := fun a b h => by
    rw [← Char.ofNat_toNat a, h, Char.ofNat_toNat]
  simp only [isWideBlank, Bool.and_eq_true, decide_eq_true_eq, List.contains_iff_mem]
  rw [← wideSpaces_eq] at *
  constructor
  · rintro ⟨_, h⟩
    obtain ⟨d, hd, e⟩ := List.mem_map.1 h
    exact inj _ _ e ▸ hd
  · intro h
    have := List.mem_map_of_mem (f := Char.toNat) h
    exact ⟨big _ this, this⟩

end Colosseum
