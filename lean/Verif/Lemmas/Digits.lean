import Verif.Lemmas.Str
import Mathlib.Tactic.Linarith
import Mathlib.Data.Rat.Cast.Defs

/-! Printing an integer and reading it back. -/

namespace Colosseum

theorem digitChar_isDigit (n : Nat) (h : n < 10) : isDigit (digitChar n) = true := by
  have : ∀ n : Fin 10, isDigit (digitChar n) = true := by decide
  exact this ⟨n, h⟩

theorem digitVal_digitChar (n : Nat) (h : n < 10) : digitVal (digitChar n) = n := by
  have : ∀ n : Fin 10, digitVal (digitChar n) = n := by decide
  exact this ⟨n, h⟩

theorem digitsVal_foldl (s : PyStr) (n : Nat) :
    s.foldl (fun n c => 10 * n + digitVal c) n = n * 10 ^ s.length + digitsVal s := by
  induction s generalizing n with
  | nil => simp [digitsVal]
  | cons c s ih =>
    simp only [digitsVal, List.foldl_cons, List.length_cons]
    rw [ih, ih (10 * 0 + digitVal c), Nat.pow_succ]
    grind

theorem digitsVal_cons (c : Char) (s : PyStr) :
    digitsVal (c :: s) = digitVal c * 10 ^ s.length + digitsVal s := by
  simp only [digitsVal, List.foldl_cons]
  rw [digitsVal_foldl]
  simp [digitsVal]

theorem decimalsVal_foldl (s : PyStr) (n : Nat) :
    s.foldl (fun n c => 10 * n + decimalVal c) n = n * 10 ^ s.length + decimalsVal s := by
  induction s generalizing n with
  | nil => simp [decimalsVal]
  | cons c s ih =>
    simp only [decimalsVal, List.foldl_cons, List.length_cons]
    rw [ih, ih (10 * 0 + decimalVal c), Nat.pow_succ]
    grind

theorem decimalsVal_append (s t : PyStr) :
    decimalsVal (s ++ t) = decimalsVal s * 10 ^ t.length + decimalsVal t := by
  simp only [decimalsVal, List.foldl_append]
  rw [decimalsVal_foldl]
  rfl

theorem digitsVal_append (s t : PyStr) :
    digitsVal (s ++ t) = digitsVal s * 10 ^ t.length + digitsVal t := by
  simp only [digitsVal, List.foldl_append]
  rw [digitsVal_foldl]
  rfl

theorem natDigitsAux_spec (fuel n : Nat) (acc : PyStr) (h : n ≤ fuel) (ha : acc.all isDigit = true) :
    (natDigitsAux fuel n acc).all isDigit = true ∧
      digitsVal (natDigitsAux fuel n acc) = n * 10 ^ acc.length + digitsVal acc := by
  induction fuel generalizing n acc with
  | zero =>
    have : n = 0 := by omega
    subst this
    simp [natDigitsAux, ha]
  | succ fuel ih =>
    simp only [natDigitsAux]
    split
    · rename_i h0; subst h0; simp [ha]
    · have hlt : n % 10 < 10 := Nat.mod_lt _ (by omega)
      have := ih (n / 10) (digitChar (n % 10) :: acc) (by omega)
        (by simp [ha, digitChar_isDigit _ hlt])
      refine ⟨this.1, ?_⟩
      rw [this.2, digitsVal_cons, digitVal_digitChar _ hlt, List.length_cons, Nat.pow_succ]
      have := Nat.div_add_mod n 10
      grind

theorem natDigitsAux_ne_nil (fuel n : Nat) (acc : PyStr) (h : n ≠ 0 ∧ fuel ≠ 0 ∨ acc ≠ []) :
    natDigitsAux fuel n acc ≠ [] := by
  induction fuel generalizing n acc with
  | zero =>
    simp only [natDigitsAux]
    rcases h with h | h
    · omega
    · exact h
  | succ fuel ih =>
    simp only [natDigitsAux]
    split
    · rcases h with h | h
      · omega
      · exact h
    · exact ih _ _ (Or.inr (by simp))

theorem natStr_all (n : Nat) : (natStr n).all isDigit = true := by
  unfold natStr
  split
  · decide
  · exact (natDigitsAux_spec n n [] (Nat.le_refl n) rfl).1

theorem natStr_val (n : Nat) : digitsVal (natStr n) = n := by
  unfold natStr
  split
  · rename_i h; subst h; decide
  · have := (natDigitsAux_spec n n [] (Nat.le_refl n) rfl).2
    simpa [digitsVal] using this

theorem natStr_ne_nil (n : Nat) : natStr n ≠ [] := by
  unfold natStr
  split
  · simp
  · rename_i h; exact natDigitsAux_ne_nil _ _ _ (Or.inl ⟨h, h⟩)

theorem isDigit_not_space (c : Char) (h : isDigit c = true) : isSpaceC c = false := by
  exact isDecimal_not_space c (isDigit_isDecimal h)

theorem isDigit_ne (c d : Char) (h : isDigit c = true) (hd : isDigit d = false) : c ≠ d := by
  rintro rfl
  rw [h] at hd
  cases hd

theorem dropWhile_none (p : Char → Bool) (s : PyStr) (h : ∀ c, s.head? = some c → p c = false) :
    s.dropWhile p = s := by
  cases s with
  | nil => rfl
  | cons a s => simp [h a rfl]

theorem stripBy_id (p : Char → Bool) (s : PyStr) (h1 : ∀ c, s.head? = some c → p c = false)
    (h2 : ∀ c, s.getLast? = some c → p c = false) : stripBy p s = s := by
  unfold stripBy
  rw [dropWhile_none p s h1, dropWhile_none p s.reverse, List.reverse_reverse]
  intro c hc
  rw [List.head?_reverse] at hc
  exact h2 c hc

theorem stripBy_all (p : Char → Bool) (s : PyStr) (h : ∀ c ∈ s, p c = false) : stripBy p s = s := by
  apply stripBy_id
  · intro c hc; exact h c (List.mem_of_head? hc)
  · intro c hc; exact h c (List.mem_of_getLast? hc)

theorem dropUnderscores_none (s : PyStr) (prev : Option Char) (hp : prev ≠ some '_')
    (h : ∀ c ∈ s, c ≠ '_') : dropUnderscores prev s = some s := by
  induction s generalizing prev with
  | nil => simp [dropUnderscores, hp]
  | cons c s ih =>
    have hc := h c (by simp)
    simp only [dropUnderscores, beq_iff_eq, hc, if_false]
    rw [if_neg (by simp [hp]), ih (some c) (by simpa using hc) (fun d hd => h d (by simp [hd]))]
    rfl

theorem takeSign_none (s : PyStr) (h : ∀ c, s.head? = some c → c ≠ '-' ∧ c ≠ '+') :
    takeSign s = (false, s) := by
  unfold takeSign
  split
  · exact absurd rfl (h '-' rfl).1
  · exact absurd rfl (h '+' rfl).2
  · rfl

theorem takeWhile_all (p : Char → Bool) (s : PyStr) (h : s.all p = true) : s.takeWhile p = s := by
  induction s with
  | nil => rfl
  | cons a s ih =>
    simp only [List.all_cons, Bool.and_eq_true] at h
    simp [h.1, ih h.2]

theorem dropWhile_all (p : Char → Bool) (s : PyStr) (h : s.all p = true) : s.dropWhile p = [] := by
  induction s with
  | nil => rfl
  | cons a s ih =>
    simp only [List.all_cons, Bool.and_eq_true] at h
    simp [h.1, ih h.2]

theorem parseDecimal_digits (s : PyStr) (h : s.all isDigit = true) (hne : s ≠ []) :
    parseDecimal s = some (digitsVal s : Rat) := by
  unfold parseDecimal
  rw [takeWhile_all _ _ (all_isDecimal h), dropWhile_all _ _ (all_isDecimal h), ← decimalsVal_digits h]
  cases s with
  | nil => exact absurd rfl hne
  | cons a s =>
    simp [fracPart, parseExp, pow10]

theorem toLower_digit (c : Char) (h : isDigit c = true) : c.toLower = c := by
  simp only [isDigit, Bool.and_eq_true, decide_eq_true_eq] at h
  have e9 : '9'.toNat = 57 := rfl
  rw [e9] at h
  have h2 : c.toNat ≤ 57 := h.2
  unfold Char.toLower
  split
  · rename_i hh
    have h65 : (65 : UInt32).toNat ≤ c.val.toNat := hh.1
    have : c.val.toNat = c.toNat := rfl
    have e : (65 : UInt32).toNat = 65 := rfl
    omega
  · rfl

theorem lower_digit_head (s : PyStr) (c d : Char) (t : PyStr) (h : isDigit c = true)
    (hd : isDigit d = false) : (c :: s).map Char.toLower ≠ d :: t := by
  simp only [List.map_cons]
  intro e
  have := (List.cons.inj e).1
  rw [toLower_digit c h] at this
  exact isDigit_ne c d h hd this

theorem floatBody_digits (fp : FP) (neg : Bool) (s : PyStr) (h : s.all isDigit = true) (hne : s ≠ []) :
    floatBody fp neg s
      = some (.fin (.flt (fp.rnd (if neg then -(digitsVal s : Rat) else (digitsVal s : Rat))))) := by
  unfold floatBody
  rw [parseDecimal_digits s h hne]
  cases s with
  | nil => exact absurd rfl hne
  | cons c s =>
    have hc : isDigit c = true := by simp at h; exact h.1
    have e1 : lit "inf" = 'i' :: lit "nf" := rfl
    have e2 : lit "infinity" = 'i' :: lit "nfinity" := rfl
    have e3 : lit "nan" = 'n' :: lit "an" := rfl
    rw [e1, e2, e3]
    rw [if_neg (by simp only [Bool.or_eq_true, decide_eq_true_eq]; exact not_or.2 ⟨lower_digit_head s c 'i' _ hc (by decide), lower_digit_head s c 'i' _ hc (by decide)⟩),
      if_neg (lower_digit_head s c 'n' _ hc (by decide))]

theorem intStr_cases (i : Int) :
    (0 ≤ i ∧ intStr i = natStr i.natAbs) ∨ (i < 0 ∧ intStr i = '-' :: natStr i.natAbs) := by
  unfold intStr
  split
  · exact Or.inr ⟨by assumption, rfl⟩
  · exact Or.inl ⟨by omega, rfl⟩

theorem intStr_mem (i : Int) (c : Char) (h : c ∈ intStr i) : isDigit c = true ∨ c = '-' := by
  have hd := natStr_all i.natAbs
  rw [List.all_eq_true] at hd
  rcases intStr_cases i with ⟨_, e⟩ | ⟨_, e⟩ <;> rw [e] at h
  · exact Or.inl (hd c h)
  · rcases List.mem_cons.1 h with rfl | h
    · exact Or.inr rfl
    · exact Or.inl (hd c h)

theorem intStr_no_space (i : Int) (c : Char) (h : c ∈ intStr i) : isSpaceC c = false := by
  rcases intStr_mem i c h with h | rfl
  · exact isDigit_not_space c h
  · decide

theorem intStr_ne_nil (i : Int) : intStr i ≠ [] := by
  rcases intStr_cases i with ⟨_, e⟩ | ⟨_, e⟩ <;> rw [e]
  · exact natStr_ne_nil _
  · simp

theorem takeSign_natStr (n : Nat) : takeSign (natStr n) = (false, natStr n) := by
  apply takeSign_none
  intro c hc
  have := List.all_eq_true.1 (natStr_all n) c (List.mem_of_head? hc)
  exact ⟨isDigit_ne c '-' this (by decide), isDigit_ne c '+' this (by decide)⟩

theorem takeSign_intStr (i : Int) : takeSign (intStr i) = (decide (i < 0), natStr i.natAbs) := by
  rcases intStr_cases i with ⟨h, e⟩ | ⟨h, e⟩ <;> rw [e]
  · rw [takeSign_natStr]
    simp; omega
  · simp [takeSign, h]

theorem parseFloat_intStr (fp : FP) (i : Int) :
    parseFloat fp (intStr i) = some (.fin (.flt (fp.rnd (i : Rat)))) := by
  unfold parseFloat
  rw [stripBy_all _ _ (intStr_no_space i), dropUnderscores_none _ _ (by simp)]
  · simp only [takeSign_intStr]
    rw [floatBody_digits fp _ _ (natStr_all _) (natStr_ne_nil _), natStr_val]
    congr 4
    by_cases h : i < 0
    · simp only [h, decide_true, if_true]
      rw [← Int.cast_natCast, ← Int.cast_neg]
      congr 1
      omega
    · simp only [h, decide_false]
      rw [← Int.cast_natCast]
      simp only [Bool.false_eq_true, if_false]
      congr 1
      omega
  · intro c hc
    rcases intStr_mem i c hc with h | rfl
    · exact isDigit_ne c '_' h (by decide)
    · decide

theorem parseInt_intStr (i : Int) : parseInt (intStr i) = some i := by
  unfold parseInt
  rw [stripBy_all _ _ (intStr_no_space i), takeSign_intStr]
  rw [dropUnderscores_none _ _ (by simp)]
  · simp only [all_isDecimal (natStr_all i.natAbs), decimalsVal_digits (natStr_all i.natAbs), natStr_val]
    have := natStr_ne_nil i.natAbs
    have e : (natStr i.natAbs).isEmpty = false := by simpa using this
    simp only [e, Bool.not_true, Bool.or_self, Bool.false_eq_true, if_false, decide_eq_true_eq]
    congr 1
    split <;> omega
  · intro c hc
    have := List.all_eq_true.1 (natStr_all i.natAbs) c hc
    exact isDigit_ne c '_' this (by decide)

end Colosseum
