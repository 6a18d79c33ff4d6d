import Verif.Props.Shortest

/-!
# C83: in which notation a number is printed

The digits of the text are those of C83_fewest and C83_nearest. Here: which form the text has, and that no digit in it is idle.
-/

namespace Colosseum

/-- Digits, a point and digits, like `12.5`: no zero at either end unless it is the only digit there. -/
def Positional (s : PyStr) : Prop :=
  ∃ a f : PyStr, s = a ++ '.' :: f ∧ a ≠ [] ∧ f ≠ [] ∧ (∀ c ∈ a, isDigit c = true) ∧ (∀ c ∈ f, isDigit c = true) ∧
    (a.head? = some '0' → a = ['0']) ∧ (f.getLast? = some '0' → f = ['0'])

/-- One digit other than zero, further digits behind a point if there are any, and an exponent with its sign, like `1.5e-07`: the last
digit is not zero, and the exponent has two digits, or more than two without a zero in front. -/
def Scientific (s : PyStr) : Prop :=
  ∃ (c : Char) (r : PyStr) (g : Char) (x : PyStr), s = c :: ((if r = [] then [] else '.' :: r) ++ 'e' :: g :: x) ∧ isDigit c = true ∧ c ≠ '0' ∧
    (∀ y ∈ r, isDigit y = true) ∧ r.getLast? ≠ some '0' ∧ (g = '+' ∨ g = '-') ∧ (∀ y ∈ x, isDigit y = true) ∧ 2 ≤ x.length ∧
    (x.head? = some '0' → x.length = 2)

/-! ## The digits of a natural number -/

theorem natDigitsAux_head (fuel n : Nat) (acc : PyStr) (hf : n ≤ fuel) (hn : n ≠ 0) : (natDigitsAux fuel n acc).head? ≠ some '0' := by
  induction fuel generalizing n acc with
  | zero => omega
  | succ fuel ih =>
    simp only [natDigitsAux, if_neg hn]
    by_cases h : n / 10 = 0
    · rw [h]
      have e : natDigitsAux fuel 0 (digitChar (n % 10) :: acc) = digitChar (n % 10) :: acc := by cases fuel <;> simp [natDigitsAux]
      rw [e]
      have : n < 10 := by omega
      interval_cases n <;> simp_all <;> decide
    · exact ih _ _ (by omega) h

theorem natStr_head {n : Nat} (hn : n ≠ 0) : (natStr n).head? ≠ some '0' := by
  unfold natStr
  rw [if_neg hn]
  exact natDigitsAux_head _ _ _ le_rfl hn

theorem digitsVal_lt : ∀ s : PyStr, (∀ c ∈ s, isDigit c = true) → digitsVal s < 10 ^ s.length
  | [], _ => by simp [digitsVal]
  | c :: r, h => by
    rw [digitsVal_cons, List.length_cons, pow_succ]
    have h1 := digit_lt_ten (h c List.mem_cons_self)
    have h2 := digitsVal_lt r fun x hx => h x (List.mem_cons_of_mem _ hx)
    nlinarith

theorem natStr_bounds {n : Nat} (hn : n ≠ 0) : 10 ^ ((natStr n).length - 1) ≤ n ∧ n < 10 ^ (natStr n).length := by
  have hall : ∀ c ∈ natStr n, isDigit c = true := by simpa using natStr_all n
  have hv := natStr_val n
  have h0 := natStr_head hn
  have hlt := digitsVal_lt _ hall
  have hne := natStr_ne_nil n
  generalize natStr n = s at *
  subst hv
  refine ⟨?_, hlt⟩
  cases s with
  | nil => exact absurd rfl hne
  | cons c r =>
    have h1 := one_le_digit (hall c List.mem_cons_self) (by simpa using h0)
    rw [digitsVal_cons, List.length_cons, Nat.add_sub_cancel]
    have : 1 * 10 ^ r.length ≤ digitVal c * 10 ^ r.length := Nat.mul_le_mul_right _ h1
    omega

/-! ## The form of the text -/

theorem expStr_form (e : Int) : ∃ (g : Char) (x : PyStr), expStr e = g :: x ∧ (g = '+' ∨ g = '-') ∧ (∀ y ∈ x, isDigit y = true) ∧ 2 ≤ x.length ∧
    (x.head? = some '0' → x.length = 2) := by
  have hall : ∀ c ∈ natStr e.natAbs, isDigit c = true := by simpa using natStr_all e.natAbs
  unfold expStr
  refine ⟨_, _, rfl, by split <;> simp, ?_⟩
  split
  · rename_i h
    have hl : (natStr e.natAbs).length = 1 := by
      generalize e.natAbs = n at h
      interval_cases n <;> decide
    refine ⟨?_, by simp [hl], by simp [hl]⟩
    intro y hy
    rcases List.mem_cons.1 hy with rfl | hy
    · decide
    · exact hall y hy
  · rename_i h
    have hn : e.natAbs ≠ 0 := by omega
    refine ⟨hall, ?_, fun h0 => absurd h0 (natStr_head hn)⟩
    by_contra hlen
    have := (natStr_bounds hn).2
    have h2 : 10 ^ (natStr e.natAbs).length ≤ 10 ^ 1 := Nat.pow_le_pow_right (by norm_num) (by omega)
    omega

theorem formatShort_form {d : PyStr} (hd : ∀ c ∈ d, isDigit c = true) (hne : d ≠ []) (h0 : d.head? ≠ some '0') (hl : d.getLast? ≠ some '0') (p : Int) :
    (-3 ≤ p ∧ p ≤ 16 → Positional (formatShort d p)) ∧ (p ≤ -4 ∨ 16 < p → Scientific (formatShort d p)) := by
  have zero : isDigit '0' = true := by decide
  have hz : ∀ n, ∀ c ∈ List.replicate n '0', isDigit c = true := fun n c hc => by rw [(List.mem_replicate.1 hc).2]; exact zero
  unfold formatShort
  constructor
  · intro hp
    rw [if_neg (by omega)]
    split
    · refine ⟨['0'], List.replicate p.natAbs '0' ++ d, rfl, by simp, by simp [hne], by simp [zero], ?_, fun _ => rfl, fun h => ?_⟩
      · intro c hc
        exact (List.mem_append.1 hc).elim (hz _ c) (hd c)
      · rw [List.getLast?_append_of_ne_nil _ hne] at h
        exact absurd h hl
    · split
      · refine ⟨d ++ List.replicate (p.natAbs - d.length) '0', ['0'], by simp, by simp [hne], by simp, ?_, by simp [zero], fun h => ?_, fun _ => rfl⟩
        · intro c hc
          exact (List.mem_append.1 hc).elim (hd c) (hz _ c)
        · rw [List.head?_append_of_ne_nil _ hne] at h
          exact absurd h h0
      · rename_i h1 h2
        refine ⟨d.take p.natAbs, d.drop p.natAbs, rfl, ?_, ?_, fun c hc => hd c (List.mem_of_mem_take hc), fun c hc => hd c (List.mem_of_mem_drop hc),
          fun h => ?_, fun h => ?_⟩
        · rw [Ne, List.take_eq_nil_iff]; rintro (h | h)
          · omega
          · exact hne h
        · rw [Ne, List.drop_eq_nil_iff]; omega
        · rw [List.head?_take, if_neg (by omega)] at h
          exact absurd h h0
        · rw [List.getLast?_drop, if_neg (by omega)] at h
          exact absurd h hl
  · intro hp
    rw [if_pos hp]
    obtain ⟨g, x, e, h1, h2, h3, h4⟩ := expStr_form (p - 1)
    rw [e]
    match d, hne, hd, h0, hl with
    | [c], _, hd, h0, hl => exact ⟨c, [], g, x, rfl, hd c (by simp), by simpa using h0, by simp, by simp, h1, h2, h3, h4⟩
    | c :: c2 :: r, _, hd, h0, hl =>
      refine ⟨c, c2 :: r, g, x, by simp, hd c (by simp), by simpa using h0, fun y hy => hd y (List.mem_cons_of_mem _ hy), ?_, h1, h2, h3, h4⟩
      rwa [List.getLast?_cons_cons] at hl

/-- The text of a positive float and the number it denotes: the notation depends on the size of that number. -/
theorem reprPos_form {q : Rat} (hq : 0 < q) (hf : round53 q = q) : ∃ v : Rat, round53 v = q ∧
    (1 / 10 ^ 4 ≤ v ∧ v < 10 ^ 16 → Positional (reprPos .b64 q)) ∧ (v < 1 / 10 ^ 4 ∨ 10 ^ 16 ≤ v → Scientific (reprPos .b64 q)) := by
  have hr := shortest_reads hq hf 16 1 rfl
  have hm : (shortest .b64 q 16 1).1 ≠ 0 := by
    intro h0
    rw [h0] at hr
    simp [round53_zero] at hr
    linarith
  refine ⟨_, hr, ?_⟩
  have h0 := shortest_nonneg hq .b64 16 1
  unfold reprPos
  clear hr
  generalize shortest .b64 q 16 1 = r at hm h0
  obtain ⟨m, k⟩ := r
  simp only at hm h0 ⊢
  have hn : m.natAbs ≠ 0 := by omega
  obtain ⟨hb1, hb2⟩ := natStr_bounds hn
  have hhead := natStr_head hn
  have hlast := dropZeros_last (natStr m.natAbs)
  obtain ⟨z, hz⟩ := dropZeros_spec (natStr m.natAbs)
  have hall : ∀ c ∈ natStr m.natAbs, isDigit c = true := by simpa using natStr_all m.natAbs
  have hval := natStr_val m.natAbs
  have hlen : 1 ≤ (natStr m.natAbs).length := by
    have := natStr_ne_nil m.natAbs
    cases h : natStr m.natAbs with
    | nil => exact absurd h this
    | cons => simp
  generalize hD : dropZeros (natStr m.natAbs) = d at hz hlast
  have hda : ∀ c ∈ d, isDigit c = true := fun c hc => hall c (by rw [hz]; exact List.mem_append_left _ hc)
  have hdn : d ≠ [] := by
    rintro rfl
    rw [hz, List.nil_append, digitsVal_zeros] at hval
    omega
  have hd0 : d.head? ≠ some '0' := by
    rw [hz, List.head?_append_of_ne_nil _ hdn] at hhead
    exact hhead
  have hdl : d.getLast? ≠ some '0' := by
    intro h
    rw [List.getLast?_eq_some_iff] at h
    obtain ⟨ys, h⟩ := h
    exact hlast ys '0' h rfl
  obtain ⟨f1, f2⟩ := formatShort_form hda hdn hd0 hdl (((natStr m.natAbs).length : Int) + k)
  have hmm : (m : Rat) = ((m.natAbs : Nat) : Rat) := by
    have : m = (m.natAbs : Int) := by omega
    exact (congrArg (fun i : Int => (i : Rat)) this).trans (Int.cast_natCast _)
  rw [hmm]
  generalize (natStr m.natAbs).length = L at *
  generalize m.natAbs = n at *
  have tk : (0 : Rat) < (10 : Rat) ^ k := by positivity
  have lo : (10 : Rat) ^ ((L : Int) + k - 1) ≤ (n : Rat) * (10 : Rat) ^ k := by
    rw [show (L : Int) + k - 1 = ((L - 1 : Nat) : Int) + k by omega, zpow_add₀ (by norm_num), zpow_natCast]
    exact mul_le_mul_of_nonneg_right (by exact_mod_cast hb1) (le_of_lt tk)
  have hi : (n : Rat) * (10 : Rat) ^ k < (10 : Rat) ^ ((L : Int) + k) := by
    rw [zpow_add₀ (by norm_num), zpow_natCast]
    exact mul_lt_mul_of_pos_right (by exact_mod_cast hb2) tk
  have e4 : (1 / 10 ^ 4 : Rat) = (10 : Rat) ^ (-4 : Int) := by norm_num
  have e16 : (10 ^ 16 : Rat) = (10 : Rat) ^ (16 : Int) := by norm_num
  have up : ∀ {a b : Int}, a ≤ b → (10 : Rat) ^ a ≤ (10 : Rat) ^ b := fun h => zpow_le_zpow_right₀ (by norm_num) h
  rw [e4, e16]
  refine ⟨fun ⟨g1, g2⟩ => f1 ⟨?_, ?_⟩, fun g => f2 ?_⟩
  · by_contra h
    have := up (show (L : Int) + k ≤ -4 by omega)
    linarith
  · by_contra h
    have := up (show 16 ≤ (L : Int) + k - 1 by omega)
    linarith
  · rcases g with g | g
    · left
      by_contra h
      have := up (show -4 ≤ (L : Int) + k - 1 by omega)
      linarith
    · right
      by_contra h
      have := up (show (L : Int) + k ≤ 16 by omega)
      linarith

/-- C83. A float from 0.0001 up to, but not including, 10^16 is printed with a decimal point and without an exponent; a smaller or larger
one with an exponent. -/
theorem C83_notation (q : Rat) (hq : 0 < q) (hf : round53 q = q) :
    (1 / 10 ^ 4 ≤ q ∧ q < 10 ^ 16 → Positional (pyRepr .b64 q)) ∧ (q < 1 / 10 ^ 4 ∨ 10 ^ 16 ≤ q → Scientific (pyRepr .b64 q)) := by
  have e : pyRepr .b64 q = reprPos .b64 q := by
    unfold pyRepr
    rw [if_neg (ne_of_gt hq), if_neg (by linarith)]
  rw [e]
  obtain ⟨v, hv, h1, h2⟩ := reprPos_form hq hf
  have r4 : (1 / 10 ^ 4 : Rat) ≤ round53 (1 / 10 ^ 4) := by decide +kernel
  have r16 : round53 (10 ^ 16) = 10 ^ 16 := by decide +kernel
  have t4 : Positional (reprPos .b64 (round53 (1 / 10 ^ 4))) := by
    rw [show reprPos .b64 (round53 (1 / 10 ^ 4)) = lit "0.0001" by decide +kernel]
    exact ⟨['0'], lit "0001", rfl, by decide, by decide, by decide, by decide, by decide, by decide⟩
  have t16 : Scientific (reprPos .b64 (10 ^ 16)) := by
    rw [show reprPos .b64 (10 ^ 16) = lit "1e+16" by decide +kernel]
    exact ⟨'1', [], '+', lit "16", rfl, by decide, by decide, by decide, by decide, by decide, by decide, by decide, by decide⟩
  constructor
  · rintro ⟨g1, g2⟩
    by_cases k1 : v < 1 / 10 ^ 4
    · have a := round53_mono (le_of_lt k1)
      have b := round53_mono g1
      rw [hv] at a
      rw [hf] at b
      rw [le_antisymm a b]
      exact t4
    · refine h1 ⟨not_lt.1 k1, ?_⟩
      by_contra k2
      have := round53_mono (not_lt.1 k2)
      rw [r16, hv] at this
      linarith
  · rintro (g | g)
    · refine h2 (Or.inl ?_)
      by_contra k
      have := round53_mono (not_lt.1 k)
      rw [hv] at this
      linarith
    · by_cases k : v < 10 ^ 16
      · have := round53_mono (le_of_lt k)
        rw [r16, hv] at this
        rw [le_antisymm this g]
        exact t16
      · exact h2 (Or.inr (not_lt.1 k))

/-- A negative float is printed as a minus and the text of its opposite. -/
theorem C83_minus (q : Rat) (hq : q < 0) : pyRepr .b64 q = '-' :: pyRepr .b64 (-q) := by
  unfold pyRepr
  rw [if_neg (ne_of_lt hq), if_pos hq, if_neg (by linarith), if_neg (by linarith)]

/-- Both notations, at the boundaries: the largest float below 10^16 and 10^16, the float next to 0.0001 and the one before it. -/
example : pyRepr .b64 (10 ^ 16 - 2) = lit "9999999999999998.0" ∧ pyRepr .b64 (10 ^ 16) = lit "1e+16" ∧
    pyRepr .b64 (round53 (1 / 10 ^ 4)) = lit "0.0001" ∧ pyRepr .b64 (round53 (99999 / 10 ^ 9)) = lit "9.9999e-05" ∧
    pyRepr .b64 (-(5 / 2)) = lit "-2.5" := by decide +kernel

end Colosseum
