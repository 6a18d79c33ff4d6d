import Verif.Py.Repr
import Verif.Lemmas.Literals
import Verif.Lemmas.Round

/-!
# `float(repr(q)) == q`
-/

namespace Colosseum

/-! ## Seventeen digits determine a float -/

theorem pyRound_of_near {x : Rat} {n : Int} (h1 : (n : Rat) - 1 / 2 < x) (h2 : x < (n : Rat) + 1 / 2) : pyRound x = n := by
  refine (pyRound_spec x).unique ⟨le_of_lt h1, le_of_lt h2, ?_⟩
  rintro (h | h) <;> exfalso <;> linarith

/-- A number within `q * 2 ^ -54` of a float `q` rounds to `q`. -/
theorem round53_close {q d : Rat} (hq : 0 < q) (hf : round53 q = q) (h1 : q - q / 2 ^ 54 < d) (h2 : d < q + q / 2 ^ 54) : round53 d = q := by
  obtain ⟨l1, l2⟩ := log_bounds (ne_of_gt hq)
  rw [abs_of_pos hq] at l1 l2
  have hf' := hf
  unfold round53 at hf'
  rw [if_neg (ne_of_gt hq), abs_of_pos hq] at hf'
  generalize Int.log 2 q = e at l1 l2 hf'
  generalize pyRound (q * 2 ^ (52 - e)) = N at hf'
  -- the unit in the last place
  generalize hu : (2 : Rat) ^ (e - 52) = u at hf'
  have hu0 : 0 < u := by rw [← hu]; exact zpow_two_pos _
  have e1 : (2 : Rat) ^ e = 2 ^ 52 * u := by
    rw [← hu, ← zpow_natCast (2 : Rat) 52, ← zpow_add₀ (by norm_num)]; congr 1; push_cast; ring
  have e2 : (2 : Rat) ^ (e + 1) = 2 ^ 53 * u := by
    rw [zpow_add₀ (by norm_num), e1]; norm_num; ring
  rw [e1] at l1
  rw [e2] at l2
  have n1 : (2 : Rat) ^ 52 ≤ N := by
    rw [← hf'] at l1; exact le_of_mul_le_mul_right l1 hu0
  have n2 : (N : Rat) < 2 ^ 53 := by
    rw [← hf'] at l2; exact lt_of_mul_lt_mul_right l2 (le_of_lt hu0)
  have n1' : (2 : Int) ^ 52 ≤ N := by exact_mod_cast n1
  have n2' : N + 1 ≤ (2 : Int) ^ 53 := by
    have : N < (2 : Int) ^ 53 := by exact_mod_cast n2
    omega
  have n2'' : (N : Rat) + 1 ≤ 2 ^ 53 := by exact_mod_cast n2'
  have hqu : q / 2 ^ 54 < u / 2 := by
    rw [div_lt_div_iff₀ (by norm_num) (by norm_num)]
    nlinarith
  have d0 : 0 < d := by
    have : q / 2 ^ 54 ≤ q := by
      rw [div_le_iff₀ (by norm_num)]; nlinarith
    linarith
  by_cases hd : (2 : Rat) ^ 52 * u ≤ d
  · have hd2 : d < 2 ^ 53 * u := by
      have : q ≤ (2 ^ 53 - 1) * u := by
        rw [← hf']; exact mul_le_mul_of_nonneg_right (by linarith) (le_of_lt hu0)
      nlinarith
    have hl : Int.log 2 |d| = e := log_unique (by rw [abs_of_pos d0, e1]; exact hd) (by rw [abs_of_pos d0, e2]; exact hd2)
    unfold round53
    rw [if_neg (ne_of_gt d0), hl, hu]
    have hv : (2 : Rat) ^ (52 - e) = 1 / u := by
      rw [← hu, one_div, ← zpow_neg]; congr 1; ring
    have : pyRound (d * 2 ^ (52 - e)) = N := by
      rw [hv]
      refine pyRound_of_near ?_ ?_
      · rw [mul_one_div, lt_div_iff₀ hu0]
        have : (N : Rat) * u = q := hf'
        linarith
      · rw [mul_one_div, div_lt_iff₀ hu0]
        have : (N : Rat) * u = q := hf'
        linarith
    rw [this, hf']
  · push Not at hd
    have hN : N = (2 : Int) ^ 52 := by
      by_contra hne
      have h3 : (2 : Int) ^ 52 + 1 ≤ N := by omega
      have h4 : (2 : Rat) ^ 52 + 1 ≤ N := by exact_mod_cast h3
      have h5 : (2 ^ 52 + 1) * u ≤ q := by
        rw [← hf']; exact mul_le_mul_of_nonneg_right h4 (le_of_lt hu0)
      linarith
    have hq2 : q = 2 ^ 52 * u := by rw [← hf', hN]; norm_num
    have e3 : (2 : Rat) ^ (e - 1) = 2 ^ 51 * u := by
      rw [zpow_sub₀ (by norm_num), e1]; norm_num; ring
    have hl : Int.log 2 |d| = e - 1 := log_unique
      (by
        rw [abs_of_pos d0, e3]
        have : q / 2 ^ 54 ≤ q / 2 := by
          rw [div_le_div_iff₀ (by norm_num) (by norm_num)]; nlinarith
        linarith)
      (by rw [abs_of_pos d0, sub_add_cancel, e1]; exact hd)
    unfold round53
    rw [if_neg (ne_of_gt d0), hl]
    have hv : (2 : Rat) ^ (52 - (e - 1)) = 2 / u := by
      rw [← hu, show (52 - (e - 1) : Int) = 1 + -(e - 52) by ring, zpow_add₀ (by norm_num), zpow_neg, zpow_one]; rfl
    have hw : (2 : Rat) ^ (e - 1 - 52) = u / 2 := by
      rw [← hu, show (e - 1 - 52 : Int) = (e - 52) - 1 by ring, zpow_sub₀ (by norm_num), zpow_one]
    have : pyRound (d * 2 ^ (52 - (e - 1))) = (2 : Int) ^ 53 := by
      rw [hv]
      refine pyRound_of_near ?_ ?_
      · rw [mul_div_assoc', lt_div_iff₀ hu0]
        push_cast
        rw [hq2] at h1
        nlinarith
      · rw [mul_div_assoc', div_lt_iff₀ hu0]
        push_cast
        rw [hq2] at h2
        nlinarith
    rw [this, hw, hq2]
    push_cast
    ring

/-! ## The digits found -/

theorem ten_log {q : Rat} (h : 0 < q) : (10 : Rat) ^ Int.log 10 q ≤ q := by
  simpa using Int.zpow_log_le_self (R := Rat) (b := 10) (by norm_num) h

theorem shortest_reads {q : Rat} (hq : 0 < q) (hf : round53 q = q) : ∀ fuel n, fuel + n = 17 →
    round53 (((shortest .b64 q fuel n).1 : Rat) * (10 : Rat) ^ (shortest .b64 q fuel n).2) = q := by
  intro fuel
  induction fuel with
  | zero =>
    intro n hn
    have hn : n = 17 := by omega
    subst hn
    simp only [shortest]
    generalize hk : lastPlace q 17 = k
    have hp : (0 : Rat) < 10 ^ k := zpow_pos (by norm_num) k
    have hx : q * (10 : Rat) ^ (-k) * 10 ^ k = q := by
      rw [mul_assoc, ← zpow_add₀ (by norm_num)]; simp
    obtain ⟨s1, s2, _⟩ := pyRound_spec (q * (10 : Rat) ^ (-k))
    have hbig : 10 ^ 16 * (10 : Rat) ^ k ≤ q := by
      have := ten_log hq
      rw [show Int.log 10 q = 16 + k by rw [← hk, lastPlace]; push_cast; ring, zpow_add₀ (by norm_num)] at this
      exact_mod_cast this
    have small : (10 : Rat) ^ k / 2 < q / 2 ^ 54 := by
      rw [div_lt_div_iff₀ (by norm_num) (by norm_num)]
      nlinarith
    have a1 := mul_le_mul_of_nonneg_right s1 (le_of_lt hp)
    have a2 := mul_le_mul_of_nonneg_right s2 (le_of_lt hp)
    rw [hx] at a1 a2
    exact round53_close hq hf (by linarith) (by linarith)
  | succ fuel ih =>
    intro n hn
    rw [shortest]
    split
    · assumption
    · split
      · assumption
      · exact ih (n + 1) (by omega)

theorem shortest_nonneg {q : Rat} (hq : 0 < q) (fp : FP) : ∀ fuel n, 0 ≤ (shortest fp q fuel n).1 := by
  have hx : ∀ k : Int, 0 < q * (10 : Rat) ^ k := fun k => mul_pos hq (zpow_pos (by norm_num) k)
  have hr : ∀ k : Int, 0 ≤ pyRound (q * (10 : Rat) ^ k) := fun k => by
    have := pyRound_mono (le_of_lt (hx k))
    have e : pyRound 0 = 0 := by have := pyRound_int 0; simpa using this
    rwa [e] at this
  intro fuel
  induction fuel with
  | zero => intro n; exact hr _
  | succ fuel ih =>
    intro n
    rw [shortest]
    split
    · exact hr _
    · split
      · show 0 ≤ otherSide _ _
        unfold otherSide
        split
        · have := hr (-lastPlace q n); omega
        · rename_i h
          push Not at h
          have h0 := hx (-lastPlace q n)
          have : (0 : Rat) < (pyRound (q * (10 : Rat) ^ (-lastPlace q n)) : Rat) := lt_trans h0 h
          have : 0 < pyRound (q * (10 : Rat) ^ (-lastPlace q n)) := by exact_mod_cast this
          omega
      · exact ih _

/-! ## The format -/

theorem digitPart_of_all {s : PyStr} (h : s.all isDigit = true) (hne : s ≠ []) : DigitPart s (s.map digitVal) := by
  have tail : ∀ s : PyStr, s.all isDigit = true → DigitTail s (s.map digitVal) := by
    intro s h
    induction s with
    | nil => exact .nil
    | cons c s ih =>
      simp only [List.all_cons, Bool.and_eq_true] at h
      exact .digit (digitChar_iff.2 ⟨isDigit_isDecimal h.1, decimalVal_digit h.1⟩) (ih h.2)
  cases s with
  | nil => exact absurd rfl hne
  | cons c s =>
    simp only [List.all_cons, Bool.and_eq_true] at h
    exact .mk (digitChar_iff.2 ⟨isDigit_isDecimal h.1, decimalVal_digit h.1⟩) (tail s h.2)

theorem decimal_of_digits {s : PyStr} (h : s.all isDigit = true) : decimal (s.map digitVal) = digitsVal s := by
  rw [← decimalVal_map h, decimal_digits, decimalsVal_digits h]

theorem digitsVal_zeros (n : Nat) : digitsVal (List.replicate n '0') = 0 := by
  induction n with
  | zero => rfl
  | succ n ih => rw [List.replicate_succ, digitsVal_cons, ih]; simp [digitVal]

theorem zeros_all (n : Nat) : (List.replicate n '0').all isDigit = true := by
  rw [List.all_eq_true]
  intro c hc
  rw [(List.mem_replicate.1 hc).2]
  decide

theorem numberText_both {s f : PyStr} (hs : s.all isDigit = true) (hs0 : s ≠ []) (hf : f.all isDigit = true) (hf0 : f ≠ []) :
    NumberText (s ++ '.' :: f) ((digitsVal s : Rat) + (digitsVal f : Rat) / 10 ^ f.length) := by
  have := NumberText.both (digitPart_of_all hs hs0) (digitPart_of_all hf hf0)
  rwa [decimal_of_digits hs, decimal_of_digits hf, List.length_map] at this

theorem expStr_text (e : Int) : ∃ g x neg xs, expStr e = g ++ x ∧ SignText g neg ∧ DigitPart x xs ∧
    e = if neg then -(decimal xs : Int) else (decimal xs : Int) := by
  have pad : ∃ x, (if e.natAbs < 10 then '0' :: natStr e.natAbs else natStr e.natAbs) = x ∧ x.all isDigit = true ∧ x ≠ [] ∧ digitsVal x = e.natAbs := by
    refine ⟨_, rfl, ?_, ?_, ?_⟩ <;> split
    · simp only [List.all_cons, natStr_all, Bool.and_true]; decide
    · exact natStr_all _
    · simp
    · exact natStr_ne_nil _
    · rw [digitsVal_cons, natStr_val]; simp [digitVal]
    · exact natStr_val _
  obtain ⟨x, hx, h1, h2, h3⟩ := pad
  unfold expStr
  rw [hx]
  by_cases he : e < 0
  · refine ⟨['-'], x, true, _, by rw [if_pos he]; rfl, .minus, digitPart_of_all h1 h2, ?_⟩
    rw [decimal_of_digits h1, h3, if_pos rfl]; omega
  · refine ⟨['+'], x, false, _, by rw [if_neg he]; rfl, .plus, digitPart_of_all h1 h2, ?_⟩
    rw [decimal_of_digits h1, h3, if_neg (by decide)]; omega

theorem floatNumber_exp {s : PyStr} {v : Rat} (h : NumberText s v) (e : Int) : FloatNumber (s ++ 'e' :: expStr e) (v * (10 : Rat) ^ e) := by
  obtain ⟨g, x, neg, xs, h1, h2, h3, h4⟩ := expStr_text e
  rw [h1]
  have := FloatNumber.exponent h (c := 'e') (Or.inl rfl) h2 h3
  rwa [← h4] at this

theorem formatShort_number {d : PyStr} (h : d.all isDigit = true) (hne : d ≠ []) (p : Int) :
    FloatNumber (formatShort d p) ((digitsVal d : Rat) * (10 : Rat) ^ (p - (d.length : Int))) := by
  have ten : (10 : Rat) ≠ 0 := by norm_num
  unfold formatShort
  split
  · cases d with
    | nil => exact absurd rfl hne
    | cons c r =>
      simp only [List.all_cons, Bool.and_eq_true] at h
      have hc : [c].all isDigit = true := by simp [h.1]
      cases r with
      | nil =>
        have := floatNumber_exp (.whole (digitPart_of_all hc (by simp))) (p - 1)
        rw [decimal_of_digits hc] at this
        simpa using this
      | cons c2 r =>
        have := floatNumber_exp (numberText_both hc (by simp) h.2 (by simp)) (p - 1)
        simp only [List.nil_append, List.cons_append] at this ⊢
        convert this using 1
        rw [show c :: c2 :: r = [c] ++ c2 :: r from rfl, digitsVal_append, List.length_append, List.length_singleton]
        rw [show p - ((1 + (c2 :: r).length : Nat) : Int) = (p - 1) - ((c2 :: r).length : Int) by push_cast; ring, zpow_sub₀ ten, zpow_natCast]
        push_cast
        field_simp
  · rename_i hp
    push Not at hp
    split
    · rename_i hp0
      have h1 : (List.replicate p.natAbs '0' ++ d).all isDigit = true := by
        rw [List.all_append, zeros_all, h]; rfl
      have := FloatNumber.plain (numberText_both (s := ['0']) (by decide) (by simp) h1 (by simp [hne]))
      simp only [List.singleton_append] at this
      convert this using 1
      rw [digitsVal_append, digitsVal_zeros, List.length_append, List.length_replicate]
      have e : (p : Int) = -((p.natAbs : Nat) : Int) := by omega
      rw [show p - (d.length : Int) = -((p.natAbs + d.length : Nat) : Int) by omega, zpow_neg, zpow_natCast]
      simp [digitsVal, digitVal, div_eq_mul_inv]
    · rename_i hp0
      push Not at hp0
      split
      · rename_i hl
        have h1 : (d ++ List.replicate (p.natAbs - d.length) '0').all isDigit = true := by
          rw [List.all_append, zeros_all, h]; rfl
        have := FloatNumber.plain (numberText_both (f := ['0']) h1 (by simp [hne]) (by decide) (by simp))
        convert this using 1
        rw [digitsVal_append, digitsVal_zeros, List.length_replicate]
        rw [show p - (d.length : Int) = ((p.natAbs - d.length : Nat) : Int) by omega, zpow_natCast]
        simp [digitsVal, digitVal]
      · rename_i hl
        push Not at hl
        have h' : ∀ c ∈ d, isDigit c = true := by simpa using h
        have h1 : (d.take p.natAbs).all isDigit = true := by
          rw [List.all_eq_true]; intro c hc; exact h' c (List.mem_of_mem_take hc)
        have h2 : (d.drop p.natAbs).all isDigit = true := by
          rw [List.all_eq_true]; intro c hc; exact h' c (List.mem_of_mem_drop hc)
        have n1 : d.take p.natAbs ≠ [] := by
          rw [Ne, List.take_eq_nil_iff]; rintro (h | h)
          · omega
          · exact hne h
        have n2 : d.drop p.natAbs ≠ [] := by
          rw [Ne, List.drop_eq_nil_iff]; omega
        have := FloatNumber.plain (numberText_both h1 n1 h2 n2)
        convert this using 1
        conv_lhs => rw [← List.take_append_drop p.natAbs d]
        rw [digitsVal_append, List.length_append, List.length_take, List.length_drop, min_eq_left (le_of_lt hl)]
        rw [show p - ((p.natAbs + (d.length - p.natAbs) : Nat) : Int) = -((d.length - p.natAbs : Nat) : Int) by omega, zpow_neg, zpow_natCast]
        push_cast
        field_simp

theorem dropZeros_spec (s : PyStr) : ∃ z, s = dropZeros s ++ List.replicate z '0' := by
  refine ⟨(s.reverse.takeWhile (· == '0')).length, ?_⟩
  have e : s.reverse.takeWhile (· == '0') = List.replicate (s.reverse.takeWhile (· == '0')).length '0' :=
    List.eq_replicate_iff.2 ⟨rfl, fun c hc => by simpa using mem_takeWhile_imp hc⟩
  have h := List.takeWhile_append_dropWhile (p := (· == '0')) (l := s.reverse)
  unfold dropZeros
  conv_lhs => rw [← List.reverse_reverse s, ← h, List.reverse_append, e, List.reverse_replicate]

theorem reprPos_number (fp : FP) {q : Rat} (hq : 0 < q) (hm : (shortest fp q 16 1).1 ≠ 0) :
    FloatNumber (reprPos fp q) (((shortest fp q 16 1).1 : Rat) * (10 : Rat) ^ (shortest fp q 16 1).2) := by
  unfold reprPos
  have h0 := shortest_nonneg hq fp 16 1
  generalize shortest fp q 16 1 = r at hm h0
  obtain ⟨m, k⟩ := r
  simp only at hm h0 ⊢
  obtain ⟨z, hz⟩ := dropZeros_spec (natStr m.natAbs)
  have hall : ∀ c ∈ natStr m.natAbs, isDigit c = true := by simpa using natStr_all m.natAbs
  have hval := natStr_val m.natAbs
  generalize hd : dropZeros (natStr m.natAbs) = d at hz
  have hda : d.all isDigit = true := by
    rw [List.all_eq_true]; intro c hc; exact hall c (by rw [hz]; exact List.mem_append_left _ hc)
  rw [hz, digitsVal_append, digitsVal_zeros, List.length_replicate, add_zero] at hval
  have hdn : d ≠ [] := by
    rintro rfl
    simp [digitsVal] at hval
    omega
  have := formatShort_number hda hdn (((natStr m.natAbs).length : Int) + k)
  convert this using 1
  have hmm : (m : Rat) = ((m.natAbs : Nat) : Rat) := by
    have : m = (m.natAbs : Int) := by omega
    exact (congrArg (fun i : Int => (i : Rat)) this).trans (Int.cast_natCast _)
  rw [hz, List.length_append, List.length_replicate, hmm, ← hval]
  rw [show ((d.length + z : Nat) : Int) + k - (d.length : Int) = (z : Int) + k by push_cast; ring, zpow_add₀ (by norm_num), zpow_natCast]
  push_cast
  ring

/-- Python's guarantee: the text of a float reads as that float. -/
theorem pyRepr_reads {q : Rat} (hf : round53 q = q) : FloatLit .b64 (pyRepr .b64 q) (.fin (.flt q)) := by
  have pos : ∀ q : Rat, 0 < q → round53 q = q → ∃ d, FloatNumber (reprPos .b64 q) d ∧ round53 d = q := by
    intro q hq hf
    have h := shortest_reads hq hf 16 1 rfl
    refine ⟨_, reprPos_number .b64 hq ?_, h⟩
    intro h0
    rw [h0] at h
    simp [round53_zero] at h
    exact absurd h (ne_of_lt hq)
  have nb : Blanks [] := by simp [Blanks]
  unfold pyRepr
  split
  · rename_i h; subst h
    exact parseFloat_iff.1 (by decide +kernel)
  · split
    · rename_i h0 hn
      obtain ⟨d, h1, h2⟩ := pos (-q) (by linarith) (by rw [round53_neg, hf])
      refine ⟨[], ['-'], reprPos .b64 (-q), [], true, nb, nb, .minus, ?_, by simp⟩
      have := FloatBody.number (fp := .b64) (neg := true) h1
      rw [if_pos rfl, show FP.b64.rnd (-d) = round53 (-d) from rfl, round53_neg, h2, neg_neg] at this
      exact this
    · rename_i h0 hn
      obtain ⟨d, h1, h2⟩ := pos q (lt_of_le_of_ne (not_lt.1 hn) (Ne.symm h0)) hf
      refine ⟨[], [], reprPos .b64 q, [], false, nb, nb, .none, ?_, by simp⟩
      have := FloatBody.number (fp := .b64) (neg := false) h1
      rw [if_neg (by decide), show FP.b64.rnd d = round53 d from rfl, h2] at this
      exact this

end Colosseum
