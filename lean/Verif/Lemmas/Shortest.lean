import Verif.Spec.Shortest
import Verif.Lemmas.Repr

/-!
# The digits `repr` finds are the fewest, and the nearest of these
-/

namespace Colosseum

theorem rnd_between {q a b : Rat} (ha : round53 a = q) (h : a ≤ b ∧ b ≤ q ∨ q ≤ b ∧ b ≤ a) (hf : round53 q = q) : round53 b = q := by
  rcases h with ⟨h1, h2⟩ | ⟨h1, h2⟩
  · have m1 := round53_mono h1
    have m2 := round53_mono h2
    rw [ha] at m1; rw [hf] at m2
    exact le_antisymm m2 m1
  · have m1 := round53_mono h1
    have m2 := round53_mono h2
    rw [hf] at m1; rw [ha] at m2
    exact le_antisymm m2 m1

theorem ten_log_lt {q : Rat} : q < (10 : Rat) ^ (Int.log 10 q + 1) := by
  simpa using Int.lt_zpow_succ_log_self (R := Rat) (b := 10) (by norm_num) q

/-- A decimal of `n` digits that reads as `q` is not nearer than some decimal with its last digit at the place of the `n`-th digit of `q`. -/
theorem grid_point {q v : Rat} {n : Nat} (hq : 0 < q) (hf : round53 q = q) (hv : round53 v = q) (hd : DigitsFor n v) :
    1 ≤ n ∧ ∃ t : Int, round53 ((t : Rat) * (10 : Rat) ^ lastPlace q n) = q ∧ |(t : Rat) * (10 : Rat) ^ lastPlace q n - q| ≤ |v - q| := by
  have ten : (10 : Rat) ≠ 0 := by norm_num
  have v0 : 0 < v := by
    by_contra h
    have := round53_mono (not_lt.1 h)
    rw [hv, round53_zero] at this
    linarith
  obtain ⟨c, j, hc, rfl⟩ := hd
  have hj : (0 : Rat) < 10 ^ j := zpow_pos (by norm_num) j
  have c0 : 0 < c := by
    have : (0 : Rat) < c := by
      by_contra h
      have := mul_nonpos_of_nonpos_of_nonneg (not_lt.1 h) (le_of_lt hj)
      linarith
    exact_mod_cast this
  have n1 : 1 ≤ n := by
    by_contra h
    have : n = 0 := by omega
    subst this
    simp at hc
    omega
  have hcn : (c : Rat) < 10 ^ n := by
    have : c < (10 : Int) ^ n := by
      have e : c = (c.natAbs : Int) := by omega
      rw [e]; exact_mod_cast hc
    exact_mod_cast this
  refine ⟨n1, ?_⟩
  have l1 := ten_log hq
  have l2 := ten_log_lt (q := q)
  have lo : (((10 : Int) ^ (n - 1) : Int) : Rat) * 10 ^ lastPlace q n = (10 : Rat) ^ Int.log 10 q := by
    push_cast
    rw [← zpow_natCast, ← zpow_add₀ ten]
    congr 1
    unfold lastPlace
    omega
  have hi : (((10 : Int) ^ n : Int) : Rat) * 10 ^ lastPlace q n = (10 : Rat) ^ (Int.log 10 q + 1) := by
    push_cast
    rw [← zpow_natCast, ← zpow_add₀ ten]
    congr 1
    unfold lastPlace
    omega
  by_cases h1 : (c : Rat) * 10 ^ j < (10 : Rat) ^ Int.log 10 q
  · refine ⟨(10 : Int) ^ (n - 1), ?_, ?_⟩
    · rw [lo]
      exact rnd_between hv (Or.inl ⟨le_of_lt h1, l1⟩) hf
    · rw [lo, abs_of_nonpos (by linarith), abs_of_nonpos (by linarith)]
      linarith
  · push Not at h1
    by_cases h2 : (10 : Rat) ^ (Int.log 10 q + 1) ≤ (c : Rat) * 10 ^ j
    · refine ⟨(10 : Int) ^ n, ?_, ?_⟩
      · rw [hi]
        exact rnd_between hv (Or.inr ⟨le_of_lt l2, h2⟩) hf
      · rw [hi, abs_of_nonneg (by linarith), abs_of_nonneg (by linarith)]
        linarith
    · push Not at h2
      have hk : lastPlace q n ≤ j := by
        have : (10 : Rat) ^ Int.log 10 q < 10 ^ ((n : Int) + j) := by
          rw [zpow_add₀ ten, zpow_natCast]
          exact lt_of_le_of_lt h1 (mul_lt_mul_of_pos_right hcn hj)
        have := (zpow_lt_zpow_iff_right₀ (by norm_num : (1 : Rat) < 10)).1 this
        unfold lastPlace
        omega
      refine ⟨c * 10 ^ (j - lastPlace q n).toNat, ?_, ?_⟩ <;>
      · have e : ((c * 10 ^ (j - lastPlace q n).toNat : Int) : Rat) * 10 ^ lastPlace q n = (c : Rat) * 10 ^ j := by
          push_cast
          rw [mul_assoc, ← zpow_natCast, ← zpow_add₀ ten]
          congr 2
          omega
        first | (rw [e]; exact hv) | rw [e]

theorem round_nearest (x : Rat) (t : Int) : |(pyRound x : Rat) - x| ≤ |(t : Rat) - x| := by
  obtain ⟨s1, s2, _⟩ := pyRound_spec x
  generalize pyRound x = m at s1 s2
  have h : |(m : Rat) - x| ≤ 1 / 2 := abs_le.2 ⟨by linarith, by linarith⟩
  rcases lt_trichotomy t m with e | e | e
  · have : (t : Rat) + 1 ≤ m := by exact_mod_cast e
    refine h.trans ?_
    rw [abs_of_nonpos (by linarith)]
    linarith
  · rw [e]
  · have : (m : Rat) + 1 ≤ t := by exact_mod_cast e
    refine h.trans ?_
    rw [abs_of_nonneg (by linarith)]
    linarith

/-- If any decimal at this place reads as `q`, one of the two neighbours does, and no other is nearer. -/
theorem neighbours {q : Rat} (hf : round53 q = q) (k t : Int) (ht : round53 ((t : Rat) * (10 : Rat) ^ k) = q)
    (hm : round53 ((pyRound (q * (10 : Rat) ^ (-k)) : Rat) * (10 : Rat) ^ k) ≠ q) :
    round53 ((otherSide (q * (10 : Rat) ^ (-k)) (pyRound (q * (10 : Rat) ^ (-k))) : Rat) * (10 : Rat) ^ k) = q ∧
      |(otherSide (q * (10 : Rat) ^ (-k)) (pyRound (q * (10 : Rat) ^ (-k))) : Rat) - q * (10 : Rat) ^ (-k)| ≤ |(t : Rat) - q * (10 : Rat) ^ (-k)| := by
  have hp : (0 : Rat) < 10 ^ k := zpow_pos (by norm_num) k
  have hx : q * (10 : Rat) ^ (-k) * 10 ^ k = q := by rw [mul_assoc, ← zpow_add₀ (by norm_num)]; simp
  obtain ⟨s1, s2, _⟩ := pyRound_spec (q * (10 : Rat) ^ (-k))
  generalize q * (10 : Rat) ^ (-k) = x at hx s1 s2 hm
  generalize pyRound x = m at s1 s2 hm
  have up : ∀ {a b : Rat}, a ≤ b → a * 10 ^ k ≤ b * 10 ^ k := fun h => mul_le_mul_of_nonneg_right h (le_of_lt hp)
  unfold otherSide
  by_cases h : (m : Rat) ≤ x
  · rw [if_pos h]
    have htm : m + 1 ≤ t := by
      by_contra hlt
      have : (t : Rat) ≤ m := by exact_mod_cast (by omega : t ≤ m)
      have a1 := up this
      have a2 := up h
      rw [hx] at a2
      exact hm (rnd_between ht (Or.inl ⟨a1, a2⟩) hf)
    have htm' : ((m + 1 : Int) : Rat) ≤ t := by exact_mod_cast htm
    have hxm : x ≤ ((m + 1 : Int) : Rat) := by push_cast; linarith
    have a2 := up hxm
    rw [hx] at a2
    refine ⟨rnd_between ht (Or.inr ⟨a2, up htm'⟩) hf, ?_⟩
    rw [abs_of_nonneg (by linarith), abs_of_nonneg (by linarith)]
    linarith
  · rw [if_neg h]
    push Not at h
    have htm : t ≤ m - 1 := by
      by_contra hlt
      have : (m : Rat) ≤ t := by exact_mod_cast (by omega : m ≤ t)
      have a1 := up this
      have a2 := up (le_of_lt h)
      rw [hx] at a2
      exact hm (rnd_between ht (Or.inr ⟨a2, a1⟩) hf)
    have htm' : (t : Rat) ≤ ((m - 1 : Int) : Rat) := by exact_mod_cast htm
    have hxm : ((m - 1 : Int) : Rat) ≤ x := by push_cast; linarith
    have a2 := up hxm
    rw [hx] at a2
    refine ⟨rnd_between ht (Or.inl ⟨up htm', a2⟩) hf, ?_⟩
    rw [abs_of_nonpos (by linarith), abs_of_nonpos (by linarith)]
    linarith

theorem scale_abs (q : Rat) (k m : Int) : |(m : Rat) * (10 : Rat) ^ k - q| = |(m : Rat) - q * (10 : Rat) ^ (-k)| * (10 : Rat) ^ k := by
  have hp : (0 : Rat) < 10 ^ k := zpow_pos (by norm_num) k
  have hx : q * (10 : Rat) ^ (-k) * 10 ^ k = q := by rw [mul_assoc, ← zpow_add₀ (by norm_num)]; simp
  conv_rhs => rw [← abs_of_pos hp, ← abs_mul, sub_mul, hx]

/-- What is found with `n0` digits: no number with fewer digits reads as `q`, and no number with as many is nearer. -/
def Found (q : Rat) (n : Nat) (r : Int × Int) (n0 : Nat) : Prop :=
  r.1 ≤ 10 ^ n0 ∧ ∀ N v, n ≤ N → DigitsFor N v → round53 v = q → n0 ≤ N ∧ (N = n0 → |(r.1 : Rat) * (10 : Rat) ^ r.2 - q| ≤ |v - q|)

theorem shortest_found {q : Rat} (hq : 0 < q) (hf : round53 q = q) : ∀ fuel n, fuel + n = 17 → ∃ n0, 1 ≤ n → 1 ≤ n0 ∧ Found q n (shortest .b64 q fuel n) n0 := by
  have hp : ∀ k : Int, (0 : Rat) < 10 ^ k := fun k => zpow_pos (by norm_num) k
  have big : ∀ n : Nat, q * (10 : Rat) ^ (-lastPlace q n) < ((10 ^ n : Int) : Rat) := by
    intro n
    have l2 := ten_log_lt (q := q)
    have hx : q * (10 : Rat) ^ (-lastPlace q n) * 10 ^ lastPlace q n = q := by rw [mul_assoc, ← zpow_add₀ (by norm_num)]; simp
    have hi : (((10 : Int) ^ n : Int) : Rat) * 10 ^ lastPlace q n = (10 : Rat) ^ (Int.log 10 q + 1) := by
      push_cast
      rw [← zpow_natCast, ← zpow_add₀ (by norm_num)]
      congr 1
      unfold lastPlace
      omega
    refine lt_of_mul_lt_mul_right ?_ (le_of_lt (hp (lastPlace q n)))
    rw [hx, hi]
    exact l2
  have bigm : ∀ n : Nat, pyRound (q * (10 : Rat) ^ (-lastPlace q n)) ≤ 10 ^ n := by
    intro n
    have := pyRound_mono (le_of_lt (big n))
    rwa [pyRound_int] at this
  have near : ∀ (n N : Nat) (v : Rat), N = n → DigitsFor N v → round53 v = q →
      |(pyRound (q * (10 : Rat) ^ (-lastPlace q n)) : Rat) * (10 : Rat) ^ lastPlace q n - q| ≤ |v - q| := by
    rintro n N v rfl hd hv
    obtain ⟨_, t, _, h2⟩ := grid_point hq hf hv hd
    refine le_trans ?_ h2
    rw [scale_abs, scale_abs]
    exact mul_le_mul_of_nonneg_right (round_nearest _ t) (le_of_lt (hp _))
  intro fuel
  induction fuel with
  | zero =>
    intro n hn
    exact ⟨n, fun h1 => ⟨h1, bigm n, fun N v hN hd hv => ⟨hN, fun e => near n N v e hd hv⟩⟩⟩
  | succ fuel ih =>
    intro n hn
    rw [shortest]
    by_cases hm : FP.b64.rnd ((pyRound (q * (10 : Rat) ^ (-lastPlace q n)) : Rat) * (10 : Rat) ^ lastPlace q n) = q
    · simp only [if_pos hm]
      exact ⟨n, fun h1 => ⟨h1, bigm n, fun N v hN hd hv => ⟨hN, fun e => near n N v e hd hv⟩⟩⟩
    · simp only [if_neg hm]
      by_cases ho : FP.b64.rnd ((otherSide (q * (10 : Rat) ^ (-lastPlace q n)) (pyRound (q * (10 : Rat) ^ (-lastPlace q n))) : Rat) * (10 : Rat) ^ lastPlace q n) = q
      · simp only [if_pos ho]
        refine ⟨n, fun h1 => ⟨h1, ?_, fun N v hN hd hv => ⟨hN, fun e => ?_⟩⟩⟩
        · show otherSide _ _ ≤ _
          have b1 := big n
          have b2 := bigm n
          generalize q * (10 : Rat) ^ (-lastPlace q n) = x at b1 b2
          unfold otherSide
          split
          · rename_i h
            have : (pyRound x : Rat) < ((10 ^ n : Int) : Rat) := lt_of_le_of_lt h b1
            have : pyRound x < (10 : Int) ^ n := by exact_mod_cast this
            omega
          · omega
        · subst e
          obtain ⟨_, t, g1, g2⟩ := grid_point hq hf hv hd
          refine le_trans ?_ g2
          rw [scale_abs, scale_abs]
          exact mul_le_mul_of_nonneg_right (neighbours hf _ t g1 hm).2 (le_of_lt (hp _))
      · simp only [if_neg ho]
        obtain ⟨n0, hn0⟩ := ih (n + 1) (by omega)
        refine ⟨n0, fun h1 => ?_⟩
        obtain ⟨a1, a2, a3⟩ := hn0 (by omega)
        refine ⟨a1, a2, fun N v hN hd hv => a3 N v ?_ hd hv⟩
        rcases Nat.lt_or_ge n N with h | h
        · exact h
        · exfalso
          have e : N = n := by omega
          subst e
          obtain ⟨_, t, g1, _⟩ := grid_point hq hf hv hd
          exact ho (neighbours hf _ t g1 hm).1

/-! ## The text -/

theorem one_le_digit {c : Char} (h : isDigit c = true) (hc : c ≠ '0') : 1 ≤ digitVal c := by
  by_contra h0
  apply hc
  unfold digitVal at h0
  unfold isDigit at h
  rw [Bool.and_eq_true, decide_eq_true_eq, decide_eq_true_eq] at h
  exact Char.toNat_inj.1 (by omega)

theorem digit_lt_ten {c : Char} (h : isDigit c = true) : digitVal c < 10 := by
  unfold digitVal
  unfold isDigit at h
  rw [Bool.and_eq_true, decide_eq_true_eq, decide_eq_true_eq] at h
  have : '0'.toNat = 48 := by decide
  have : '9'.toNat = 57 := by decide
  omega

/-- A string of digits with a small value has few digits behind its leading zeros. -/
theorem short_digits (n : Nat) : ∀ d : PyStr, (∀ c ∈ d, isDigit c = true) → digitsVal d < 10 ^ n →
    ∃ a e, d = List.replicate a '0' ++ e ∧ e.length ≤ n
  | [], _, _ => ⟨0, [], rfl, Nat.zero_le _⟩
  | c :: r, hd, hv => by
    rw [digitsVal_cons] at hv
    by_cases hc : c = '0'
    · subst hc
      obtain ⟨a, e, h1, h2⟩ := short_digits n r (fun x hx => hd x (List.mem_cons_of_mem _ hx)) (by
        have : digitVal '0' = 0 := by decide
        rw [this] at hv; omega)
      exact ⟨a + 1, e, by rw [h1]; rfl, h2⟩
    · refine ⟨0, c :: r, rfl, ?_⟩
      have h1 : 1 ≤ digitVal c := one_le_digit (hd c List.mem_cons_self) hc
      by_contra hlen
      have h2 : 10 ^ n ≤ 10 ^ r.length := Nat.pow_le_pow_right (by norm_num) (by simp at hlen; omega)
      have h3 : 1 * 10 ^ r.length ≤ digitVal c * 10 ^ r.length := Nat.mul_le_mul_right _ h1
      omega

theorem digit_not_e {c : Char} (h : isDigit c = true) : (c != 'e') = true := by
  have : c ≠ 'e' := by rintro rfl; revert h; decide
  simpa using this

theorem mantissa_digits {l : PyStr} (h : ∀ c ∈ l, isDigit c = true ∨ c = '.') (r : PyStr) :
    ((l ++ 'e' :: r).takeWhile (· != 'e')).filter isDigit = l.filter isDigit ∧ (l.takeWhile (· != 'e')).filter isDigit = l.filter isDigit := by
  have h' : ∀ c ∈ l, (c != 'e') = true := fun c hc => (h c hc).elim digit_not_e fun e => by rw [e]; decide
  constructor
  · rw [List.takeWhile_append_of_pos h', List.takeWhile_cons_of_neg (by decide), List.append_nil]
  · have := List.takeWhile_append_of_pos (l₂ := []) h'
    rw [List.append_nil, List.takeWhile_nil, List.append_nil] at this
    rw [this]

theorem filter_digits {l : PyStr} (h : ∀ c ∈ l, isDigit c = true) : l.filter isDigit = l := List.filter_eq_self.2 h

theorem format_digits {d : PyStr} (hd : ∀ c ∈ d, isDigit c = true) (hne : d ≠ []) (p : Int) :
    ∃ a b, ((formatShort d p).takeWhile (· != 'e')).filter isDigit = List.replicate a '0' ++ d ++ List.replicate b '0' := by
  have hz : ∀ n, ∀ c ∈ List.replicate n '0', isDigit c = true := fun n c hc => by rw [(List.mem_replicate.1 hc).2]; decide
  have dot : isDigit '.' = false := by decide
  have zero : isDigit '0' = true := by decide
  unfold formatShort
  split
  · refine ⟨0, 0, ?_⟩
    match d, hne, hd with
    | [c], _, hd =>
      show List.filter isDigit ((c :: 'e' :: expStr (p - 1)).takeWhile (· != 'e')) = _
      rw [show c :: 'e' :: expStr (p - 1) = [c] ++ 'e' :: expStr (p - 1) from rfl, (mantissa_digits (fun x hx => Or.inl (hd x hx)) _).1, filter_digits hd]
      rfl
    | c :: c2 :: r, _, hd =>
      show List.filter isDigit ((c :: '.' :: (c2 :: r ++ 'e' :: expStr (p - 1))).takeWhile (· != 'e')) = _
      rw [show c :: '.' :: (c2 :: r ++ 'e' :: expStr (p - 1)) = (c :: '.' :: c2 :: r) ++ 'e' :: expStr (p - 1) from rfl,
        (mantissa_digits (fun x hx => ?_) _).1]
      · rw [List.filter_cons_of_pos (hd c List.mem_cons_self), List.filter_cons_of_neg (by rw [dot]; decide),
          filter_digits fun x hx => hd x (List.mem_cons_of_mem _ hx)]
        simp
      · rcases List.mem_cons.1 hx with rfl | hx
        · exact Or.inl (hd _ List.mem_cons_self)
        · rcases List.mem_cons.1 hx with rfl | hx
          · exact Or.inr rfl
          · exact Or.inl (hd _ (List.mem_cons_of_mem _ hx))
  · split
    · refine ⟨p.natAbs + 1, 0, ?_⟩
      have hall : ∀ c ∈ List.replicate p.natAbs '0' ++ d, isDigit c = true := fun c hc => (List.mem_append.1 hc).elim (hz _ c) (hd c)
      rw [(mantissa_digits (l := '0' :: '.' :: (List.replicate p.natAbs '0' ++ d)) (fun x hx => ?_) []).2]
      · rw [List.filter_cons_of_pos zero, List.filter_cons_of_neg (by rw [dot]; decide), filter_digits hall, List.replicate_succ]
        simp
      · rcases List.mem_cons.1 hx with rfl | hx
        · exact Or.inl zero
        · rcases List.mem_cons.1 hx with rfl | hx
          · exact Or.inr rfl
          · exact Or.inl (hall _ hx)
    · split
      · refine ⟨0, p.natAbs - d.length + 1, ?_⟩
        have hall : ∀ c ∈ d ++ List.replicate (p.natAbs - d.length) '0', isDigit c = true := fun c hc => (List.mem_append.1 hc).elim (hd c) (hz _ c)
        rw [(mantissa_digits (fun x hx => ?_) []).2]
        · rw [List.filter_append, filter_digits hall, List.replicate_succ']
          have : List.filter isDigit ['.', '0'] = ['0'] := by decide
          rw [this]
          simp
        · rcases List.mem_append.1 hx with hx | hx
          · exact Or.inl (hall _ hx)
          · simp at hx
            rcases hx with rfl | rfl
            · exact Or.inr rfl
            · exact Or.inl zero
      · refine ⟨0, 0, ?_⟩
        have h1 : ∀ c ∈ d.take p.natAbs, isDigit c = true := fun c hc => hd c (List.mem_of_mem_take hc)
        have h2 : ∀ c ∈ d.drop p.natAbs, isDigit c = true := fun c hc => hd c (List.mem_of_mem_drop hc)
        rw [(mantissa_digits (fun x hx => ?_) []).2]
        · rw [List.filter_append, filter_digits h1, List.filter_cons_of_neg (by rw [dot]; decide), filter_digits h2, List.take_append_drop]
          simp
        · rcases List.mem_append.1 hx with hx | hx
          · exact Or.inl (h1 _ hx)
          · rcases List.mem_cons.1 hx with rfl | hx
            · exact Or.inr rfl
            · exact Or.inl (h2 _ hx)

theorem dropZeros_last (s : PyStr) (r : PyStr) (c : Char) (h : dropZeros s = r ++ [c]) : c ≠ '0' := by
  rintro rfl
  unfold dropZeros at h
  have h : s.reverse.dropWhile (· == '0') = '0' :: r.reverse := by
    have := congrArg List.reverse h
    simpa using this
  have := List.head?_dropWhile_not (· == '0') s.reverse
  rw [h] at this
  simp at this

/-- The text of a number found with `n` digits has at most `n` significant digits. -/
theorem reprPos_digits {q : Rat} {n : Nat} (h1 : 1 ≤ n) (h0 : 0 ≤ (shortest .b64 q 16 1).1) (hm : (shortest .b64 q 16 1).1 ≠ 0)
    (hn : (shortest .b64 q 16 1).1 ≤ 10 ^ n) : DigitsIn n (reprPos .b64 q) := by
  unfold reprPos
  generalize shortest .b64 q 16 1 = r at hm h0 hn
  obtain ⟨m, k⟩ := r
  simp only at hm h0 hn ⊢
  obtain ⟨z, hz⟩ := dropZeros_spec (natStr m.natAbs)
  have hall : ∀ c ∈ natStr m.natAbs, isDigit c = true := by simpa using natStr_all m.natAbs
  have hval := natStr_val m.natAbs
  have hlast := dropZeros_last (natStr m.natAbs)
  generalize hd : dropZeros (natStr m.natAbs) = d at hz hlast
  have hda : ∀ c ∈ d, isDigit c = true := fun c hc => hall c (by rw [hz]; exact List.mem_append_left _ hc)
  rw [hz, digitsVal_append, digitsVal_zeros, List.length_replicate, add_zero] at hval
  have hdn : d ≠ [] := by
    rintro rfl
    simp [digitsVal] at hval
    omega
  have hle : m.natAbs ≤ 10 ^ n := by
    have : ((m.natAbs : Nat) : Int) ≤ ((10 ^ n : Nat) : Int) := by rw [Int.natAbs_of_nonneg h0]; exact_mod_cast hn
    exact_mod_cast this
  have hlt : digitsVal d < 10 ^ n := by
    have hle' : digitsVal d ≤ m.natAbs := by rw [← hval]; exact Nat.le_mul_of_pos_right _ (Nat.pow_pos (by norm_num))
    rcases Nat.lt_or_ge (digitsVal d) (10 ^ n) with h | h
    · exact h
    exfalso
    have e : digitsVal d = 10 ^ n := by omega
    obtain ⟨r, c, e2⟩ : ∃ r c, d = r ++ [c] := ⟨d.dropLast, d.getLast hdn, (List.dropLast_append_getLast hdn).symm⟩
    have hc := hlast r c e2
    have hc1 := one_le_digit (hda c (by rw [e2]; simp)) hc
    have hc2 := digit_lt_ten (hda c (by rw [e2]; simp))
    rw [e2, digitsVal_append] at e
    have e3 : digitsVal [c] = digitVal c := by simp [digitsVal]
    rw [e3, List.length_singleton, pow_one] at e
    obtain ⟨n', rfl⟩ : ∃ n', n = n' + 1 := ⟨n - 1, by omega⟩
    rw [pow_succ] at e
    omega
  obtain ⟨a, b, hab⟩ := format_digits hda hdn ((natStr m.natAbs).length + k)
  obtain ⟨a', e, he1, he2⟩ := short_digits n d hda hlt
  refine ⟨a + a', b, e, ?_, he2⟩
  rw [hab, he1, List.replicate_add]
  simp only [List.append_assoc]

end Colosseum
