import Verif.Lemmas.Shortest
import Verif.Props.Print

/-!
# C83: numbers are printed with as few digits as possible
-/

namespace Colosseum

theorem repr_positive {q : Rat} (hq : 0 < q) (hf : round53 q = q) : ∃ (n0 : Nat) (v : Rat), FloatNumber (reprPos .b64 q) v ∧ round53 v = q ∧ DigitsFor n0 v ∧ DigitsIn n0 (reprPos .b64 q) ∧
    ∀ N v', DigitsFor N v' → round53 v' = q → n0 ≤ N ∧ (N = n0 → |v - q| ≤ |v' - q|) := by
  obtain ⟨n0, hn⟩ := shortest_found hq hf 16 1 rfl
  obtain ⟨h1, h2, h3⟩ := hn le_rfl
  have hr := shortest_reads hq hf 16 1 rfl
  have hm : (shortest .b64 q 16 1).1 ≠ 0 := by
    intro h0
    rw [h0] at hr
    simp [round53_zero] at hr
    linarith
  refine ⟨n0, _, reprPos_number .b64 hq hm, hr, ?_, reprPos_digits h1 (shortest_nonneg hq .b64 16 1) hm h2, fun N v' hd hv => h3 N v' (grid_point hq hf hv hd).1 hd hv⟩
  have h0 := shortest_nonneg hq .b64 16 1
  generalize shortest .b64 q 16 1 = r at h0 h2
  rcases lt_or_eq_of_le h2 with h2 | h2
  · refine ⟨r.1, r.2, ?_, rfl⟩
    have : ((r.1.natAbs : Nat) : Int) < ((10 ^ n0 : Nat) : Int) := by rw [Int.natAbs_of_nonneg h0]; exact_mod_cast h2
    exact_mod_cast this
  · refine ⟨1, n0 + r.2, ?_, ?_⟩
    · exact Nat.one_lt_pow (by omega) (by norm_num)
    · rw [h2, zpow_add₀ (by norm_num), zpow_natCast]
      push_cast
      ring

/-- C83. If a number with `n` significant digits reads as the float, the text of the float has at most `n` significant digits. -/
theorem C83_fewest (q v : Rat) (n : Nat) (hq : q ≠ 0) (hf : round53 q = q) (hv : round53 v = q) (hd : DigitsFor n v) : DigitsIn n (pyRepr .b64 q) := by
  have mono : ∀ {n m : Nat} {s : PyStr}, n ≤ m → DigitsIn n s → DigitsIn m s := fun h => fun ⟨a, b, d, h1, h2⟩ => ⟨a, b, d, h1, h2.trans h⟩
  unfold pyRepr
  rw [if_neg hq]
  split
  · rename_i hn
    obtain ⟨n0, _, _, _, _, h1, h2⟩ := repr_positive (q := -q) (by linarith) (by rw [round53_neg, hf])
    have hd' : DigitsFor n (-v) := by
      obtain ⟨c, k, h1, rfl⟩ := hd
      exact ⟨-c, k, by omega, by push_cast; ring⟩
    obtain ⟨a, b, d, h3, h4⟩ := mono (h2 n (-v) hd' (by rw [round53_neg, hv])).1 h1
    exact ⟨a, b, d, h3, h4⟩
  · rename_i hn
    obtain ⟨n0, _, _, _, _, h1, h2⟩ := repr_positive (lt_of_le_of_ne (not_lt.1 hn) (Ne.symm hq)) hf
    exact mono (h2 n v hd hv).1 h1

/-- C83. The text of a positive float is the nearest number to it among those that read as it and have no more digits. -/
theorem C83_nearest (q : Rat) (hq : 0 < q) (hf : round53 q = q) : ∃ v, FloatNumber (pyRepr .b64 q) v ∧ round53 v = q ∧
    ∀ n v', round53 v' = q → DigitsFor n v' → (∀ N v'', round53 v'' = q → DigitsFor N v'' → n ≤ N) → |v - q| ≤ |v' - q| := by
  obtain ⟨n0, v, h1, h2, h3, _, h4⟩ := repr_positive hq hf
  have e : pyRepr .b64 q = reprPos .b64 q := by
    unfold pyRepr
    rw [if_neg (ne_of_gt hq), if_neg (by linarith)]
  refine ⟨v, by rw [e]; exact h1, h2, fun n v' hv hd hmin => ?_⟩
  obtain ⟨k1, k2⟩ := h4 n v' hd hv
  exact k2 (le_antisymm (hmin n0 v h2 h3) k1)

/-- C83. So a length with a fraction is printed with the fewest digits that read as its value, and its unit. -/
theorem C83_unit (k : UKind) (q v : Rat) (n : Nat) (hq : q.den ≠ 1) (hf : round53 q = q) (hv : round53 v = q) (hd : DigitsFor n v) :
    ∃ t, CUnit.repr (pyRepr .b64) ⟨k, .fin (.flt q)⟩ = .ok (t ++ k.suffix) ∧ FloatLit .b64 t (.fin (.flt q)) ∧ DigitsIn n t := by
  have hi : ∀ i : Int, q ≠ (i : Rat) := fun i e => hq (by rw [e]; rfl)
  refine ⟨pyRepr .b64 q, ?_, pyRepr_reads hf, C83_fewest q v n (fun e => hi 0 (by rw [e]; rfl)) hf hv hd⟩
  unfold CUnit.repr
  simp only
  have h : ¬ (Num.flt q).val = ((Num.flt q).trunc : Rat) := hi _
  rw [if_neg h]

example : CUnit.repr (pyRepr .b64) ⟨.len .em, .fin (.flt (5 / 4))⟩ = .ok (lit "1.25em") ∧ DigitsFor 3 (5 / 4) := ⟨by decide +kernel, 125, -2, by decide, by norm_num⟩

/-! ## Examples -/

/-- 1e23 is not a float; the nearest float, a little less, is printed as `1e+23`. -/
example : pyRepr .b64 (round53 (10 ^ 23)) = lit "1e+23" ∧ round53 (10 ^ 23) ≠ 10 ^ 23 := by decide +kernel

/-- 2^-44: the nearest number with 16 digits reads as another float, its neighbour does not. -/
example : pyRepr .b64 (1 / 2 ^ 44) = lit "5.684341886080802e-14" ∧ round53 (5684341886080801 / 10 ^ 29) ≠ 1 / 2 ^ 44 ∧
    |(5684341886080801 / 10 ^ 29 : Rat) - 1 / 2 ^ 44| < |(5684341886080802 / 10 ^ 29 : Rat) - 1 / 2 ^ 44| := by decide +kernel

/-- The hypotheses of C83_fewest for 0.1. -/
example : DigitsFor 1 (1 / 10) ∧ round53 (round53 (1 / 10)) = round53 (1 / 10) ∧ pyRepr .b64 (round53 (1 / 10)) = lit "0.1" :=
  ⟨⟨1, -1, by decide, by norm_num⟩, by decide +kernel, by decide +kernel⟩

end Colosseum
