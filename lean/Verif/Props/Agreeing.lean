import Verif.Props.Unrounded
import Verif.Lemmas.Repr

/-!
# C118: percentages on which all arithmetics agree
-/

namespace Colosseum

/-- Two roundings move the number of layout units by less than the distance to the next tie, so it is rounded as if it was exact. -/
theorem luPercent_near {p : FP} (P : p.Laws) (d : Display) (f : Font) {i n : Int} {s : Num} (hs : s.val = (n : Rat) / 64) (hi : i.natAbs ≤ 100) (hn : n.natAbs ≤ 2 ^ 53)
    (hk : ∀ k : Int, |(i : Rat) * n / 100| * (1 / 2 ^ 52 + 1 / 2 ^ 106) < |(i : Rat) * n / 100 - (k + 1 / 2)|) :
    luOf p .percent (.fin (.int i)) ⟨d, f, some s⟩ = .ok (pyRound ((i : Rat) * n / 100)) := by
  simp only [luOf]
  rw [luPercent_fin P]
  have hsf : s.toFloat p = (n : Rat) / 64 := by
    cases s with
    | int j =>
      show p.rnd (j : Rat) = _
      rw [show (j : Rat) = (n : Rat) / 64 from hs, P.grid n (by omega)]
    | flt q => exact hs
  have e1 : p.rnd (64 * (Num.int i).val) = ((64 * i : Int) : Rat) := by
    rw [Num.val_int, show (64 * ((i : Int) : Rat)) = ((64 * i : Int) : Rat) by push_cast; ring, P.small _ (by omega)]
  rw [e1, hsf]
  have z : p.rnd 0 = 0 := by simpa using P.small 0 (by simp)
  by_cases h0 : i * n = 0
  · have ht : (i : Rat) * n / 100 = 0 := by
      have : ((i * n : Int) : Rat) = 0 := by rw [h0]; rfl
      push_cast at this
      rw [this]; norm_num
    rw [ht]
    rcases Int.mul_eq_zero.1 h0 with h | h
    · subst h; norm_num [z]
    · subst h; norm_num [z]
  · obtain ⟨hi0, hn0⟩ : i ≠ 0 ∧ n ≠ 0 := ⟨fun h => h0 (by rw [h]; simp), fun h => h0 (by rw [h]; simp)⟩
    have hi1 : (1 : Rat) ≤ |(i : Rat)| := by exact_mod_cast Int.one_le_abs hi0
    have hn1 : (1 : Rat) ≤ |(n : Rat)| := by exact_mod_cast Int.one_le_abs hn0
    obtain ⟨q, hq⟩ : ∃ q : Rat, q = ((64 * i : Int) : Rat) / 100 := ⟨_, rfl⟩
    obtain ⟨t, ht⟩ : ∃ t : Rat, t = (i : Rat) * n / 100 := ⟨_, rfl⟩
    have hqt : q * ((n : Rat) / 64) = t := by rw [hq, ht]; push_cast; ring
    have hqa : |q| = 64 * |(i : Rat)| / 100 := by
      rw [hq, abs_div]; push_cast; rw [abs_mul]; norm_num
    rw [← hq]
    rw [← ht] at hk ⊢
    have g1 := P.err q
    have m1 : max |q| (1 / 2 ^ 100) = |q| := max_eq_left (by rw [hqa]; norm_num; linarith)
    rw [m1] at g1
    obtain ⟨a, ha⟩ : ∃ a, a = p.rnd q := ⟨_, rfl⟩
    rw [← ha] at g1 ⊢
    have hN : |(n : Rat) / 64| = |(n : Rat)| / 64 := by rw [abs_div]; norm_num
    have g2 : |a * ((n : Rat) / 64) - t| ≤ |t| * (1 / 2 ^ 53) := by
      rw [← hqt, ← sub_mul, abs_mul, abs_mul]
      calc |a - q| * |(n : Rat) / 64| ≤ (|q| * (1 / 2 ^ 53)) * |(n : Rat) / 64| := mul_le_mul_of_nonneg_right g1 (abs_nonneg _)
        _ = _ := by ring
    have ta : |t| = |(i : Rat)| * |(n : Rat)| / 100 := by rw [ht, abs_div, abs_mul]; norm_num
    have t1 : 1 / 100 ≤ |t| := by
      rw [ta]
      have : 1 ≤ |(i : Rat)| * |(n : Rat)| := by nlinarith
      linarith
    obtain ⟨b, hb⟩ : ∃ b, b = a * ((n : Rat) / 64) := ⟨_, rfl⟩
    rw [← hb] at g2 ⊢
    have b1 : |b| ≤ |t| * (1 + 1 / 2 ^ 53) := by
      have := abs_sub_abs_le_abs_sub b t
      linarith
    have b2 : |t| * (1 - 1 / 2 ^ 53) ≤ |b| := by
      have := abs_sub_abs_le_abs_sub t b
      rw [abs_sub_comm] at this
      linarith
    have g3 := P.err b
    have m3 : max |b| (1 / 2 ^ 100) = |b| := max_eq_left (by
      refine le_trans ?_ b2
      refine le_trans ?_ (mul_le_mul_of_nonneg_right t1 (by norm_num))
      norm_num)
    rw [m3] at g3
    have g4 : |p.rnd b - t| ≤ |t| * (1 / 2 ^ 52 + 1 / 2 ^ 106) := by
      have e : p.rnd b - t = (p.rnd b - b) + (b - t) := by ring
      rw [e]
      refine (abs_add_le _ _).trans ?_
      have : |b| * (1 / 2 ^ 53) ≤ |t| * (1 + 1 / 2 ^ 53) * (1 / 2 ^ 53) := mul_le_mul_of_nonneg_right b1 (by norm_num)
      have e2 : |t| * (1 / 2 ^ 52 + 1 / 2 ^ 106) = |t| * (1 + 1 / 2 ^ 53) * (1 / 2 ^ 53) + |t| * (1 / 2 ^ 53) := by ring
      linarith
    congr 1
    obtain ⟨s1, s2, _⟩ := pyRound_spec t
    obtain ⟨u1, u2⟩ := _root_.abs_le.1 g4
    have k1 := hk (pyRound t)
    have k2 := hk (pyRound t - 1)
    push_cast at k2
    refine pyRound_of_near ?_ ?_
    · rw [abs_of_nonneg (a := t - ((pyRound t : Rat) - 1 + 1 / 2)) (by linarith)] at k2
      linarith
    · rw [abs_of_nonpos (a := t - ((pyRound t : Rat) + 1 / 2)) (by linarith)] at k1
      linarith

theorem pyRound_bound {x : Rat} {b : Nat} (h : |x| ≤ b) : (pyRound x).natAbs ≤ b := by
  obtain ⟨z1, z2⟩ := _root_.abs_le.1 h
  have r1 := pyRound_mono (show (((-(b : Int) : Int) : Rat)) ≤ x by push_cast; linarith)
  have r2 := pyRound_mono (show x ≤ (((b : Int) : Int) : Rat) by push_cast; linarith)
  rw [pyRound_int] at r1 r2
  omega

theorem natAbs_rat {n : Int} {b : Nat} (h : n.natAbs ≤ b) : |(n : Rat)| ≤ b := by
  have : ((n.natAbs : Nat) : Rat) ≤ (b : Rat) := by exact_mod_cast h
  rw [Nat.cast_natAbs, Int.cast_abs] at this
  exact this

theorem percent_agrees {fp gp : FP} (L : fp.Laws) (G : gp.Laws) (d : Display) {i n : Int} {s : Num} (hs : s.val = (n : Rat) / 64) (hi : i.natAbs ≤ 100) (hn : n.natAbs ≤ 2 ^ 47)
    (hk : ∀ k : Int, |(i : Rat) * n / 100| * (1 / 2 ^ 52 + 1 / 2 ^ 106) < |(i : Rat) * n / 100 - (k + 1 / 2)|) :
    (CUnit.mk (.len .percent) (.fin (.int i))).px fp ⟨d, dummyFont fp, some s⟩ = (CUnit.mk (.len .percent) (.fin (.int i))).px gp ⟨d, dummyFont gp, some s⟩ := by
  show pxOf fp .percent (.fin (.int i)) ⟨d, dummyFont fp, some s⟩ = pxOf gp .percent (.fin (.int i)) ⟨d, dummyFont gp, some s⟩
  unfold pxOf
  rw [luPercent_near L d _ hs hi (by omega) hk, luPercent_near G d _ hs hi (by omega) hk]
  have hr : (pyRound ((i : Rat) * n / 100)).natAbs ≤ 2 ^ 47 := by
    refine pyRound_bound ?_
    have h1 := natAbs_rat hi
    have h2 := natAbs_rat hn
    rw [abs_div, abs_mul, abs_of_pos (by norm_num : (0 : Rat) < 100), div_le_iff₀ (by norm_num)]
    calc |(i : Rat)| * |(n : Rat)| ≤ ((100 : Nat) : Rat) * ((2 ^ 47 : Nat) : Rat) := mul_le_mul h1 h2 (abs_nonneg _) (by norm_num)
      _ = _ := by ring
  simp only [pxOfLu_agrees L G (show (pyRound ((i : Rat) * n / 100)).natAbs ≤ 2 ^ 53 by omega)]

/-- The distance of a fraction to the next half. -/
theorem far_half {a b : Int} (hb : 0 < b) (h : ∀ k : Int, 2 * a ≠ b * (2 * k + 1)) (k : Int) : 1 / (2 * (b : Rat)) ≤ |(a : Rat) / b - (k + 1 / 2)| := by
  have hb' : (0 : Rat) < b := by exact_mod_cast hb
  have e : (a : Rat) / b - (k + 1 / 2) = ((2 * a - b * (2 * k + 1) : Int) : Rat) / (2 * b) := by
    push_cast
    field_simp
  rw [e, abs_div, abs_of_pos (by linarith : (0 : Rat) < 2 * b)]
  have h1 : (1 : Rat) ≤ |((2 * a - b * (2 * k + 1) : Int) : Rat)| := by
    exact_mod_cast Int.one_le_abs (sub_ne_zero.2 (h k))
  exact div_le_div_of_nonneg_right h1 (by linarith)

/-- **C118.** All arithmetics agree on a whole percentage of a container of `n` layout units, up to two to the power of 37 pixels, unless exact arithmetic has a tie there. -/
theorem C118_percent (fp gp : FP) (L : fp.Laws) (G : gp.Laws) (d : Display) (i n : Int) (s : Num) (hs : s.val = (n : Rat) / 64) (hi : i.natAbs ≤ 100) (hn : n.natAbs ≤ 2 ^ 43)
    (ht : i * n % 100 ≠ 50) :
    (CUnit.mk (.len .percent) (.fin (.int i))).px fp ⟨d, dummyFont fp, some s⟩ = (CUnit.mk (.len .percent) (.fin (.int i))).px gp ⟨d, dummyFont gp, some s⟩ := by
  refine percent_agrees L G d hs hi (by omega) fun k => ?_
  have h1 := natAbs_rat hi
  have h2 := natAbs_rat hn
  have h3 : |(i : Rat)| * |(n : Rat)| ≤ ((100 : Nat) : Rat) * ((2 ^ 43 : Nat) : Rat) := mul_le_mul h1 h2 (abs_nonneg _) (by norm_num)
  have hf := far_half (a := i * n) (b := 100) (by norm_num) (fun k => by omega) k
  push_cast at hf h3
  refine lt_of_lt_of_le ?_ hf
  rw [abs_div, abs_mul, abs_of_pos (by norm_num : (0 : Rat) < 100)]
  have : |(i : Rat)| * |(n : Rat)| / 100 ≤ 2 ^ 43 := by linarith
  calc |(i : Rat)| * |(n : Rat)| / 100 * (1 / 2 ^ 52 + 1 / 2 ^ 106) ≤ 2 ^ 43 * (1 / 2 ^ 52 + 1 / 2 ^ 106) := mul_le_mul_of_nonneg_right this (by norm_num)
    _ < _ := by norm_num

/-- **C118.** So they agree on all whole percentages of a whole number of pixels. -/
theorem C118_whole (fp gp : FP) (L : fp.Laws) (G : gp.Laws) (d : Display) (i j : Int) (s : Num) (hs : s.val = j) (hi : i.natAbs ≤ 100) (hj : j.natAbs ≤ 2 ^ 37) :
    (CUnit.mk (.len .percent) (.fin (.int i))).px fp ⟨d, dummyFont fp, some s⟩ = (CUnit.mk (.len .percent) (.fin (.int i))).px gp ⟨d, dummyFont gp, some s⟩ := by
  refine C118_percent fp gp L G d i (64 * j) s (by rw [hs]; push_cast; ring) hi (by omega) ?_
  rw [show i * (64 * j) = 64 * (i * j) by ring]
  omega

theorem size_units {s : Num} (h : s.OnGrid ∧ |s.val| ≤ 2 ^ 41) : ∃ n : Int, s.val = (n : Rat) / 64 ∧ n.natAbs ≤ 2 ^ 47 := by
  obtain ⟨⟨n, hn⟩, hb⟩ := h
  refine ⟨n, hn, ?_⟩
  rw [hn, abs_div, abs_of_pos (by norm_num : (0 : Rat) < 64), div_le_iff₀ (by norm_num)] at hb
  have : ((n.natAbs : Nat) : Rat) ≤ ((2 ^ 47 : Nat) : Rat) := by
    rw [Nat.cast_natAbs, Int.cast_abs]
    push_cast
    linarith
  exact_mod_cast this

/-- **C118.** Percentages that are multiples of 20. -/
theorem C118_fifths (fp gp : FP) (L : fp.Laws) (G : gp.Laws) (d : Display) (i : Int) (hi : i.natAbs ≤ 5) : (Val.unit ⟨.len .percent, .fin (.int (20 * i))⟩).Agrees fp gp d := by
  rintro _ ⟨⟩ size hs
  cases size with
  | none => rfl
  | some s =>
    obtain ⟨n, hn, hle⟩ := size_units (hs s rfl)
    refine percent_agrees L G d hn (by omega) hle fun k => ?_
    have h3 : |(i : Rat)| * |(n : Rat)| ≤ ((5 : Nat) : Rat) * ((2 ^ 47 : Nat) : Rat) := mul_le_mul (natAbs_rat hi) (natAbs_rat hle) (abs_nonneg _) (by norm_num)
    have hf := far_half (a := i * n) (b := 5) (by norm_num) (fun k => by omega) k
    push_cast at hf h3
    rw [show ((20 * i : Int) : Rat) * n / 100 = (i : Rat) * n / 5 by push_cast; ring]
    refine lt_of_lt_of_le ?_ hf
    rw [abs_div, abs_mul, abs_of_pos (by norm_num : (0 : Rat) < 5)]
    have : |(i : Rat)| * |(n : Rat)| / 5 ≤ 2 ^ 47 := by linarith
    calc |(i : Rat)| * |(n : Rat)| / 5 * (1 / 2 ^ 52 + 1 / 2 ^ 106) ≤ 2 ^ 47 * (1 / 2 ^ 52 + 1 / 2 ^ 106) := mul_le_mul_of_nonneg_right this (by norm_num)
      _ < _ := by norm_num

/-- **C118.** Percentages that are multiples of 4, up to 60. -/
theorem C118_fours (fp gp : FP) (L : fp.Laws) (G : gp.Laws) (d : Display) (i : Int) (hi : i.natAbs ≤ 15) : (Val.unit ⟨.len .percent, .fin (.int (4 * i))⟩).Agrees fp gp d := by
  rintro _ ⟨⟩ size hs
  cases size with
  | none => rfl
  | some s =>
    obtain ⟨n, hn, hle⟩ := size_units (hs s rfl)
    refine percent_agrees L G d hn (by omega) hle fun k => ?_
    have h3 : |(i : Rat)| * |(n : Rat)| ≤ ((15 : Nat) : Rat) * ((2 ^ 47 : Nat) : Rat) := mul_le_mul (natAbs_rat hi) (natAbs_rat hle) (abs_nonneg _) (by norm_num)
    have hf := far_half (a := i * n) (b := 25) (by norm_num) (fun k => by omega) k
    push_cast at hf h3
    rw [show ((4 * i : Int) : Rat) * n / 100 = (i : Rat) * n / 25 by push_cast; ring]
    refine lt_of_lt_of_le ?_ hf
    rw [abs_div, abs_mul, abs_of_pos (by norm_num : (0 : Rat) < 25)]
    have : |(i : Rat)| * |(n : Rat)| / 25 ≤ 15 * 2 ^ 47 / 25 := by linarith
    calc |(i : Rat)| * |(n : Rat)| / 25 * (1 / 2 ^ 52 + 1 / 2 ^ 106) ≤ 15 * 2 ^ 47 / 25 * (1 / 2 ^ 52 + 1 / 2 ^ 106) := mul_le_mul_of_nonneg_right this (by norm_num)
      _ < _ := by norm_num

/-! ## Concrete cases -/

/-- 7 percent of a screen of 640 pixels: 44.796875 pixels, in floating point and in exact arithmetic. -/
example : (CUnit.mk (.len .percent) (.fin (.int 7))).px .b64 ⟨screen, dummyFont .b64, some (.int 640)⟩ =
    (CUnit.mk (.len .percent) (.fin (.int 7))).px .exact ⟨screen, dummyFont .exact, some (.int 640)⟩ :=
  C118_whole .b64 .exact b64_laws exact_laws screen 7 640 (.int 640) rfl (by decide) (by decide)

example : ((CUnit.mk (.len .percent) (.fin (.int 7))).px .b64 ⟨screen, dummyFont .b64, some (.int 640)⟩).toOption = some (.flt (2867 / 64)) := by decide +kernel

/-- The container of `C118_ties` has a tie. -/
example : (7 : Int) * 150 % 100 = 50 := by decide

example : (Val.unit ⟨.len .percent, .fin (.int 80)⟩).Agrees .b64 .exact screen := C118_fifths .b64 .exact b64_laws exact_laws screen 4 (by decide)

example : (Val.unit ⟨.len .percent, .fin (.int 12)⟩).Agrees .b64 .exact screen := C118_fours .b64 .exact b64_laws exact_laws screen 3 (by decide)

end Colosseum
