import Verif.Model.Ieee
import Verif.Props.Pixels

/-!
# C105: the range of floats
-/

namespace Colosseum

/-- Zero, or a number between `2^-B` and `2^B` in absolute value. -/
def Moderate (B : Nat) (q : Rat) : Prop := q = 0 ∨ (2 : Rat) ^ (-(B : Int)) ≤ |q| ∧ |q| ≤ (2 : Rat) ^ (B : Int)

theorem Moderate.mono {A B : Nat} (h : A ≤ B) {q : Rat} (hq : Moderate A q) : Moderate B q := by
  rcases hq with rfl | ⟨h1, h2⟩
  · exact .inl rfl
  · exact .inr ⟨le_trans (zpow_le_of_log (by omega)) h1, le_trans h2 (zpow_le_of_log (by omega))⟩

theorem Moderate.mul {A B : Nat} {p q : Rat} (hp : Moderate A p) (hq : Moderate B q) : Moderate (A + B) (p * q) := by
  rcases hp with rfl | ⟨h1, h2⟩
  · exact .inl (zero_mul _)
  rcases hq with rfl | ⟨h3, h4⟩
  · exact .inl (mul_zero _)
  right
  rw [abs_mul]
  constructor
  · have : (2 : Rat) ^ (-((A + B : Nat) : Int)) = 2 ^ (-(A : Int)) * 2 ^ (-(B : Int)) := by
      rw [← zpow_add₀ (by norm_num)]; congr 1; push_cast; ring
    rw [this]
    exact mul_le_mul h1 h3 (zpow_two_pos _).le (abs_nonneg _)
  · have : (2 : Rat) ^ (((A + B : Nat) : Int)) = 2 ^ ((A : Int)) * 2 ^ ((B : Int)) := by
      rw [← zpow_add₀ (by norm_num)]; congr 1
    rw [this]
    exact mul_le_mul h2 h4 (abs_nonneg _) (zpow_two_pos _).le

theorem Moderate.inv {B : Nat} {q : Rat} (hq : Moderate B q) : Moderate B q⁻¹ := by
  rcases hq with rfl | ⟨h1, h2⟩
  · exact .inl inv_zero
  right
  have hp : 0 < |q| := lt_of_lt_of_le (zpow_two_pos _) h1
  rw [abs_inv]
  constructor
  · rw [zpow_neg]
    exact inv_anti₀ hp h2
  · have := inv_anti₀ (zpow_two_pos _) h1
    rwa [zpow_neg, inv_inv] at this

theorem Moderate.div {A B : Nat} {p q : Rat} (hp : Moderate A p) (hq : Moderate B q) : Moderate (A + B) (p / q) := by
  rw [div_eq_mul_inv]; exact hp.mul hq.inv

theorem round53_abs (q : Rat) : |round53 q| = round53 |q| := by
  rcases le_total 0 q with h | h
  · rw [abs_of_nonneg h]; exact abs_of_nonneg (b64_laws.nonneg h)
  · rw [abs_of_nonpos h, round53_neg]; exact abs_of_nonpos (b64_laws.nonpos h)

theorem round53_pow (k : Int) : round53 ((2 : Rat) ^ k) = 2 ^ k := by
  have := round53_fix 1 k (by norm_num)
  simpa using this

theorem Moderate.round {B : Nat} {q : Rat} (hq : Moderate B q) : Moderate B (round53 q) := by
  rcases hq with rfl | ⟨h1, h2⟩
  · exact .inl round53_zero
  right
  rw [round53_abs]
  constructor
  · rw [← round53_pow]; exact round53_mono h1
  · rw [← round53_pow (B : Int)]; exact round53_mono h2

theorem Moderate.rnd {B : Nat} (hB : B ≤ 1000) {q : Rat} (hq : Moderate B q) :
    Ieee.rnd q = round53 q ∧ |round53 q| < Ieee.limit := by
  have e : Ieee.rnd q = round53 q := by
    apply Ieee.rnd_eq
    rcases hq.mono hB with h | ⟨h, _⟩
    · exact .inl h
    · exact .inr (le_trans (zpow_le_of_log (by norm_num)) h)
  refine ⟨e, ?_⟩
  rcases (hq.mono hB).round with h | ⟨_, h⟩
  · rw [h, abs_zero]; exact zpow_two_pos _
  · exact lt_of_le_of_lt h ((zpow_lt_zpow_iff_right₀ (by norm_num)).2 (by norm_num))

theorem Moderate.conv {B : Nat} (hB : B ≤ 1000) {a : Num} (ha : Moderate B a.val) :
    Ieee.conv a = .ok (a.toFloat .b64) ∧ Moderate B (a.toFloat .b64) := by
  rcases a with i | q
  · obtain ⟨e, h⟩ := Moderate.rnd hB ha
    simp only [Num.val] at e h
    refine ⟨?_, ha.round⟩
    simp only [Ieee.conv, e, h, if_true]
    rfl
  · exact ⟨rfl, ha⟩

theorem Moderate.float {B : Nat} (hB : B ≤ 1000) {q : Rat} (hq : Moderate B q) :
    Ieee.float q = .fin (.flt (round53 q)) := by
  obtain ⟨e, h⟩ := Moderate.rnd hB hq
  simp only [Ieee.float, h, if_true, e]

theorem Moderate.mul_num {A B : Nat} (h : A + B ≤ 1000) {a b : Num} (ha : Moderate A a.val) (hb : Moderate B b.val) :
    Ieee.mul (.fin a) (.fin b) = .ok (.fin (a.mul .b64 b)) ∧ Moderate (A + B) (a.mul .b64 b).val := by
  obtain ⟨ca, ma⟩ := Moderate.conv (by omega) ha
  obtain ⟨cb, mb⟩ := Moderate.conv (by omega) hb
  have m := ma.mul mb
  have f := m.float h
  rcases a with i | p <;> rcases b with j | q
  · refine ⟨rfl, ?_⟩
    simp only [Num.val, Num.mul] at *
    push_cast
    exact ha.mul hb
  all_goals
    refine ⟨?_, m.round⟩
    simp only [Ieee.mul, Ieee.mixed, ca, cb, f, Num.mul]
    rfl

theorem Moderate.div_num {A B : Nat} (h : A + B ≤ 1000) {a b : Num} (ha : Moderate A a.val) (hb : Moderate B b.val) :
    Ieee.div (.fin a) b = .ok (.fin (a.div .b64 b)) ∧ Moderate (A + B) (a.div .b64 b).val := by
  obtain ⟨ca, ma⟩ := Moderate.conv (by omega) ha
  obtain ⟨cb, mb⟩ := Moderate.conv (by omega) hb
  have m := ma.div mb
  have f := m.float h
  rcases a with i | p <;> rcases b with j | q
  · obtain ⟨e, l⟩ := (ha.div hb).rnd h
    refine ⟨?_, (ha.div hb).round⟩
    simp only [Num.val] at e l
    simp only [Ieee.div, l, if_true, e, Num.div]
    rfl
  all_goals
    refine ⟨?_, m.round⟩
    simp only [Ieee.div, Ieee.mixed, ca, cb, f, Num.div]
    rfl

theorem pyRound_moderate {B : Nat} {q : Rat} (hq : Moderate B q) : Moderate B (pyRound q : Rat) := by
  by_cases h0 : pyRound q = 0
  · left; rw [h0]; simp
  right
  have h1 : (1 : Rat) ≤ |((pyRound q : Int) : Rat)| := by
    rw [← Int.cast_abs]
    exact_mod_cast Int.one_le_abs h0
  rcases hq with rfl | ⟨_, h2⟩
  · exact absurd (by simpa using pyRound_int 0) h0
  · constructor
    · refine le_trans ?_ h1
      rw [← zpow_zero (2 : Rat)]
      exact zpow_le_of_log (by omega)
    · have e : ((2 : Rat) ^ (B : Int)) = (((2 : Int) ^ B : Int) : Rat) := by push_cast; rw [zpow_natCast]
      rw [e] at h2 ⊢
      obtain ⟨a, b⟩ := abs_le.1 h2
      have u := pyRound_mono b
      have l := pyRound_mono a
      rw [← Int.cast_neg, pyRound_int] at l
      rw [pyRound_int] at u
      rw [← Int.cast_abs]
      exact_mod_cast abs_le.2 ⟨l, u⟩

/-- The numbers a length and its context consist of. -/
def PxCtx.numbers (c : PxCtx) : List Num :=
  [c.display.dpi, c.display.contentWidth, c.display.contentHeight, c.font.em, c.font.ex, c.font.ch] ++ c.size.toList

theorem Num.pyMax_cases (a b : Num) : a.pyMax b = a ∨ a.pyMax b = b := by
  unfold Num.pyMax; split <;> simp

theorem Num.pyMin_cases (a b : Num) : a.pyMin b = a ∨ a.pyMin b = b := by
  unfold Num.pyMin; split <;> simp

theorem Num.round_moderate {B : Nat} {n : Num} (h : Moderate B n.val) : Moderate B (n.round : Rat) := by
  rcases n with i | q
  · exact h
  · exact pyRound_moderate h

/-- Far from the limits of binary64, up to `2^200` and down to `2^-200` in magnitude, the limits have no effect
on `px()`: it is what unbounded exponents give. -/
theorem C105_moderate (k : LKind) (a : Num) (c : PxCtx) (ha : Moderate 200 a.val)
    (hc : ∀ n ∈ c.numbers, Moderate 200 n.val) :
    Ieee.px k (.fin a) c = pxOf .b64 k (.fin a) c := by
  suffices h : (∃ l, Ieee.luOf k (.fin a) c = .ok l ∧ luOf .b64 k (.fin a) c = .ok l ∧ Moderate 700 (l : Rat)) ∨
      ∃ e, Ieee.luOf k (.fin a) c = .error e ∧ luOf .b64 k (.fin a) c = .error e by
    rcases h with ⟨l, h1, h2, hl⟩ | ⟨e, h1, h2⟩
    · have m : Moderate 707 ((l : Rat) / 64) := hl.div (B := 7) (q := 64) (.inr (by norm_num))
      obtain ⟨r1, r2⟩ := m.rnd (by norm_num)
      show (Ieee.luOf k (.fin a) c >>= Ieee.pxOfLu) = _
      rw [h1]
      simp only [pxOf, h2]
      show Ieee.pxOfLu l = _
      simp only [Ieee.pxOfLu, r1, r2, if_true]
      rfl
    · show (Ieee.luOf k (.fin a) c >>= Ieee.pxOfLu) = _
      rw [h1]
      simp only [pxOf, h2]
      rfl
  have h64 : Moderate 6 luPerPixel.val := .inr (by norm_num [luPerPixel, Num.val])
  obtain ⟨m1, M1⟩ := Moderate.mul_num (by norm_num) h64 ha
  have scaled : ∀ f d : Num, Moderate 200 f.val → Moderate 200 d.val →
      ∃ l, Ieee.luScaled (.fin a) f d = .ok l ∧ luScaled .b64 (.fin a) f d = .ok l ∧ Moderate 700 (l : Rat) := by
    intro f d hf hd
    obtain ⟨m2, M2⟩ := Moderate.div_num (b := .int 72) (B := 7) (by norm_num) hf (.inr (by norm_num [Num.val]))
    obtain ⟨m3, M3⟩ := Moderate.mul_num (by norm_num) M1 M2
    obtain ⟨m4, M4⟩ := Moderate.mul_num (by norm_num) M3 hd
    refine ⟨_, ?_, rfl, (Num.round_moderate M4).mono (by norm_num)⟩
    simp only [Ieee.luScaled, m1, bind, Except.bind, m2, m3, m4]
    rfl
  have view : ∀ s : Num, Moderate 200 s.val →
      ∃ l, Ieee.luViewport (.fin a) s = .ok l ∧ luViewport .b64 (.fin a) s = .ok l ∧ Moderate 700 (l : Rat) := by
    intro s hs
    obtain ⟨m3, M3⟩ := Moderate.mul_num (by norm_num) M1 hs
    obtain ⟨m4, M4⟩ := Moderate.div_num (b := .int 100) (B := 7) (by norm_num) M3 (.inr (by norm_num [Num.val]))
    refine ⟨_, ?_, rfl, (Num.round_moderate M4).mono (by norm_num)⟩
    simp only [Ieee.luViewport, m1, bind, Except.bind, m3, m4]
    rfl
  have hw := hc c.display.contentWidth (by simp [PxCtx.numbers])
  have hh := hc c.display.contentHeight (by simp [PxCtx.numbers])
  have hd := hc c.display.dpi (by simp [PxCtx.numbers])
  have hem := hc c.font.em (by simp [PxCtx.numbers])
  have hex := hc c.font.ex (by simp [PxCtx.numbers])
  have hch := hc c.font.ch (by simp [PxCtx.numbers])
  have small : ∀ q : Rat, 1 / 2 ≤ |q| → |q| ≤ 128 → Moderate 200 q := fun q h1 h2 =>
    Moderate.mono (A := 7) (by norm_num) (.inr ⟨le_trans (by norm_num) h1, le_trans h2 (by norm_num)⟩)
  have rndc : ∀ q : Rat, 1 / 2 ≤ |q| → |q| ≤ 128 → Ieee.rnd q = round53 q := fun q h1 h2 => by
    apply Ieee.rnd_eq
    right
    refine le_trans ?_ h1
    rw [show (1 / 2 : Rat) = 2 ^ (-1 : Int) by norm_num]
    exact zpow_le_of_log (by norm_num)
  cases k
  case px => exact .inl ⟨_, by simp only [Ieee.luOf, m1, bind, Except.bind]; rfl, rfl, (Num.round_moderate M1).mono (by norm_num)⟩
  case em => exact .inl (scaled _ _ hem hd)
  case ex => exact .inl (scaled _ _ hex hd)
  case ch => exact .inl (scaled _ _ hch hd)
  case pt => exact .inl (scaled _ _ (small _ (by norm_num [Num.val]) (by norm_num [Num.val])) hd)
  case pc => exact .inl (scaled _ _ (small _ (by norm_num [Num.val]) (by norm_num [Num.val])) hd)
  case inch => exact .inl (scaled _ _ (small _ (by norm_num [Num.val]) (by norm_num [Num.val])) hd)
  case cm =>
    have := scaled (.flt (round53 (283465 / 10000))) _ (small (283465 / 10000) (by norm_num) (by norm_num)).round hd
    rw [← rndc _ (by norm_num) (by norm_num)] at this
    left
    obtain ⟨l, h1, h2, h3⟩ := this
    refine ⟨l, h1, ?_, h3⟩
    rw [rndc _ (by norm_num) (by norm_num)] at h2
    exact h2
  case mm =>
    have := scaled (.flt (round53 (283465 / 100000))) _ (small (283465 / 100000) (by norm_num) (by norm_num)).round hd
    rw [← rndc _ (by norm_num) (by norm_num)] at this
    left
    obtain ⟨l, h1, h2, h3⟩ := this
    refine ⟨l, h1, ?_, h3⟩
    rw [rndc _ (by norm_num) (by norm_num)] at h2
    exact h2
  case vh => exact .inl (view _ hh)
  case vw => exact .inl (view _ hw)
  case vmax =>
    refine .inl (view _ ?_)
    unfold vmaxScale
    rcases Num.pyMax_cases c.display.contentWidth c.display.contentHeight with h | h <;> rw [h] <;> assumption
  case vmin =>
    refine .inl (view _ ?_)
    unfold vminScale
    rcases Num.pyMin_cases c.display.contentWidth c.display.contentHeight with h | h <;> rw [h] <;> assumption
  case percent =>
    cases hs : c.size with
    | none => right; exact ⟨.type, by simp [Ieee.luOf, hs], by simp [luOf, hs]⟩
    | some s =>
      have hsm := hc s (by simp [PxCtx.numbers, hs])
      obtain ⟨m3, M3⟩ := Moderate.div_num (b := .flt 100) (B := 7) (by norm_num) M1 (.inr (by norm_num [Num.val]))
      obtain ⟨m4, M4⟩ := Moderate.mul_num (by norm_num) M3 hsm
      refine .inl ⟨_, ?_, by simp only [luOf, hs]; rfl, (Num.round_moderate M4).mono (by norm_num)⟩
      simp only [Ieee.luOf, hs, Ieee.luPercent, m1, bind, Except.bind, m3, m4]
      rfl

/-! ## Where pixel lengths end -/

/-- A length in pixels given by a float `q`: `OverflowError` from `2^1018` on, and otherwise the 64th of a pixel
next to it. -/
theorem C105_float (q : Rat) (c : PxCtx) (hq : Ieee.rnd q = q) :
    (2 ^ (1018 : Int) ≤ |q| → Ieee.px .px (.fin (.flt q)) c = .error .overflow) ∧
    (|q| < 2 ^ (1018 : Int) → ∃ n, Ieee.px .px (.fin (.flt q)) c = .ok n ∧
      |n.val - q| ≤ 1 / 128 ∧ ∃ i : Int, n.val = i / 64) := by
  obtain ⟨n, k, hn, hk, e⟩ := Ieee.rnd_form q
  rw [hq] at e
  have c64 : Ieee.conv luPerPixel = .ok 64 := by
    have h : Ieee.rnd ((64 : Int) : Rat) = 64 := by
      have := Ieee.rnd_fix 64 0 (by norm_num) (by norm_num)
      simpa using this
    simp only [luPerPixel, Ieee.conv, h]
    rw [if_pos]
    rw [abs_of_pos (by norm_num), show (64 : Rat) = 2 ^ (6 : Int) by norm_num]
    exact (zpow_lt_zpow_iff_right₀ (by norm_num)).2 (by norm_num)
  have e64 : (64 : Rat) * q = (n : Rat) * 2 ^ (k + 6) := by
    rw [e, zpow_add₀ (by norm_num)]; norm_num; ring
  have r64 : Ieee.rnd (64 * q) = 64 * q := by
    rw [e64]; exact Ieee.rnd_fix n (k + 6) hn (by omega)
  have hlim : Ieee.limit = 64 * 2 ^ (1018 : Int) := by
    rw [Ieee.limit, show (1024 : Int) = 6 + 1018 by norm_num, zpow_add₀ (by norm_num)]; norm_num
  have hm : Ieee.mul (.fin luPerPixel) (.fin (.flt q)) = .ok (Ieee.float (64 * q)) := by
    show Ieee.mul (.fin (.int 64)) (.fin (.flt q)) = _
    simp only [Ieee.mul, Ieee.mixed]
    rw [show Ieee.conv (.int 64) = .ok 64 from c64]
    rfl
  constructor
  · intro h
    have hf : ¬ |64 * q| < Ieee.limit := by
      rw [hlim, abs_mul, abs_of_pos (by norm_num : (0 : Rat) < 64)]; linarith
    have : Ieee.float (64 * q) = .inf (decide (64 * q < 0)) := by
      simp only [Ieee.float, r64, hf, if_false]
    simp only [Ieee.px, Ieee.luOf, hm, this, bind, Except.bind, PyNum.round]
  · intro h
    have hf : |64 * q| < Ieee.limit := by
      rw [hlim, abs_mul, abs_of_pos (by norm_num : (0 : Rat) < 64)]; linarith
    have hfl : Ieee.float (64 * q) = .fin (.flt (64 * q)) := by
      simp only [Ieee.float, r64, hf, if_true]
    -- the rounded number of 64ths is a float
    obtain ⟨m, j, hm', hj, ej⟩ : ∃ m j : Int, m.natAbs ≤ 2 ^ 53 ∧ 0 ≤ j ∧ ((pyRound (64 * q) : Int) : Rat) = m * 2 ^ j := by
      by_cases hk6 : 0 ≤ k + 6
      · obtain ⟨i, hi⟩ := Int.eq_ofNat_of_zero_le hk6
        refine ⟨n, k + 6, hn, hk6, ?_⟩
        rw [e64, hi]
        have : (n : Rat) * 2 ^ ((i : Nat) : Int) = ((n * 2 ^ i : Int) : Rat) := by push_cast; rw [zpow_natCast]
        rw [show ((i : Int)) = ((i : Nat) : Int) from rfl, this, pyRound_int]
      · refine ⟨pyRound (64 * q), 0, ?_, le_refl _, by simp⟩
        have hb : |(64 : Rat) * q| ≤ (((2 ^ 53 : Int)) : Rat) := by
          rw [e64, abs_mul, abs_of_pos (zpow_two_pos _)]
          have h1 : |(n : Rat)| ≤ (((2 ^ 53 : Int)) : Rat) := by
            rw [← Int.cast_abs]
            have : |n| ≤ 2 ^ 53 := by rw [Int.abs_eq_natAbs]; exact_mod_cast hn
            exact_mod_cast this
          have h2 : (2 : Rat) ^ (k + 6) ≤ 1 := by
            rw [← zpow_zero (2 : Rat)]; exact zpow_le_of_log (by omega)
          calc |(n : Rat)| * 2 ^ (k + 6) ≤ (((2 ^ 53 : Int)) : Rat) * 1 :=
                mul_le_mul h1 h2 (zpow_two_pos _).le (by norm_num)
            _ = _ := mul_one _
        obtain ⟨b1, b2⟩ := abs_le.1 hb
        have u := pyRound_mono b2
        have l := pyRound_mono b1
        rw [← Int.cast_neg, pyRound_int] at l
        rw [pyRound_int] at u
        norm_num at u l
        omega
    have ediv : ((pyRound (64 * q) : Int) : Rat) / 64 = m * 2 ^ (j - 6) := by
      rw [ej, zpow_sub₀ (by norm_num)]; norm_num; ring
    have rdiv : Ieee.rnd (((pyRound (64 * q) : Int) : Rat) / 64) = ((pyRound (64 * q) : Int) : Rat) / 64 := by
      rw [ediv]; exact Ieee.rnd_fix m (j - 6) hm' (by omega)
    obtain ⟨s1, s2, _⟩ := pyRound_spec (64 * q)
    have near : |((pyRound (64 * q) : Int) : Rat) / 64 - q| ≤ 1 / 128 := by
      rw [abs_le]; constructor <;> linarith
    have hlt : |((pyRound (64 * q) : Int) : Rat) / 64| < Ieee.limit := by
      have t : |((pyRound (64 * q) : Int) : Rat) / 64| ≤ |q| + 1 / 128 := by
        have := abs_add_le (((pyRound (64 * q) : Int) : Rat) / 64 - q) q
        rw [sub_add_cancel] at this
        linarith
      have p : (1 : Rat) ≤ 2 ^ (1018 : Int) := by
        rw [← zpow_zero (2 : Rat)]; exact zpow_le_of_log (by norm_num)
      rw [hlim]
      generalize (2 : Rat) ^ (1018 : Int) = X at h p ⊢
      linarith
    refine ⟨if ((pyRound (64 * q) : Int) : Rat) / 64 = (pyTrunc (((pyRound (64 * q) : Int) : Rat) / 64) : Rat)
      then .int (pyTrunc (((pyRound (64 * q) : Int) : Rat) / 64)) else .flt (((pyRound (64 * q) : Int) : Rat) / 64), ?_, ?_⟩
    · simp only [Ieee.px, Ieee.luOf, hm, hfl, bind, Except.bind, PyNum.round, Num.round, Ieee.pxOfLu, rdiv, hlt, if_true]
    · have hv : ∀ r : Rat, (if r = (pyTrunc r : Rat) then Num.int (pyTrunc r) else Num.flt r).val = r := by
        intro r
        split
        · rename_i h; exact h.symm
        · rfl
      rw [hv]
      exact ⟨near, _, rfl⟩

/-- Half a unit in the last place below the limit, floats end. -/
theorem round53_top {q : Rat} (h : 0 ≤ q) : round53 q < Ieee.limit ↔ q < Ieee.limit - 2 ^ (970 : Int) := by
  have hlim : Ieee.limit = 2 ^ 54 * 2 ^ (970 : Int) := by
    rw [Ieee.limit, show (1024 : Int) = 54 + 970 by norm_num, zpow_add₀ (by norm_num)]; norm_num
  have h1023 : (2 : Rat) ^ (1023 : Int) = 2 ^ 53 * 2 ^ (970 : Int) := by
    rw [show (1023 : Int) = 53 + 970 by norm_num, zpow_add₀ (by norm_num)]; norm_num
  have h971 : (2 : Rat) ^ (970 : Int) * 2 ^ (52 - 1023 : Int) = 1 / 2 := by
    rw [← zpow_add₀ (by norm_num)]; norm_num
  have h971' : (2 : Rat) ^ (1023 - 52 : Int) = 2 * 2 ^ (970 : Int) := by
    rw [show (1023 - 52 : Int) = 1 + 970 by norm_num, zpow_add₀ (by norm_num)]; norm_num
  have hX : (0 : Rat) < 2 ^ (970 : Int) := zpow_two_pos _
  have hlog : ∀ q : Rat, 2 ^ (1023 : Int) ≤ q → q < Ieee.limit → Int.log 2 |q| = 1023 := by
    intro q a b
    have hp : 0 < q := lt_of_lt_of_le (zpow_two_pos _) a
    apply log_unique
    · rw [abs_of_pos hp]; exact a
    · rw [abs_of_pos hp]; exact b
  have hpowlt : (2 : Rat) ^ (1023 : Int) < Ieee.limit := (zpow_lt_zpow_iff_right₀ (by norm_num)).2 (by norm_num)
  have hZ : (0 : Rat) < 2 ^ (52 - 1023 : Int) := zpow_two_pos _
  have hexp : ∀ q : Rat, 2 ^ (1023 : Int) ≤ q → q < Ieee.limit →
      round53 q = (pyRound (q * 2 ^ (52 - 1023 : Int)) : Rat) * 2 ^ (1023 - 52 : Int) := by
    intro q a b
    have hp : 0 < q := lt_of_lt_of_le (zpow_two_pos _) a
    unfold round53
    rw [if_neg (ne_of_gt hp), hlog q a b]
  have hsmall : ∀ q : Rat, q < 2 ^ (1023 : Int) → round53 q < Ieee.limit := by
    intro q hb
    have := round53_mono hb.le
    rw [round53_pow] at this
    exact lt_of_le_of_lt this hpowlt
  clear hlog
  rw [h971'] at hexp
  clear h971'
  generalize (2 : Rat) ^ (52 - 1023 : Int) = Z at *
  generalize (2 : Rat) ^ (1023 : Int) = Y at *
  generalize (2 : Rat) ^ (970 : Int) = X at *
  generalize Ieee.limit = M at *
  constructor
  · contrapose!
    intro hq
    have top : round53 (M - X) = M := by
      rw [hexp _ (by linarith) (by linarith)]
      have e : (M - X) * Z = 9007199254740991 + 1 / 2 := by
        rw [hlim, sub_mul, mul_assoc, h971]; norm_num
      have p : pyRound (9007199254740991 + 1 / 2) = 9007199254740992 := by decide +kernel
      rw [e, p, hlim]
      push_cast
      ring
    rw [← top]
    exact round53_mono hq
  · intro hq
    by_cases hb : q < Y
    · exact hsmall q hb
    · have hb := not_lt.1 hb
      rw [hexp q hb (by linarith)]
      have hx : q * Z < 2 ^ 53 - 1 / 2 := by
        have := mul_lt_mul_of_pos_right hq hZ
        rw [hlim, sub_mul, mul_assoc, h971] at this
        refine lt_of_lt_of_le this (by norm_num)
      obtain ⟨s1, _, _⟩ := pyRound_spec (q * Z)
      have hr : ((pyRound (q * Z) : Int) : Rat) < 2 ^ 53 := by linarith
      have := mul_lt_mul_of_pos_right hr (by linarith : (0 : Rat) < 2 * X)
      linarith

/-- A length in pixels given by an `int`: `OverflowError` from `2^1024 - 2^970` on, and otherwise the float next
to it. -/
theorem C105_int (i : Int) (c : PxCtx) :
    (2 ^ (1024 : Int) - 2 ^ (970 : Int) ≤ |(i : Rat)| → Ieee.px .px (.fin (.int i)) c = .error .overflow) ∧
    (|(i : Rat)| < 2 ^ (1024 : Int) - 2 ^ (970 : Int) → ∃ n, Ieee.px .px (.fin (.int i)) c = .ok n ∧
      |n.val - i| ≤ |(i : Rat)| / 2 ^ 53 ∧ (i.natAbs ≤ 2 ^ 53 → n = .int i)) := by
  have hr : Ieee.rnd (i : Rat) = round53 i := by
    apply Ieee.rnd_eq
    by_cases h : i = 0
    · left; simp [h]
    · right
      have h1 : (1 : Rat) ≤ |(i : Rat)| := by
        rw [← Int.cast_abs]; exact_mod_cast Int.one_le_abs h
      refine le_trans ?_ h1
      rw [← zpow_zero (2 : Rat)]
      exact zpow_le_of_log (by norm_num)
  have hpx : Ieee.px .px (.fin (.int i)) c =
      if |round53 (i : Rat)| < Ieee.limit then
        .ok (if round53 (i : Rat) = (pyTrunc (round53 (i : Rat)) : Rat) then .int (pyTrunc (round53 (i : Rat)))
          else .flt (round53 (i : Rat)))
      else .error .overflow := by
    have e : ((64 * i : Int) : Rat) / 64 = i := by push_cast; ring
    show Ieee.pxOfLu (64 * i) = _
    simp only [Ieee.pxOfLu, e, hr]
  have ht := round53_top (abs_nonneg (i : Rat))
  rw [← round53_abs] at ht
  rw [hpx]
  constructor
  · intro h
    rw [if_neg]
    intro hl
    exact absurd (ht.1 hl) (not_lt.2 h)
  · intro h
    rw [if_pos (ht.2 h)]
    refine ⟨_, rfl, ?_, ?_⟩
    · have hv : ∀ r : Rat, (if r = (pyTrunc r : Rat) then Num.int (pyTrunc r) else Num.flt r).val = r := by
        intro r
        split
        · rename_i h; exact h.symm
        · rfl
      rw [hv]
      have := round53_rel (i : Rat)
      rw [mul_one_div] at this
      exact this
    · intro hi
      have hf := round53_fix i 0 hi
      simp only [zpow_zero, mul_one] at hf
      rw [hf, pyTrunc_int, if_pos rfl]

theorem Ieee.conv_error {a : Num} {e : Err} (h : Ieee.conv a = .error e) : e = .overflow := by
  rcases a with i | q
  · simp only [Ieee.conv] at h
    split at h
    · cases h
    · cases h; rfl
  · cases h

theorem Ieee.mixed_error {f : Rat → Rat → Rat} {a b : Num} {e : Err} (h : Ieee.mixed f a b = .error e) :
    e = .overflow := by
  simp only [Ieee.mixed] at h
  cases ha : Ieee.conv a with
  | error e' => rw [ha] at h; cases h; exact Ieee.conv_error ha
  | ok v =>
    rw [ha] at h
    cases hb : Ieee.conv b with
    | error e' => rw [hb] at h; cases h; exact Ieee.conv_error hb
    | ok w => rw [hb] at h; cases h

theorem Ieee.map_error {f : Rat → PyNum} {a : Num} {e : Err} (h : (Ieee.conv a).map f = .error e) :
    e = .overflow := by
  cases hc : Ieee.conv a with
  | ok v => rw [hc] at h; cases h
  | error e' => rw [hc] at h; cases h; exact Ieee.conv_error hc

theorem Ieee.mul_error {x y : PyNum} {e : Err} (h : Ieee.mul x y = .error e) : e = .overflow := by
  rcases x with (i | p) | s | _ <;> rcases y with (j | q) | t | _ <;> simp only [Ieee.mul, reduceCtorEq] at h <;>
    first | exact Ieee.map_error h | exact Ieee.mixed_error h

theorem Ieee.div_error {x : PyNum} {b : Num} {e : Err} (h : Ieee.div x b = .error e) : e = .overflow := by
  rcases x with (i | p) | s | _ <;> rcases b with j | q <;> simp only [Ieee.div, reduceCtorEq] at h
  · split at h
    · cases h
    · cases h; rfl
  all_goals exact Ieee.mixed_error h

/-- Nothing but `OverflowError` and `ValueError` comes out of a length, whatever the magnitude and the context,
but for a percentage of nothing. -/
theorem C105_errors (k : LKind) (v : PyNum) (c : PxCtx) (e : Err) (h : Ieee.px k v c = .error e) :
    e = .overflow ∨ e = .value ∨ (e = .type ∧ k = .percent ∧ c.size = none) := by
  have bind2 : ∀ {α β : Type} {x : Res α} {f : α → Res β} {P : Prop}, (x >>= f) = .error e →
      (x = .error e → P) → (∀ y, x = .ok y → f y = .error e → P) → P := by
    intro α β x f P h h1 h2
    cases x with
    | error e' => exact h1 (by cases h; rfl)
    | ok y => exact h2 y rfl h
  have rounds : ∀ x : PyNum, x.round = .error e → e = .overflow ∨ e = .value := by
    intro x h
    rcases x with n | s | _ <;> cases h
    · exact .inl rfl
    · exact .inr rfl
  have scaled : ∀ f d, Ieee.luScaled v f d = .error e → e = .overflow ∨ e = .value := fun f d h =>
    bind2 h (fun h => .inl (Ieee.mul_error h)) fun _ _ h =>
    bind2 h (fun h => .inl (Ieee.div_error h)) fun _ _ h =>
    bind2 h (fun h => .inl (Ieee.mul_error h)) fun _ _ h =>
    bind2 h (fun h => .inl (Ieee.mul_error h)) fun _ _ h => rounds _ h
  have view : ∀ s, Ieee.luViewport v s = .error e → e = .overflow ∨ e = .value := fun f h =>
    bind2 h (fun h => .inl (Ieee.mul_error h)) fun _ _ h =>
    bind2 h (fun h => .inl (Ieee.mul_error h)) fun _ _ h =>
    bind2 h (fun h => .inl (Ieee.div_error h)) fun _ _ h => rounds _ h
  have perc : ∀ s, Ieee.luPercent v s = .error e → e = .overflow ∨ e = .value := fun f h =>
    bind2 h (fun h => .inl (Ieee.mul_error h)) fun _ _ h =>
    bind2 h (fun h => .inl (Ieee.div_error h)) fun _ _ h =>
    bind2 h (fun h => .inl (Ieee.mul_error h)) fun _ _ h => rounds _ h
  refine bind2 h ?_ ?_
  · intro h
    rw [← or_assoc]
    cases k <;> simp only [Ieee.luOf] at h
    case px => exact .inl (bind2 h (fun h => .inl (Ieee.mul_error h)) fun _ _ h => rounds _ h)
    case percent =>
      cases hs : c.size with
      | none => rw [hs] at h; cases h; exact .inr ⟨rfl, rfl, rfl⟩
      | some s => rw [hs] at h; exact .inl (perc s h)
    all_goals first | exact .inl (scaled _ _ h) | exact .inl (view _ h)
  · intro l _ h
    simp only [Ieee.pxOfLu] at h
    split at h
    · cases h
    · cases h; exact .inl rfl

/-- `ValueError` for a finite magnitude: `64 * 1e308` is `inf`, and `inf` times the width of an empty display is
`nan`, which cannot be rounded. -/
theorem C105_value_error : ∃ (q : Rat) (c : PxCtx), Ieee.rnd q = q ∧ |q| < Ieee.limit ∧
    Ieee.px .vw (.fin (.flt q)) c = .error .value := by
  refine ⟨2 ^ 1023, { sampleCtx with display := { sampleCtx.display with contentWidth := .int 0 } }, ?_, ?_, ?_⟩ <;>
    decide +kernel

/-! ## Below the limit -/

/-- `inf` or `nan`. -/
def PyNum.Lost : PyNum → Prop
  | .fin _ => False
  | _ => True

theorem PyNum.Lost.round {x : PyNum} (h : x.Lost) {l : Int} : x.round ≠ .ok l := by
  cases x <;> first | exact h.elim | exact fun h => nomatch h

theorem Ieee.conv_ieee {a : Num} {x : Rat} (h : Ieee.conv a = .ok x) : x = a.toFloat .ieee := by
  cases a with
  | int i =>
    simp only [Ieee.conv] at h
    split at h
    · cases h; rfl
    · cases h
  | flt q => cases h; rfl

theorem Ieee.float_ieee (q : Rat) : Ieee.float q = .fin (.flt (FP.ieee.rnd q)) ∨ (Ieee.float q).Lost := by
  unfold Ieee.float
  split
  · exact .inl rfl
  · exact .inr trivial

theorem Ieee.mixed_ieee {f : Rat → Rat → Rat} {a b : Num} {x : PyNum} (h : Ieee.mixed f a b = .ok x) :
    x = .fin (.flt (FP.ieee.rnd (f (a.toFloat .ieee) (b.toFloat .ieee)))) ∨ x.Lost := by
  unfold Ieee.mixed at h
  split at h
  · cases h
  · rename_i y hy
    split at h
    · cases h
    · rename_i z hz
      cases h
      rw [Ieee.conv_ieee hy, Ieee.conv_ieee hz]
      exact Ieee.float_ieee _

theorem Ieee.mul_ieee {a b : Num} {x : PyNum} (h : Ieee.mul (.fin a) (.fin b) = .ok x) :
    x = .fin (a.mul .ieee b) ∨ x.Lost := by
  cases a <;> cases b
  · cases h; exact .inl rfl
  all_goals exact Ieee.mixed_ieee (f := (· * ·)) h

theorem Ieee.map_lost {f : Rat → PyNum} (hf : ∀ y, (f y).Lost) {a : Num} {x : PyNum} (h : (Ieee.conv a).map f = .ok x) : x.Lost := by
  cases hc : Ieee.conv a with
  | error e => rw [hc] at h; cases h
  | ok y => rw [hc] at h; cases h; exact hf y

theorem Ieee.mul_lost {x y z : PyNum} (hx : x.Lost ∨ y.Lost) (h : Ieee.mul x y = .ok z) : z.Lost := by
  have hi : ∀ s y, (Ieee.infTimes s y).Lost := by
    intro s y
    unfold Ieee.infTimes
    split <;> trivial
  rcases x with (x | x) | s | _ <;> rcases y with (y | y) | t | _ <;> first
    | exact (hx.elim id id).elim
    | exact Ieee.map_lost (hi _) h
    | exact Ieee.map_lost (f := fun _ => .nan) (fun _ => trivial) h
    | (cases h; exact hi _ _)
    | (cases h; trivial)

theorem Ieee.div_ieee {a b : Num} {x : PyNum} (h : Ieee.div (.fin a) b = .ok x) : x = .fin (a.div .ieee b) ∨ x.Lost := by
  cases a <;> cases b
  · simp only [Ieee.div] at h
    split at h
    · cases h; exact .inl rfl
    · cases h
  all_goals exact Ieee.mixed_ieee (f := (· / ·)) h

theorem Ieee.div_lost {x z : PyNum} {b : Num} (hx : x.Lost) (h : Ieee.div x b = .ok z) : z.Lost := by
  cases x with
  | fin _ => exact hx.elim
  | inf s => cases h; trivial
  | nan => cases h; trivial

theorem Res.bind_ok {α β : Type} {x : Res α} {f : α → Res β} {b : β} (h : (x >>= f) = .ok b) : ∃ a, x = .ok a ∧ f a = .ok b := by
  cases x with
  | error e => cases h
  | ok a => exact ⟨a, rfl, h⟩

/-- Whatever the magnitude, `lu()` with the range of doubles raises or gives what arithmetic without a largest number gives. -/
theorem Ieee.luOf_ieee {k : LKind} {a : Num} {c : PxCtx} {l : Int} (h : Ieee.luOf k (.fin a) c = .ok l) : Colosseum.luOf .ieee k (.fin a) c = .ok l := by
  have fin : ∀ {x : PyNum} {y : Num}, x = .fin y ∨ x.Lost → x.round = .ok l → (PyNum.fin y).round = .ok l := by
    rintro x y (rfl | hx) hr
    · exact hr
    · exact absurd hr hx.round
  have mulc : ∀ {x z : PyNum} {y b : Num}, x = .fin y ∨ x.Lost → Ieee.mul x (.fin b) = .ok z → z = .fin (y.mul .ieee b) ∨ z.Lost := by
    rintro x z y b (rfl | hx) hm
    · exact Ieee.mul_ieee hm
    · exact .inr (Ieee.mul_lost (.inl hx) hm)
  have divc : ∀ {x z : PyNum} {y b : Num}, x = .fin y ∨ x.Lost → Ieee.div x b = .ok z → z = .fin (y.div .ieee b) ∨ z.Lost := by
    rintro x z y b (rfl | hx) hm
    · exact Ieee.div_ieee hm
    · exact .inr (Ieee.div_lost hx hm)
  have sc : ∀ f d, Ieee.luScaled (.fin a) f d = .ok l → Colosseum.luScaled .ieee (.fin a) f d = .ok l := by
    intro f d h
    obtain ⟨x, hx, h⟩ := Res.bind_ok h
    obtain ⟨s, hs, h⟩ := Res.bind_ok h
    obtain ⟨y, hy, h⟩ := Res.bind_ok h
    obtain ⟨z, hz, hr⟩ := Res.bind_ok h
    have hs := divc (.inl rfl) hs
    rcases hs with rfl | hs
    · exact fin (mulc (mulc (Ieee.mul_ieee hx) hy) hz) hr
    · exact absurd hr (Ieee.mul_lost (.inl (Ieee.mul_lost (.inr hs) hy)) hz).round
  have vp : ∀ s, Ieee.luViewport (.fin a) s = .ok l → Colosseum.luViewport .ieee (.fin a) s = .ok l := by
    intro s h
    obtain ⟨x, hx, h⟩ := Res.bind_ok h
    obtain ⟨y, hy, h⟩ := Res.bind_ok h
    obtain ⟨z, hz, h⟩ := Res.bind_ok h
    exact fin (divc (mulc (Ieee.mul_ieee hx) hy) hz) h
  cases k <;> simp only [Ieee.luOf] at h <;> simp only [Colosseum.luOf]
  case px =>
    obtain ⟨x, hx, h⟩ := Res.bind_ok h
    exact fin (Ieee.mul_ieee hx) h
  case percent =>
    cases hs : c.size with
    | none => rw [hs] at h; cases h
    | some s =>
      rw [hs] at h
      obtain ⟨x, hx, h⟩ := Res.bind_ok h
      obtain ⟨y, hy, h⟩ := Res.bind_ok h
      obtain ⟨z, hz, h⟩ := Res.bind_ok h
      exact fin (mulc (divc (Ieee.mul_ieee hx) hy) hz) h
  all_goals first | exact sc _ _ h | exact vp _ h

/-- **C105, every magnitude.** With the range of doubles `px()` raises, or it gives exactly what arithmetic with subnormal numbers and without a largest
number gives; that arithmetic satisfies the laws of rounding the other theorems assume. -/
theorem C105_every (k : LKind) (a : Num) (c : PxCtx) (n : Num) (h : Ieee.px k (.fin a) c = .ok n) :
    pxOf .ieee k (.fin a) c = .ok n ∧ FP.ieee.Laws := by
  refine ⟨?_, ieee_laws⟩
  obtain ⟨l, hl, h⟩ := Res.bind_ok h
  simp only [Ieee.pxOfLu] at h
  split at h
  · cases h
    simp only [pxOf, Ieee.luOf_ieee hl]
    rfl
  · cases h

/-- The numbers of binary64, without a largest one: 53 bits, the last not below `2^-1074`. -/
def IsDouble (y : Rat) : Prop := ∃ n k : Int, n.natAbs < 2 ^ 53 ∧ -1074 ≤ k ∧ y = (n : Rat) * 2 ^ k

theorem isDouble_of {n k : Int} (hn : n.natAbs ≤ 2 ^ 53) (hk : -1074 ≤ k) : IsDouble ((n : Rat) * 2 ^ k) := by
  by_cases h : n.natAbs < 2 ^ 53
  · exact ⟨n, k, h, hk, rfl⟩
  · refine ⟨n / 2, k + 1, by omega, by omega, ?_⟩
    have e : n = 2 * (n / 2) := by omega
    rw [zpow_add₀ (by norm_num), zpow_one]
    conv_lhs => rw [e]
    push_cast
    ring

/-- **C105, the arithmetic.** `Ieee.rnd q` is a double next to `q`, and none is nearer. -/
theorem C105_nearest (q : Rat) : IsDouble (Ieee.rnd q) ∧ ∀ y, IsDouble y → |Ieee.rnd q - q| ≤ |y - q| := by
  refine ⟨?_, ?_⟩
  · obtain ⟨n, k, hn, hk, e⟩ := Ieee.rnd_form q
    rw [e]
    exact isDouble_of hn hk
  rintro y ⟨n, k, hn, hk, rfl⟩
  by_cases hq : q = 0
  · rw [hq, Ieee.rnd_zero, sub_zero, abs_zero]; exact abs_nonneg _
  obtain ⟨l1, _⟩ := log_bounds hq
  have er : Ieee.rnd q = (pyRound (q * 2 ^ (-max (Int.log 2 |q| - 52) (-1074))) : Rat) * 2 ^ max (Int.log 2 |q| - 52) (-1074) := by
    simp only [Ieee.rnd, hq, if_false]
  rw [er]
  -- multiples of the last bit are not nearer
  have mult : ∀ (e m : Int), |(pyRound (q * 2 ^ (-e)) : Rat) * 2 ^ e - q| ≤ |(m : Rat) * 2 ^ e - q| := by
    intro e m
    have hp := zpow_two_pos e
    have e1 : q = q * 2 ^ (-e) * 2 ^ e := by rw [mul_assoc, ← zpow_add₀ (by norm_num)]; simp
    have e2 : ∀ z : Rat, |z * 2 ^ e - q| = |z - q * 2 ^ (-e)| * 2 ^ e := by
      intro z
      conv_lhs => rw [e1]
      rw [← sub_mul, abs_mul, abs_of_pos hp]
    rw [e2, e2]
    refine mul_le_mul_of_nonneg_right ?_ hp.le
    obtain ⟨a, b, _⟩ := pyRound_spec (q * 2 ^ (-e))
    generalize q * 2 ^ (-e) = x at *
    by_cases hm : m = pyRound x
    · rw [hm]
    · have d : 1 ≤ |m - pyRound x| := Int.one_le_abs (sub_ne_zero.2 hm)
      have d : (1 : Rat) ≤ |(m : Rat) - pyRound x| := by exact_mod_cast d
      have t := abs_sub_le (m : Rat) x (pyRound x : Rat)
      have u : |(pyRound x : Rat) - x| ≤ 1 / 2 := by rw [abs_le]; constructor <;> linarith
      have w : |x - (pyRound x : Rat)| = |(pyRound x : Rat) - x| := abs_sub_comm _ _
      linarith
  by_cases hk' : max (Int.log 2 |q| - 52) (-1074) ≤ k
  · obtain ⟨j, hj⟩ := Int.le.dest hk'
    have : (n : Rat) * 2 ^ k = ((n * 2 ^ j : Int) : Rat) * 2 ^ max (Int.log 2 |q| - 52) (-1074) := by
      rw [← hj, zpow_add₀ (by norm_num)]
      push_cast
      rw [zpow_natCast]
      ring
    rw [this]
    exact mult _ _
  · -- a number with a lower last bit is below the power of two below `q`
    have hmax : max (Int.log 2 |q| - 52) (-1074) = Int.log 2 |q| - 52 := by omega
    rw [hmax] at hk' ⊢
    generalize Int.log 2 |q| = l at *
    have hy : |(n : Rat) * 2 ^ k| ≤ 2 ^ l := by
      rw [abs_mul, abs_of_pos (zpow_two_pos k)]
      have h1 : |(n : Rat)| ≤ 2 ^ (53 : Int) := by
        have : (n.natAbs : Rat) ≤ 2 ^ 53 := by exact_mod_cast hn.le
        rw [Nat.cast_natAbs, Int.cast_abs] at this
        exact_mod_cast this
      calc |(n : Rat)| * 2 ^ k ≤ 2 ^ (53 : Int) * 2 ^ k := mul_le_mul_of_nonneg_right h1 (zpow_two_pos k).le
        _ = 2 ^ (53 + k) := by rw [← zpow_add₀ (by norm_num)]
        _ ≤ 2 ^ l := zpow_le_of_log (by omega)
    have e52 : (2 : Rat) ^ l = ((2 ^ 52 : Int) : Rat) * 2 ^ (l - 52) := by
      rw [zpow_sub₀ (by norm_num)]; push_cast; norm_num; ring
    obtain ⟨y1, y2⟩ := abs_le.1 hy
    rcases lt_or_gt_of_ne hq with h0 | h0
    · have := mult (l - 52) (-2 ^ 52)
      have e : ((-2 ^ 52 : Int) : Rat) * 2 ^ (l - 52) = -2 ^ l := by rw [e52]; push_cast; ring
      rw [e] at this
      refine le_trans this ?_
      rw [abs_of_neg h0] at l1
      generalize (2 : Rat) ^ l = P at *
      generalize (n : Rat) * 2 ^ k = Y at *
      rw [abs_of_nonneg (by linarith), abs_of_nonneg (by linarith)]
      linarith
    · have := mult (l - 52) (2 ^ 52)
      rw [← e52] at this
      refine le_trans this ?_
      rw [abs_of_pos h0] at l1
      generalize (2 : Rat) ^ l = P at *
      generalize (n : Rat) * 2 ^ k = Y at *
      rw [abs_of_nonpos (by linarith), abs_of_nonpos (by linarith)]
      linarith

/-- 0.1 is not a double; the next one is a little larger. -/
example : Ieee.rnd (1 / 10) = 3602879701896397 / 36028797018963968 ∧ ¬IsDouble (1 / 10) := by
  refine ⟨by decide +kernel, ?_⟩
  rintro ⟨n, k, hn, hk, e⟩
  have := Ieee.rnd_fix n k hn.le hk
  rw [← e] at this
  revert this
  decide +kernel

/-- The smallest float and a very large one are not moderate. -/
example : Ieee.px .pt (.fin (.flt (2 ^ (-1074 : Int)))) sampleCtx = .ok (.int 0) ∧
    Ieee.px .inch (.fin (.flt (2 ^ (900 : Int)))) sampleCtx = .ok (.int (2 ^ 900 * 96)) := by decide +kernel

/-- 40px, 1.5em: moderate magnitudes in a moderate context. -/
example : Moderate 200 (Num.flt (3 / 2)).val ∧ ∀ n ∈ sampleCtx.numbers, Moderate 200 n.val := by
  unfold Moderate
  decide +kernel
example : Ieee.px .em (.fin (.flt (3 / 2))) sampleCtx = pxOf .b64 .em (.fin (.flt (3 / 2))) sampleCtx := by
  decide +kernel
example : Ieee.px .px (.fin (.flt (2 ^ 1018))) sampleCtx = .error .overflow := by decide +kernel
example : Ieee.px .px (.fin (.int (2 ^ 1024 - 2 ^ 970))) sampleCtx = .error .overflow := by decide +kernel
/-- The smallest subnormal number is a float, half of it is not. -/
example : Ieee.rnd (2 ^ (-1074 : Int)) = 2 ^ (-1074 : Int) ∧ Ieee.rnd (2 ^ (-1075 : Int)) = 0 := by decide +kernel

end Colosseum
