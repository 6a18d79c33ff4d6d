import Verif.Lemmas.Hsl

/-!
# C14: `hsl.rgb`
-/

namespace Colosseum

theorem hslChannels_sector (fp : FP) (h s l : Num) : ∃ c x m : Rat,
    hslChannels fp h s l
      = sector (fp.rnd (h.toFloat fp / 60)) (fp.rnd (c + m)) (fp.rnd (x + m)) m ∧
    c = fp.rnd (fp.rnd (1 - ratAbs (fp.rnd (fp.rnd (2 * l.toFloat fp) - 1))) * s.toFloat fp) ∧
    x = fp.rnd (c * fp.rnd (1 - ratAbs (fp.rnd (fp.rnd (fmod2 (fp.rnd (h.toFloat fp / 60))) - 1)))) ∧
    m = fp.rnd (l.toFloat fp - fp.rnd (1 / 2 * c)) :=
  ⟨_, _, _, rfl, rfl, rfl, rfl⟩

theorem sector_forall {P : Rat → Rat → Prop} (t c x z C X Z : Rat) (hc : P c C) (hx : P x X) (hz : P z Z) :
    P (sector t c x z).1 (sector t C X Z).1 ∧ P (sector t c x z).2.1 (sector t C X Z).2.1 ∧
      P (sector t c x z).2.2 (sector t C X Z).2.2 := by
  unfold sector
  split_ifs <;> exact ⟨by assumption, by assumption, by assumption⟩

/-- The components of a colour as numbers. -/
def Color.channels : Color → Option (Int × Int × Int)
  | .rgb r g b _ => some (r, g, b)
  | .hsl .. => none

/-- C14: the components are bytes, for every hue, and the alpha is kept. -/
theorem C14_hsl_range {fp : FP} (L : fp.Laws) (h s l : Num) (a : PyNum)
    (s0 : 0 ≤ s.val) (s1 : s.val ≤ 1) (l0 : 0 ≤ l.val) (l1 : l.val ≤ 1) :
    ∃ r g b : Int, (Color.hsl h s l a).toRgb fp = .rgb r g b a ∧
      (0 ≤ r ∧ r ≤ 255) ∧ (0 ≤ g ∧ g ≤ 255) ∧ (0 ≤ b ∧ b ≤ 255) := by
  obtain ⟨c, x, m, e, hc, hx, hm⟩ := hslChannels_sector fp h s l
  rw [toFloat_small L s0 (by linarith), toFloat_small L l0 (by linarith)] at hc
  rw [toFloat_small L l0 (by linarith)] at hm
  obtain ⟨E1, E2, E3⟩ := channel_errors L s.val l.val _ s0 s1 l0 l1 c x m hc hx hm
  obtain ⟨C0, C1, M0, CM, M1⟩ := chroma_range s0 s1 l0 l1
  obtain ⟨T0, T1⟩ := tri_range (fp.rnd (h.toFloat fp / 60))
  have CT0 := mul_nonneg C0 T0
  have CT1 : chroma s.val l.val * tri (fp.rnd (h.toFloat fp / 60)) ≤ chroma s.val l.val :=
    mul_le_of_le_one_right C0 T1
  have B := sector_forall (P := fun v V => |v - V| ≤ 17 * eps ∧ 0 ≤ V ∧ V ≤ 1)
    (fp.rnd (h.toFloat fp / 60)) (fp.rnd (c + m)) (fp.rnd (x + m)) m _ _ _
    ⟨E2, by linarith, by linarith⟩ ⟨E3, by linarith, by linarith⟩ ⟨E1, by linarith, by linarith⟩
  rw [← e] at B
  obtain ⟨⟨a1, a2, a3⟩, ⟨b1, b2, b3⟩, ⟨c1, c2, c3⟩⟩ := B
  exact ⟨_, _, _, rfl, (byte_error L a1 a2 a3).2, (byte_error L b1 b2 b3).2, (byte_error L c1 c2 c3).2⟩

/-- C14: without saturation the colour is a grey. -/
theorem C14_hsl_grey {fp : FP} (L : fp.Laws) (h s l : Num) (a : PyNum) (hs : s.val = 0) :
    ∃ v : Int, (Color.hsl h s l a).toRgb fp = .rgb v v v a := by
  obtain ⟨c, x, m, e, hc, hx, hm⟩ := hslChannels_sector fp h s l
  have hs' : s.toFloat fp = 0 := by
    rw [toFloat_small L (by linarith) (by linarith)]; exact hs
  have c0 : c = 0 := by rw [hc, hs', mul_zero, L.zero]
  have x0 : x = 0 := by rw [hx, c0, zero_mul, L.zero]
  have mm : fp.rnd m = m := by rw [hm]; exact L.idem _
  rw [c0, x0, zero_add, mm] at e
  have e' : hslChannels fp h s l = (m, m, m) := by
    rw [e]; unfold sector; split_ifs <;> rfl
  refine ⟨pyRound (fp.rnd (m * 255)), ?_⟩
  simp only [Color.toRgb, e']

/-- The hue sector the code gets wrong. -/
def badHue (h : Rat) : Prop := 240 < h ∧ h < 300

/-- C14. Full statement: for every hue from 0 to 360 the components are 255 times the CSS values,
rounded (to within half a unit and the rounding error of the computation). What is missing: the hues
between 240 and 300, for which it is false (`C14_false_sector`). -/
theorem C14_hsl_accurate_partial {fp : FP} (L : fp.Laws) (h s l : Num) (a : PyNum)
    (h0 : 0 ≤ h.val) (h1 : h.val ≤ 360) (hb : ¬ badHue h.val)
    (s0 : 0 ≤ s.val) (s1 : s.val ≤ 1) (l0 : 0 ≤ l.val) (l1 : l.val ≤ 1) :
    ∃ r g b : Int, (Color.hsl h s l a).toRgb fp = .rgb r g b a ∧
      |(r : Rat) - 255 * (cssHsl (h.val / 360) s.val l.val).1| ≤ 1 / 2 + 1 / 2 ^ 39 ∧
      |(g : Rat) - 255 * (cssHsl (h.val / 360) s.val l.val).2.1| ≤ 1 / 2 + 1 / 2 ^ 39 ∧
      |(b : Rat) - 255 * (cssHsl (h.val / 360) s.val l.val).2.2| ≤ 1 / 2 + 1 / 2 ^ 39 := by
  obtain ⟨c, x, m, e, hc, hx, hm⟩ := hslChannels_sector fp h s l
  rw [toFloat_small L s0 (by linarith), toFloat_small L l0 (by linarith)] at hc
  rw [toFloat_small L l0 (by linarith)] at hm
  rw [toFloat_small L h0 h1] at hx e
  obtain ⟨E1, E2, E3⟩ := channel_errors L s.val l.val _ s0 s1 l0 l1 c x m hc hx hm
  obtain ⟨C0, C1, M0, CM, M1⟩ := chroma_range s0 s1 l0 l1
  have rint : ∀ n : Int, n.natAbs ≤ 6 → fp.rnd (n : Rat) = n := fun n hn => L.small n (by omega)
  have t0 : 0 ≤ fp.rnd (h.val / 60) := L.nonneg (by linarith)
  have t6 : fp.rnd (h.val / 60) ≤ 6 := by
    have := L.mono (h.val / 60) ((6 : Int) : Rat) (by push_cast; linarith)
    rwa [rint 6 (by decide)] at this
  have tb : ¬ (4 < fp.rnd (h.val / 60) ∧ fp.rnd (h.val / 60) < 5) := by
    rintro ⟨u1, u2⟩
    by_cases q : h.val ≤ 240
    · have := L.mono (h.val / 60) ((4 : Int) : Rat) (by push_cast; linarith)
      rw [rint 4 (by decide)] at this
      push_cast at this
      linarith
    · have q' : 300 ≤ h.val := by
        by_contra q'
        exact hb ⟨by linarith, by linarith⟩
      have := L.mono ((5 : Int) : Rat) (h.val / 60) (by push_cast; linarith)
      rw [rint 5 (by decide)] at this
      push_cast at this
      linarith
  have tlip : |fp.rnd (h.val / 60) - h.val / 60| ≤ 3 * eps := by
    have : |h.val / 60| ≤ 6 := by rw [abs_of_nonneg (by linarith)]; linarith
    refine le_trans (L.err_le this (by norm_num)) ?_
    norm_num [eps]
  have ecss := cssHsl_eq (h.val / 60) s.val l.val (by linarith) (by linarith)
  rw [show h.val / 60 / 6 = h.val / 360 by ring] at ecss
  obtain ⟨T0, T1⟩ := tri_range (fp.rnd (h.val / 60))
  have CT0 := mul_nonneg C0 T0
  have CT1 : chroma s.val l.val * tri (fp.rnd (h.val / 60)) ≤ chroma s.val l.val :=
    mul_le_of_le_one_right C0 T1
  have B := sector_forall (P := fun v V => |v - V| ≤ 17 * eps ∧ 0 ≤ V ∧ V ≤ 1)
    (fp.rnd (h.val / 60)) (fp.rnd (c + m)) (fp.rnd (x + m)) m _ _ _
    ⟨E2, by linarith, by linarith⟩ ⟨E3, by linarith, by linarith⟩ ⟨E1, by linarith, by linarith⟩
  rw [← e, sector_affine, sector_shares _ t0 t6 tb] at B
  obtain ⟨⟨a1, a2, a3⟩, ⟨b1, b2, b3⟩, ⟨c1, c2, c3⟩⟩ := B
  have fin : ∀ (v : Rat) (f : Rat → Rat), (∀ t u, |f t - f u| ≤ |t - u|) →
      |v - (f (fp.rnd (h.val / 60)) * chroma s.val l.val + offset s.val l.val)| ≤ 17 * eps →
      0 ≤ f (fp.rnd (h.val / 60)) * chroma s.val l.val + offset s.val l.val →
      f (fp.rnd (h.val / 60)) * chroma s.val l.val + offset s.val l.val ≤ 1 →
      |(pyRound (fp.rnd (v * 255)) : Rat)
        - 255 * (offset s.val l.val + chroma s.val l.val * f (h.val / 60))| ≤ 1 / 2 + 1 / 2 ^ 39 := by
    intro v f lip d1 d2 d3
    have k1 := abs_le.1 (byte_error L d1 d2 d3).1
    have k2 : |(f (fp.rnd (h.val / 60)) - f (h.val / 60)) * chroma s.val l.val| ≤ 3 * eps * 1 := by
      rw [abs_mul, abs_of_nonneg C0]
      exact mul_le_mul (le_trans (lip _ _) tlip) C1 C0 (by have := eps_pos; linarith)
    have k3 := abs_le.1 k2
    have big : 5000 * eps + 255 * (3 * eps) ≤ 1 / 2 ^ 39 := by norm_num [eps]
    rw [abs_le]
    constructor <;> nlinarith [k1.1, k1.2, k3.1, k3.2]
  rw [ecss]
  exact ⟨_, _, _, rfl, fin _ redShare redShare_lip a1 a2 a3, fin _ (share 2) (share_lip 2) b1 b2 b3,
    fin _ (share 4) (share_lip 4) c1 c2 c3⟩

/-- C14 in exact arithmetic: the components are the CSS values times 255, rounded half to even. Same
missing hues as `C14_hsl_accurate_partial`. -/
theorem C14_hsl_exact_partial {fp : FP} (X : fp.Exact) (h s l : Num) (a : PyNum)
    (h0 : 0 ≤ h.val) (h1 : h.val ≤ 360) (hb : ¬ badHue h.val) :
    (Color.hsl h s l a).toRgb fp = .rgb
      (pyRound ((cssHsl (h.val / 360) s.val l.val).1 * 255))
      (pyRound ((cssHsl (h.val / 360) s.val l.val).2.1 * 255))
      (pyRound ((cssHsl (h.val / 360) s.val l.val).2.2 * 255)) a := by
  have tf : ∀ n : Num, n.toFloat fp = n.val := by
    intro n; cases n with
    | int i => exact X _
    | flt q => rfl
  obtain ⟨c, x, m, e, hc, hx, hm⟩ := hslChannels_sector fp h s l
  have X' : ∀ q, fp.rnd q = q := X
  simp only [tf, X', ratAbs_eq] at e hc hx hm
  have hc' : c = chroma s.val l.val := hc
  have hx' : x = chroma s.val l.val * tri (h.val / 60) := by rw [hx, hc']; rfl
  have hm' : m = offset s.val l.val := by rw [hm, hc']; unfold offset; ring
  have ecss := cssHsl_eq (h.val / 60) s.val l.val (by linarith) (by linarith)
  rw [show h.val / 60 / 6 = h.val / 360 by ring] at ecss
  rw [hc', hx', hm', sector_affine, sector_shares _ (by linarith) (by linarith)
    (fun ⟨u, w⟩ => hb ⟨by linarith, by linarith⟩)] at e
  simp only [Color.toRgb, e, X', ecss]
  congr 2 <;> ring

/-- C14 is false in the sector between 240 and 300 degrees: `hsl(270, 100%, 50%)`, the violet
`rgb(128, 0, 255)`, converts to the azure `rgb(0, 128, 255)`. -/
theorem C14_false_sector {fp : FP} (L : fp.Laws) (a : PyNum) :
    (Color.hsl (.int 270) (.flt 1) (.flt (1 / 2)) a).toRgb fp = .rgb 0 128 255 a ∧
      cssHsl (270 / 360) 1 (1 / 2) = (1 / 2, 0, 1) := by
  constructor
  · have i : ∀ n : Int, n.natAbs ≤ 1000 → fp.rnd (n : Rat) = n := fun n hn => L.small n (by omega)
    have r0 : fp.rnd 0 = 0 := L.zero
    have r1 : fp.rnd 1 = 1 := L.one
    have r270 : fp.rnd 270 = 270 := by have := i 270 (by decide); simpa using this
    have r255 : fp.rnd 255 = 255 := by have := i 255 (by decide); simpa using this
    have half : ∀ n : Int, n.natAbs ≤ 1000 → fp.rnd ((n : Rat) / 2) = n / 2 := by
      intro n hn
      have := L.two ((n : Rat) / 2) (by
        by_cases h : n = 0
        · left; simp [h, L.zero]
        · right
          have : (1 : Rat) ≤ |(n : Rat)| := by rw [← Int.cast_abs]; exact_mod_cast Int.one_le_abs h
          rw [abs_div, abs_of_pos (by norm_num : (0 : Rat) < 2), le_div_iff₀ (by norm_num)]
          exact le_trans (by norm_num) this)
      rw [show 2 * ((n : Rat) / 2) = n by ring, i n hn] at this
      linarith
    have h9 : fp.rnd (9 / 2) = 9 / 2 := by have := half 9 (by decide); simpa using this
    have hh : fp.rnd (1 / 2) = 1 / 2 := by have := half 1 (by decide); simpa using this
    have hm : fp.rnd (-(1 / 2)) = -(1 / 2) := by rw [L.odd, hh]
    have h255 : fp.rnd (255 / 2) = 255 / 2 := by have := half 255 (by decide); simpa using this
    have fm : fmod2 (9 / 2) = 1 / 2 := by
      rw [fmod2_of (9 / 2) 2 (by norm_num) (by norm_num)]; norm_num
    have e : hslChannels fp (.int 270) (.flt 1) (.flt (1 / 2)) = (0, 1 / 2, 1) := by
      simp only [hslChannels, Num.toFloat, ratAbs_eq]
      norm_num [r0, r1, r270, h9, hh, hm, fm]
    have p1 : pyRound 0 = 0 := pyRound_int 0
    have p2 : pyRound 255 = 255 := pyRound_int 255
    have p3 : pyRound (255 / 2) = 128 := by decide +kernel
    simp only [Color.toRgb, e]
    norm_num [r0, r255, h255, p1, p2, p3]
  · norm_num [cssHsl, cssHue]

/-- A sample meeting the hypotheses of C14: a light orange. -/
example : ∃ r g b : Int, (Color.hsl (.int 30) (.flt (3 / 4)) (.flt (5 / 8)) (.fin (.flt 1))).toRgb .b64
      = .rgb r g b (.fin (.flt 1)) ∧
    |(r : Rat) - 255 * (cssHsl ((30 : Int) / 360) (3 / 4) (5 / 8)).1| ≤ 1 / 2 + 1 / 2 ^ 39 := by
  obtain ⟨r, g, b, h, h1, _⟩ := C14_hsl_accurate_partial b64_laws (.int 30) (.flt (3 / 4)) (.flt (5 / 8))
    (.fin (.flt 1)) (by norm_num) (by norm_num) (by norm_num [badHue]) (by norm_num) (by norm_num)
    (by norm_num) (by norm_num)
  exact ⟨r, g, b, h, h1⟩

example : cssHsl (30 / 360) (3 / 4) (5 / 8) = (29 / 32, 5 / 8, 11 / 32) := by
  norm_num [cssHsl, cssHue]

end Colosseum
