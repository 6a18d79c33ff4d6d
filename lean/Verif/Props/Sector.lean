import Verif.Props.Hsl

/-!
# C14: what `hsl.rgb` gives in the sector it gets wrong
-/

namespace Colosseum

theorem sector_swapped (t : Rat) (h4 : 4 ≤ t) (h5 : t < 5) : sector t 1 (tri t) 0 = (share 2 t, redShare t, share 4 t) := by
  unfold sector tri
  rw [if_neg (by linarith), if_neg (by linarith), if_neg (by linarith), if_neg (by linarith), if_pos h5, fmod2_of t 2 (by push_cast; linarith) (by push_cast; linarith)]
  push_cast
  unfold redShare share
  rw [abs_of_nonneg (show 0 ≤ t - 3 by linarith), abs_of_nonneg (show 0 ≤ t - 2 by linarith), abs_of_nonneg (show 0 ≤ t - 4 by linarith),
    abs_of_nonpos (by linarith), clamp01_low (by linarith), clamp01_mid (by linarith) (by linarith), clamp01_high (by linarith)]
  ring_nf

/-- C14 in the sector in which it is false: for hues from 240 to 299 degrees the red and the green component are exchanged, and there is no other error. -/
theorem C14_swapped {fp : FP} (L : fp.Laws) (h s l : Num) (a : PyNum)
    (h0 : 240 ≤ h.val) (h1 : h.val ≤ 299)
    (s0 : 0 ≤ s.val) (s1 : s.val ≤ 1) (l0 : 0 ≤ l.val) (l1 : l.val ≤ 1) :
    ∃ r g b : Int, (Color.hsl h s l a).toRgb fp = .rgb r g b a ∧
      |(r : Rat) - 255 * (cssHsl (h.val / 360) s.val l.val).2.1| ≤ 1 / 2 + 1 / 2 ^ 39 ∧
      |(g : Rat) - 255 * (cssHsl (h.val / 360) s.val l.val).1| ≤ 1 / 2 + 1 / 2 ^ 39 ∧
      |(b : Rat) - 255 * (cssHsl (h.val / 360) s.val l.val).2.2| ≤ 1 / 2 + 1 / 2 ^ 39 := by
  obtain ⟨c, x, m, e, hc, hx, hm⟩ := hslChannels_sector fp h s l
  rw [toFloat_small L s0 (by linarith), toFloat_small L l0 (by linarith)] at hc
  rw [toFloat_small L l0 (by linarith)] at hm
  rw [toFloat_small L (by linarith) (by linarith)] at hx e
  obtain ⟨E1, E2, E3⟩ := channel_errors L s.val l.val _ s0 s1 l0 l1 c x m hc hx hm
  obtain ⟨C0, C1, M0, CM, M1⟩ := chroma_range s0 s1 l0 l1
  have rint : ∀ n : Int, n.natAbs ≤ 6 → fp.rnd (n : Rat) = n := fun n hn => L.small n (by omega)
  have t4 : 4 ≤ fp.rnd (h.val / 60) := by
    have := L.mono ((4 : Int) : Rat) (h.val / 60) (by push_cast; linarith)
    rw [rint 4 (by decide)] at this
    exact_mod_cast this
  have tlip : |fp.rnd (h.val / 60) - h.val / 60| ≤ 3 * eps := by
    have : |h.val / 60| ≤ 6 := by rw [abs_of_nonneg (by linarith)]; linarith
    refine le_trans (L.err_le this (by norm_num)) ?_
    norm_num [eps]
  have t5 : fp.rnd (h.val / 60) < 5 := by
    have h1 := (abs_le.1 tlip).2
    have : 3 * eps < 1 / 60 := by norm_num [eps]
    linarith
  have ecss := cssHsl_eq (h.val / 60) s.val l.val (by linarith) (by linarith)
  rw [show h.val / 60 / 6 = h.val / 360 by ring] at ecss
  obtain ⟨T0, T1⟩ := tri_range (fp.rnd (h.val / 60))
  have CT0 := mul_nonneg C0 T0
  have CT1 : chroma s.val l.val * tri (fp.rnd (h.val / 60)) ≤ chroma s.val l.val :=
    mul_le_of_le_one_right C0 T1
  have B := sector_forall (P := fun v V => |v - V| ≤ 17 * eps ∧ 0 ≤ V ∧ V ≤ 1)
    (fp.rnd (h.val / 60)) (fp.rnd (c + m)) (fp.rnd (x + m)) m _ _ _
    ⟨E2, by linarith, by linarith⟩ ⟨E3, by linarith, by linarith⟩ ⟨E1, by linarith, by linarith⟩
  rw [← e, sector_affine, sector_swapped _ t4 t5] at B
  obtain ⟨⟨a1, a2, a3⟩, ⟨b1, b2, b3⟩, ⟨c1, c2, c3⟩⟩ := B
  have fin : ∀ (v : Rat) (f : Rat → Rat), (∀ t u, |f t - f u| ≤ |t - u|) →
      |v - (f (fp.rnd (h.val / 60)) * chroma s.val l.val + offset s.val l.val)| ≤ 17 * eps →
      0 ≤ f (fp.rnd (h.val / 60)) * chroma s.val l.val + offset s.val l.val →
      f (fp.rnd (h.val / 60)) * chroma s.val l.val + offset s.val l.val ≤ 1 →
      |(pyRound (fp.rnd (v * 255)) : Rat)
        - 255 * (offset s.val l.val + chroma s.val l.val * f (h.val / 60))| ≤ 1 / 2 + 1 / 2 ^ 39 := by
    intro v f lip d1 d2 d3
    have k1 := abs_le.1 (byte_error L d1 d2 d3).1
    have k2 : |(f (fp.rnd (h.val / 60)) - f (h.val / 60)) * chroma s.val l.val| ≤ 3 * eps * 1 := by
      rw [abs_mul, abs_of_nonneg C0]
      exact mul_le_mul (le_trans (lip _ _) tlip) C1 C0 (by have := eps_pos; linarith)
    have k3 := abs_le.1 k2
    have big : 5000 * eps + 255 * (3 * eps) ≤ 1 / 2 ^ 39 := by norm_num [eps]
    rw [abs_le]
    constructor <;> nlinarith [k1.1, k1.2, k3.1, k3.2]
  rw [ecss]
  exact ⟨_, _, _, rfl, fin _ (share 2) (share_lip 2) a1 a2 a3, fin _ redShare redShare_lip b1 b2 b3,
    fin _ (share 4) (share_lip 4) c1 c2 c3⟩

/-- C14 in exact arithmetic in the whole sector in which it is false: red and green are exchanged. -/
theorem C14_swapped_exact {fp : FP} (X : fp.Exact) (h s l : Num) (a : PyNum)
    (hb : badHue h.val) :
    (Color.hsl h s l a).toRgb fp = .rgb
      (pyRound ((cssHsl (h.val / 360) s.val l.val).2.1 * 255))
      (pyRound ((cssHsl (h.val / 360) s.val l.val).1 * 255))
      (pyRound ((cssHsl (h.val / 360) s.val l.val).2.2 * 255)) a := by
  obtain ⟨h0, h1⟩ := hb
  have tf : ∀ n : Num, n.toFloat fp = n.val := by
    intro n; cases n with
    | int i => exact X _
    | flt q => rfl
  obtain ⟨c, x, m, e, hc, hx, hm⟩ := hslChannels_sector fp h s l
  have X' : ∀ q, fp.rnd q = q := X
  simp only [tf, X', ratAbs_eq] at e hc hx hm
  have hc' : c = chroma s.val l.val := hc
  have hx' : x = chroma s.val l.val * tri (h.val / 60) := by rw [hx, hc']; rfl
  have hm' : m = offset s.val l.val := by rw [hm, hc']; unfold offset; ring
  have ecss := cssHsl_eq (h.val / 60) s.val l.val (by linarith) (by linarith)
  rw [show h.val / 60 / 6 = h.val / 360 by ring] at ecss
  rw [hc', hx', hm', sector_affine, sector_swapped _ (by linarith) (by linarith)] at e
  simp only [Color.toRgb, e, X', ecss]
  congr 2 <;> ring

/-- A sample: a purple. -/
example : ∃ r g b : Int, (Color.hsl (.int 280) (.flt (3 / 4)) (.flt (5 / 8)) (.fin (.flt 1))).toRgb .b64 = .rgb r g b (.fin (.flt 1)) ∧
    |(r : Rat) - 255 * (cssHsl ((280 : Int) / 360) (3 / 4) (5 / 8)).2.1| ≤ 1 / 2 + 1 / 2 ^ 39 := by
  obtain ⟨r, g, b, h, h1, _⟩ := C14_swapped b64_laws (.int 280) (.flt (3 / 4)) (.flt (5 / 8)) (.fin (.flt 1)) (by norm_num) (by norm_num) (by norm_num) (by norm_num)
    (by norm_num) (by norm_num)
  exact ⟨r, g, b, h, by simpa using h1⟩

end Colosseum
