import Verif.Spec.Mild
import Verif.Lemmas.Grid
import Verif.Lemmas.Edges
import Verif.Lemmas.Erase
import Verif.Props.Limits

/-!
# Documents of moderate size stay moderate

Bounds are in layout units.
-/

namespace Colosseum

/-! ## Numbers -/

/-- A whole number of layout units, at most `m` of them. -/
def Near (fp : FP) (m : Nat) (x : Num) : Prop := fp.Laws ∧ ∃ n : Int, x.val = (n : Rat) / 64 ∧ n.natAbs ≤ m

theorem Near.fits {fp : FP} {m : Nat} {x : Num} (h : Near fp m x) : Fits fp m x := Or.inr h

theorem Near.mono {fp : FP} {m k : Nat} {a : Num} (h : Near fp m a) (hk : m ≤ k) : Near fp k a := by
  obtain ⟨L, n, hn, hm⟩ := h
  exact ⟨L, n, hn, hm.trans hk⟩

theorem Near.of_val {fp : FP} {m : Nat} {a b : Num} (h : Near fp m a) (e : b.val = a.val) : Near fp m b := by
  obtain ⟨L, n, hn, hm⟩ := h
  exact ⟨L, n, e.trans hn, hm⟩

theorem Near.add {fp : FP} {a b : Num} {m k : Nat} (ha : Near fp m a) (hb : Near fp k b) (h : m + k ≤ 2 ^ 53) :
    (a.add fp b).val = a.val + b.val ∧ Near fp (m + k) (a.add fp b) := by
  have e := (ha.fits.add hb.fits h).1
  obtain ⟨L, n, hn, hm⟩ := ha
  obtain ⟨_, j, hj, hk⟩ := hb
  refine ⟨e, L, n + j, ?_, by omega⟩
  rw [e, hn, hj]; push_cast; ring

theorem Near.sub {fp : FP} {a b : Num} {m k : Nat} (ha : Near fp m a) (hb : Near fp k b) (h : m + k ≤ 2 ^ 53) :
    (a.sub fp b).val = a.val - b.val ∧ Near fp (m + k) (a.sub fp b) := by
  have e := (ha.fits.sub hb.fits h).1
  obtain ⟨L, n, hn, hm⟩ := ha
  obtain ⟨_, j, hj, hk⟩ := hb
  refine ⟨e, L, n - j, ?_, by omega⟩
  rw [e, hn, hj]; push_cast; ring

theorem Near.pyMax {fp : FP} {m : Nat} {a b : Num} (ha : Near fp m a) (hb : Near fp m b) : Near fp m (a.pyMax b) := by
  unfold Num.pyMax; split <;> assumption

theorem Near.abs {fp : FP} {q : Nat} {x : Num} (h : Near fp (64 * q) x) : |x.val| ≤ q := by
  obtain ⟨_, n, hn, hm⟩ := h
  rw [hn, abs_div, abs_of_pos (by norm_num : (0 : Rat) < 64), div_le_iff₀ (by norm_num)]
  have h2 : ((n.natAbs : Nat) : Rat) ≤ ((64 * q : Nat) : Rat) := by exact_mod_cast hm
  rw [Nat.cast_natAbs, Int.cast_abs] at h2
  push_cast at h2
  linarith

theorem Num.OnGrid.near {fp : FP} (L : fp.Laws) {x : Num} (h : x.OnGrid) {k : Nat} (hb : |x.val| ≤ (k : Rat)) : Near fp (64 * k) x := by
  obtain ⟨n, hn⟩ := h
  refine ⟨L, n, hn, ?_⟩
  rw [hn, abs_div, abs_of_pos (by norm_num : (0 : Rat) < 64), div_le_iff₀ (by norm_num)] at hb
  have h2 : ((n.natAbs : Nat) : Rat) ≤ ((64 * k : Nat) : Rat) := by
    rw [Nat.cast_natAbs, Int.cast_abs]
    push_cast
    linarith
  exact_mod_cast h2

theorem near_int {fp : FP} (L : fp.Laws) {i : Int} {M : Nat} (h : |(i : Rat)| ≤ M) : Near fp (64 * M) (.int i) :=
  (onGrid_int i).near L (by rw [Num.val_int]; exact h)

theorem near_0 {fp : FP} (L : fp.Laws) (k : Nat) : Near fp k (.int 0) :=
  Near.mono (m := 64 * 0) (near_int L (i := 0) (M := 0) (by simp)) (by simp)

theorem Near.neg {fp : FP} {k : Nat} {x : Num} (h : Near fp k x) : Near fp k x.neg := by
  obtain ⟨L, n, hn, hk⟩ := h
  refine ⟨L, -n, ?_, by omega⟩
  rw [Num.neg_val, hn]; push_cast; ring

theorem Near.pyMin {fp : FP} {k : Nat} {a b : Num} (ha : Near fp k a) (hb : Near fp k b) : Near fp k (a.pyMin b) := by
  unfold Num.pyMin; split <;> assumption

/-- Half of it, rounded down to a whole number of pixels. -/
theorem Near.half {fp : FP} {k : Nat} {a : Num} (h : Near fp k a) (hk : k + 64 ≤ 2 ^ 53) : Near fp (k + 64) (a.floorDiv2 fp) := by
  have e := h.fits.floorDiv2 (by omega)
  rcases h with ⟨L, n, hn, hm⟩
  · refine ⟨L, ⌊a.val / 2⌋ * 64, by rw [e]; push_cast; ring, ?_⟩
    have f1 := Int.floor_le (a.val / 2)
    have f2 := Int.lt_floor_add_one (a.val / 2)
    rw [hn] at f1 f2 ⊢
    have g1 : ((⌊(n : Rat) / 64 / 2⌋ * 128 : Int) : Rat) ≤ (n : Int) := by push_cast; linarith
    have g2 : ((n : Int) : Rat) < ((⌊(n : Rat) / 64 / 2⌋ * 128 + 128 : Int) : Rat) := by push_cast; linarith
    have g1 : ⌊(n : Rat) / 64 / 2⌋ * 128 ≤ n := by exact_mod_cast g1
    have g2 : n < ⌊(n : Rat) / 64 / 2⌋ * 128 + 128 := by exact_mod_cast g2
    generalize ⌊(n : Rat) / 64 / 2⌋ = q at g1 g2 ⊢
    omega

theorem FP.Laws.abs_le {fp : FP} (L : fp.Laws) {q : Rat} {k : Nat} (hk : k ≤ 2 ^ 53) (h : |q| ≤ k) : |fp.rnd q| ≤ k := by
  obtain ⟨h1, h2⟩ := _root_.abs_le.1 h
  have e := L.natCast k hk
  have a := L.mono _ _ h1
  have b := L.mono _ _ h2
  rw [L.odd, e] at a
  rw [e] at b
  exact _root_.abs_le.2 ⟨a, b⟩

/-- A percentage up to 100. -/
theorem share_near {fp : FP} (L : fp.Laws) {v : Val} (hv : v.Share) {d : Display} {f : Font} {s x : Num} {k : Nat} (hs : Near fp k s) (hk : k ≤ 2 ^ 49)
    (h : v.px fp ⟨d, f, some s⟩ = .ok x) : Near fp k x := by
  obtain ⟨_, n, hn, hm⟩ := hs
  obtain ⟨a, rfl, ha⟩ := hv
  obtain ⟨l, hl, rfl⟩ := pxOf_ok (show pxOf fp .percent (.fin a) ⟨d, f, some s⟩ = .ok x from h)
  simp only [luOf] at hl
  rw [luPercent_fin L] at hl
  cases hl
  have hn' : |(n : Rat)| ≤ k := by
    have : ((n.natAbs : Nat) : Rat) ≤ k := by exact_mod_cast hm
    rwa [Nat.cast_natAbs, Int.cast_abs] at this
  have hsf : s.toFloat fp = (n : Rat) / 64 := by
    cases s with
    | int i =>
      show fp.rnd (i : Rat) = _
      rw [show (i : Rat) = (n : Rat) / 64 from hn, L.grid n (by omega)]
    | flt q => exact hn
  have h1 : |fp.rnd (64 * a.val)| ≤ ((6400 : Nat) : Rat) := L.abs_le (by norm_num) (by
    rw [abs_mul, abs_of_pos (by norm_num : (0 : Rat) < 64)]; push_cast; linarith)
  have h2 : |fp.rnd (fp.rnd (64 * a.val) / 100)| ≤ ((64 : Nat) : Rat) := L.abs_le (by norm_num) (by
    rw [abs_div, abs_of_pos (by norm_num : (0 : Rat) < 100)]; push_cast at h1 ⊢; linarith)
  have h3 : |fp.rnd (fp.rnd (fp.rnd (64 * a.val) / 100) * s.toFloat fp)| ≤ (k : Rat) := L.abs_le (by omega) (by
    rw [hsf, abs_mul, abs_div, abs_of_pos (by norm_num : (0 : Rat) < 64)]
    have : |fp.rnd (fp.rnd (64 * a.val) / 100)| * (|(n : Rat)| / 64) ≤ 64 * ((k : Rat) / 64) :=
      mul_le_mul (by exact_mod_cast h2) (by linarith) (by positivity) (by norm_num)
    linarith)
  generalize fp.rnd (fp.rnd (fp.rnd (64 * a.val) / 100) * s.toFloat fp) = z at h3 ⊢
  obtain ⟨z1, z2⟩ := _root_.abs_le.1 h3
  have r1 := pyRound_mono z1
  have r2 := pyRound_mono z2
  rw [show (-(k : Rat)) = ((-(k : Int) : Int) : Rat) by push_cast; ring, pyRound_int] at r1
  rw [show ((k : Nat) : Rat) = ((k : Int) : Rat) by push_cast; ring, pyRound_int] at r2
  refine ⟨L, pyRound z, ?_, by omega⟩
  rw [pxOfLu_val, L.grid _ (by omega)]

theorem Val.Part.share {v : Val} (h : v.Part) : v.Share := by
  obtain ⟨a, rfl, h0, h1⟩ := h
  exact ⟨a, rfl, _root_.abs_le.2 ⟨by linarith, h1⟩⟩

/-- Between zero and another number. -/
def Num.Between (x s : Num) : Prop := 0 ≤ x.val ∧ x.val ≤ s.val ∨ s.val ≤ x.val ∧ x.val ≤ 0

/-- A percentage from 0 to 100. -/
theorem part_between {fp : FP} (L : fp.Laws) {v : Val} (hv : v.Part) {d : Display} {f : Font} {s x : Num} {k : Nat} (hs : Near fp k s) (hk : k ≤ 2 ^ 49)
    (h : v.px fp ⟨d, f, some s⟩ = .ok x) : x.Between s := by
  obtain ⟨_, n, hn, hm⟩ := hs
  obtain ⟨a, rfl, h0, h1⟩ := hv
  obtain ⟨l, hl, rfl⟩ := pxOf_ok (show pxOf fp .percent (.fin a) ⟨d, f, some s⟩ = .ok x from h)
  simp only [luOf] at hl
  rw [luPercent_fin L] at hl
  cases hl
  have hsf : s.toFloat fp = (n : Rat) / 64 := by
    cases s with
    | int i =>
      show fp.rnd (i : Rat) = _
      rw [show (i : Rat) = (n : Rat) / 64 from hn, L.grid n (by omega)]
    | flt q => exact hn
  have small : ∀ i : Int, i.natAbs ≤ 2 ^ 53 → fp.rnd (i : Rat) = i := fun i hi => L.small i hi
  have r0 : fp.rnd 0 = 0 := by have := small 0 (by norm_num); simpa using this
  have a0 : 0 ≤ fp.rnd (64 * a.val) := by
    have := L.mono 0 (64 * a.val) (by linarith)
    rwa [r0] at this
  have a1 : fp.rnd (64 * a.val) ≤ 6400 := by
    have := L.mono (64 * a.val) ((6400 : Int) : Rat) (by push_cast; linarith)
    rwa [small 6400 (by norm_num)] at this
  have b0 : 0 ≤ fp.rnd (fp.rnd (64 * a.val) / 100) := by
    have := L.mono 0 (fp.rnd (64 * a.val) / 100) (by linarith)
    rwa [r0] at this
  have b1 : fp.rnd (fp.rnd (64 * a.val) / 100) ≤ 64 := by
    have := L.mono (fp.rnd (64 * a.val) / 100) ((64 : Int) : Rat) (by push_cast; linarith)
    rwa [small 64 (by norm_num)] at this
  rw [hsf]
  generalize fp.rnd (fp.rnd (64 * a.val) / 100) = c at b0 b1 ⊢
  have hN := small n (by omega)
  unfold Num.Between
  rw [hn, pxOfLu_val]
  have g : ∀ i : Int, i.natAbs ≤ k → fp.rnd ((i : Rat) / 64) = (i : Rat) / 64 := fun i hi => L.grid i (by omega)
  rcases le_total 0 n with hp | hp
  · have hp' : (0 : Rat) ≤ n := by exact_mod_cast hp
    have z0 := L.mono 0 (c * ((n : Rat) / 64)) (by positivity)
    have z1 := L.mono (c * ((n : Rat) / 64)) n (by nlinarith)
    rw [r0] at z0
    rw [hN] at z1
    have y0 := pyRound_mono z0
    have y1 := pyRound_mono z1
    rw [pyRound_int] at y1
    rw [show (0 : Rat) = ((0 : Int) : Rat) by norm_num, pyRound_int] at y0
    rw [g _ (by omega)]
    left
    have y0' : (0 : Rat) ≤ pyRound (fp.rnd (c * ((n : Rat) / 64))) := by exact_mod_cast y0
    have y1' : (pyRound (fp.rnd (c * ((n : Rat) / 64))) : Rat) ≤ n := by exact_mod_cast y1
    exact ⟨by positivity, by linarith⟩
  · have hp' : (n : Rat) ≤ 0 := by exact_mod_cast hp
    have z0 := L.mono (c * ((n : Rat) / 64)) 0 (by nlinarith)
    have z1 := L.mono n (c * ((n : Rat) / 64)) (by nlinarith)
    rw [r0] at z0
    rw [hN] at z1
    have y0 := pyRound_mono z0
    have y1 := pyRound_mono z1
    rw [pyRound_int] at y1
    rw [show (0 : Rat) = ((0 : Int) : Rat) by norm_num, pyRound_int] at y0
    rw [g _ (by omega)]
    right
    have y0' : (pyRound (fp.rnd (c * ((n : Rat) / 64))) : Rat) ≤ 0 := by exact_mod_cast y0
    have y1' : (n : Rat) ≤ pyRound (fp.rnd (c * ((n : Rat) / 64))) := by exact_mod_cast y1
    exact ⟨by linarith, by linarith⟩

theorem mild_px {fp : FP} (L : fp.Laws) {v : Val} {d : Display} {M : Nat} (hv : v.Mild fp d M) {s : Option Num} {x : Num}
    (h : v.px fp ⟨d, dummyFont fp, s⟩ = .ok x) : Near fp (64 * M) x := by
  refine (px_onGrid L h).near L ?_
  cases v with
  | unit u =>
    obtain ⟨h1, h2⟩ := hv u rfl
    refine h2 x ?_
    rw [← h]
    obtain ⟨k, val⟩ := u
    cases k with
    | ang => rfl
    | len k => cases k <;> first | rfl | exact absurd rfl h1
  | _ => cases h

theorem mild_size {fp : FP} (L : fp.Laws) {v : Val} {d : Display} {M : Nat} (hd : d.Mild M) (hv : v.Mild fp d M) {s : Option Num} {x : Num}
    (h : calculateSize fp v ⟨d, dummyFont fp, s⟩ = .ok (.num x)) : Near fp (64 * M) x := by
  unfold calculateSize at h
  split at h
  · cases h
  split at h
  · cases h; exact hd.grid.2.2.1.near L hd.border.1
  split at h
  · cases h; exact hd.grid.2.2.2.1.near L hd.border.2.1
  split at h
  · cases h; exact hd.grid.2.2.2.2.near L hd.border.2.2
  split at h
  · cases h; exact near_0 L _
  · cases hp : v.px fp ⟨d, dummyFont fp, s⟩ with
    | error e => rw [hp] at h; cases h
    | ok y => rw [hp] at h; cases h; exact mild_px L hv hp

theorem mild_edge {fp : FP} (L : fp.Laws) {v : Val} {d : Display} {M : Nat} (hd : d.Mild M) (hv : v.Mild fp d M) {s : Option Num} {x : Num}
    (h : calculateEdge fp v ⟨d, dummyFont fp, s⟩ = .ok x) : Near fp (64 * M) x := by
  unfold calculateEdge at h
  obtain ⟨m, h1, h⟩ := bind_eq_ok.1 h
  cases m with
  | auto => cases h
  | num y => cases h; exact mild_size L hd hv h1

/-! ## Boxes -/

theorem Near.subSum {fp : FP} {ms : List Nat} {xs : List Num} (h : List.Forall₂ (fun m x => Near fp m x) ms xs) : ∀ {k : Nat} {a : Num}, Near fp k a →
    k + ms.sum ≤ 2 ^ 53 → Near fp (k + ms.sum) (Colosseum.subAll fp a xs) := by
  induction h with
  | nil => intro k a ha _; exact ha
  | @cons m x ms xs hx _ ih =>
    intro k a ha hk
    rw [List.sum_cons] at hk
    rw [List.sum_cons, ← Nat.add_assoc]
    exact ih (ha.sub hx (by omega)).2 (by omega)

theorem Near.addSum {fp : FP} {ms : List Nat} {xs : List Num} (h : List.Forall₂ (fun m x => Near fp m x) ms xs) : ∀ {k : Nat} {a : Num}, Near fp k a →
    k + ms.sum ≤ 2 ^ 53 → Near fp (k + ms.sum) (Colosseum.addAll fp a xs) := by
  induction h with
  | nil => intro k a ha _; exact ha
  | @cons m x ms xs hx _ ih =>
    intro k a ha hk
    rw [List.sum_cons] at hk
    rw [List.sum_cons, ← Nat.add_assoc]
    exact ih (ha.add hx (by omega)).2 (by omega)

/-- Bounds on the measures of a box, the origins left out: `K` for what is specified, `W` for the width, `L` for the left position and the horizontal
margins, `H` for the height, `T` for the vertical position. -/
structure Box.Small (fp : FP) (K W L H T : Nat) (b : Box) : Prop where
  width : ∀ x, b.contentWidth = some x → Colosseum.Near fp W x
  left : Colosseum.Near fp L b.h.content
  sides : ∀ t, t = .left ∨ t = .right → ∀ x, b.margin.get t = .num x → Colosseum.Near fp L x
  height : ∀ x, b.contentHeight = some x → Colosseum.Near fp H x
  top : Colosseum.Near fp T b.v.content
  ends : ∀ t, t = .top ∨ t = .bottom → ∀ x, b.margin.get t = .num x → Colosseum.Near fp K x
  border : ∀ t, Colosseum.Near fp K (b.border.get t)
  padding : ∀ t, Colosseum.Near fp K (b.padding.get t)
  collapse : ∀ t, t = .top ∨ t = .bottom → Colosseum.Near fp K (.int (b.collapse.get t))
  walls : ∀ t, t = .left ∨ t = .right → Colosseum.Near fp L (.int (b.collapse.get t))

theorem Box.Small.mono {fp : FP} {K W L H T W' L' H' T' : Nat} {b : Box} (h : b.Small fp K W L H T) (h1 : W ≤ W') (h2 : L ≤ L') (h3 : H ≤ H') (h4 : T ≤ T') :
    b.Small fp K W' L' H' T' :=
  ⟨fun x hx => (h.1 x hx).mono h1, h.2.mono h2, fun t ht x hx => (h.3 t ht x hx).mono h2, fun x hx => (h.4 x hx).mono h3, h.5.mono h4, h.6, h.7, h.8, h.9,
    fun t ht => (h.10 t ht).mono h2⟩

theorem small_noOrigin {fp : FP} {K W L H T : Nat} {b b' : Box} (e : b.noOrigin = b'.noOrigin) (h : b.Small fp K W L H T) : b'.Small fp K W L H T := by
  have e1 := same_width e
  have e2 := same_height e
  have e3 := same_left e
  have e4 := same_top e
  have e5 := same_margin e
  have e6 := same_border e
  have e7 := same_padding e
  have e8 := same_collapse e
  obtain ⟨h1, h2, h3, h4, h5, h6, h7, h8, h9, h10⟩ := h
  rw [e1] at h1; rw [e3] at h2; rw [e5] at h3 h6; rw [e2] at h4; rw [e4] at h5; rw [e6] at h7; rw [e7] at h8; rw [e8] at h9 h10
  exact ⟨h1, h2, h3, h4, h5, h6, h7, h8, h9, h10⟩

theorem fresh_small {fp : FP} (L : fp.Laws) (K W Lf H T : Nat) : Box.fresh.Small fp K W Lf H T where
  width x h := by cases h; exact near_0 L _
  left := near_0 L _
  sides t _ x h := by cases t <;> cases h <;> exact near_0 L _
  height x h := by cases h; exact near_0 L _
  top := near_0 L _
  ends t _ x h := by cases t <;> cases h <;> exact near_0 L _
  border t := by cases t <;> exact near_0 L _
  padding t := by cases t <;> exact near_0 L _
  collapse t _ := by cases t <;> exact near_0 L _
  walls t _ := by cases t <;> exact near_0 L _

/-- Only the collapsed margins change, to a value that fits. -/
theorem setCollapse_small {fp : FP} {K W L H T : Nat} {b : Box} (h : b.Small fp K W L H T) (t : Side) {x : MVal}
    (hw : t = .left ∨ t = .right → ∀ y, x = .num y → Near fp L y) (hx : t = .top ∨ t = .bottom → ∀ y, x = .num y → Near fp K y) : (b.setCollapse t x).Small fp K W L H T := by
  unfold Box.setCollapse
  split
  · rename_i i
    split
    · refine ⟨h.1, h.2, h.3, h.4, h.5, h.6, h.7, h.8, fun u hu => ?_, fun u hu => ?_⟩
      · show Near fp K (.int ((b.collapse.set t i).get u))
        rw [get_set]
        split
        · rename_i e
          subst e
          exact hx hu _ rfl
        · exact h.9 u hu
      · show Near fp L (.int ((b.collapse.set t i).get u))
        rw [get_set]
        split
        · rename_i e
          subst e
          exact hw hu _ rfl
        · exact h.10 u hu
    · exact h
  · exact h

theorem setMargin_small {fp : FP} {K W L H T : Nat} {b : Box} (h : b.Small fp K W L H T) (t : Side) {x : MVal}
    (h1 : t = .left ∨ t = .right → ∀ y, x = .num y → Near fp L y) (h2 : t = .top ∨ t = .bottom → ∀ y, x = .num y → Near fp K y) :
    (b.setMargin t x).Small fp K W L H T := by
  unfold Box.setMargin
  split
  · exact h
  · refine setCollapse_small (b := { b with margin := b.margin.set t x }) ⟨h.1, h.2, fun u hu y hy => ?_, h.4, h.5, fun u hu y hy => ?_, h.7, h.8, h.9, h.10⟩ t h1 h2
    · replace hy : (b.margin.set t x).get u = .num y := hy
      rw [get_set] at hy
      split at hy
      · rename_i e; subst e; exact h1 hu y hy
      · exact h.sides u hu y hy
    · replace hy : (b.margin.set t x).get u = .num y := hy
      rw [get_set] at hy
      split at hy
      · rename_i e; subst e; exact h2 hu y hy
      · exact h.ends u hu y hy

theorem autoZero_small {fp : FP} (hl : fp.Laws) {K W L H T : Nat} {b : Box} (h : b.Small fp K W L H T) (t : Side) : (autoMarginToZero b t).Small fp K W L H T := by
  unfold autoMarginToZero
  split
  · exact setMargin_small h t (fun _ y hy => by cases hy; exact near_0 hl _) (fun _ y hy => by cases hy; exact near_0 hl _)
  · exact h

theorem withWidth_small {fp : FP} {K W L H T W' : Nat} {b : Box} (h : b.Small fp K W L H T) {w : Option Num} (hw : ∀ x, w = some x → Near fp W' x) :
    ({ b with contentWidth := w } : Box).Small fp K W' L H T := ⟨hw, h.2, h.3, h.4, h.5, h.6, h.7, h.8, h.9, h.10⟩

theorem withHeight_small {fp : FP} {K W L H T H' : Nat} {b : Box} (h : b.Small fp K W L H T) {w : Option Num} (hw : ∀ x, w = some x → Near fp H' x) :
    ({ b with contentHeight := w } : Box).Small fp K W L H' T := ⟨h.1, h.2, h.3, hw, h.5, h.6, h.7, h.8, h.9, h.10⟩

theorem setContent_small_h {fp : FP} {K W L H T L' : Nat} {b : Box} (h : b.Small fp K W L H T) (hl : L ≤ L') {v : Num} (hv : Near fp L' v) (cs : List Node) :
    (setContent fp .h v b cs).1.Small fp K W L' H T := by
  unfold setContent
  split
  · exact h.mono le_rfl hl le_rfl le_rfl
  · exact ⟨h.1, hv, fun t ht x hx => (h.3 t ht x hx).mono hl, h.4, h.5, h.6, h.7, h.8, h.9, fun t ht => (h.10 t ht).mono hl⟩

theorem setContent_small_v {fp : FP} {K W L H T T' : Nat} {b : Box} (h : b.Small fp K W L H T) {v : Num} (hv : Near fp T' v) (cs : List Node) :
    (setContent fp .v v b cs).1.Small fp K W L H T' := by
  unfold setContent
  split
  · rename_i he
    refine ⟨h.1, h.2, h.3, h.4, hv.of_val ?_, h.6, h.7, h.8, h.9, h.10⟩
    have he : (v.val == b.v.content.val) = true := he
    exact (beq_iff_eq.1 he).symm
  · exact ⟨h.1, h.2, h.3, h.4, hv, h.6, h.7, h.8, h.9, h.10⟩

theorem Box.Small.num {fp : FP} {K W L H T : Nat} {b : Box} (h : b.Small fp K W L H T) (t : Side) {x : Num} (hx : (b.margin.get t).toNum = .ok x) :
    (t = .left ∨ t = .right → Colosseum.Near fp L x) ∧ (t = .top ∨ t = .bottom → Colosseum.Near fp K x) := by
  cases hm : b.margin.get t with
  | auto => rw [hm] at hx; cases hx
  | num y => rw [hm] at hx; cases hx; exact ⟨fun ht => h.sides t ht _ hm, fun ht => h.ends t ht _ hm⟩

/-! ## The phases of a layout -/

/-- A number is near, or a part of the width of the container. -/
def Slack (fp : FP) (S K : Nat) (w : Option Num) (x : Num) : Prop := Near fp K x ∨ Near fp S x ∧ ∃ s, w = some s ∧ x.Between s

theorem Slack.near {fp : FP} {S K : Nat} {w : Option Num} {x : Num} (h : Slack fp S K w x) (hS : K ≤ S) : Near fp S x := h.elim (fun h => h.mono hS) fun h => h.1

/-- The horizontal margins have a property. -/
def Box.Beside (P : Num → Prop) (b : Box) : Prop := ∀ t, t = .left ∨ t = .right → ∀ x, b.margin.get t = .num x → P x

theorem setMargin_beside {P : Num → Prop} {b : Box} (h : b.Beside P) (t : Side) {x : MVal} (hx : t = .left ∨ t = .right → ∀ y, x = .num y → P y) : (b.setMargin t x).Beside P := by
  intro u hu y hy
  unfold Box.setMargin at hy
  split at hy
  · exact h u hu y hy
  · have e : ((({ b with margin := b.margin.set t x } : Box).setCollapse t x).margin) = b.margin.set t x := by
      unfold Box.setCollapse
      split <;> [split; skip] <;> rfl
    rw [e, get_set] at hy
    split at hy
    · rename_i e; subst e; exact hx hu y hy
    · exact h u hu y hy

theorem autoZero_beside {P : Num → Prop} {b : Box} (h : b.Beside P) (h0 : P (.int 0)) (t : Side) : (autoMarginToZero b t).Beside P := by
  unfold autoMarginToZero
  split
  · exact setMargin_beside h t fun _ y hy => by cases hy; exact h0
  · exact h

theorem Near.tight {fp : FP} {k q : Nat} {x : Num} (h : Near fp k x) (hq : |x.val| ≤ (q : Rat) / 64) : Near fp q x := by
  obtain ⟨L, n, hn, _⟩ := h
  refine ⟨L, n, hn, ?_⟩
  rw [hn, abs_div, abs_of_pos (by norm_num : (0 : Rat) < 64)] at hq
  have : |(n : Rat)| ≤ q := by linarith
  rw [← Int.cast_abs, ← Nat.cast_natAbs] at this
  exact_mod_cast this

theorem Near.lu {fp : FP} {k : Nat} {x : Num} (h : Near fp k x) : -((k : Rat) / 64) ≤ x.val ∧ x.val ≤ (k : Rat) / 64 := by
  obtain ⟨L, n, hn, hk⟩ := h
  rw [hn]
  have h1 : (n : Rat) ≤ k := by exact_mod_cast (by omega : n ≤ (k : Int))
  have h2 : -(k : Rat) ≤ n := by exact_mod_cast (by omega : -(k : Int) ≤ n)
  constructor <;> linarith

/-- What is left of the width of the container besides a margin. -/
theorem slack_one {fp : FP} {S K : Nat} {s x : Num} (hs : Near fp S s) (hx : Slack fp S K (some s) x) :
    -(((S + K : Nat) : Rat) / 64) ≤ s.val - x.val ∧ s.val - x.val ≤ ((S + K : Nat) : Rat) / 64 := by
  obtain ⟨s1, s2⟩ := hs.lu
  have hk : (0 : Rat) ≤ K := by positivity
  push_cast
  rcases hx with hx | ⟨_, s', e, hb⟩
  · obtain ⟨x1, x2⟩ := hx.lu
    constructor <;> linarith
  · cases e
    rcases hb with ⟨b1, b2⟩ | ⟨b1, b2⟩ <;> constructor <;> linarith

/-- What is left of the width of the container besides two margins. -/
theorem slack_two {fp : FP} {S K : Nat} {s x y : Num} (hs : Near fp S s) (hx : Slack fp S K (some s) x) (hy : Slack fp S K (some s) y) :
    -(((S + 2 * K : Nat) : Rat) / 64) ≤ s.val - x.val - y.val ∧ s.val - x.val - y.val ≤ ((S + 2 * K : Nat) : Rat) / 64 := by
  obtain ⟨s1, s2⟩ := hs.lu
  have hk : (0 : Rat) ≤ K := by positivity
  have h1 := slack_one hs hx
  have h2 := slack_one hs hy
  push_cast at h1 h2 ⊢
  rcases hx with hx | ⟨_, s', e, hb⟩
  · obtain ⟨x1, x2⟩ := hx.lu
    constructor <;> linarith
  · cases e
    rcases hy with hy | ⟨_, s', e, hc⟩
    · obtain ⟨y1, y2⟩ := hy.lu
      constructor <;> linarith
    · cases e
      rcases hb with ⟨b1, b2⟩ | ⟨b1, b2⟩ <;> rcases hc with ⟨c1, c2⟩ | ⟨c1, c2⟩ <;> constructor <;> linarith

theorem part_size {fp : FP} (L : fp.Laws) {v : Val} {d : Display} {M S : Nat} (hd : d.Mild M) {B : Prop} (hv : v.Mild fp d M ∨ B ∧ v.Part) {w : Option Num}
    (hw : ∀ y, w = some y → Near fp S y) (hk : S ≤ 2 ^ 49) {x : Num} (h : calculateSize fp v ⟨d, dummyFont fp, w⟩ = .ok (.num x)) :
    Slack fp S (64 * M) w x := by
  rcases hv with hv | ⟨_, hv⟩
  · exact .inl (mild_size L hd hv h)
  · have hp : v.px fp ⟨d, dummyFont fp, w⟩ = .ok x := by
      obtain ⟨a, rfl, _⟩ := hv
      unfold calculateSize at h
      rw [if_neg (by simp [Val.isKw, Val.pyEq, kw]), if_neg (by simp [Val.isKw, Val.pyEq, kw]), if_neg (by simp [Val.isKw, Val.pyEq, kw]),
        if_neg (by simp [Val.isKw, Val.pyEq, kw]), if_neg (by simp [Val.pyEq, Val.isNone])] at h
      cases hp : (Val.unit ⟨.len .percent, .fin a⟩).px fp ⟨d, dummyFont fp, w⟩ with
      | error e => rw [hp] at h; cases h
      | ok y => rw [hp] at h; cases h; rfl
    cases w with
    | none =>
      obtain ⟨a, rfl, _⟩ := hv
      cases hp
    | some s => exact .inr ⟨share_near L hv.share (hw s rfl) hk hp, s, rfl, part_between L hv (hw s rfl) hk hp⟩

theorem copyEdges_small {fp : FP} (hl : fp.Laws) {n : Node} {d : Display} {M : Nat} (hd : d.Mild M) (hn : n.Mild fp d M) {w v : Option Num} {b b' : Box} {W H T S : Nat}
    (hw : ∀ y, w = some y → Near fp S y) (hS : 64 * M ≤ S) (hk : S ≤ 2 ^ 49)
    (hb : b.Small fp (64 * M) W (64 * M) H T) (h : copyEdges fp n.style ⟨d, dummyFont fp, w⟩ ⟨d, dummyFont fp, v⟩ b = .ok b') :
    b'.Small fp (64 * M) W S H T ∧ b'.Beside (Slack fp S (64 * M) w) := by
  unfold copyEdges at h
  obtain ⟨mt, h1, h⟩ := bind_eq_ok.1 h
  obtain ⟨mr, h2, h⟩ := bind_eq_ok.1 h
  obtain ⟨mb, h3, h⟩ := bind_eq_ok.1 h
  obtain ⟨ml, h4, h⟩ := bind_eq_ok.1 h
  obtain ⟨bt, h5, h⟩ := bind_eq_ok.1 h
  obtain ⟨br, h6, h⟩ := bind_eq_ok.1 h
  obtain ⟨bb, h7, h⟩ := bind_eq_ok.1 h
  obtain ⟨bl, h8, h⟩ := bind_eq_ok.1 h
  obtain ⟨pt, h9, h⟩ := bind_eq_ok.1 h
  obtain ⟨pr, h10, h⟩ := bind_eq_ok.1 h
  obtain ⟨pb, h11, h⟩ := bind_eq_ok.1 h
  obtain ⟨pl, h12, h⟩ := bind_eq_ok.1 h
  rw [← Except.ok.inj h]
  have k1 : ∀ y, mt = .num y → Near fp (64 * M) y := fun y e => by subst e; exact mild_size hl hd ((hn.margin _).resolve_right (by rintro ⟨e | e, _⟩ <;> cases e)) h1
  have k2 : ∀ y, mr = .num y → Slack fp S (64 * M) w y := fun y e => by subst e; exact part_size hl hd (hn.margin _) hw hk h2
  have k3 : ∀ y, mb = .num y → Near fp (64 * M) y := fun y e => by subst e; exact mild_size hl hd ((hn.margin _).resolve_right (by rintro ⟨e | e, _⟩ <;> cases e)) h3
  have k4 : ∀ y, ml = .num y → Slack fp S (64 * M) w y := fun y e => by subst e; exact part_size hl hd (hn.margin _) hw hk h4
  have g := setMargin_small (setMargin_small (setMargin_small (setMargin_small (hb.mono le_rfl hS le_rfl le_rfl) .top (fun e => absurd e (by simp)) fun _ => k1) .right
    (fun _ y e => (k2 y e).near hS) fun e => absurd e (by simp)) .bottom (fun e => absurd e (by simp)) fun _ => k3) .left (fun _ y e => (k4 y e).near hS) fun e => absurd e (by simp)
  have g' := setMargin_beside (setMargin_beside (setMargin_beside (setMargin_beside (P := Slack fp S (64 * M) w) (fun t ht x hx => .inl (hb.sides t ht x hx)) .top
    (x := mt) fun e => absurd e (by simp)) .right fun _ => k2) .bottom (x := mb) fun e => absurd e (by simp)) .left fun _ => k4
  refine ⟨⟨g.1, g.2, g.3, g.4, g.5, g.6, ?_, ?_, g.9, g.10⟩, g'⟩
  · intro t; cases t
    · exact mild_edge hl hd (hn.border _) h5
    · exact mild_edge hl hd (hn.border _) h6
    · exact mild_edge hl hd (hn.border _) h7
    · exact mild_edge hl hd (hn.border _) h8
  · intro t; cases t
    · exact mild_edge hl hd (hn.padding _) h9
    · exact mild_edge hl hd (hn.padding _) h10
    · exact mild_edge hl hd (hn.padding _) h11
    · exact mild_edge hl hd (hn.padding _) h12

theorem placeLeft_small {fp : FP} {K W L H T : Nat} {b b' : Box} {cs cs' : List Node} (h : b.Small fp K W L H T) (hk : L + 2 * K ≤ 2 ^ 53)
    (hp : placeLeft fp b cs = .ok (b', cs')) : b'.Small fp K W (L + 2 * K) H T := by
  unfold placeLeft at hp
  obtain ⟨ml, h1, hp⟩ := bind_eq_ok.1 hp
  rw [(ok_pair hp).1]
  refine setContent_small_h h (by omega) ?_ cs
  refine (Near.addSum (ms := [K, K]) (.cons (h.border .left) (.cons (h.padding .left) .nil)) ((h.num .left h1).1 (Or.inl rfl)) ?_).mono ?_
  · simp only [List.sum_cons, List.sum_nil]; omega
  · simp only [List.sum_cons, List.sum_nil]; omega

theorem placeTop_small {fp : FP} {K W L H T : Nat} {b b' : Box} {cs cs' : List Node} (h : b.Small fp K W L H T) (hk : T + 3 * K ≤ 2 ^ 53)
    (hp : placeTopInline fp b cs = .ok (b', cs')) : b'.Small fp K W L H (T + 3 * K) := by
  unfold placeTopInline at hp
  obtain ⟨mt, h1, hp⟩ := bind_eq_ok.1 hp
  rw [(ok_pair hp).1]
  refine setContent_small_v h ?_ cs
  have e := Near.addSum (ms := [K, K]) (.cons (h.border .top) (.cons (h.padding .top) .nil)) ((h.num .top h1).2 (Or.inl rfl))
    (by simp only [List.sum_cons, List.sum_nil]; omega)
  simp only [List.sum_cons, List.sum_nil] at e
  exact (h.top.add e (by omega)).2.mono (by omega)

theorem wide_px {fp : FP} (hl : fp.Laws) {d : Display} {M S : Nat} {B : Prop} {v : Val} (hv : v.Mild fp d M ∨ B ∧ v.Share) {w : Option Num}
    (hw : ∀ y, w = some y → Near fp S y) (hS : 64 * M ≤ S) (hk : S ≤ 2 ^ 49) {x : Num} (h : v.px fp ⟨d, dummyFont fp, w⟩ = .ok x) : Near fp S x := by
  rcases hv with hv | ⟨_, hv⟩
  · exact (mild_px hl hv h).mono hS
  · cases w with
    | none =>
      obtain ⟨a, rfl, _⟩ := hv
      cases h
    | some s => exact share_near hl hv (hw s rfl) hk h

theorem clampedWidth_small {fp : FP} (hl : fp.Laws) {n : Node} {d : Display} {M S : Nat} (hn : n.Mild fp d M) {w : Option Num}
    (hw : ∀ y, w = some y → Near fp S y) (hS : 64 * M ≤ S) (hk : S ≤ 2 ^ 49) {x : Num} (h : clampedWidth fp n.style ⟨d, dummyFont fp, w⟩ = .ok x) :
    Near fp S x := by
  unfold clampedWidth at h
  obtain ⟨w0, h0, h⟩ := bind_eq_ok.1 h
  have g0 := wide_px hl (hn.width .width (Or.inl rfl)) hw hS hk h0
  have key : ∀ (q : Bool) (a b : Num), Near fp S a → Near fp S b → Near fp S (if q = true then a else b) := by
    intro q a b ha hb
    split <;> assumption
  simp only at h
  split at h
  · rw [pure_bind] at h
    split at h
    · cases h; exact g0
    · obtain ⟨m, hm, h⟩ := bind_eq_ok.1 h
      cases h
      exact key _ _ _ (wide_px hl (hn.width .minWidth (Or.inr (Or.inl rfl))) hw hS hk hm) g0
  · obtain ⟨m, hm, h⟩ := bind_eq_ok.1 h
    have gm := wide_px hl (hn.width .maxWidth (Or.inr (Or.inr rfl))) hw hS hk hm
    rw [pure_bind] at h
    have g1 : Near fp S (if m.pyLt w0 = true then m else w0) := key _ _ _ gm g0
    split at h
    · cases h; exact g1
    · obtain ⟨k, hk', h⟩ := bind_eq_ok.1 h
      cases h
      exact key _ _ _ (wide_px hl (hn.width .minWidth (Or.inr (Or.inl rfl))) hw hS hk hk') g1

theorem solveMargins_small {fp : FP} (hl : fp.Laws) {s : CSS} {size w : Num} {b : Box} {K S W H T : Nat} (hs : Near fp S size) (hw : Near fp S w)
    (hb : b.Small fp K W S H T) (hm : b.Beside (Slack fp S K (some size))) (hKS : K ≤ S) (hS : S ≤ 2 ^ 49) (hk : 2 * S + 6 * K + 64 ≤ 2 ^ 53) (h64 : 64 ≤ K) : (solveMargins fp s size w b).Small fp K W (2 * S + 6 * K) H T := by
  unfold solveMargins
  extract_lets total c
  have hc : c.Small fp K W S H T := by
    show Box.Small fp K W S H T (if _ then _ else _)
    split
    · exact autoZero_small hl (autoZero_small hl hb _) _
    · exact hb
  have hcm : c.Beside (Slack fp S K (some size)) := by
    show Box.Beside _ (if _ then _ else _)
    split
    · exact autoZero_beside (autoZero_beside hm (.inl (near_0 hl _)) _) (.inl (near_0 hl _)) _
    · exact hm
  have four : ∀ y, Slack fp S K (some size) y → ∀ zs : List Num, zs.Perm [c.border.left, c.padding.left, w, c.padding.right, c.border.right, y] →
      Near fp (2 * S + 6 * K) (subAll fp size zs) := by
    intro y hy zs hz
    have hyS := hy.near hKS
    obtain ⟨e, _⟩ := Fits.subAll zs (m := S) hs.fits (fun x hx => by
      have hx := hz.mem_iff.1 hx
      simp only [List.mem_cons, List.not_mem_nil, or_false] at hx
      rcases hx with rfl | rfl | rfl | rfl | rfl | rfl
      · exact ((hc.border .left).mono hKS).fits
      · exact ((hc.padding .left).mono hKS).fits
      · exact hw.fits
      · exact ((hc.padding .right).mono hKS).fits
      · exact ((hc.border .right).mono hKS).fits
      · exact hyS.fits) (by rw [hz.length_eq]; simp; omega)
    have grid : ∀ {k : Nat} {x : Num}, Near fp k x → x.OnGrid := fun h => by
      obtain ⟨_, n, hn, _⟩ := h
      exact ⟨n, hn⟩
    obtain ⟨n, hn⟩ := Num.OnGrid.subAll hl zs (grid hs) (fun x hx => by
      have hx := hz.mem_iff.1 hx
      simp only [List.mem_cons, List.not_mem_nil, or_false] at hx
      rcases hx with rfl | rfl | rfl | rfl | rfl | rfl
      exacts [grid (hc.border .left), grid (hc.padding .left), grid hw, grid (hc.padding .right), grid (hc.border .right), grid hyS])
    refine Near.tight (k := n.natAbs) ⟨hl, n, hn, le_rfl⟩ ?_
    rw [e, (hz.map Num.val).sum_eq]
    obtain ⟨y1, y2⟩ := slack_one hs hy
    obtain ⟨a1, a2⟩ := (show Near fp K c.border.left from hc.border .left).lu
    obtain ⟨b1, b2⟩ := (show Near fp K c.padding.left from hc.padding .left).lu
    obtain ⟨d1, d2⟩ := hw.lu
    obtain ⟨e1, e2⟩ := (show Near fp K c.padding.right from hc.padding .right).lu
    obtain ⟨f1, f2⟩ := (show Near fp K c.border.right from hc.border .right).lu
    have hK : (0 : Rat) ≤ K := by positivity
    simp only [List.map_cons, List.map_nil, List.sum_cons, List.sum_nil]
    push_cast at y1 y2 ⊢
    exact _root_.abs_le.2 ⟨by linarith, by linarith⟩
  have hc' : c.Small fp K W (2 * S + 6 * K) H T := hc.mono le_rfl (by omega) le_rfl le_rfl
  have nv : ∀ t : Side, t = .left ∨ t = .right → ¬ (t = .top ∨ t = .bottom) := by rintro t (rfl | rfl) <;> decide
  have put : ∀ {c : Box} {t : Side} {y : Num}, c.Small fp K W (2 * S + 6 * K) H T → t = .left ∨ t = .right → Near fp (2 * S + 6 * K) y →
      (c.setMargin t (.num y)).Small fp K W (2 * S + 6 * K) H T := by
    intro c t y hc ht hy
    exact setMargin_small hc t (fun _ z e => by cases e; exact hy) fun h => absurd h (nv t ht)
  split
  · rename_i ml mr h1 h2
    split
    · exact put hc' (Or.inr rfl) (four ml (hcm .left (Or.inl rfl) _ h1) _ (List.perm_append_comm (l₁ := [_])))
    · exact put hc' (Or.inl rfl) (four mr (hcm .right (Or.inr rfl) _ h2) _ (.refl _))
  · rename_i mr h1 h2
    exact put hc' (Or.inl rfl) (four mr (hcm .right (Or.inr rfl) _ h2) _ (.refl _))
  · rename_i ml h1 h2
    exact put hc' (Or.inr rfl) (four ml (hcm .left (Or.inl rfl) _ h1) _ (List.perm_append_comm (l₁ := [_])))
  · have e := Near.subSum (ms := [K, K, S, K, K]) (.cons (hc.border .left) (.cons (hc.padding .left) (.cons hw (.cons (hc.padding .right)
      (.cons (hc.border .right) .nil))))) hs (by simp only [List.sum_cons, List.sum_nil]; omega)
    simp only [List.sum_cons, List.sum_nil] at e
    have e2 := (e.half (by omega)).mono (k := 2 * S + 6 * K) (by omega)
    exact put (put hc' (Or.inl rfl) e2) (Or.inr rfl) e2

theorem intrinsic_near {fp : FP} (hl : fp.Laws) {n : Node} {d : Display} {M : Nat} (hn : n.Mild fp d M) :
    (∀ x, n.intrinsic.width = some x → Near fp (64 * M) x) ∧ ∀ x, n.intrinsic.height = some x → Near fp (64 * M) x :=
  ⟨fun x hx => (hn.grid.1 x hx).near hl (hn.content.1 x hx), fun x hx => (hn.grid.2.1 x hx).near hl (hn.content.2 x hx)⟩

theorem near_lit {fp : FP} (hl : fp.Laws) {i : Int} {M : Nat} (h : |(i : Rat)| ≤ 300) (hM : 300 ≤ M) : Near fp (64 * M) (.int i) :=
  (near_int hl (M := 300) (by exact_mod_cast h)).mono (by omega)

theorem toNum_num {x : MVal} {y : Num} (h : x.toNum = .ok y) : x = .num y := by
  cases x with
  | auto => cases h
  | num z => cases h; rfl

/-- An automatic width. -/
theorem auto_near {fp : FP} {S K : Nat} {size ml mr bl pl pr br : Num} (hs : Near fp S size) (h1 : Slack fp S K (some size) ml) (h2 : Slack fp S K (some size) mr)
    (h3 : Near fp K bl) (h4 : Near fp K pl) (h5 : Near fp K pr) (h6 : Near fp K br) (hKS : K ≤ S) (hS : S ≤ 2 ^ 49) :
    Near fp (S + 6 * K) (subAll fp size [ml, bl, pl, pr, br, mr]) := by
  have n := Near.subSum (ms := [S, K, K, K, K, S]) (.cons (h1.near hKS) (.cons h3 (.cons h4 (.cons h5 (.cons h6 (.cons (h2.near hKS) .nil)))))) hs
    (by simp only [List.sum_cons, List.sum_nil]; omega)
  obtain ⟨e, _⟩ := Fits.subAll [ml, bl, pl, pr, br, mr] (m := S) hs.fits (fun x hx => by
    simp only [List.mem_cons, List.not_mem_nil, or_false] at hx
    rcases hx with rfl | rfl | rfl | rfl | rfl | rfl
    · exact (h1.near hKS).fits
    · exact (h3.mono hKS).fits
    · exact (h4.mono hKS).fits
    · exact (h5.mono hKS).fits
    · exact (h6.mono hKS).fits
    · exact (h2.near hKS).fits) (by simp; omega)
  refine n.tight ?_
  rw [e]
  obtain ⟨y1, y2⟩ := slack_two hs h1 h2
  obtain ⟨a1, a2⟩ := h3.lu
  obtain ⟨b1, b2⟩ := h4.lu
  obtain ⟨e1, e2⟩ := h5.lu
  obtain ⟨f1, f2⟩ := h6.lu
  have hK : (0 : Rat) ≤ K := by positivity
  simp only [List.map_cons, List.map_nil, List.sum_cons, List.sum_nil]
  push_cast at y1 y2 ⊢
  exact _root_.abs_le.2 ⟨by linarith, by linarith⟩

/-- The width found for an element, and its horizontal position. -/
theorem width_small {fp : FP} (hl : fp.Laws) {s : CSS} {z : Intrinsic} {l : Option Box} {ks : List Node} {d : Display} {M S : Nat}
    (hn : (Node.mk s z l ks).Mild fp d M) (hM : 300 ≤ M) {w : Option Num}
    (hw : ∀ y, w = some y → Near fp S y) (hS : 64 * M ≤ S) (hk : S + 6 * (64 * M) ≤ 2 ^ 49) {b b' : Box} {cs cs' : List Node} {H T : Nat}
    (hb : b.Small fp (64 * M) (64 * M) S H T) (hm : b.Beside (Slack fp S (64 * M) w)) (h : widthAndMargins fp s z ⟨d, dummyFont fp, w⟩ b cs = .ok (b', cs')) :
    b'.Small fp (64 * M) (if isInline s = true then 64 * M else S + 6 * (64 * M)) (2 * S + 8 * (64 * M)) H T := by
  have hi := intrinsic_near hl hn
  unfold widthAndMargins at h
  split at h
  · cases h
  split at h
  · cases h
  have h0 := autoZero_small hl (autoZero_small hl hb .left) .right
  have h0m := autoZero_beside (autoZero_beside hm (.inl (near_0 hl _)) .left) (.inl (near_0 hl _)) .right
  split at h
  · rename_i hin
    rw [if_pos hin]
    have hnb : ¬ (Node.mk s z l ks).BlockLevel := fun hb => by
      have this : isInline s = false := block_not_inline ((blockLevel_iff (.mk s z l ks)).2 hb)
      rw [hin] at this; cases this
    split at h
    · unfold inlineReplacedWidth at h
      simp only at h
      obtain ⟨x, hx, h⟩ := bind_eq_ok.1 h
      refine (placeLeft_small (withWidth_small h0 (w := some x) (W' := 64 * M) fun y hy => ?_) (by omega) h).mono le_rfl (by omega) le_rfl le_rfl
      cases hy
      unfold inlineReplacedContentWidth at hx
      have hr : z.ratio = none := hn.grid.2.2
      rw [hr] at hx
      have h300 : Near fp (64 * M) (.int 300) := near_lit hl (by norm_num) hM
      split at hx
      · split at hx
        · split at hx
          · rename_i w' hq; cases hx; exact hi.1 _ hq
          · rename_i hq; cases hq
          · rename_i hq; cases hq
          · cases hx; exact h300
        · split at hx
          · rename_i hq; cases hx; exact hi.1 _ hq
          · cases hx; exact h300
      · rcases hn.width .width (Or.inl rfl) with hv | ⟨hv, _⟩
        · exact mild_px hl hv hx
        · exact absurd hv hnb
    · cases h
      exact (withWidth_small h0 (W' := 64 * M) hi.1).mono le_rfl (by omega) le_rfl le_rfl
  split at h
  · rename_i hin _
    rw [if_neg hin]
    split at h
    · cases h
    · unfold blockWidth at h
      split at h
      · simp only at h
        obtain ⟨size, hs, h⟩ := bind_eq_ok.1 h
        obtain ⟨ml, h1, h⟩ := bind_eq_ok.1 h
        obtain ⟨mr, h2, h⟩ := bind_eq_ok.1 h
        refine (placeLeft_small (withWidth_small h0 (w := some _) (W' := S + 6 * (64 * M)) fun y hy => ?_) (by omega) h).mono le_rfl (by omega) le_rfl le_rfl
        cases hy
        have hw' := need_ok hs
        subst hw'
        exact auto_near (hw _ rfl) (h0m .left (Or.inl rfl) ml (toNum_num h1)) (h0m .right (Or.inr rfl) mr (toNum_num h2)) (h0.border .left) (h0.padding .left)
          (h0.padding .right) (h0.border .right) hS (by omega)
      · obtain ⟨x, hx, h⟩ := bind_eq_ok.1 h
        obtain ⟨size, hs, h⟩ := bind_eq_ok.1 h
        simp only at h
        have gx := clampedWidth_small hl (n := .mk s z l ks) hn hw hS (by omega) hx
        have hw' := need_ok hs
        subst hw'
        have gm := solveMargins_small hl (s := s) (hw _ rfl) gx hb hm hS (by omega) (by omega) (by omega)
        refine (placeLeft_small (withWidth_small gm (w := some x) (W' := S + 6 * (64 * M)) fun y hy => ?_) (by omega) h).mono le_rfl (by omega) le_rfl le_rfl
        cases hy
        exact gx.mono (by omega)
  · split at h <;> cases h

theorem bottom_near {fp : FP} {K W L H T : Nat} {b : Box} (hb : b.Small fp K W L H T) (hk : T + H + 2 * K ≤ 2 ^ 53) {x : Num}
    (h : b.borderBoxBottom fp = some x) : Near fp (T + H + 2 * K) x := by
  unfold Box.borderBoxBottom at h
  obtain ⟨w, hw, rfl⟩ := Option.map_eq_some_iff.1 h
  exact (((hb.top.add (hb.height _ hw) (by omega)).2.add (hb.padding .bottom) (by omega)).2.add (hb.border .bottom) (by omega)).2.mono (by omega)

theorem borderHeight_near {fp : FP} {K W L H T : Nat} {b : Box} (hb : b.Small fp K W L H T) (hk : H + 4 * K ≤ 2 ^ 53) {x : Num}
    (h : b.borderBoxHeight fp = some x) : Near fp (H + 4 * K) x := by
  unfold Box.borderBoxHeight at h
  obtain ⟨w, hw, rfl⟩ := Option.map_eq_some_iff.1 h
  exact (((((hb.border .top).add (hb.padding .top) (by omega)).2.add (hb.height _ hw) (by omega)).2.add (hb.padding .bottom) (by omega)).2.add (hb.border .bottom)
    (by omega)).2.mono (by omega)

theorem explicitHeight_small {fp : FP} (hl : fp.Laws) {n : Node} {d : Display} {M : Nat} (hn : n.Mild fp d M) {parent : Option CSS} {v : Option Num} {x : Num}
    (h : explicitHeight fp n.style parent ⟨d, dummyFont fp, v⟩ = .ok x) : Near fp (64 * M) x := by
  have hh := hn.height .height (Or.inl rfl)
  have key : ∀ {y : Num} {k : Num}, Near fp (64 * M) y → (if (n.style.get .maxHeight).isNone = true then pure y else do
      let m ← (n.style.get .maxHeight).px fp ⟨d, dummyFont fp, v⟩
      pure (if m.pyLt y then m else y)) = .ok k → Near fp (64 * M) k := by
    intro y k hy hk
    split at hk
    · cases hk; exact hy
    · obtain ⟨m, hm, hk⟩ := bind_eq_ok.1 hk
      cases hk
      have := mild_px hl (hn.height .maxHeight (Or.inr (Or.inr rfl))) hm
      split <;> assumption
  unfold explicitHeight at h
  simp only at h
  split at h
  · split at h
    · obtain ⟨y, hy, h⟩ := bind_eq_ok.1 h
      exact key (mild_px hl hh hy) h
    · obtain ⟨ph, _, h⟩ := bind_eq_ok.1 h
      obtain ⟨y, hy, h⟩ := bind_eq_ok.1 h
      exact key (mild_px hl hh hy) h
  · obtain ⟨y, hy, h⟩ := bind_eq_ok.1 h
    exact key (mild_px hl hh hy) h

/-- The height found for an element, and its vertical position: `B` bounds the bottom edge of the last child. -/
theorem height_small {fp : FP} (hl : fp.Laws) {s : CSS} {z : Intrinsic} {l : Option Box} {ks : List Node} {d : Display} {M B : Nat}
    (hn : (Node.mk s z l ks).Mild fp d M) (hM : 300 ≤ M) {parent : Option CSS} {v : Option Num} {b b' : Box} {cs cs' : List Node} {W L H T : Nat}
    (hb : b.Small fp (64 * M) W L H T) (hW : isInline s = true → W ≤ 64 * M)
    (hlast : ∀ c ∈ cs, ∀ lb, c.layout = some lb → (∀ x, lb.borderBoxBottom fp = some x → Near fp B x) ∧ Near fp (64 * M) (.int lb.collapse.bottom))
    (hB : 2 * (64 * M) ≤ B) (hk : T + 3 * (64 * M) ≤ 2 ^ 53) (hk' : B ≤ 2 ^ 53)
    (h : heightAndMargins fp s z parent ⟨d, dummyFont fp, v⟩ b cs = .ok (b', cs')) : b'.Small fp (64 * M) W L B (T + 3 * (64 * M)) := by
  have hi := intrinsic_near hl hn
  unfold heightAndMargins at h
  split at h
  · cases h
  split at h
  · cases h
  have h0 := autoZero_small hl (autoZero_small hl hb .top) .bottom
  split at h
  · rename_i hin
    split at h
    · unfold inlineReplacedHeight at h
      simp only at h
      obtain ⟨w, hw, h⟩ := bind_eq_ok.1 h
      refine placeTop_small (withHeight_small h0 (w := some w) (H' := B) fun y hy => ?_) hk h
      cases hy
      unfold inlineReplacedContentHeight at hw
      have hr : z.ratio = none := hn.grid.2.2
      rw [hr] at hw
      split at hw
      · split at hw
        · rename_i hq; cases hw; exact (hi.2 _ hq).mono (by omega)
        · split at hw
          · rename_i hq; cases hq
          · split at hw
            · exact (hi.2 _ (need_ok hw)).mono (by omega)
            · obtain ⟨y, hy, hw⟩ := bind_eq_ok.1 hw
              cases hw
              have g := (h0.width _ (need_ok hy)).mono (hW hin)
              refine ((g.half (by omega)).mono (k := B) (by omega)).pyMin ?_
              exact (near_lit hl (i := 150) (by norm_num) hM).mono (by omega)
      · exact (mild_px hl (hn.height .height (Or.inl rfl)) hw).mono (by omega)
    · unfold inlineHeight at h
      exact placeTop_small (withHeight_small hb (H' := B) fun y hy => (hi.2 y hy).mono (by omega)) hk h
  split at h
  · split at h
    · cases h
    · unfold blockHeight at h
      obtain ⟨⟨y, b1⟩, h1, h⟩ := bind_eq_ok.1 h
      simp only at h
      rw [(ok_pair h).1]
      have g : Near fp B y ∧ b1.Small fp (64 * M) W L H T := by
        unfold blockContentHeight at h1
        split at h1
        · split at h1
          · rename_i last hq
            split at h1
            · cases h1
            · rename_i lb hlb
              obtain ⟨x, hx, h1⟩ := bind_eq_ok.1 h1
              cases h1
              obtain ⟨k1, k2⟩ := hlast last (List.mem_of_getLast? hq) lb hlb
              exact ⟨k1 _ (need_ok hx), setCollapse_small h0 _ (fun h => by simp at h) fun _ y hy => by cases hy; exact k2⟩
          · split at h1
            · cases h1; exact ⟨near_0 hl _, h0⟩
            · obtain ⟨x, hx, h1⟩ := bind_eq_ok.1 h1
              cases h1
              exact ⟨(mild_px hl (hn.height .minHeight (Or.inr (Or.inl rfl))) hx).mono (by omega), h0⟩
        · obtain ⟨x, hx, h1⟩ := bind_eq_ok.1 h1
          cases h1
          exact ⟨(explicitHeight_small hl hn hx).mono (by omega), h0⟩
      refine setContent_small_v (withHeight_small g.2 (w := some y) (H' := B) fun k hk => by cases hk; exact g.1) ?_ cs
      exact (g.2.top.add ((g.2.border .top).add (g.2.padding .top) (by omega)).2 (by omega)).2.mono (by omega)
  · split at h <;> cases h

theorem offset_small {fp : FP} (hl : fp.Laws) {d : Display} {M : Nat} {cb : CB} {a : Axis} {start stop : Val} {w : Option Num} {x : Num}
    (h1 : start.Mild fp d M ∧ start ≠ kw "inherit") (h2 : stop.Mild fp d M ∧ stop ≠ kw "inherit")
    (h : relativeOffset fp cb a start stop ⟨d, dummyFont fp, w⟩ = .ok x) : Near fp (64 * M) x := by
  unfold relativeOffset at h
  split at h
  · cases h; exact near_0 hl _
  split at h
  · split at h
    · rename_i hq; exact absurd ((isKw_iff stop _).1 hq) h2.2
    · cases hp : stop.px fp ⟨d, dummyFont fp, w⟩ with
      | error e => rw [hp] at h; cases h
      | ok y => rw [hp] at h; cases h; exact (mild_px hl h2.1 hp).neg
  split at h
  · split at h
    · rename_i hq; exact absurd ((isKw_iff start _).1 hq) h1.2
    · exact mild_px hl h1.1 h
  · exact mild_px hl h1.1 h

theorem relative_small {fp : FP} (hl : fp.Laws) {n : Node} {d : Display} {M : Nat} (hn : n.Mild fp d M) {cb : CB} {w v : Option Num} {b b' : Box}
    {cs cs' : List Node} {W L H T : Nat} (hb : b.Small fp (64 * M) W L H T) (h1 : L + 64 * M ≤ 2 ^ 53) (h2 : T + 64 * M ≤ 2 ^ 53)
    (h : applyRelative fp n.style cb ⟨d, dummyFont fp, w⟩ ⟨d, dummyFont fp, v⟩ b cs = .ok (b', cs')) :
    b'.Small fp (64 * M) W (L + 64 * M) H (T + 64 * M) := by
  unfold applyRelative at h
  split at h
  · obtain ⟨dx, hx, h⟩ := bind_eq_ok.1 h
    simp only at h
    obtain ⟨dy, hy, h⟩ := bind_eq_ok.1 h
    rw [(ok_pair h).1]
    have gx := offset_small hl (hn.offset .left (by simp)) (hn.offset .right (by simp)) hx
    have gy := offset_small hl (hn.offset .top (by simp)) (hn.offset .bottom (by simp)) hy
    have g := setContent_small_h hb (L' := L + 64 * M) (by omega) (hb.left.add gx h1).2 cs
    exact setContent_small_v g (g.top.add gy h2).2 _
  · rw [(ok_pair h).1]
    exact hb.mono le_rfl (by omega) le_rfl (by omega)

/-! ## Documents -/

theorem counts_eq (cs : List Node) : Node.count.counts cs = (cs.map Node.count).sum := by
  induction cs with
  | nil => rfl
  | cons c cs ih => rw [Node.count.counts, ih, List.map_cons, List.sum_cons]

theorem count_mk (s : CSS) (z : Intrinsic) (l : Option Box) (cs : List Node) : (Node.mk s z l cs).count = (cs.map Node.count).sum + 1 := by
  rw [Node.count, counts_eq]

theorem count_pos (n : Node) : 0 < n.count := by
  cases n; rw [count_mk]; omega

theorem count_strip (n : Node) : n.strip.count = n.count := by
  induction n using Node.ind with
  | h s z l cs ih =>
    rw [strip_mk, count_mk, count_mk, List.map_map]
    congr 2
    exact List.map_congr_left fun c hc => ih c hc

theorem count_same {n m : Node} (h : n.strip = m.strip) : n.count = m.count := by
  rw [← count_strip n, h, count_strip]

theorem counts_same {cs cs' : List Node} (h : cs'.map Node.noOrigin = cs.map Node.noOrigin) : (cs'.map Node.count).sum = (cs.map Node.count).sum := by
  congr 1
  refine forall₂_map_eq ((forall₂_of_map h).imp fun c c' e => ?_)
  exact count_same (strip_of_noOrigin e)

theorem count_le {cs : List Node} {c : Node} (h : c ∈ cs) : c.count ≤ (cs.map Node.count).sum :=
  List.le_sum_of_mem (List.mem_map.2 ⟨c, h, rfl⟩)

theorem mild_strip {n m : Node} (h : n.strip = m.strip) {fp : FP} {d : Display} {M : Nat} (hn : n.Mild fp d M) : m.Mild fp d M := by
  have e1 : n.style = m.style := by rw [← strip_style, h, strip_style]
  have e2 : n.intrinsic = m.intrinsic := by rw [← strip_intrinsic, h, strip_intrinsic]
  have e3 : n.BlockLevel ↔ m.BlockLevel := by rw [← blockLevel_strip, h, blockLevel_strip]
  obtain ⟨h1, h2, h3, h4, h5, h6, h7, h8⟩ := hn
  rw [e3] at h4
  rw [e1] at h1 h2 h3 h4 h5 h6
  rw [e2] at h7 h8
  exact ⟨h1, h2, h3, h4, h5, h6, h7, h8⟩

/-- Every shown box is small. -/
def AllSmall (fp : FP) (K W L A : Nat) (n : Node) : Prop := ∀ bs b, Shown n bs b → b.Small fp K W L A A

theorem allSmall_some {fp : FP} {K W L A : Nat} {s : CSS} {z : Intrinsic} {b : Box} {cs : List Node} :
    AllSmall fp K W L A (.mk s z (some b) cs) ↔ b.Small fp K W L A A ∧ ∀ c ∈ cs, AllSmall fp K W L A c := by
  constructor
  · intro h
    exact ⟨h _ _ (.here rfl), fun c hc bs b' hb => h _ _ (.step rfl hc hb)⟩
  · rintro ⟨h1, h2⟩ bs b' h
    cases h with
    | here h => cases h; exact h1
    | step h hc hb => exact h2 _ hc _ _ hb

theorem allSmall_noOrigin {fp : FP} {K W L A : Nat} {n m : Node} (e : n.noOrigin = m.noOrigin) (h : AllSmall fp K W L A n) : AllSmall fp K W L A m := by
  intro bs b hb
  obtain ⟨bs', b', h1, h2⟩ := shown_noOrigin hb e.symm
  exact small_noOrigin h2.symm (h _ _ h1)

theorem allSmall_kids {fp : FP} {K W L A : Nat} {cs cs' : List Node} (e : cs'.map Node.noOrigin = cs.map Node.noOrigin) (h : ∀ c ∈ cs, AllSmall fp K W L A c) :
    ∀ c ∈ cs', AllSmall fp K W L A c := by
  intro c hc
  obtain ⟨c0, h0, h1⟩ := noOrigin_mem e hc
  exact allSmall_noOrigin h1.symm (h c0 h0)

theorem AllSmall.mono {fp : FP} {K W L A W' L' A' : Nat} {n : Node} (h : AllSmall fp K W L A n) (h1 : W ≤ W') (h2 : L ≤ L') (h3 : A ≤ A') :
    AllSmall fp K W' L' A' n := fun bs b hb => (h bs b hb).mono h1 h2 h3 h3

/-- Children stacked below each other. -/
theorem Stacked.small {fp : FP} {lay : Box → Node → Res Node} {b b' : Box} {off : Num} {bm : Option Int} {cs cs' : List Node}
    (h : Stacked fp lay b off bm cs b' cs') {K W L H T Wc Lc A : Nat} : ∀ {O : Nat}, b.Small fp K W L H T → Near fp O off →
    (∀ m, bm = some m → Near fp K (.int m)) →
    (∀ b c c', c ∈ cs → b.Small fp K W L H T → lay b c = .ok c' →
      (∀ x, c'.layout = some x → x.Small fp K Wc Lc (16 * (K * c.count) - 5 * K) (7 * K)) ∧ AllSmall fp K Wc Lc A c') →
    O + 16 * (K * (cs.map Node.count).sum) + 8 * K ≤ A → A + 8 * K ≤ 2 ^ 53 →
    b'.Small fp K W L H T ∧ ∀ c ∈ cs', AllSmall fp K Wc Lc A c ∧ ∀ x, c.layout = some x →
      (∀ y, x.borderBoxBottom fp = some y → Near fp (O + 16 * (K * (cs.map Node.count).sum) + 5 * K) y) ∧ Near fp K (.int x.collapse.bottom) := by
  induction h with
  | nil => intro O hb _ _ _ _ _; exact ⟨hb, fun c hc => by cases hc⟩
  | @cons b b1 b2 cb off off1 h bm c s z ks cs cs' h1 h2 h3 _ ih =>
    intro O hb ho hm hl hA hA'
    obtain ⟨g1, g2⟩ := hl _ _ _ List.mem_cons_self hb h1
    have g1 := g1 cb rfl
    rw [allSmall_some] at g2
    have hc : K ≤ K * c.count := Nat.le_mul_of_pos_right K (count_pos c)
    rw [List.map_cons, List.sum_cons, Nat.mul_add] at hA
    rw [List.map_cons, List.sum_cons, Nat.mul_add]
    generalize K * c.count = X at hA hc g1 ⊢
    have ih' := fun O => ih (O := O)
    generalize K * (cs.map Node.count).sum = Y at hA ih' ⊢
    have hb1 : b1.Small fp K W L H T := by
      unfold collapseAbove at h2
      split at h2
      · cases h2
        exact setCollapse_small hb _ (fun h => by simp at h) fun _ y hy => by cases hy; exact g1.collapse .top (Or.inl rfl)
      · obtain ⟨mt, _, h2⟩ := bind_eq_ok.1 h2
        cases h2; exact hb
    have ho1 : Near fp (O + K) off1 := by
      unfold collapseAbove at h2
      split at h2
      · cases h2; exact ho.mono (by omega)
      · rename_i m
        obtain ⟨mt, hmt, h2⟩ := bind_eq_ok.1 h2
        cases h2
        exact (ho.add ((hm m rfl).pyMax ((g1.num .top hmt).2 (Or.inl rfl))) (by omega)).2
    have g3 := setContent_small_v g1 (g1.top.add ho1 (by omega)).2 ks
    obtain ⟨k1, k2⟩ := ih' (O + 16 * X) hb1 ((ho1.add (borderHeight_near g3 (by omega) h3) (by omega)).2.mono (by omega))
      (fun m e => by cases e; exact g1.collapse .bottom (Or.inr rfl)) (fun b c c' hc => hl b c c' (List.mem_cons_of_mem _ hc)) (by omega) hA'
    refine ⟨k1, fun c hc => ?_⟩
    rcases List.mem_cons.1 hc with rfl | hc
    · refine ⟨allSmall_some.2 ⟨g3.mono le_rfl le_rfl (by omega) (by omega), allSmall_kids (setContent_noOrigin ..) g2.2⟩, fun x hx => ?_⟩
      cases hx
      exact ⟨fun y hy => (bottom_near g3 (by omega) hy).mono (by omega), g3.collapse .bottom (Or.inr rfl)⟩
    · obtain ⟨q1, q2⟩ := k2 c hc
      exact ⟨q1, fun x hx => ⟨fun y hy => ((q2 x hx).1 y hy).mono (by omega), (q2 x hx).2⟩⟩

theorem fresh_last {fp : FP} (hl : fp.Laws) {K B : Nat} (hB : 2 * K ≤ B) (hk : B ≤ 2 ^ 53) {x : Box} (hx : x.noOrigin = Box.fresh) :
    (∀ y, x.borderBoxBottom fp = some y → Near fp B y) ∧ Near fp K (.int x.collapse.bottom) := by
  have g : x.Small fp K 0 0 0 0 := small_noOrigin (b := Box.fresh) hx.symm (fresh_small hl _ _ _ _ _)
  exact ⟨fun y hy => (bottom_near g (by omega) hy).mono (by omega), g.collapse .bottom (Or.inr rfl)⟩

theorem pristine_small {fp : FP} (hl : fp.Laws) (K W L A : Nat) {n : Node} (h : Pristine n) : AllSmall fp K W L A n :=
  fun bs b hb => small_noOrigin (b := Box.fresh) (h.2 bs b hb).symm (fresh_small hl _ _ _ _ _)

/-- One element and everything in it. -/
theorem layoutBox_small {fp : FP} (hl : fp.Laws) {d : Display} {M : Nat} (hd : d.Mild M) (hM : 300 ≤ M) (f : Nat) :
    ∀ (ps : Option CSS) (cb : CB) (n n' : Node) (S : Nat), (∀ y, cb.width = some y → Near fp S y) → 64 * M ≤ S → S + 16 * (64 * M * n.count) ≤ 2 ^ 48 →
    Pristine n → (∀ m, Visible m n → m.Mild fp d M) → layoutBox fp d f ps cb n = .ok n' →
    (∀ b, n'.layout = some b → b.Small fp (64 * M) (S + 6 * (64 * M)) (2 * S + 9 * (64 * M)) (16 * (64 * M * n.count) - 5 * (64 * M)) (7 * (64 * M))) ∧
    AllSmall fp (64 * M) (S + 6 * (64 * M * n.count)) (2 * S + 12 * (64 * M * n.count)) (16 * (64 * M * n.count)) n' := by
  induction f with
  | zero => intro p cb n n' S _ _ _ _ _ h; cases h
  | succ f ih =>
    rintro ps cb ⟨s, z, l, cs⟩ n' S hcb hS hk hp hv h
    rcases layoutBox_ok h with ⟨hs, rfl⟩ | ⟨hs, b, cs0, b', cs', hlay, hb, rfl⟩
    · refine ⟨fun b e => (by cases e), fun bs b hb => ?_⟩
      cases hb with
      | here h => cases h
      | step h _ _ => cases h
    · obtain ⟨bx, rfl, hbx⟩ := pristine_box hp hs
      rcases hlay with ⟨e, rfl⟩ | ⟨e, _⟩
      swap
      · cases e
      cases e
      have hn : (Node.mk s z (some b) cs0).Mild fp d M := hv _ (.here hs)
      have hvc : ∀ c ∈ cs0, ∀ c', c.noOrigin = c'.noOrigin → Pristine c' ∧ (∀ m, Visible m c' → m.Mild fp d M) ∧ c'.count = c.count := by
        intro c hc c' e
        refine ⟨pristine_passes.kid hs hp hc e, fun m hm => ?_, (count_same (strip_of_noOrigin e)).symm⟩
        obtain ⟨m', h1, h2⟩ := visible_noOrigin hm e.symm
        exact mild_strip (strip_of_noOrigin h2.symm) (hv m' (.step hs hc h1))
      obtain ⟨b1, b2, cs2, b3, cs3, b4, cs4, b5, cs5, h1, h2, h3, ha, hf, h4, h5, h6⟩ := body_phases hb
      have e2 := (width_steps h2).noOrigin
      have e3 : cs3.map Node.noOrigin = cs0.map Node.noOrigin := by
        unfold relativeHeight at h3
        split at h3
        · rw [(height_steps h3).noOrigin, e2]
        · cases h3; exact e2
      have kids : ∀ c ∈ cs3, Pristine c ∧ (∀ m, Visible m c → m.Mild fp d M) := by
        intro c hc
        obtain ⟨c0, q1, q2⟩ := noOrigin_mem e3 hc
        obtain ⟨q3, q4, _⟩ := hvc c0 q1 c q2.symm
        exact ⟨q3, q4⟩
      have hcount := counts_same e3
      rw [count_mk, Nat.mul_add, Nat.mul_one, ← hcount] at hk ⊢
      have hmem : ∀ c ∈ cs3, 64 * M * c.count ≤ 64 * M * (cs3.map Node.count).sum := fun c hc => Nat.mul_le_mul_left _ (count_le hc)
      have hstk := fun pre : List Node => fun b b' laid => fun (h : Stacked fp (fun b m => layoutBox fp d f (some s) (.box b) m) b (.int 0) none pre b' laid) =>
        Stacked.small h (K := 64 * M) (W := if isInline s = true then 64 * M else S + 6 * (64 * M)) (L := 2 * S + 8 * (64 * M)) (H := 2 * (64 * M)) (T := 3 * (64 * M))
          (Wc := S + 6 * (64 * M * (cs3.map Node.count).sum + 64 * M)) (Lc := 2 * S + 12 * (64 * M * (cs3.map Node.count).sum + 64 * M))
          (A := 16 * (64 * M * (cs3.map Node.count).sum + 64 * M)) (O := 0)
      have hpre : ∀ pre post : List Node, cs3 = pre ++ post → 64 * M * (pre.map Node.count).sum ≤ 64 * M * (cs3.map Node.count).sum := by
        rintro pre post rfl
        refine Nat.mul_le_mul_left _ ?_
        rw [List.map_append, List.sum_append]; omega
      have hpos : ∀ c : Node, 64 * M ≤ 64 * M * c.count := fun c => Nat.le_mul_of_pos_right _ (count_pos c)
      generalize 64 * M * (cs3.map Node.count).sum = Y at hk hmem hstk hpre ⊢
      have g0 : b.Small fp (64 * M) (64 * M) (64 * M) 0 0 := small_noOrigin (b := Box.fresh) hbx.symm (fresh_small hl _ _ _ _ _)
      obtain ⟨g1, g1'⟩ := copyEdges_small hl (n := .mk s z (some b) cs0) hd hn hcb hS (by omega) g0 h1
      have g2 := width_small hl hn hM hcb hS (by omega) g1 g1' h2
      have hW : (if isInline s = true then 64 * M else S + 6 * (64 * M)) ≤ S + 6 * (64 * M) := by split <;> omega
      have hWi : isInline s = true → (if isInline s = true then 64 * M else S + 6 * (64 * M)) ≤ 64 * M := fun h => by rw [if_pos h]
      generalize (if isInline s = true then 64 * M else S + 6 * (64 * M)) = W at g2 hW hWi hstk
      have g3 : b3.Small fp (64 * M) W (2 * S + 8 * (64 * M)) (2 * (64 * M)) (3 * (64 * M)) := by
        unfold relativeHeight at h3
        split at h3
        · have := height_small hl hn hM g2 hWi (B := 2 * (64 * M)) (fun c hc lb hlb => ?_) le_rfl (by omega) (by omega) h3
          · exact this.mono le_rfl le_rfl le_rfl (by omega)
          · obtain ⟨c0, q1, q2⟩ := noOrigin_mem e2 hc
            exact fresh_last hl le_rfl (by omega) ((hvc c0 q1 c q2.symm).1.2 _ _ (.here hlb))
        · cases h3; exact g2.mono le_rfl le_rfl (by omega) (by omega)
      have hlay : ∀ (b : Box) (c c' : Node), c ∈ cs3 → b.Small fp (64 * M) W (2 * S + 8 * (64 * M)) (2 * (64 * M)) (3 * (64 * M)) →
          layoutBox fp d f (some s) (.box b) c = .ok c' →
          (∀ x, c'.layout = some x → x.Small fp (64 * M) (S + 6 * (Y + 64 * M)) (2 * S + 12 * (Y + 64 * M)) (16 * (64 * M * c.count) - 5 * (64 * M)) (7 * (64 * M))) ∧
          AllSmall fp (64 * M) (S + 6 * (Y + 64 * M)) (2 * S + 12 * (Y + 64 * M)) (16 * (Y + 64 * M)) c' := by
        intro b c c' hc hb hlc
        have hY := hmem c hc
        have hX := hpos c
        obtain ⟨q1, q2⟩ := ih (some s) (.box b) c c' (S + 6 * (64 * M)) (fun y hy => (hb.width y hy).mono hW) (by omega) (by omega) (kids c hc).1 (kids c hc).2 hlc
        exact ⟨fun x hx => (q1 x hx).mono (by omega) (by omega) le_rfl le_rfl, q2.mono (by omega) (by omega) (by omega)⟩
      have g4 : b4.Small fp (64 * M) W (2 * S + 8 * (64 * M)) (2 * (64 * M)) (3 * (64 * M)) ∧
          ∀ c ∈ cs4, AllSmall fp (64 * M) (S + 6 * (Y + 64 * M)) (2 * S + 12 * (Y + 64 * M)) (16 * (Y + 64 * M)) c ∧
            ∀ x, c.layout = some x → (∀ y, x.borderBoxBottom fp = some y → Near fp (16 * Y + 5 * (64 * M)) y) ∧ Near fp (64 * M) (.int x.collapse.bottom) := by
        rcases children_stacked h4 with ⟨_, rfl, hf⟩ | ⟨hi, pre, post, laid, hcs, rfl, hst, _, hpost⟩
        · refine ⟨g3, fun c' hc' => ?_⟩
          obtain ⟨c, hc, hlc⟩ := forall₂_left hf.flip hc'
          obtain ⟨q1, q2⟩ := hlay _ _ _ hc g3 hlc
          have hY := hmem c hc
          have hX := hpos c
          refine ⟨q2, fun x hx => ⟨fun y hy => ?_, (q1 x hx).collapse .bottom (Or.inr rfl)⟩⟩
          exact (bottom_near (q1 x hx) (by omega) hy).mono (by omega)
        · have hq := hpre pre post hcs
          obtain ⟨k1, k2⟩ := hstk pre _ _ _ hst g3 (near_0 hl _) (fun m e => by cases e)
            (fun b c c' hc hb hlc => hlay b c c' (by rw [hcs]; exact List.mem_append_left _ hc) hb hlc) (by omega) (by omega)
          refine ⟨k1, fun c hc => ?_⟩
          rcases List.mem_append.1 hc with hc | hc
          · obtain ⟨q1, q2⟩ := k2 c hc
            exact ⟨q1, fun x hx => ⟨fun y hy => ((q2 x hx).1 y hy).mono (by omega), (q2 x hx).2⟩⟩
          · have hc3 : c ∈ cs3 := by rw [hcs]; exact List.mem_append_right _ hc
            exact ⟨pristine_small hl _ _ _ _ (kids c hc3).1, fun x hx => fresh_last hl (by omega) (by omega) ((kids c hc3).1.2 _ _ (.here hx))⟩
      have g5 := height_small hl hn hM g4.1 hWi (B := 16 * Y + 5 * (64 * M)) (fun c hc => (g4.2 c hc).2) (by omega) (by omega) (by omega) h5
      have g6 := relative_small hl (n := .mk s z (some b) cs0) hn g5 (by omega) (by omega) h6
      refine ⟨fun b e => (by cases e; exact g6.mono hW (by omega) (by omega) (by omega)), allSmall_some.2 ⟨g6.mono (by omega) (by omega) (by omega) (by omega), ?_⟩⟩
      refine allSmall_kids ?_ fun c hc => (g4.2 c hc).1
      rw [(relative_steps h6).noOrigin, (height_steps h5).noOrigin]

/-- The whole document. -/
theorem layout_small {fp : FP} (hl : fp.Laws) {d : Display} {M : Nat} (hM : 300 ≤ M) {html5 : Bool} {p : Option CSS} {n n' : Node}
    (hb : AllBoxed n) (hm : n.MildDoc fp d M) (hk : 17 * (64 * M * n.count) ≤ 2 ^ 48) (h : layout fp d html5 p n = .ok n') :
    AllSmall fp (64 * M) (16 * (64 * M * n.count)) (16 * (64 * M * n.count)) (16 * (64 * M * n.count)) n' := by
  obtain ⟨m, h1, h2, _⟩ := layout_ok h
  have hc : (n.reset fp).count = n.count := count_same (strip_reset fp n)
  have hpos : 64 * M ≤ 64 * M * n.count := Nat.le_mul_of_pos_right _ (count_pos n)
  obtain ⟨g1, g2⟩ := layoutBox_small hl hm.1 hM _ _ _ _ _ (64 * M) (fun y e => by cases e; exact hm.1.grid.1.near hl hm.1.size.1) le_rfl
    (by rw [hc]; omega) (pristine_reset fp hb) (fun k hk => by
      obtain ⟨k', q1, q2⟩ := visible_strip (strip_reset fp n) hk
      exact mild_strip q2 (hm.2 k' q1)) h1
  rw [hc] at g1 g2
  generalize 64 * M * n.count = X at *
  obtain ⟨s, z, b, cs, b', rfl, rfl, rfl⟩ := finishRoot_ok h2
  have g1 := g1 b rfl
  rw [allSmall_some] at g2
  have g3 := setContent_small_v g1 (g1.top.add (g1.collapse .top (Or.inl rfl)) (by omega)).2 cs
  refine allSmall_some.2 ⟨?_, fun c hc => allSmall_kids (setContent_noOrigin ..) (fun c hc => (g2.2 c hc).mono (by omega) (by omega) (by omega)) c hc⟩
  split
  · refine withHeight_small (g3.mono (by omega) (by omega) (le_refl (16 * X - 5 * (64 * M))) (by omega)) fun y hy => ?_
    cases hy
    refine (Near.subSum (ms := [64 * M, 64 * M]) (.cons (g1.collapse .top (Or.inl rfl)) (.cons (g1.collapse .bottom (Or.inr rfl)) .nil))
      (hm.1.grid.2.1.near hl hm.1.size.2) ?_).mono ?_ <;> (simp only [List.sum_cons, List.sum_nil]; omega)
  · exact g3.mono (by omega) (by omega) (by omega) (by omega)

end Colosseum
