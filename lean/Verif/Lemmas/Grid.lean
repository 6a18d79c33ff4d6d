import Verif.Lemmas.Widths
import Verif.Lemmas.Reset

/-!
# Layout units

Sums, differences and lengths are whole numbers of layout units, and so is everything in a box.
-/

namespace Colosseum

/-! ## Numbers -/

/-- Rounding an integer gives an integer. -/
theorem FP.Laws.rnd_int {fp : FP} (L : fp.Laws) (n : Int) : ∃ m : Int, fp.rnd (n : Rat) = m := by
  have f1 := Int.floor_le (fp.rnd (n : Rat))
  have f2 := Int.lt_floor_add_one (fp.rnd (n : Rat))
  refine ⟨⌊fp.rnd (n : Rat)⌋, le_antisymm ?_ f1⟩
  by_contra hlt
  push Not at hlt
  rcases le_or_gt n ⌊fp.rnd (n : Rat)⌋ with h | h
  · have h1 := L.near n ⌊fp.rnd (n : Rat)⌋ (by rw [abs_lt]; constructor <;> linarith)
    have h2 := L.mono n (⌊fp.rnd (n : Rat)⌋ : Int) (by exact_mod_cast h)
    linarith
  · have h1 := L.near n (⌊fp.rnd (n : Rat)⌋ + 1) (by push_cast; rw [abs_lt]; constructor <;> linarith)
    have h2 := L.mono ((⌊fp.rnd (n : Rat)⌋ + 1 : Int) : Rat) n (by exact_mod_cast h)
    rw [h1] at h2
    push_cast at h2
    linarith

theorem FP.Laws.rnd_grid {fp : FP} (L : fp.Laws) (n : Int) : ∃ m : Int, fp.rnd ((n : Rat) / 64) = (m : Rat) / 64 := by
  obtain ⟨m, hm⟩ := L.rnd_int n
  exact ⟨m, by rw [L.div_64, hm]⟩

theorem onGrid_int (i : Int) : (Num.int i).OnGrid := ⟨i * 64, by rw [Num.val_int]; push_cast; ring⟩

theorem Num.OnGrid.toFloat {fp : FP} (L : fp.Laws) {a : Num} (h : a.OnGrid) : ∃ n : Int, a.toFloat fp = (n : Rat) / 64 := by
  cases a with
  | int i =>
    obtain ⟨m, hm⟩ := L.rnd_int i
    exact ⟨m * 64, by rw [Num.toFloat, hm]; push_cast; ring⟩
  | flt q => exact h

theorem Num.OnGrid.add {fp : FP} (L : fp.Laws) {a b : Num} (ha : a.OnGrid) (hb : b.OnGrid) : (a.add fp b).OnGrid := by
  obtain ⟨n, hn⟩ := ha.toFloat L
  obtain ⟨m, hm⟩ := hb.toFloat L
  have key : ∃ k : Int, fp.rnd (a.toFloat fp + b.toFloat fp) = (k : Rat) / 64 := by
    obtain ⟨k, hk⟩ := L.rnd_grid (n + m)
    refine ⟨k, ?_⟩
    rw [hn, hm, ← hk]
    congr 1
    push_cast
    ring
  cases a <;> cases b
  · exact onGrid_int _
  all_goals exact key

theorem Num.OnGrid.sub {fp : FP} (L : fp.Laws) {a b : Num} (ha : a.OnGrid) (hb : b.OnGrid) : (a.sub fp b).OnGrid := by
  obtain ⟨n, hn⟩ := ha.toFloat L
  obtain ⟨m, hm⟩ := hb.toFloat L
  have key : ∃ k : Int, fp.rnd (a.toFloat fp - b.toFloat fp) = (k : Rat) / 64 := by
    obtain ⟨k, hk⟩ := L.rnd_grid (n - m)
    refine ⟨k, ?_⟩
    rw [hn, hm, ← hk]
    congr 1
    push_cast
    ring
  cases a <;> cases b
  · exact onGrid_int _
  all_goals exact key

theorem Num.OnGrid.neg {a : Num} (ha : a.OnGrid) : a.neg.OnGrid := by
  obtain ⟨n, hn⟩ := ha
  refine ⟨-n, ?_⟩
  cases a with
  | int i => rw [Num.val_int] at hn; show ((-i : Int) : Rat) = _; push_cast; rw [hn]; ring
  | flt q => rw [Num.val_flt] at hn; show -q = _; rw [hn]; push_cast; ring

theorem Num.OnGrid.floorDiv2 {fp : FP} (L : fp.Laws) (a : Num) : (a.floorDiv2 fp).OnGrid := by
  cases a with
  | int i => exact onGrid_int _
  | flt q =>
    obtain ⟨m, hm⟩ := L.rnd_int (q / 2).floor
    exact ⟨m * 64, by show fp.rnd _ = _; rw [hm]; push_cast; ring⟩

theorem Num.OnGrid.pyMax {a b : Num} (ha : a.OnGrid) (hb : b.OnGrid) : (a.pyMax b).OnGrid := by
  unfold Num.pyMax; split <;> assumption

theorem Num.OnGrid.pyMin {a b : Num} (ha : a.OnGrid) (hb : b.OnGrid) : (a.pyMin b).OnGrid := by
  unfold Num.pyMin; split <;> assumption

theorem Num.OnGrid.subAll {fp : FP} (L : fp.Laws) (xs : List Num) : ∀ {a : Num}, a.OnGrid → (∀ x ∈ xs, x.OnGrid) →
    (Colosseum.subAll fp a xs).OnGrid := by
  induction xs with
  | nil => intro a ha _; exact ha
  | cons x xs ih => intro a ha hx; exact ih (ha.sub L (hx x List.mem_cons_self)) fun y hy => hx y (List.mem_cons_of_mem _ hy)

theorem Num.OnGrid.addAll {fp : FP} (L : fp.Laws) (xs : List Num) : ∀ {a : Num}, a.OnGrid → (∀ x ∈ xs, x.OnGrid) →
    (Colosseum.addAll fp a xs).OnGrid := by
  induction xs with
  | nil => intro a ha _; exact ha
  | cons x xs ih => intro a ha hx; exact ih (ha.add L (hx x List.mem_cons_self)) fun y hy => hx y (List.mem_cons_of_mem _ hy)

/-- A number on the grid whose value is at most `2^44` can be added up exactly. -/
theorem Num.OnGrid.fits {fp : FP} (L : fp.Laws) {x : Num} (h : x.OnGrid) {k : Nat} (hb : |x.val| ≤ (k : Rat)) : Fits fp (64 * k) x := by
  obtain ⟨n, hn⟩ := h
  refine Or.inr ⟨L, n, hn, ?_⟩
  rw [hn, abs_div, abs_of_pos (by norm_num : (0 : Rat) < 64), div_le_iff₀ (by norm_num)] at hb
  have h2 : ((n.natAbs : Nat) : Rat) ≤ ((64 * k : Nat) : Rat) := by
    rw [Nat.cast_natAbs, Int.cast_abs]
    push_cast
    linarith
  exact_mod_cast h2

/-! ## Lengths -/

theorem px_onGrid {fp : FP} (L : fp.Laws) {v : Val} {c : PxCtx} {x : Num} (h : v.px fp c = .ok x) : x.OnGrid := by
  unfold Val.px at h
  split at h
  · unfold CUnit.px at h
    split at h
    · unfold pxOf at h
      split at h
      · cases h
      · rename_i l _
        cases h
        obtain ⟨m, hm⟩ := L.rnd_grid l
        unfold pxOfLu
        simp only
        split
        · exact onGrid_int _
        · exact ⟨m, hm⟩
    · cases h
  · cases h

theorem calculateSize_onGrid {fp : FP} (L : fp.Laws) {v : Val} {c : PxCtx} {x : Num} (hd : c.display.OnGrid)
    (h : calculateSize fp v c = .ok (.num x)) : x.OnGrid := by
  obtain ⟨_, _, h1, h2, h3⟩ := hd
  unfold calculateSize at h
  split at h
  · cases h
  split at h
  · cases h; exact h1
  split at h
  · cases h; exact h2
  split at h
  · cases h; exact h3
  split at h
  · cases h; exact onGrid_int _
  · cases hp : v.px fp c with
    | error e => rw [hp] at h; cases h
    | ok y => rw [hp] at h; cases h; exact px_onGrid L hp

theorem calculateEdge_onGrid {fp : FP} (L : fp.Laws) {v : Val} {c : PxCtx} {x : Num} (hd : c.display.OnGrid)
    (h : calculateEdge fp v c = .ok x) : x.OnGrid := by
  unfold calculateEdge at h
  obtain ⟨m, h1, h⟩ := bind_eq_ok.1 h
  cases m with
  | auto => cases h
  | num y => cases h; exact calculateSize_onGrid L hd h1

/-! ## Boxes and documents -/

/-- Every shown box is on the grid. -/
def AllOnGrid (n : Node) : Prop := ∀ bs b, Shown n bs b → b.OnGrid

theorem allOnGrid_none {s : CSS} {z : Intrinsic} {cs : List Node} : AllOnGrid (.mk s z none cs) := by
  intro bs b h
  cases h with
  | here h => cases h
  | step h _ _ => cases h

theorem allOnGrid_some {s : CSS} {z : Intrinsic} {b : Box} {cs : List Node} :
    AllOnGrid (.mk s z (some b) cs) ↔ b.OnGrid ∧ ∀ c ∈ cs, AllOnGrid c := by
  constructor
  · intro h
    exact ⟨h _ _ (.here rfl), fun c hc bs b' hb => h _ _ (.step rfl hc hb)⟩
  · rintro ⟨h1, h2⟩ bs b' h
    cases h with
    | here h => cases h; exact h1
    | step h hc hb => exact h2 _ hc _ _ hb

theorem fresh_onGrid : Box.fresh.OnGrid where
  width x h := by cases h; exact onGrid_int _
  height x h := by cases h; exact onGrid_int _
  origin a := by cases a <;> exact onGrid_int _
  content a := by cases a <;> exact onGrid_int _
  margin t x h := by cases t <;> cases h <;> exact onGrid_int _
  border t := by cases t <;> exact onGrid_int _
  padding t := by cases t <;> exact onGrid_int _

theorem absContent_onGrid {fp : FP} (L : fp.Laws) {b : Box} (h : b.OnGrid) (a : Axis) : (b.absContent fp a).OnGrid :=
  (h.origin a).add L (h.content a)

theorem setPos_onGrid {b : Box} (h : b.OnGrid) (a : Axis) {p : AxisPos} (h1 : p.origin.OnGrid) (h2 : p.content.OnGrid) : (b.setPos a p).OnGrid := by
  cases a with
  | v =>
    exact ⟨h.1, h.2, fun a => by cases a; exact h1; exact h.origin .h, fun a => by cases a; exact h2; exact h.content .h, h.5, h.6, h.7⟩
  | h =>
    exact ⟨h.1, h.2, fun a => by cases a; exact h.origin .v; exact h1, fun a => by cases a; exact h.content .v; exact h2, h.5, h.6, h.7⟩

theorem setOrigin_onGrid {fp : FP} (L : fp.Laws) (a : Axis) (n : Node) : ∀ {v : Num}, v.OnGrid → AllOnGrid n → AllOnGrid (n.setOrigin fp a v) := by
  induction n using Node.ind with
  | h s z l cs ih =>
    intro v hv hn
    cases l with
    | none => simp only [Node.setOrigin]; exact hn
    | some b =>
      simp only [Node.setOrigin]
      split
      · exact hn
      · rw [allOnGrid_some] at hn ⊢
        have hb := setPos_onGrid hn.1 a (p := { b.pos a with origin := v }) hv (hn.1.content a)
        refine ⟨hb, fun c hc => ?_⟩
        rw [setOrigins_map] at hc
        obtain ⟨c0, hc0, rfl⟩ := List.mem_map.1 hc
        exact ih c0 hc0 (absContent_onGrid L hb a) (hn.2 c0 hc0)

theorem setOrigins_onGrid {fp : FP} (L : fp.Laws) (a : Axis) {cs : List Node} {v : Num} (hv : v.OnGrid) (h : ∀ c ∈ cs, AllOnGrid c) :
    ∀ c ∈ setOrigins fp a v cs, AllOnGrid c := by
  intro c hc
  rw [setOrigins_map] at hc
  obtain ⟨c0, hc0, rfl⟩ := List.mem_map.1 hc
  exact setOrigin_onGrid L a c0 hv (h c0 hc0)

/-- A box and the children of its node are on the grid. -/
def PairOnGrid (x : Box × List Node) : Prop := x.1.OnGrid ∧ ∀ c ∈ x.2, AllOnGrid c

theorem setContent_onGrid {fp : FP} (L : fp.Laws) (a : Axis) {v : Num} {b : Box} {cs : List Node} (hv : v.OnGrid) (h : PairOnGrid (b, cs)) :
    PairOnGrid (setContent fp a v b cs) := by
  unfold setContent
  split
  · exact h
  · have hb := setPos_onGrid h.1 a (p := { b.pos a with content := v }) (h.1.origin a) hv
    exact ⟨hb, setOrigins_onGrid L a (absContent_onGrid L hb a) h.2⟩

theorem SameButCollapse.onGrid {b b' : Box} (h : SameButCollapse b b') (hb : b.OnGrid) : b'.OnGrid := by
  obtain ⟨w, hh, v, hz, m, c, bo, pa, di⟩ := b
  obtain ⟨w', hh', v', hz', m', c', bo', pa', di'⟩ := b'
  unfold SameButCollapse at h
  injection h
  subst_vars
  exact ⟨hb.1, hb.2, fun a => by cases a; exact hb.origin .v; exact hb.origin .h, fun a => by cases a; exact hb.content .v; exact hb.content .h, hb.5, hb.6, hb.7⟩

theorem setMargin_onGrid {b : Box} (h : b.OnGrid) (t : Side) {x : MVal} (hx : ∀ y, x = .num y → y.OnGrid) : (b.setMargin t x).OnGrid := by
  unfold Box.setMargin
  split
  · exact h
  · refine (setCollapse_same _ t x).onGrid ⟨h.1, h.2, fun a => by cases a; exact h.origin .v; exact h.origin .h,
      fun a => by cases a; exact h.content .v; exact h.content .h, ?_, h.6, h.7⟩
    intro u y hy
    have hy : (b.margin.set t x).get u = .num y := hy
    rw [get_set] at hy
    split at hy
    · exact hx y hy
    · exact h.margin u y hy

theorem autoZero_onGrid {b : Box} (h : b.OnGrid) (t : Side) : (autoMarginToZero b t).OnGrid := by
  unfold autoMarginToZero
  split
  · exact setMargin_onGrid h t fun y hy => by cases hy; exact onGrid_int _
  · exact h

theorem withWidth_onGrid {b : Box} (h : b.OnGrid) {w : Option Num} (hw : ∀ x, w = some x → x.OnGrid) : ({ b with contentWidth := w } : Box).OnGrid :=
  ⟨hw, h.2, fun a => by cases a; exact h.origin .v; exact h.origin .h, fun a => by cases a; exact h.content .v; exact h.content .h, h.5, h.6, h.7⟩

theorem withHeight_onGrid {b : Box} (h : b.OnGrid) {w : Option Num} (hw : ∀ x, w = some x → x.OnGrid) : ({ b with contentHeight := w } : Box).OnGrid :=
  ⟨h.1, hw, fun a => by cases a; exact h.origin .v; exact h.origin .h, fun a => by cases a; exact h.content .v; exact h.content .h, h.5, h.6, h.7⟩

theorem copyEdges_onGrid {fp : FP} (L : fp.Laws) {s : CSS} {hz vt : PxCtx} (h1 : hz.display.OnGrid) (h2 : vt.display.OnGrid) {b b' : Box}
    (hb : b.OnGrid) (h : copyEdges fp s hz vt b = .ok b') : b'.OnGrid := by
  have c := copyEdges_copied h
  have hs := copyEdges_core h
  have hw : b'.contentWidth = b.contentWidth ∧ b'.contentHeight = b.contentHeight := by
    unfold copyEdges at h
    simp only [bind_eq_ok] at h
    obtain ⟨m1, _, m2, _, m3, _, m4, _, _, _, _, _, _, _, _, _, _, _, _, _, _, _, _, _, h⟩ := h
    have hh : ∀ (b : Box) t x, (b.setMargin t x).contentHeight = b.contentHeight := by
      intro b t x
      unfold Box.setMargin
      split
      · rfl
      · have e := congrArg Box.contentHeight (setCollapse_same { b with margin := b.margin.set t x } t x)
        exact e.symm
    rw [← Except.ok.inj h]
    simp only [setMargin_width, hh, and_self]
  have mg : ∀ {v : Val} {c : PxCtx} {y : MVal}, c.display.OnGrid → (∃ x, calculateSize fp v c = .ok x ∧ y.Same x) → ∀ x, y = .num x → x.OnGrid := by
    rintro v c y hc ⟨x, hx, hs⟩ z rfl
    cases x with
    | auto => cases hs
    | num x =>
      obtain ⟨n, hn⟩ := calculateSize_onGrid L hc hx
      exact ⟨n, Eq.trans hs hn⟩
  refine ⟨by rw [hw.1]; exact hb.1, by rw [hw.2]; exact hb.2, ?_, ?_, ?_, ?_, ?_⟩
  · intro a; cases a
    · show b'.v.origin.OnGrid; rw [← hs.1]; exact hb.origin .v
    · show b'.h.origin.OnGrid; rw [← hs.2.1]; exact hb.origin .h
  · intro a; cases a
    · show b'.v.content.OnGrid; rw [← hs.1]; exact hb.content .v
    · show b'.h.content.OnGrid; rw [← hs.2.1]; exact hb.content .h
  · intro t; cases t
    · exact mg h2 c.mt
    · exact mg h1 c.mr
    · exact mg h2 c.mb
    · exact mg h1 c.ml
  · intro t; cases t
    · exact calculateEdge_onGrid L h1 c.bt
    · exact calculateEdge_onGrid L h2 c.br
    · exact calculateEdge_onGrid L h1 c.bb
    · exact calculateEdge_onGrid L h2 c.bl
  · intro t; cases t
    · exact calculateEdge_onGrid L h1 c.pt
    · exact calculateEdge_onGrid L h2 c.pr
    · exact calculateEdge_onGrid L h1 c.pb
    · exact calculateEdge_onGrid L h2 c.pl

theorem toNum_onGrid {b : Box} (h : b.OnGrid) (t : Side) {x : Num} (hx : (b.margin.get t).toNum = .ok x) : x.OnGrid := by
  cases hm : b.margin.get t with
  | auto => rw [hm] at hx; cases hx
  | num y => rw [hm] at hx; cases hx; exact h.margin t _ hm

theorem placeLeft_onGrid {fp : FP} (L : fp.Laws) {b : Box} {cs : List Node} {x : Box × List Node} (h : PairOnGrid (b, cs))
    (hp : placeLeft fp b cs = .ok x) : PairOnGrid x := by
  unfold placeLeft at hp
  obtain ⟨ml, h1, hp⟩ := bind_eq_ok.1 hp
  rw [← Except.ok.inj hp]
  refine setContent_onGrid L .h (Num.OnGrid.addAll L _ (toNum_onGrid h.1 .left h1) ?_) h
  intro y hy
  simp only [List.mem_cons, List.not_mem_nil, or_false] at hy
  rcases hy with rfl | rfl
  · exact h.1.border .left
  · exact h.1.padding .left

theorem placeTop_onGrid {fp : FP} (L : fp.Laws) {b : Box} {cs : List Node} {x : Box × List Node} (h : PairOnGrid (b, cs))
    (hp : placeTopInline fp b cs = .ok x) : PairOnGrid x := by
  unfold placeTopInline at hp
  obtain ⟨mt, h1, hp⟩ := bind_eq_ok.1 hp
  rw [← Except.ok.inj hp]
  refine setContent_onGrid L .v ((h.1.content .v).add L (Num.OnGrid.addAll L _ (toNum_onGrid h.1 .top h1) ?_)) h
  intro y hy
  simp only [List.mem_cons, List.not_mem_nil, or_false] at hy
  rcases hy with rfl | rfl
  · exact h.1.border .top
  · exact h.1.padding .top

theorem remaining_onGrid {fp : FP} (L : fp.Laws) {b : Box} (h : b.OnGrid) {size ml mr : Num} (hs : size.OnGrid) (hl : ml.OnGrid) (hr : mr.OnGrid) :
    (remainingWidth fp size ml mr b).OnGrid := by
  refine Num.OnGrid.subAll L _ hs ?_
  intro y hy
  simp only [List.mem_cons, List.not_mem_nil, or_false] at hy
  rcases hy with rfl | rfl | rfl | rfl | rfl | rfl
  · exact hl
  · exact h.border .left
  · exact h.padding .left
  · exact h.padding .right
  · exact h.border .right
  · exact hr

theorem solveMargins_onGrid {fp : FP} (L : fp.Laws) {s : CSS} {size w : Num} {b : Box} (hs : size.OnGrid) (hw : w.OnGrid) (hb : b.OnGrid) :
    (solveMargins fp s size w b).OnGrid := by
  unfold solveMargins
  extract_lets total c
  have hc : c.OnGrid := by
    show Box.OnGrid (if _ then _ else _)
    split
    · exact autoZero_onGrid (autoZero_onGrid hb _) _
    · exact hb
  have sub : ∀ xs : List Num, (∀ x ∈ xs, x.OnGrid) → ∀ y, MVal.num (subAll fp size xs) = .num y → y.OnGrid := by
    intro xs hx y hy
    cases hy
    exact Num.OnGrid.subAll L _ hs hx
  split
  · rename_i ml mr h1 h2
    split
    · refine setMargin_onGrid hc _ (sub _ ?_)
      intro y hy
      simp only [List.mem_cons, List.not_mem_nil, or_false] at hy
      rcases hy with rfl | rfl | rfl | rfl | rfl | rfl
      exacts [hc.margin .left _ h1, hc.border .left, hc.padding .left, hw, hc.padding .right, hc.border .right]
    · refine setMargin_onGrid hc _ (sub _ ?_)
      intro y hy
      simp only [List.mem_cons, List.not_mem_nil, or_false] at hy
      rcases hy with rfl | rfl | rfl | rfl | rfl | rfl
      exacts [hc.border .left, hc.padding .left, hw, hc.padding .right, hc.border .right, hc.margin .right _ h2]
  · rename_i mr h1 h2
    refine setMargin_onGrid hc _ (sub _ ?_)
    intro y hy
    simp only [List.mem_cons, List.not_mem_nil, or_false] at hy
    rcases hy with rfl | rfl | rfl | rfl | rfl | rfl
    exacts [hc.border .left, hc.padding .left, hw, hc.padding .right, hc.border .right, hc.margin .right _ h2]
  · rename_i ml h1 h2
    refine setMargin_onGrid hc _ (sub _ ?_)
    intro y hy
    simp only [List.mem_cons, List.not_mem_nil, or_false] at hy
    rcases hy with rfl | rfl | rfl | rfl | rfl | rfl
    exacts [hc.margin .left _ h1, hc.border .left, hc.padding .left, hw, hc.padding .right, hc.border .right]
  · exact setMargin_onGrid (setMargin_onGrid hc _ fun y hy => by cases hy; exact Num.OnGrid.floorDiv2 L _) _
      fun y hy => by cases hy; exact Num.OnGrid.floorDiv2 L _

theorem clampedWidth_onGrid {fp : FP} (L : fp.Laws) {s : CSS} {c : PxCtx} {w : Num} (h : clampedWidth fp s c = .ok w) : w.OnGrid := by
  unfold clampedWidth at h
  obtain ⟨w0, h0, h⟩ := bind_eq_ok.1 h
  have g0 := px_onGrid L h0
  simp only at h
  split at h
  · rw [pure_bind] at h
    split at h
    · cases h; exact g0
    · obtain ⟨m, hm, h⟩ := bind_eq_ok.1 h
      cases h
      have := px_onGrid L hm
      split <;> assumption
  · obtain ⟨m, hm, h⟩ := bind_eq_ok.1 h
    have gm := px_onGrid L hm
    rw [pure_bind] at h
    have g1 : (if m.pyLt w0 = true then m else w0).OnGrid := by split <;> assumption
    split at h
    · cases h; exact g1
    · obtain ⟨k, hk, h⟩ := bind_eq_ok.1 h
      cases h
      have gk := px_onGrid L hk
      have key : ∀ a b : Num, a.OnGrid → b.OnGrid → (if a.pyLt b = true then b else a).OnGrid := by
        intro a b ha hb
        split <;> assumption
      exact key _ _ g1 gk


theorem width_onGrid {fp : FP} (L : fp.Laws) {s : CSS} {z : Intrinsic} {c : PxCtx} {b : Box} {cs : List Node} {x : Box × List Node}
    (hz : z.OnGrid) (hsz : ∀ y, c.size = some y → y.OnGrid) (hb : PairOnGrid (b, cs)) (h : widthAndMargins fp s z c b cs = .ok x) :
    PairOnGrid x := by
  unfold widthAndMargins at h
  split at h
  · cases h
  split at h
  · cases h
  have h0 : (autoMarginToZero (autoMarginToZero b .left) .right).OnGrid := autoZero_onGrid (autoZero_onGrid hb.1 _) _
  split at h
  · split at h
    · unfold inlineReplacedWidth at h
      simp only at h
      obtain ⟨w, hw, h⟩ := bind_eq_ok.1 h
      refine placeLeft_onGrid L ⟨withWidth_onGrid h0 (w := some w) fun y hy => ?_, hb.2⟩ h
      cases hy
      unfold inlineReplacedContentWidth at hw
      rw [hz.2.2] at hw
      split at hw
      · split at hw
        · split at hw
          · rename_i w' hq; cases hw; exact hz.1 _ hq
          · rename_i hq; cases hq
          · rename_i hq; cases hq
          · cases hw; exact onGrid_int _
        · split at hw
          · rename_i hq; cases hw; exact hz.1 _ hq
          · cases hw; exact onGrid_int _
      · exact px_onGrid L hw
    · cases h
      exact ⟨withWidth_onGrid h0 hz.1, hb.2⟩
  split at h
  · split at h
    · cases h
    · unfold blockWidth at h
      split at h
      · simp only at h
        obtain ⟨size, hs, h⟩ := bind_eq_ok.1 h
        obtain ⟨ml, hl, h⟩ := bind_eq_ok.1 h
        obtain ⟨mr, hr, h⟩ := bind_eq_ok.1 h
        refine placeLeft_onGrid L ⟨withWidth_onGrid h0 (w := some _) fun y hy => ?_, hb.2⟩ h
        cases hy
        exact remaining_onGrid L h0 (hsz _ (need_ok hs)) (toNum_onGrid h0 .left hl) (toNum_onGrid h0 .right hr)
      · obtain ⟨w, hw, h⟩ := bind_eq_ok.1 h
        obtain ⟨size, hs, h⟩ := bind_eq_ok.1 h
        simp only at h
        have gw := clampedWidth_onGrid L hw
        refine placeLeft_onGrid L ⟨withWidth_onGrid (solveMargins_onGrid L (hsz _ (need_ok hs)) gw hb.1) (w := some w) fun y hy => ?_, hb.2⟩ h
        cases hy
        exact gw
  · split at h <;> cases h

theorem bottom_onGrid {fp : FP} (L : fp.Laws) {b : Box} (hb : b.OnGrid) {x : Num} (h : b.borderBoxBottom fp = some x) : x.OnGrid := by
  unfold Box.borderBoxBottom at h
  obtain ⟨w, hw, rfl⟩ := Option.map_eq_some_iff.1 h
  exact (((hb.content .v).add L (hb.height _ hw)).add L (hb.padding .bottom)).add L (hb.border .bottom)

theorem borderHeight_onGrid {fp : FP} (L : fp.Laws) {b : Box} (hb : b.OnGrid) {x : Num} (h : b.borderBoxHeight fp = some x) : x.OnGrid := by
  unfold Box.borderBoxHeight at h
  obtain ⟨w, hw, rfl⟩ := Option.map_eq_some_iff.1 h
  exact ((((hb.border .top).add L (hb.padding .top)).add L (hb.height _ hw)).add L (hb.padding .bottom)).add L (hb.border .bottom)

theorem explicitHeight_onGrid {fp : FP} (L : fp.Laws) {s : CSS} {parent : Option CSS} {c : PxCtx} {x : Num}
    (h : explicitHeight fp s parent c = .ok x) : x.OnGrid := by
  have key : ∀ {y : Num} {k : Num}, y.OnGrid → (if (s.get .maxHeight).isNone = true then pure y else do
      let m ← (s.get .maxHeight).px fp c
      pure (if m.pyLt y then m else y)) = .ok k → k.OnGrid := by
    intro y k hy hk
    split at hk
    · cases hk; exact hy
    · obtain ⟨m, hm, hk⟩ := bind_eq_ok.1 hk
      cases hk
      have := px_onGrid L hm
      split <;> assumption
  unfold explicitHeight at h
  simp only at h
  split at h
  · split at h
    · obtain ⟨y, hy, h⟩ := bind_eq_ok.1 h
      exact key (px_onGrid L hy) h
    · obtain ⟨ph, _, h⟩ := bind_eq_ok.1 h
      obtain ⟨y, hy, h⟩ := bind_eq_ok.1 h
      exact key (px_onGrid L hy) h
  · obtain ⟨y, hy, h⟩ := bind_eq_ok.1 h
    exact key (px_onGrid L hy) h

theorem blockContentHeight_onGrid {fp : FP} (L : fp.Laws) {s : CSS} {parent : Option CSS} {c : PxCtx} {b b' : Box} {cs : List Node} {x : Num}
    (hk : ∀ c ∈ cs, AllOnGrid c) (h : blockContentHeight fp s parent c b cs = .ok (x, b')) : x.OnGrid := by
  unfold blockContentHeight at h
  split at h
  · split at h
    · rename_i last hlast
      split at h
      · cases h
      · rename_i lb hlb
        obtain ⟨y, hy, h⟩ := bind_eq_ok.1 h
        cases h
        exact bottom_onGrid L (hk last (List.mem_of_getLast? hlast) _ _ (.here hlb)) (need_ok hy)
    · split at h
      · cases h; exact onGrid_int _
      · obtain ⟨y, hy, h⟩ := bind_eq_ok.1 h
        cases h; exact px_onGrid L hy
  · obtain ⟨y, hy, h⟩ := bind_eq_ok.1 h
    cases h; exact explicitHeight_onGrid L hy

theorem height_onGrid {fp : FP} (L : fp.Laws) {s : CSS} {z : Intrinsic} {parent : Option CSS} {c : PxCtx} {b : Box} {cs : List Node} {x : Box × List Node}
    (hz : z.OnGrid) (hb : PairOnGrid (b, cs)) (h : heightAndMargins fp s z parent c b cs = .ok x) : PairOnGrid x := by
  unfold heightAndMargins at h
  split at h
  · cases h
  split at h
  · cases h
  have h0 : (autoMarginToZero (autoMarginToZero b .top) .bottom).OnGrid := autoZero_onGrid (autoZero_onGrid hb.1 _) _
  split at h
  · split at h
    · unfold inlineReplacedHeight at h
      simp only at h
      obtain ⟨w, hw, h⟩ := bind_eq_ok.1 h
      refine placeTop_onGrid L ⟨withHeight_onGrid h0 (w := some w) fun y hy => ?_, hb.2⟩ h
      cases hy
      unfold inlineReplacedContentHeight at hw
      rw [hz.2.2] at hw
      split at hw
      · split at hw
        · rename_i hq; cases hw; exact hz.2.1 _ hq
        · split at hw
          · rename_i hq; cases hq
          · split at hw
            · exact hz.2.1 _ (need_ok hw)
            · obtain ⟨y, hy, hw⟩ := bind_eq_ok.1 hw
              cases hw
              exact (Num.OnGrid.floorDiv2 L _).pyMin (onGrid_int _)
      · exact px_onGrid L hw
    · unfold inlineHeight at h
      exact placeTop_onGrid L ⟨withHeight_onGrid hb.1 hz.2.1, hb.2⟩ h
  split at h
  · split at h
    · cases h
    · unfold blockHeight at h
      obtain ⟨⟨y, b1⟩, h1, h⟩ := bind_eq_ok.1 h
      simp only at h
      rw [← Except.ok.inj h]
      have g1 : b1.OnGrid := (contentHeight_same h1).onGrid h0
      refine setContent_onGrid L .v ((g1.content .v).add L ((g1.border .top).add L (g1.padding .top))) ⟨withHeight_onGrid g1 (w := some y) fun k hk => ?_, hb.2⟩
      cases hk
      exact blockContentHeight_onGrid L hb.2 h1
  · split at h <;> cases h

theorem relativeOffset_onGrid {fp : FP} (L : fp.Laws) {cb : CB} (hcb : ∀ b, cb = .box b → b.OnGrid) {a : Axis} {start stop : Val} {c : PxCtx} {x : Num}
    (h : relativeOffset fp cb a start stop c = .ok x) : x.OnGrid := by
  unfold relativeOffset at h
  split at h
  · cases h; exact onGrid_int _
  split at h
  · split at h
    · cases cb with
      | viewport d => cases h
      | box b =>
        have g := hcb b rfl
        cases a with
        | h =>
          cases hw : b.contentWidth with
          | none => simp [CB.contentEnd, Box.contentRight, hw, need, Except.map] at h
          | some w =>
            simp [CB.contentEnd, Box.contentRight, hw, need, Except.map] at h
            rw [← h]
            exact ((g.content .h).add L (g.width _ hw)).neg
        | v =>
          cases hw : b.contentHeight with
          | none => simp [CB.contentEnd, Box.contentBottom, hw, need, Except.map] at h
          | some w =>
            simp [CB.contentEnd, Box.contentBottom, hw, need, Except.map] at h
            rw [← h]
            exact ((g.content .v).add L (g.height _ hw)).neg
    · cases hp : stop.px fp c with
      | error e => rw [hp] at h; cases h
      | ok y => rw [hp] at h; cases h; exact (px_onGrid L hp).neg
  split at h
  · split at h
    · cases cb with
      | viewport d => cases h
      | box b => cases h; exact (hcb b rfl).content a
    · exact px_onGrid L h
  · exact px_onGrid L h

theorem relative_onGrid {fp : FP} (L : fp.Laws) {s : CSS} {cb : CB} (hcb : ∀ b, cb = .box b → b.OnGrid) {hz vt : PxCtx} {b : Box} {cs : List Node} {x : Box × List Node}
    (hb : PairOnGrid (b, cs)) (h : applyRelative fp s cb hz vt b cs = .ok x) : PairOnGrid x := by
  unfold applyRelative at h
  split at h
  · obtain ⟨dx, h1, h⟩ := bind_eq_ok.1 h
    simp only at h
    obtain ⟨dy, h2, h⟩ := bind_eq_ok.1 h
    rw [← Except.ok.inj h]
    have g := setContent_onGrid L .h ((hb.1.content .h).add L (relativeOffset_onGrid L hcb h1)) hb
    exact setContent_onGrid L .v ((g.1.content .v).add L (relativeOffset_onGrid L hcb h2)) g
  · cases h; exact hb

theorem Stacked.onGrid {fp : FP} (L : fp.Laws) {lay : Box → Node → Res Node} {b b' : Box} {off : Num} {bm : Option Int} {cs cs' : List Node}
    (h : Stacked fp lay b off bm cs b' cs') (hb : b.OnGrid) (ho : off.OnGrid)
    (hl : ∀ b c c', c ∈ cs → b.OnGrid → lay b c = .ok c' → AllOnGrid c') : b'.OnGrid ∧ ∀ c ∈ cs', AllOnGrid c := by
  induction h with
  | nil => exact ⟨hb, fun c hc => by cases hc⟩
  | @cons b b1 b2 cb off off1 h bm c s z ks cs cs' h1 h2 h3 _ ih =>
    have g := hl _ _ _ List.mem_cons_self hb h1
    rw [allOnGrid_some] at g
    have ho1 : off1.OnGrid := by
      unfold collapseAbove at h2
      split at h2
      · cases h2; exact ho
      · obtain ⟨mt, hm, h2⟩ := bind_eq_ok.1 h2
        cases h2
        exact ho.add L ((onGrid_int _).pyMax (toNum_onGrid g.1 .top hm))
    have g' := setContent_onGrid L .v ((g.1.content .v).add L ho1) g
    obtain ⟨k1, k2⟩ := ih ((collapseAbove_same h2).onGrid hb) (ho1.add L (borderHeight_onGrid L g'.1 h3))
      (fun b c c' hc => hl b c c' (List.mem_cons_of_mem _ hc))
    refine ⟨k1, fun c hc => ?_⟩
    rcases List.mem_cons.1 hc with rfl | hc
    · rw [allOnGrid_some]; exact g'
    · exact k2 c hc

/-- The intrinsic sizes in a document, leaving out what is below hidden nodes, are on the grid. -/
def SizesOnGrid (n : Node) : Prop := ∀ m, Visible m n → m.intrinsic.OnGrid

theorem visible_strip {n n' : Node} (h : n.strip = n'.strip) {m : Node} (hm : Visible m n) : ∃ m', Visible m' n' ∧ m'.strip = m.strip := by
  induction hm generalizing n' with
  | here hs =>
    exact ⟨n', .here (by rw [← hidden_strip, ← h, hidden_strip]; exact hs), h.symm⟩
  | @step c n hn hc _ ih =>
    have : c.strip ∈ n'.children.map Node.strip := by
      rw [← strip_children, ← h, strip_children]
      exact List.mem_map.2 ⟨c, hc, rfl⟩
    obtain ⟨c', hc', he⟩ := List.mem_map.1 this
    obtain ⟨m', h1, h2⟩ := ih he.symm
    exact ⟨m', .step (by rw [← hidden_strip, ← h, hidden_strip]; exact hn) hc' h1, h2⟩

theorem sizesOnGrid_strip {n n' : Node} (h : n'.strip = n.strip) (hs : SizesOnGrid n) : SizesOnGrid n' := by
  intro m hm
  obtain ⟨m', h1, h2⟩ := visible_strip h hm
  rw [← strip_intrinsic, ← h2, strip_intrinsic]
  exact hs m' h1

theorem sizes_kids {cs cs' : List Node} (h : cs'.map Node.strip = cs.map Node.strip) (hs : ∀ c ∈ cs, SizesOnGrid c) : ∀ c ∈ cs', SizesOnGrid c := by
  intro c hc
  have : c.strip ∈ cs.map Node.strip := by rw [← h]; exact List.mem_map.2 ⟨c, hc, rfl⟩
  obtain ⟨c0, h0, e⟩ := List.mem_map.1 this
  exact sizesOnGrid_strip e.symm (hs c0 h0)

theorem layoutBox_onGrid {fp : FP} (L : fp.Laws) {d : Display} (hd : d.OnGrid) (f : Nat) : ∀ (ps : Option CSS) (cb : CB) (n n' : Node),
    (∀ b, cb = .box b → b.OnGrid) → (∀ y, cb.width = some y → y.OnGrid) → AllBoxed n → AllOnGrid n → SizesOnGrid n →
    layoutBox fp d f ps cb n = .ok n' → AllOnGrid n' := by
  induction f with
  | zero => intro p cb n n' _ _ _ _ _ h; cases h
  | succ f ih =>
    rintro ps cb ⟨s, z, l, cs⟩ n' hcb gw hbx hg hz h
    rcases layoutBox_ok h with ⟨hs, rfl⟩ | ⟨hs, b, cs0, b', cs', hl, hb, rfl⟩
    · exact allOnGrid_none
    · obtain ⟨hnl, hbc⟩ := allBoxed_mk.1 hbx hs
      rcases hl with ⟨rfl, rfl⟩ | ⟨rfl, _⟩
      swap
      · exact absurd rfl hnl
      have gz : z.OnGrid := hz _ (.here hs)
      have gzc : ∀ c ∈ cs0, SizesOnGrid c := fun c hc m hm => hz m (.step hs hc hm)
      obtain ⟨b1, b2, cs2, b3, cs3, b4, cs4, b5, cs5, h1, h2, h3, ha, hf, h4, h5, h6⟩ := body_phases hb
      rw [allOnGrid_some] at hg ⊢
      have g1 := copyEdges_onGrid L hd hd hg.1 h1
      have g2 := width_onGrid L gz gw ⟨g1, hg.2⟩ h2
      have g3 : PairOnGrid (b3, cs3) := by
        unfold relativeHeight at h3
        split at h3
        · exact height_onGrid L gz g2 h3
        · cases h3; exact g2
      have s3 := (width_steps h2).trans (show Steps fp b2 cs2 b3 cs3 by
        unfold relativeHeight at h3
        split at h3
        · exact height_steps h3
        · cases h3; exact .refl _ _)
      have z3 : ∀ c ∈ cs3, SizesOnGrid c := sizes_kids s3.strips gzc
      have x3 : ∀ c ∈ cs3, AllBoxed c := s3.boxed hbc
      have hlay : ∀ (b : Box) (c c' : Node), c ∈ cs3 → b.OnGrid → layoutBox fp d f (some s) (.box b) c = .ok c' → AllOnGrid c' := by
        intro b c c' hc hb hl
        exact ih (some s) (.box b) c c' (fun b' e => by cases e; exact hb) hb.1 (x3 c hc) (g3.2 c hc) (z3 c hc) hl
      have g4 : PairOnGrid (b4, cs4) := by
        rcases children_stacked h4 with ⟨_, rfl, hf⟩ | ⟨hi, pre, post, laid, rfl, rfl, hst, hpre, hpost⟩
        · refine ⟨g3.1, fun c' hc' => ?_⟩
          obtain ⟨c, hc, hl⟩ := forall₂_left hf.flip hc'
          exact hlay _ _ _ hc g3.1 hl
        · obtain ⟨k1, k2⟩ := hst.onGrid L g3.1 (onGrid_int _) fun b c c' hc hb hl =>
            hlay b c c' (List.mem_append_left _ hc) hb hl
          refine ⟨k1, fun c hc => ?_⟩
          rcases List.mem_append.1 hc with hc | hc
          · exact k2 c hc
          · exact g3.2 c (List.mem_append_right _ hc)
      exact relative_onGrid L hcb (height_onGrid L gz g4 h5) h6

theorem layout_onGrid {fp : FP} (L : fp.Laws) {d : Display} (hd : d.OnGrid) {html5 : Bool} {p : Option CSS} {n n' : Node}
    (hb : AllBoxed n) (hz : SizesOnGrid n) (h : layout fp d html5 p n = .ok n') : AllOnGrid n' := by
  obtain ⟨m, h1, h2, _⟩ := layout_ok h
  have g := layoutBox_onGrid L hd _ _ _ _ _ (fun b e => by cases e) (fun y e => by cases e; exact hd.1) (allBoxed_reset fp hb)
    (fun bs b hs => by rw [reset_shown hs]; exact fresh_onGrid) (sizesOnGrid_strip (strip_reset fp n) hz) h1
  obtain ⟨s, z, b, cs, b', rfl, rfl, rfl⟩ := finishRoot_ok h2
  rw [allOnGrid_some] at g ⊢
  have g' := setContent_onGrid L .v ((g.1.content .v).add L (onGrid_int b.collapse.top)) g
  refine ⟨?_, g'.2⟩
  split
  · refine withHeight_onGrid g'.1 fun y hy => ?_
    cases hy
    refine Num.OnGrid.subAll L _ hd.2.1 fun x hx => ?_
    simp only [List.mem_cons, List.not_mem_nil, or_false] at hx
    rcases hx with rfl | rfl <;> exact onGrid_int _
  · exact g'.1

theorem within_shown {w w' : Option Num} {ps ps' : Option CSS} {n m : Node} (h : Within w ps n w' ps' m) :
    (∀ b, m.layout = some b → ∃ bs, Shown n bs b) ∧ (w' = w ∨ ∃ bs b, Shown n bs b ∧ w' = b.contentWidth) := by
  induction h with
  | here => exact ⟨fun b hb => ⟨[], .here hb⟩, Or.inl rfl⟩
  | @step w w' ps ps' n c m b hn hl hc hb _ ih =>
    refine ⟨fun b' hb' => ?_, Or.inr ?_⟩
    · obtain ⟨bs, h⟩ := ih.1 b' hb'
      exact ⟨b :: bs, .step hl hc h⟩
    · rcases ih.2 with rfl | ⟨bs, b', h, rfl⟩
      · exact ⟨[], b, .here hl, rfl⟩
      · exact ⟨b :: bs, b', .step hl hc h, rfl⟩

end Colosseum
