import Verif.Lemmas.Stretched
import Verif.Props.Unrounded

/-!
# C119: a taller block pushes what follows down by exactly as much
-/

namespace Colosseum

theorem stretched_drawn {x y : Option Node} {δ : Rat} (h : Paired (Blueprint.Stretched δ) (x.map Node.drawn) (y.map Node.drawn)) :
    Paired (fun m m' => m.drawn.Stretched δ m'.drawn) x y := by
  cases x <;> cases y <;> exact h

/-- **C119.** Two documents differ in nothing but the height given for one block, which is larger by `δ` in the second one, inside of any number of blocks of automatic
height. In exact arithmetic one can be laid out if and only if the other can. Then that block and all blocks around it are taller by `δ`, what follows them is lower by
`δ`, with all that is inside, and nothing else is changed: neither what precedes them nor any width, margin, border, padding, collapsed margin or horizontal place. -/
theorem C119_boxes (fp : FP) (E : fp.Exact) (d : Display) (p : Option CSS) (δ : Rat) (n n' : Node) (hb : AllBoxed n) (hb' : AllBoxed n') (h : n.Stretched fp d δ n') :
    Paired (fun m m' => m.drawn.Stretched δ m'.drawn) (layout fp d false p n).toOption (layout fp d false p n').toOption := by
  have hB := stretched_blueprint E h p
  rw [← C91_blueprint hb, ← C91_blueprint hb'] at hB
  exact stretched_drawn hB

/-- **C119.** In floating point too, for documents in whole pixels of any size. -/
theorem C119_whole (fp : FP) (L : fp.Laws) (d : Display) (δ : Rat) (n n' : Node) (hd : d.Integral) (hn : Whole.Simple d n) (hn' : Whole.Simple d n')
    (h : n.Stretched .exact d δ n') :
    Paired (fun m m' => m.drawn.Stretched δ m'.drawn) (layout fp d false none n).toOption (layout fp d false none n').toOption := by
  rw [C113_exact fp L d false n hd hn, C113_exact fp L d false n' hd hn']
  exact C119_boxes .exact FP.exact_exact d none δ n n' (fun m hm => (hn m hm).1) (fun m hm => (hn' m hm).1) h

/-- **C119.** And for documents of moderate size, with fractions and percentages. -/
theorem C119_moderate (fp : FP) (L : fp.Laws) (d : Display) (M M' : Nat) (δ : Rat) (n n' : Node) (hn : n.Moderate fp d M) (hn' : n'.Moderate fp d M')
    (ha : n.Agrees fp .exact d) (ha' : n'.Agrees fp .exact d) (h : n.Stretched .exact d δ n') :
    Paired (fun m m' => m.drawn.Stretched δ m'.drawn) (layout fp d false none n).toOption (layout fp d false none n').toOption := by
  have hB := stretched_blueprint FP.exact_exact h none
  rw [← agrees_blueprints (p := none) L exact_laws hn ha nofun, ← agrees_blueprints (p := none) L exact_laws hn' ha' nofun, ← C91_blueprint hn.boxed, ← C91_blueprint hn'.boxed] at hB
  exact stretched_drawn hB

/-- **C119.** In particular the whole document grows by `δ`, and its place and its width do not change. -/
theorem C119_root (δ : Rat) (m m' : Node) (h : m.drawn.Stretched δ m'.drawn) : ∃ b b' : Box, m.layout = some b ∧ m'.layout = some b' ∧
    (∃ x y, b.contentHeight = some x ∧ b'.contentHeight = some y ∧ y.val = x.val + δ) ∧ b.contentWidth = b'.contentWidth ∧
    (∀ a, (b.pos a).content = (b'.pos a).content) ∧ b.margin = b'.margin ∧ b.border = b'.border ∧ b.padding = b'.padding := by
  obtain ⟨f, ks, ks', x, y, e1, e2, ex, ey, -⟩ := swollen_figures h
  obtain ⟨s, z, l, cs⟩ := m
  obtain ⟨s', z', l', cs'⟩ := m'
  cases l with
  | none => cases e1
  | some b =>
    cases l' with
    | none => cases e2
    | some b' =>
      simp only [Node.drawn, Blueprint.mk.injEq] at e1 e2
      obtain ⟨e1, -⟩ := e1
      obtain ⟨e2, -⟩ := e2
      subst e1
      simp only [Box.figures, Figures.mk.injEq] at e2 ex
      obtain ⟨a1, a2, a3, a4, a5, a6, a7, -, -⟩ := e2
      exact ⟨b, b', rfl, rfl, ⟨x, y, ex, a4, ey⟩, a3.symm, fun a => by cases a; exact a2.symm; exact a1.symm, a5.symm, a6.symm, a7.symm⟩

/-- Whole pixels do not depend on anything. -/
theorem C119_pixels (fp : FP) (L : fp.Laws) (d : Display) (i : Int) (h : i.natAbs ≤ 2 ^ 53) : (px i).Always fp d (.int i) := by
  intro size
  have e : CUnit.px fp ⟨.len .px, .fin (.int i)⟩ ⟨d, dummyFont fp, size⟩ = .ok (.int i) := Whole.pixels_px L h ⟨d, dummyFont fp, size⟩
  simp only [px, Val.inPixels, e]
  rfl

/-! ## Examples and limits -/

/-- A page with two sections; the first one holds a block of the given height between two others. -/
def pageWith (v : Val) : Node := block [(.margin .top, px 3), (.padding .left, px 2)] [
  block [(.borderWidth .bottom, px 5)] [
    block [(.height, px 10)] [],
    block [(.margin .top, px 4), (.height, v), (.width, pct 25), (.margin .left, kw "auto")] [block [(.height, px 7), (.margin .top, px 6)] []],
    block [(.height, px 20), (.margin .top, px 8)] [block [(.height, px 1)] []]],
  block [(.position, kw "relative"), (.left, px 1), (.height, px 30)] []]

theorem pageWith_stretched (fp : FP) (d : Display) (δ : Rat) (v v' : Val) (x y : Num) (hv : v.Always fp d x) (hv' : v'.Always fp d y) (h : y.val = x.val + δ) :
    (pageWith v).Stretched fp d δ (pageWith v') := by
  refine .inside (pre := []) (.inl rfl) rfl (by simp only [List.nil_append, List.forall_mem_cons]; exact ⟨rfl, rfl, nofun⟩) ?_ rfl
  refine .inside (pre := [_]) (.inl rfl) rfl (by simp only [List.cons_append, List.nil_append, List.forall_mem_cons]; exact ⟨rfl, rfl, rfl, nofun⟩) ?_ rfl
  refine .self (.mk (h := x) (h' := y) (fun a ha => ?_) hv hv' h rfl rfl rfl (by simp only [List.forall_mem_cons]; exact ⟨rfl, nofun⟩) rfl)
  cases a <;> first | rfl | exact absurd rfl ha

/-- The first section is taller by 60 pixels, and what follows the block is lower by as much, in floating point. -/
example : Paired (fun m m' => m.drawn.Stretched 60 m'.drawn) (layout .b64 screen false none (pageWith (px 40))).toOption (layout .b64 screen false none (pageWith (px 100))).toOption := by
  refine C119_moderate .b64 b64_laws screen 1000 1000 60 _ _ (moderate_test (k := 8) (by decide +kernel) (by decide +kernel) (by norm_num))
    (moderate_test (k := 8) (by decide +kernel) (by decide +kernel) (by norm_num)) (agreeTest_all b64_laws exact_laws (by decide +kernel))
    (agreeTest_all b64_laws exact_laws (by decide +kernel)) ?_
  exact pageWith_stretched _ _ _ _ _ (.int 40) (.int 100) (C119_pixels _ exact_laws _ 40 (by decide)) (C119_pixels _ exact_laws _ 100 (by decide)) (by norm_num [Num.val])

example : (laidBox .b64 screen (pageWith (px 40)) [0]).map Box.contentHeight = some (some (.int 82)) ∧
    (laidBox .b64 screen (pageWith (px 100)) [0]).map Box.contentHeight = some (some (.int 142)) ∧
    (laidBox .b64 screen (pageWith (px 40)) [0, 2]).map (·.v.content) = some (.int 62) ∧
    (laidBox .b64 screen (pageWith (px 100)) [0, 2]).map (·.v.content) = some (.int 122) ∧
    (laidBox .b64 screen (pageWith (px 40)) [1]).map (·.v.content) = some (.int 87) ∧
    (laidBox .b64 screen (pageWith (px 100)) [1]).map (·.v.content) = some (.int 147) := by decide +kernel

/-- Three blocks; the first one is very tall, and the height of the second one is given. -/
def towerWith (v : Val) : Node := block [] [block [(.height, px (2 ^ 53))] [], block [(.height, v)] [], block [] []]

/-- **C119 is false in floating point for large fractions.** Half a pixel more in the second block moves the third one by a whole pixel. -/
theorem C119_rounded : (towerWith (.unit ⟨.len .px, .fin (.flt (1 / 2))⟩)).Stretched .b64 screen (1 / 2) (towerWith (px 1)) ∧
    (laidBox .b64 screen (towerWith (.unit ⟨.len .px, .fin (.flt (1 / 2))⟩)) [2]).map (·.v.content.val) = some (2 ^ 53) ∧
    (laidBox .b64 screen (towerWith (px 1)) [2]).map (·.v.content.val) = some (2 ^ 53 + 1) := by
  refine ⟨?_, by decide +kernel, by decide +kernel⟩
  refine .inside (pre := [_]) (.inl rfl) rfl (by simp only [List.cons_append, List.nil_append, List.forall_mem_cons]; exact ⟨rfl, rfl, rfl, nofun⟩) ?_ rfl
  refine .self (.mk (h := .flt (1 / 2)) (h' := .int 1) (fun a ha => ?_) (fun size => ?_) (C119_pixels _ b64_laws _ 1 (by decide)) (by norm_num [Num.val]) rfl rfl rfl nofun rfl)
  · cases a <;> first | rfl | exact absurd rfl ha
  · have e : (Val.unit ⟨.len .px, .fin (.flt (1 / 2))⟩).inPixels .b64 screen none = some (.flt (1 / 2)) := by decide +kernel
    exact (rigid_pixels .b64 screen none size _ rfl).trans e

/-- **C119 is false for percentages inside**: what is inside of a block may be a percentage of its height, and then it grows too. -/
theorem C119_percent : let n := fun v => block [] [block [(.height, v)] [block [(.height, pct 50)] []]]
    (laidBox .exact screen (n (px 40)) [0, 0]).map Box.contentHeight = some (some (.int 20)) ∧
    (laidBox .exact screen (n (px 100)) [0, 0]).map Box.contentHeight = some (some (.int 50)) := by decide +kernel

/-- **C119 is false for the root by the rules of HTML5**: it is as high as the display, whatever is in it. -/
theorem C119_html5 : let h := fun v => (layout .exact screen true none (pageWith v)).toOption.bind fun m => m.layout.bind Box.contentHeight
    h (px 40) = some (.int 477) ∧ h (px 100) = some (.int 477) := by decide +kernel

end Colosseum
