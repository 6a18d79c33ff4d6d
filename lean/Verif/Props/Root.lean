import Verif.Lemmas.Stack
import Verif.Lemmas.Sample

/-!
# The root element
-/

namespace Colosseum

/-! ## C51: the root fills the display -/

theorem setContent_collapse (fp : FP) (a : Axis) (v : Num) (b : Box) (cs : List Node) : (setContent fp a v b cs).1.collapse = b.collapse := by
  unfold setContent
  split
  · rfl
  · cases a <;> rfl

theorem setContent_edges (fp : FP) (a : Axis) (v : Num) (b : Box) (cs : List Node) :
    (setContent fp a v b cs).1.border = b.border ∧ (setContent fp a v b cs).1.padding = b.padding := by
  unfold setContent
  split
  · exact ⟨rfl, rfl⟩
  · cases a <;> exact ⟨rfl, rfl⟩

theorem layoutBox_style {fp : FP} {d : Display} {f : Nat} {p : Option CSS} {cb : CB} {n n' : Node} (h : layoutBox fp d f p cb n = .ok n') :
    n'.style = n.style := by
  cases f with
  | zero => cases h
  | succ f =>
    obtain ⟨s, z, l, cs⟩ := n
    rcases layoutBox_ok h with ⟨_, rfl⟩ | ⟨_, _, _, _, _, _, _, rfl⟩ <;> rfl

/-- C51. With HTML5 the content height of the root and its collapsed margins add up to the height of the display. -/
theorem C51_height_partial (fp : FP) (d : Display) (p : Option CSS) (n n' : Node) (k : Nat) (h : layout fp d true p n = .ok n')
    (hd : Fits fp k d.contentHeight) (hb : ∀ b, n'.layout = some b → Fits fp k (.int b.collapse.top) ∧ Fits fp k (.int b.collapse.bottom))
    (hk : 3 * k ≤ 2 ^ 53) :
    ∃ b y, n'.layout = some b ∧ b.contentHeight = some y ∧ y.val + b.collapse.top + b.collapse.bottom = d.contentHeight.val := by
  obtain ⟨m, _, h2, _⟩ := layout_ok h
  obtain ⟨s, z, b, cs, b', rfl, rfl, rfl⟩ := finishRoot_ok h2
  rw [if_pos rfl] at hb ⊢
  obtain ⟨f1, f2⟩ := hb _ rfl
  simp only [setContent_collapse] at f1 f2
  obtain ⟨e1, g1⟩ := hd.sub f1 (by omega)
  obtain ⟨e2, g2⟩ := g1.sub f2 (by omega)
  refine ⟨_, _, rfl, rfl, ?_⟩
  simp only [setContent_collapse, subAll, List.foldl]
  rw [e2, e1, Num.val_int, Num.val_int]
  ring

/-- C51, for a display whose height is a whole number of pixels: no rounding can occur, whatever the arithmetic. -/
theorem C51_whole (fp : FP) (d : Display) (p : Option CSS) (n n' : Node) (y : Int) (h : layout fp d true p n = .ok n')
    (hd : d.contentHeight = .int y) :
    ∃ b, n'.layout = some b ∧ b.contentHeight = some (.int (y - b.collapse.top - b.collapse.bottom)) := by
  obtain ⟨m, _, h2, _⟩ := layout_ok h
  obtain ⟨s, z, b, cs, b', rfl, rfl, rfl⟩ := finishRoot_ok h2
  rw [if_pos rfl]
  refine ⟨_, rfl, ?_⟩
  simp only [setContent_collapse, subAll, List.foldl, hd]
  rfl

/-- C51. The two standards succeed for the same documents, and the results differ in nothing but the content height of the root. -/
theorem C51_standards (fp : FP) (d : Display) (p : Option CSS) (n : Node) :
    (∀ e, layout fp d true p n = .error e ↔ layout fp d false p n = .error e) ∧
    ∀ n5, layout fp d true p n = .ok n5 → ∃ n4 b4 b5, layout fp d false p n = .ok n4 ∧ n4.layout = some b4 ∧ n5.layout = some b5 ∧
      n5.style = n4.style ∧ n5.intrinsic = n4.intrinsic ∧ n5.children = n4.children ∧ b5 = { b4 with contentHeight := b5.contentHeight } := by
  unfold layout
  cases n.layout with
  | none => exact ⟨fun e => Iff.rfl, fun n5 h => by cases h⟩
  | some b0 =>
    dsimp only
    cases layoutBox fp d n.depth p (.viewport d) (n.reset fp) with
    | error e => exact ⟨fun e => Iff.rfl, fun n5 h => by cases h⟩
    | ok m =>
      obtain ⟨s, z, l, cs⟩ := m
      cases l with
      | none => exact ⟨fun e => Iff.rfl, fun n5 h => by cases h⟩
      | some b =>
        refine ⟨fun e => ⟨fun h => (by cases h), fun h => (by cases h)⟩, fun n5 h => ?_⟩
        dsimp only [finishRoot] at h ⊢
        have h := Except.ok.inj h
        subst h
        exact ⟨_, _, _, rfl, rfl, rfl, rfl, rfl, rfl, rfl⟩

/-- C51. The border box of a root that is a block and not positioned starts at its collapsed top margin. -/
theorem C51_top_partial (fp : FP) (d : Display) (html5 : Bool) (p : Option CSS) (n n' : Node) (k : Nat) (hbx : AllBoxed n)
    (h : layout fp d html5 p n = .ok n') (hbl : n'.BlockLevel) (hr : ¬ n'.Relative)
    (hb : ∀ b, n'.layout = some b → Fits fp k (.int b.collapse.top) ∧ Fits fp k b.border.top ∧ Fits fp k b.padding.top) (hk : 5 * k ≤ 2 ^ 53) :
    ∃ b, n'.layout = some b ∧ (b.borderBoxTop fp).val = b.collapse.top := by
  obtain ⟨m, h1, h2, h0⟩ := layout_ok h
  obtain ⟨s, z, b, cs, b', rfl, rfl, e⟩ := finishRoot_ok h2
  obtain ⟨c1, c2, c3⟩ := hb _ rfl
  have e1 : b'.border = b.border ∧ b'.padding = b.padding ∧ b'.collapse = b.collapse ∧ b'.top.val = (b.v.content.add fp (.int b.collapse.top)).val := by
    rw [e]
    have t := setContent_v_top fp (b.v.content.add fp (.int b.collapse.top)) b cs
    have u := setContent_collapse fp .v (b.v.content.add fp (.int b.collapse.top)) b cs
    have v := setContent_edges fp .v (b.v.content.add fp (.int b.collapse.top)) b cs
    split
    · exact ⟨v.1, v.2, u, t⟩
    · exact ⟨v.1, v.2, u, t⟩
  obtain ⟨q1, q2, q3, q4⟩ := e1
  have hs : (n.reset fp).style = s := (layoutBox_style h1).symm
  obtain ⟨_, t⟩ := layoutBox_block h1 (pristine_reset fp hbx) (by rw [hs]; exact (blockLevel_iff (.mk s z (some b') _)).2 hbl)
  have t := t (by
    cases hx : isRelative s with
    | false => rfl
    | true => exact absurd ((isRelative_iff (.mk s z (some b') _)).1 hx) hr)
  rw [q1] at c2
  rw [q2] at c3
  rw [q3] at c1
  refine ⟨b', rfl, ?_⟩
  obtain ⟨a1, a2⟩ := c2.add c3 (by omega)
  obtain ⟨d1, d2⟩ := (fits_zero c1).add a2 (by omega)
  have f : Fits fp (0 + (k + k)) b.top := d2.of_val t
  obtain ⟨g1, g2⟩ := f.add c1 (by omega)
  have g3 : Fits fp (0 + (k + k) + k) b'.top := g2.of_val q4
  obtain ⟨i1, i2⟩ := g3.sub c3 (by omega)
  obtain ⟨j1, j2⟩ := i2.sub c2 (by omega)
  have e3 : b'.borderBoxTop fp = ((b'.top.sub fp b.padding.top).sub fp b.border.top) := by
    rw [← q1, ← q2]; rfl
  have q4' : b'.top.val = (b.top.add fp (.int b.collapse.top)).val := q4
  rw [e3, j1, i1, q4', g1, t, d1, a1, q3, Num.val_int, Num.val_int]
  push_cast
  ring

/-- The margins of the last of three nested blocks, of 7 and 9 pixels, collapse into those of the root. -/
example : let doc := block [(.margin .top, px 3)] [block [(.margin .bottom, px 4)] [block [(.height, px 10), (.margin .top, px 7), (.margin .bottom, px 9)] []]]
    (laidBox .b64 screen doc []).map (fun b => (b.collapse.top, b.collapse.bottom, b.borderBoxTop .b64, b.contentHeight)) = some (7, 9, .int 7, some (.int 10)) ∧
    (layout .b64 screen true Option.none doc).toOption.bind (fun n => n.layout.map fun b => (b.collapse.top, b.collapse.bottom, b.borderBoxTop .b64, b.contentHeight)) =
      some (7, 9, .int 7, some (.int 464)) := by decide +kernel

/-- The height is assigned even where it is negative, and whatever `height` and `max-height` say. -/
theorem C51_false_height : (layout .b64 screen true Option.none (block [(.height, px 10), (.maxHeight, px 20), (.margin .top, px 500)] [])).toOption.bind
      (fun n => n.layout.map Box.contentHeight) = some (some (.int (-20))) := by decide +kernel

/-- A positioned root is not at its collapsed margin, even without an offset: border and padding are added twice. -/
theorem C51_false_relative : (laidBox .b64 screen (block [(.position, kw "relative"), (.padding .top, px 5)] []) []).map
      (fun b => (b.collapse.top, b.borderBoxTop .b64)) = some (0, .int 5) := by decide +kernel

end Colosseum
