import Verif.Lemmas.Merged
import Verif.Lemmas.Sample
import Verif.Props.Blueprint
import Verif.Props.Whole

/-!
# C117: only border and padding together matter
-/

namespace Colosseum

/-- Two boxes that differ in nothing but how much of the edges is border and how much is padding. -/
structure Box.Recut (fp : FP) (b b' : Box) : Prop where
  width : b.contentWidth = b'.contentWidth
  height : b.contentHeight = b'.contentHeight
  place : ∀ a, (b.pos a).content = (b'.pos a).content
  margin : b.margin = b'.margin
  above : b.collapse.top = b'.collapse.top
  below : b.collapse.bottom = b'.collapse.bottom
  rim : ∀ t, (b.border.get t).add fp (b.padding.get t) = (b'.border.get t).add fp (b'.padding.get t)

theorem recut_of {fp : FP} {b b' : Box} (h : b.figures.merged fp = b'.figures.merged fp) : b.Recut fp b' := by
  obtain ⟨h1, h2, h3, h4, h5, h6, h7, h8⟩ := merged_figures h
  exact ⟨h3, h4, fun a => by cases a; exact h2; exact h1, h5, h7, h8, fun t => by cases t; exact h6.1; exact h6.2.1; exact h6.2.2.1; exact h6.2.2.2⟩

theorem merged_at {fp : FP} : ∀ (q : List Nat) {k k' : Blueprint}, Merged fp k k' → Paired (fun f f' => f.merged fp = f'.merged fp) (k.at q) (k'.at q)
  | [], k, k', h => by
    rcases merged_cases h with ⟨rfl, rfl⟩ | ⟨f, f', ks, ks', rfl, rfl, hf, _⟩
    · trivial
    · exact hf
  | i :: q, k, k', h => by
    rcases merged_cases h with ⟨rfl, rfl⟩ | ⟨f, f', ks, ks', rfl, rfl, _, hk⟩
    · trivial
    · simp only [Blueprint.at]
      have hi : Paired (Merged fp) ks[i]? ks'[i]? := by
        clear h
        induction hk generalizing i with
        | nil => trivial
        | cons h _ ih =>
          cases i with
          | zero => exact h
          | succ i => simpa using ih i
      exact hi.bind fun a b hab => merged_at q hab

/-- **C117.** Two documents differ, as far as layout is concerned, in nothing but how much of the edges of their elements is border and how much is padding. In exact
arithmetic one can be laid out if and only if the other can, and then the boxes have the same places, sizes and margins. -/
theorem C117_boxes (fp : FP) (E : fp.Exact) (d : Display) (html5 : Bool) (p p' : Option CSS) (n n' : Node) (hb : AllBoxed n) (hb' : AllBoxed n') (h : Traded fp d n n')
    (hp : Paired (fun q q' => q.get .height = q'.get .height) p p') :
    Paired (fun m m' => ∀ q, Paired (Box.Recut fp) (m.boxAt q) (m'.boxAt q)) (layout fp d html5 p n).toOption (layout fp d html5 p' n').toOption := by
  have hB := traded_blueprint E html5 h hp
  rw [← C91_blueprint hb, ← C91_blueprint hb'] at hB
  generalize (layout fp d html5 p n).toOption = x at hB ⊢
  generalize (layout fp d html5 p' n').toOption = y at hB ⊢
  match x, y, hB with
  | none, none, _ => trivial
  | some m, some m', hB =>
    intro q
    have := merged_at q (k := m.drawn) (k' := m'.drawn) hB
    rw [drawn_at, drawn_at] at this
    generalize m.boxAt q = u at this ⊢
    generalize m'.boxAt q = v at this ⊢
    cases u with
    | none =>
      cases v with
      | none => trivial
      | some _ => exact False.elim this
    | some b =>
      cases v with
      | none => exact False.elim this
      | some b' => exact recut_of this

/-- **C117, in floating point.** Documents in whole pixels, as C113 has them, are laid out alike by the arithmetic of Python too. -/
theorem C117_whole (fp : FP) (L : fp.Laws) (d : Display) (html5 : Bool) (n n' : Node) (hd : d.Integral) (hn : Whole.Simple d n) (hn' : Whole.Simple d n')
    (h : Traded .exact d n n') :
    Paired (fun m m' => ∀ q, Paired (Box.Recut .exact) (m.boxAt q) (m'.boxAt q)) (layout fp d html5 none n).toOption (layout fp d html5 none n').toOption := by
  rw [C113_exact fp L d html5 n hd hn, C113_exact fp L d html5 n' hd hn']
  exact C117_boxes .exact FP.exact_exact d html5 none none n n' (fun m hm => (hn m hm).1) (fun m hm => (hn' m hm).1) h trivial

/-- **C117.** The border boxes of such boxes have the same sizes and the same places too. -/
theorem C117_border (fp : FP) (E : fp.Exact) (b b' : Box) (h : b.Recut fp b') :
    b.borderBoxWidth fp = b'.borderBoxWidth fp ∧ b.borderBoxHeight fp = b'.borderBoxHeight fp ∧ b.borderBoxTop fp = b'.borderBoxTop fp := by
  have h1 := h.rim .top
  have h2 := h.rim .right
  have h3 := h.rim .bottom
  have h4 := h.rim .left
  have hv := h.place .v
  simp only [Edge.get, Box.pos] at h1 h2 h3 h4 hv
  refine ⟨?_, ?_, ?_⟩
  · simp only [Box.borderBoxWidth, h.width, add_assoc_exact E _ b.padding.right, add_assoc_exact E _ b'.padding.right, add_comm_num fp b.padding.right,
      add_comm_num fp b'.padding.right, h2, h4]
  · simp only [Box.borderBoxHeight, h.height, add_assoc_exact E _ b.padding.bottom, add_assoc_exact E _ b'.padding.bottom, add_comm_num fp b.padding.bottom,
      add_comm_num fp b'.padding.bottom, h1, h3]
  · simp only [Box.borderBoxTop, sub_sub_exact E, add_comm_num fp b.padding.top, add_comm_num fp b'.padding.top, hv, h1]

/-! ## Examples and limits -/

/-- Blocks with borders and paddings, one of them relative to the width around, and `auto` margins. -/
def framed : Node := block [(.borderWidth .left, px 7), (.padding .top, px 4), (.borderWidth .top, kw "thin")] [
  block [(.width, px 100), (.margin .left, kw "auto"), (.margin .right, kw "auto"), (.borderWidth .left, px 3), (.padding .right, px 5), (.borderWidth .bottom, px 6)] [],
  block [(.margin .top, px 9), (.padding .bottom, pct 10), (.height, px 20)] []]

/-- The same with other borders and paddings. -/
def reframed : Node := block [(.padding .left, px 7), (.padding .top, px 2), (.borderWidth .top, kw "medium")] [
  block [(.width, px 100), (.margin .left, kw "auto"), (.margin .right, kw "auto"), (.padding .left, px 1), (.borderWidth .left, px 2), (.padding .right, px 1),
    (.borderWidth .right, px 4), (.padding .bottom, px 6)] [],
  block [(.margin .top, px 9), (.borderWidth .bottom, pct 10), (.height, px 20)] []]

theorem rim_known {fp : FP} {d : Display} {s : CSS} {t : Side} {size : Option Num} {v w : Val} {x y : Num} (hb : s.get (.borderWidth t) = v) (hp : s.get (.padding t) = w)
    (hv : v.thickness fp d size = some x) (hw : w.thickness fp d size = some y) : s.rim fp d t size = some (x.add fp y) := by
  rw [CSS.rim, hb, hp, hv, hw]
  rfl

theorem rim_same {fp : FP} {d : Display} {s s' : CSS} {t : Side} {size : Option Num} {x y : Num} (h : s.rim fp d t size = some x) (h' : s'.rim fp d t size = some y)
    (e : x = y) : s.rim fp d t size = s'.rim fp d t size := by rw [h, h', e]

theorem px_thickness {fp : FP} (L : fp.Laws) (d : Display) (size : Option Num) (i : Int) (h : i.natAbs ≤ 2 ^ 53) : (px i).thickness fp d size = some (.int i) := by
  have e := Whole.pixels_px L (c := ⟨d, dummyFont fp, size⟩) h
  unfold Val.thickness px Val.extent
  dsimp only
  split
  · rename_i h0
    have : (i : Rat) = 0 := by simpa [PyNum.pyEq, Num.pyEq, Num.val] using h0.2
    have : i = 0 := by exact_mod_cast this
    subst this
    rfl
  · have e' : CUnit.px fp ⟨.len .px, .fin (.int i)⟩ ⟨d, dummyFont fp, size⟩ = .ok (.int i) := e
    rw [e']
    rfl

/-- Border and padding of a side may be swapped. -/
theorem rim_swap {fp : FP} {d : Display} {s s' : CSS} {t : Side} {size : Option Num} (hb : s.get (.borderWidth t) = s'.get (.padding t))
    (hp : s.get (.padding t) = s'.get (.borderWidth t)) : s.rim fp d t size = s'.rim fp d t size := by
  unfold CSS.rim
  rw [hb, hp]
  cases (s'.get (.padding t)).thickness fp d size <;> cases (s'.get (.borderWidth t)).thickness fp d size <;> first
    | rfl
    | exact congrArg some (add_comm_num fp _ _)

theorem framed_traded : Traded .exact screen framed reframed := by
  have px' := fun (i : Int) (h : i.natAbs ≤ 2 ^ 53) (size : Option Num) => px_thickness exact_laws screen size i h
  refine .mk ⟨fun p hp h1 h2 => ?_, fun t size => ?_⟩ rfl rfl fun x hx => ?_
  · cases p <;> first | rfl | exact absurd rfl (h1 _) | exact absurd rfl (h2 _)
  · cases t
    · exact rim_same (rim_known rfl rfl rfl (px' 4 (by decide) size)) (rim_known rfl rfl rfl (px' 2 (by decide) size)) rfl
    · rfl
    · rfl
    · exact rim_swap rfl rfl
  · simp only [List.zip_cons_cons, List.zip_nil_right, List.mem_cons, List.not_mem_nil, or_false] at hx
    rcases hx with rfl | rfl
    · refine .mk ⟨fun p hp h1 h2 => ?_, fun t size => ?_⟩ rfl rfl fun x hx => nomatch hx
      · cases p <;> first | rfl | (rename_i t; cases t <;> rfl) | exact absurd rfl (h1 _) | exact absurd rfl (h2 _)
      · cases t
        · rfl
        · exact rim_same (rim_known rfl rfl rfl (px' 5 (by decide) size)) (rim_known rfl rfl (px' 4 (by decide) size) (px' 1 (by decide) size)) rfl
        · exact rim_swap rfl rfl
        · exact rim_same (rim_known rfl rfl (px' 3 (by decide) size) rfl) (rim_known rfl rfl (px' 2 (by decide) size) (px' 1 (by decide) size)) rfl
    · refine .mk ⟨fun p hp h1 h2 => ?_, fun t size => ?_⟩ rfl rfl fun x hx => nomatch hx
      · cases p <;> first | rfl | (rename_i t; cases t <;> rfl) | exact absurd rfl (h1 _) | exact absurd rfl (h2 _)
      · cases t
        · rfl
        · rfl
        · exact rim_swap rfl rfl
        · rfl

/-- The example meets the hypotheses, and its boxes are not where they are without edges. -/
example : (∀ q, Paired (Box.Recut .exact) (laidBox .exact screen framed q) (laidBox .exact screen reframed q)) ∧
    (laidBox .exact screen reframed [1]).map (fun b => (b.v.content, b.contentWidth, b.padding.bottom, b.border.bottom)) =
      some (.int 15, some (.int 633), .int 0, .flt (4051 / 64)) := by
  refine ⟨fun q => ?_, by decide +kernel⟩
  have h := C117_boxes .exact FP.exact_exact screen false none none framed reframed (full_boxed _ (by decide +kernel)) (full_boxed _ (by decide +kernel)) framed_traded trivial
  unfold laidBox
  generalize layout .exact screen false none framed = x at h ⊢
  generalize layout .exact screen false none reframed = y at h ⊢
  match x, y, h with
  | .ok m, .ok m', h => exact h q
  | .error _, .error _, _ => trivial

/-- Whole pixels in the arithmetic of Python: seven pixels of border, and seven of padding. -/
example : Paired (fun m m' => ∀ q, Paired (Box.Recut .exact) (m.boxAt q) (m'.boxAt q))
    (layout .b64 screen true none (block [(.borderWidth .left, px 7)] [])).toOption (layout .b64 screen true none (block [(.padding .left, px 7)] [])).toOption := by
  refine C117_whole .b64 b64_laws screen true _ _ Whole.screen_integral (Whole.block_simple (fun q hq => Whole.plainTest_sound ?_) (fun c hc => nomatch hc))
    (Whole.block_simple (fun q hq => Whole.plainTest_sound ?_) (fun c hc => nomatch hc)) (.mk ⟨fun p hp h1 h2 => ?_, fun t size => ?_⟩ rfl rfl fun x hx => nomatch hx)
  · revert q; decide +kernel
  · revert q; decide +kernel
  · cases p <;> first | rfl | exact absurd rfl (h1 _) | exact absurd rfl (h2 _)
  · cases t
    · rfl
    · rfl
    · rfl
    · exact rim_swap rfl rfl

/-- The border boxes of the first child agree. -/
example : (laidBox .exact screen framed [0]).bind (Box.borderBoxWidth .exact) = some (.int 108) ∧
    (laidBox .exact screen reframed [0]).bind (Box.borderBoxWidth .exact) = some (.int 108) := by decide +kernel

/-- Floats are rounded after every step: on a display that is 2^54 wide, taking off a pixel twice is taking off nothing. -/
theorem C117_rounding : ∃ (d : Display) (n n' : Node), Traded .b64 d n n' ∧ d.contentWidth = .flt (2 ^ 54) ∧
    (laidBox .b64 d n []).map Box.contentWidth = some (some (.flt (2 ^ 54))) ∧ (laidBox .b64 d n' []).map Box.contentWidth = some (some (.flt (2 ^ 54 - 2))) := by
  refine ⟨{ screen with contentWidth := .flt (2 ^ 54) }, block [(.borderWidth .left, px 1), (.padding .left, px 1)] [], block [(.padding .left, px 2)] [], ?_, rfl,
    by decide +kernel, by decide +kernel⟩
  have px' := fun (i : Int) (h : i.natAbs ≤ 2 ^ 53) (size : Option Num) => px_thickness b64_laws { screen with contentWidth := .flt (2 ^ 54) } size i h
  refine .mk ⟨fun p hp h1 h2 => ?_, fun t size => ?_⟩ rfl rfl fun x hx => nomatch hx
  · cases p <;> first | rfl | exact absurd rfl (h1 _) | exact absurd rfl (h2 _)
  · cases t
    · rfl
    · rfl
    · rfl
    · exact rim_same (rim_known rfl rfl (px' 1 (by decide) size) (px' 1 (by decide) size)) (rim_known rfl rfl rfl (px' 2 (by decide) size)) rfl

/-- Margins are another matter, since they collapse: a block of 5 pixels below a padding of 3 pixels ends lower than one below a margin of 3 pixels that is next to another. -/
theorem C117_margin : ∃ n n' : Node, n = block [] [block [(.margin .bottom, px 3)] [], block [(.padding .top, px 3), (.height, px 5)] []] ∧
    n' = block [] [block [(.margin .bottom, px 3)] [], block [(.margin .top, px 3), (.height, px 5)] []] ∧
    (laidBox .exact screen n []).map Box.contentHeight = some (some (.int 11)) ∧ (laidBox .exact screen n' []).map Box.contentHeight = some (some (.int 8)) :=
  ⟨_, _, rfl, rfl, by decide +kernel, by decide +kernel⟩

end Colosseum
