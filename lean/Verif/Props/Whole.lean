import Verif.Lemmas.Whole
import Verif.Lemmas.Sample
import Verif.Lemmas.Pixels
import Verif.Props.Widths
import Verif.Props.Stacks

/-!
# C113: documents in whole pixels
-/

namespace Colosseum

open Whole

/-- C113. When the lengths of a document come to whole numbers of pixels, all numbers in the boxes that are shown after layout are `int`s. -/
theorem C113_whole (fp : FP) (d : Display) (html5 : Bool) (p : Option CSS) (n n' : Node) (hd : d.Integral) (hp : ∀ q, p = some q → Style fp fp d q)
    (hn : Doc fp fp d n) (h : layout fp d html5 p n = .ok n') : ∀ bs b, Shown n' bs b → b.Integral :=
  (trim_shown n').1 ((layout_joint hd hp hn).2 n' h)

/-- C113. No arithmetic but that of the lengths matters: when two arithmetics agree on the lengths of such a document, they agree on its layout, or on how it fails. -/
theorem C113_any (fp fp' : FP) (d : Display) (html5 : Bool) (p : Option CSS) (n : Node) (hd : d.Integral) (hp : ∀ q, p = some q → Style fp fp' d q)
    (hn : Doc fp fp' d n) : layout fp d html5 p n = layout fp' d html5 p n :=
  (layout_joint hd hp hn).1

namespace Whole

theorem pxOfLu_whole {fp : FP} (L : fp.Laws) {i : Int} (hi : i.natAbs ≤ 2 ^ 53) : pxOfLu fp (64 * i) = .int i := by
  have e : ((64 * i : Int) : Rat) / 64 = (i : Rat) := by push_cast; ring
  have t : pyTrunc (i : Rat) = i := by
    have := (pyTrunc_eq_iff (i : Rat)).2 ⟨i, rfl⟩
    exact_mod_cast this.symm
  simp [pxOfLu, e, L.small i hi, t]

theorem pixels_px {fp : FP} (L : fp.Laws) {i : Int} (hi : i.natAbs ≤ 2 ^ 53) (c : PxCtx) : Val.px fp (.unit ⟨.len .px, .fin (.int i)⟩) c = .ok (.int i) := by
  show Except.ok (pxOfLu fp (64 * i)) = _
  rw [pxOfLu_whole L hi]

theorem inches_px {fp : FP} (L : fp.Laws) {i j : Int} (h1 : (64 * i).natAbs ≤ 2 ^ 53) (h2 : j.natAbs ≤ 2 ^ 53) (h3 : (64 * (i * j)).natAbs ≤ 2 ^ 53) (c : PxCtx)
    (hc : c.display.dpi = .int j) : Val.px fp (.unit ⟨.len .inch, .fin (.int i)⟩) c = .ok (.int (i * j)) := by
  show (match luScaled fp (.fin (.int i)) (.int 72) c.display.dpi with
    | .error e => .error e
    | .ok l => .ok (pxOfLu fp l)) = Except.ok _
  have one : fp.rnd ((72 : Int) / (72 : Int) : Rat) = 1 := by
    have := L.small 1 (by norm_num)
    norm_num
    exact_mod_cast this
  have e : luScaled fp (.fin (.int i)) (.int 72) c.display.dpi = .ok (64 * (i * j)) := by
    rw [hc]
    show Except.ok (pyRound (fp.rnd (fp.rnd (fp.rnd ((64 * i : Int) : Rat) * fp.rnd ((72 : Int) / (72 : Int) : Rat)) * fp.rnd (j : Rat)))) = _
    rw [one, L.small _ h1, mul_one, L.small _ h1, L.small _ h2]
    have : (((64 * i : Int) : Rat) * (j : Rat)) = ((64 * (i * j) : Int) : Rat) := by push_cast; ring
    rw [this, L.small _ h3, pyRound_int]
  rw [e]
  simp only
  rw [pxOfLu_whole L (by omega)]

theorem other_px (fp : FP) {v : Val} (h : ∀ u, v ≠ .unit u) (c : PxCtx) : v.px fp c = .error .attribute := by
  cases v <;> first | rfl | exact absurd rfl (h _)

end Whole

/-- C113. Such lengths are whole numbers of pixels by the lines of `units.py`, and any two lawful arithmetics agree on them. -/
theorem C113_plain (fp fp' : FP) (L : fp.Laws) (L' : fp'.Laws) (d : Display) (v : Val) (h : Plain d v) : Agreed fp fp' d v := by
  intro size _
  cases h with
  | other h =>
    rw [other_px fp h, other_px fp' h]
    exact ⟨rfl, fun x e => nomatch e⟩
  | pixels i h =>
    rw [pixels_px L h, pixels_px L' h]
    exact ⟨rfl, fun x e => by cases e; exact ⟨i, rfl⟩⟩
  | inches i j h1 h2 h3 h4 =>
    rw [inches_px L h2 h3 h4 _ h1, inches_px L' h2 h3 h4 _ h1]
    exact ⟨rfl, fun x e => by cases e; exact ⟨i * j, rfl⟩⟩

namespace Whole

theorem init_plain (d : Display) (p : LH) (h : p.Sizing ∨ p.Offset) : Plain d p.constInit := by
  cases p <;> first
    | exact .pixels 0 (by norm_num)
    | exact .other fun _ e => nomatch e
    | exact (h.elim id id).elim

theorem styled_plain {d : Display} (ps : List (LH × Val)) (h : ∀ q ∈ ps, Plain d q.2) : ∀ p : LH, p.Sizing ∨ p.Offset → Plain d ((styled ps).get p) := by
  have key : ∀ (s : CSS), (∀ p : LH, p.Sizing ∨ p.Offset → Plain d (s.get p)) → ∀ p : LH, p.Sizing ∨ p.Offset →
      Plain d ((ps.foldl (fun c p => c.store p.1 p.2) s).get p) := by
    induction ps with
    | nil => exact fun s hs => hs
    | cons q ps ih =>
      intro s hs
      refine ih (fun x hx => h x (List.mem_cons_of_mem _ hx)) (s.store q.1 q.2) fun p hp => ?_
      unfold CSS.get CSS.store
      split
      · exact h q List.mem_cons_self
      · exact hs p hp
  exact key CSS.empty fun p hp => init_plain d p hp

theorem plain_style {fp fp' : FP} (L : fp.Laws) (L' : fp'.Laws) {d : Display} {s : CSS} (h : ∀ p : LH, p.Sizing ∨ p.Offset → Plain d (s.get p)) :
    Style fp fp' d s := fun p hp => C113_plain fp fp' L L' d _ (h p hp)

theorem initial_integral : Intrinsic.initial.Integral := ⟨fun _ e => (nomatch e), fun _ e => (nomatch e), fun _ e => (nomatch e)⟩

theorem simple_doc {fp fp' : FP} (L : fp.Laws) (L' : fp'.Laws) {d : Display} (n : Node) : Simple d n → Doc fp fp' d n := by
  induction n using Node.ind with
  | h s z l cs ih =>
    intro hn
    by_cases hs : s.get .display = .none
    · exact .hidden hs
    · obtain ⟨h1, h2, h3⟩ := hn _ (.here hs)
      cases l with
      | none => exact absurd rfl h1
      | some b => exact .shown (plain_style L L' h3) h2 fun c hc => ih c hc fun m hm => hn m (.step hs hc hm)

/-- An executable test of `Plain` for values that are not lengths in inches. -/
def plainTest : Val → Bool
  | .unit ⟨.len .px, .fin (.int i)⟩ => decide (i.natAbs ≤ 2 ^ 53)
  | .unit _ => false
  | _ => true

theorem plainTest_sound {d : Display} {v : Val} (h : plainTest v = true) : Plain d v := by
  unfold plainTest at h
  split at h
  · exact .pixels _ (of_decide_eq_true h)
  · cases h
  · rename_i h1 h2; exact .other h2

theorem node_simple {d : Display} {ps : List (LH × Val)} {cs : List Node} (h : ∀ q ∈ ps, Plain d q.2) (hc : ∀ c ∈ cs, Simple d c) : Simple d (node ps cs) := by
  intro m hm
  cases hm with
  | here _ => exact ⟨fun e => (nomatch e), initial_integral, styled_plain ps h⟩
  | step _ hc' hv => exact hc _ hc' m hv

theorem block_simple {d : Display} {ps : List (LH × Val)} {cs : List Node} (h : ∀ q ∈ ps, Plain d q.2) (hc : ∀ c ∈ cs, Simple d c) : Simple d (block ps cs) := by
  refine node_simple (fun q hq => ?_) hc
  rcases List.mem_cons.1 hq with rfl | hq
  · exact .other fun _ e => nomatch e
  · exact h q hq

theorem trim_within {w w' : Option Num} {ps ps' : Option CSS} {n m : Node} (h : Within w ps n w' ps' m) : Trim n → Trim m := by
  induction h with
  | here => exact id
  | @step w w' ps ps' n c m b hn hl hc hb _ ih =>
    intro ht
    obtain ⟨s, z, l, cs⟩ := n
    cases hl
    exact ih ((trim_some.1 ht).2 c hc)

end Whole

/-- C113. So the layout by any lawful arithmetic of a document in whole pixels is that by exact arithmetic, however many elements there are and however large the sums. -/
theorem C113_exact (fp : FP) (L : fp.Laws) (d : Display) (html5 : Bool) (n : Node) (hd : d.Integral) (hn : Simple d n) :
    layout fp d html5 none n = layout .exact d html5 none n :=
  C113_any fp .exact d html5 none n hd (fun _ e => nomatch e) (simple_doc L exact_laws n hn)

/-- C113. In such a document the seven horizontal measures of a block add up to the width of its container without any bound on them, as C44 has it for numbers that are not too large,
and where both margins are `auto` there is at most one pixel left. -/
theorem C113_fills (fp : FP) (L : fp.Laws) (d : Display) (html5 : Bool) (ps : Option CSS) (n n' m : Node) (w : Option Num) (hd : d.Integral) (hn : Simple d n)
    (h : layout fp d html5 none n = .ok n') (hm : Within (some d.contentWidth) none n' w ps m) (hb : m.BlockLevel) :
    ∃ b x size, m.layout = some b ∧ b.Measures x ∧ w = some size ∧
      (x.sum = size.val ∨ m.style.get .width ≠ kw "auto" ∧ m.style.get (.margin .left) = kw "auto" ∧ m.style.get (.margin .right) = kw "auto" ∧
        size.val = x.sum + 1) := by
  have ht : Trim n' := (layout_joint (p := none) (fp' := fp) hd (fun _ e => nomatch e) (simple_doc L L n hn)).2 n' h
  rw [C113_exact fp L d html5 n hd hn] at h
  obtain ⟨b, x, size, h1, h2, h3, h4⟩ := C44_fills_partial .exact d html5 none ps n n' m w h hm hb
  have E : FP.exact.Exact := FP.exact_exact
  obtain ⟨k1, k2⟩ := within_shown hm
  obtain ⟨bs, hs⟩ := k1 b h1
  have gb := (trim_shown n').1 ht bs b hs
  have gs : size.Integral := by
    rcases k2 with e | ⟨bs', b', hs', e⟩
    · rw [h3] at e; cases e; exact hd.width
    · exact ((trim_shown n').1 ht bs' b' hs').width size (e.symm.trans h3)
  refine ⟨b, x, size, h1, h2, h3, ?_⟩
  rcases h4 0 (by norm_num) (.inl E) ⟨.inl E, .inl E, .inl E, .inl E, .inl E, .inl E, .inl E⟩ with h5 | ⟨h5, h6, h7, h8, h9⟩
  · exact .inl h5
  · obtain ⟨e1, e2, e3, e4, e5, e6, e7⟩ := h2
    obtain ⟨i0, rfl⟩ := gs
    obtain ⟨i1, j1⟩ := gb.margin .left _ e1
    obtain ⟨i2, j2⟩ := gb.border .left
    obtain ⟨i3, j3⟩ := gb.padding .left
    obtain ⟨i4, j4⟩ := gb.width _ e4
    obtain ⟨i5, j5⟩ := gb.padding .right
    obtain ⟨i6, j6⟩ := gb.border .right
    obtain ⟨i7, j7⟩ := gb.margin .right _ e7
    have j2 : x.bl = .int i2 := e2 ▸ j2
    have j3 : x.pl = .int i3 := e3 ▸ j3
    have j5 : x.pr = .int i5 := e5 ▸ j5
    have j6 : x.br = .int i6 := e6 ▸ j6
    have es : x.sum = ((i1 + i2 + i3 + i4 + i5 + i6 + i7 : Int) : Rat) := by
      simp only [Across.sum, j1, j2, j3, j4, j5, j6, j7, Num.val]
      push_cast
      ring
    rw [es] at h8 h9 ⊢
    simp only [Num.val] at h8 h9 ⊢
    have g8 : i1 + i2 + i3 + i4 + i5 + i6 + i7 ≤ i0 := by exact_mod_cast h8
    have g9 : i0 < i1 + i2 + i3 + i4 + i5 + i6 + i7 + 2 := by exact_mod_cast h9
    rcases (by omega : i1 + i2 + i3 + i4 + i5 + i6 + i7 = i0 ∨ i0 = i1 + i2 + i3 + i4 + i5 + i6 + i7 + 1) with g | g
    · exact .inl (by rw [g])
    · exact .inr ⟨h5, h6, h7, by rw [g]; push_cast; ring⟩

/-- C113. In such a document the border boxes of the blocks in a block, apart from relatively positioned ones, are where the running sum of C45 has them, without any bound on the numbers. -/
theorem C113_stack (fp : FP) (L : fp.Laws) (d : Display) (html5 : Bool) (ps : Option CSS) (n n' m : Node) (w : Option Num) (hd : d.Integral) (hn : Simple d n)
    (h : layout fp d html5 none n = .ok n') (hm : Within (some d.contentWidth) none n' w ps m) (hh : ¬ m.Hidden) (hc : m.BlockContext) :
    ∃ ks rest xs, m.children = ks ++ rest ∧ (∀ c ∈ ks, c.BlockLevel) ∧ (∀ c ∈ rest, ¬ c.BlockLevel) ∧
      List.Forall₂ (fun c x => ∃ b, c.layout = some b ∧ b.Stands x) ks xs ∧
      List.Forall₂ (fun c t => ¬ c.Relative → ∃ b, c.layout = some b ∧ (b.borderBoxTop fp).val = t) ks (flowTops 0 none xs) := by
  have ht : Trim n' := (layout_joint (p := none) (fp' := fp) hd (fun _ e => nomatch e) (simple_doc L L n hn)).2 n' h
  rw [C113_exact fp L d html5 n hd hn] at h
  obtain ⟨ks, rest, xs, h1, h2, h3, h4, _, h5⟩ := C45_stack_partial .exact d html5 none ps n n' m w (fun k hk => (hn k hk).1) h hm hh hc
  have E : FP.exact.Exact := FP.exact_exact
  have h6 := h5 0 (.inl E) (fun x _ => ⟨.inl E, .inl E, .inl E, .inl E, .inl E, .inl E, .inl E⟩) (by simp)
  refine ⟨ks, rest, xs, h1, h2, h3, h4, ?_⟩
  have hl := h6.length_eq
  rw [List.forall₂_iff_get] at h6 ⊢
  refine ⟨hl, fun i h7 h8 hr => ?_⟩
  obtain ⟨b, hb, e⟩ := h6.2 i h7 h8 hr
  refine ⟨b, hb, ?_⟩
  rw [← e]
  have hk : ks.get ⟨i, h7⟩ ∈ m.children := by rw [h1]; exact List.mem_append_left _ (List.get_mem ks ⟨i, h7⟩)
  have tm := trim_within hm ht
  obtain ⟨b0, hml, _⟩ := layout_ran_any h hm hh
  have gb : b.Integral := (trim_shown m).1 tm _ _ (.step hml hk (.here hb))
  have s1 := Whole.Num.Integral.sub (fp := fp) (fp' := .exact) (gb.content .v) (gb.padding .top)
  have s2 := Whole.Num.Integral.sub (fp := fp) (fp' := .exact) s1.2 (gb.border .top)
  simp only [Box.pos, Edge.get] at s1 s2
  unfold Box.borderBoxTop
  rw [s2.1, s1.1]

/-! ## Examples and limits -/

namespace Whole

theorem screen_integral : screen.Integral := ⟨⟨_, rfl⟩, ⟨_, rfl⟩, ⟨_, rfl⟩, ⟨_, rfl⟩, ⟨_, rfl⟩⟩

/-- A document with a relatively positioned element, a border of an inch, `auto` margins, a hidden element and huge sizes. -/
def poster : Node := block [(.borderWidth .left, .unit ⟨.len .inch, .fin (.int 1)⟩), (.padding .top, px 9007199254740992)] [
  block [(.height, px 9007199254740992), (.width, px 33), (.margin .left, kw "auto"), (.margin .right, kw "auto")] [],
  block [(.height, px 9007199254740991), (.position, kw "relative"), (.top, px 7), (.margin .top, px 9007199254740992)] [],
  block [(.height, px 1), (.borderWidth .top, kw "thin")] [hidden []]]

theorem poster_simple : Simple screen poster := by
  refine block_simple (fun q hq => ?_) (fun c hc => ?_)
  · simp only [List.mem_cons, List.not_mem_nil, or_false] at hq
    rcases hq with rfl | rfl
    · exact .inches 1 96 rfl (by norm_num) (by norm_num) (by norm_num)
    · exact plainTest_sound (by decide +kernel)
  · simp only [List.mem_cons, List.not_mem_nil, or_false] at hc
    rcases hc with rfl | rfl | rfl
    · refine block_simple (fun q hq => plainTest_sound ?_) (fun c hc => nomatch hc)
      revert q
      decide +kernel
    · refine block_simple (fun q hq => plainTest_sound ?_) (fun c hc => nomatch hc)
      revert q
      decide +kernel
    · refine block_simple (fun q hq => plainTest_sound ?_) (fun c hc => ?_)
      · revert q
        decide +kernel
      · rw [List.mem_singleton.1 hc]
        intro m hm
        cases hm with
        | here h => exact absurd rfl h
        | step h _ _ => exact absurd rfl h

end Whole

/-- The hypotheses hold for this document. -/
example : layout .b64 screen true none poster = layout .exact screen true none poster := C113_exact .b64 b64_laws screen true poster screen_integral poster_simple

/-- Its sums are larger than any number up to which floats are exact: the last element is placed at an odd number beyond 2^54. -/
example : (laidBox .b64 screen poster [2]).map (fun b => (b.borderBoxTop .b64, b.contentWidth)) = some (.int (3 * 2 ^ 53 - 1), some (.int 544)) ∧
    (laidBox .b64 screen poster [0]).map (fun b => (b.margin.left, b.margin.right)) = some (.num (.int 255), .num (.int 255)) := by decide +kernel

/-- The example for the seven measures: 255 + 33 + 255 is one pixel less than 544. -/
example : ∃ b x size, (laidDoc .b64 screen poster).children[0]?.bind Node.layout = some b ∧ b.Measures x ∧ size = Num.int 544 ∧ size.val = x.sum + 1 := by
  refine ⟨(laidBox .b64 screen poster [0]).getD .fresh, ⟨.int 255, .int 0, .int 0, .int 33, .int 0, .int 0, .int 255⟩, .int 544, by decide +kernel,
    ⟨by decide +kernel, by decide +kernel, by decide +kernel, by decide +kernel, by decide +kernel, by decide +kernel, by decide +kernel⟩, rfl, ?_⟩
  norm_num [Across.sum, Num.val]

/-- Percentages are not covered: 33 per cent of 10 pixels are 211 layout units, a `float` number of pixels. -/
theorem C113_false_percent : ∃ n : Node, (laidBox .b64 screen n [0]).map Box.contentWidth = some (some (.flt (211 / 64))) ∧
    n = block [(.width, px 10)] [block [(.width, pct 33)] []] := ⟨_, by decide +kernel, rfl⟩

/-- Nor are larger lengths: 2^53 + 1 pixels are one pixel less, unless arithmetic is exact. -/
theorem C113_false_large : ∃ n : Node, (laidBox .b64 screen n []).map Box.contentWidth = some (some (.int (2 ^ 53))) ∧
    (laidBox .exact screen n []).map Box.contentWidth = some (some (.int (2 ^ 53 + 1))) :=
  ⟨block [(.width, px (2 ^ 53 + 1))] [], by decide +kernel, by decide +kernel⟩

end Colosseum
