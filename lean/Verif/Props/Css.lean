import Verif.Lemmas.Css
import Verif.Props.Moved

/-!
# C110: blocks are laid out as CSS 2.1 prescribes, where nothing is left out
-/

namespace Colosseum

open Css in
/-- C110. A document as in C111 whose elements all are `Fine` can be laid out, and the border boxes and content boxes of all its elements, apart from the root by the rules of HTML5,
are where CSS 2.1 has them. -/
theorem C110_css_partial (fp : FP) (L : fp.Laws) (d : Display) (M : Nat) (html5 : Bool) (p : Option CSS) (n : Node) (hn : n.Moderate fp d M)
    (hr : ∀ m, Sub m n → Moved.Regular fp d m) (hp : ∀ s, p = some s → s.get .height = kw "auto" ∨ (s.get .height).Finite)
    (hc : Conforming fp d true (ltr n.style) d.contentWidth.val n) :
    ∃ n', layout fp d html5 p n = .ok n' ∧
      ∀ q, html5 = false ∨ q ≠ [] → Option.Rel (fun b f => b.Fills fp f) (n'.boxAt q) (layoutAt fp d n q) := by
  obtain ⟨n', h, hf⟩ := C111_reference fp L d M html5 p n hn hr hp
  exact ⟨n', h, fun q hq => reference_css hr hc hq ▸ hf q⟩

/-! ## A document -/

namespace Css

/-- A test for `Fine`. -/
def fineTest (fp : FP) (d : Display) (root dir : Bool) (W : Rat) (s : CSS) (cs : List Node) : Bool :=
  let hi (p : LH) (v : Rat) : Bool := ((s.get p).pixels fp d).all fun x => v ≤ x
  let size (p : LH) : Option Rat := Moved.pixelsOf fp d (s.get p) W
  let inner := ended (!root && openBottom fp d s) (run fp d 0 (begin (!root && openTop fp d s)) cs)
  [Side.top, .right, .bottom, .left].all (fun t => border fp d s t = s.bordered fp d t) &&
  [Side.top, .bottom].all (fun t => (margin fp d s t).den = 1 && 0 ≤ (margin fp d s t).num) &&
  cs.head?.all (fun c => margin fp d c.style .top = 0 || (!root && openTop fp d s && margin fp d c.style .top ≤ margin fp d s .top)) &&
  cs.getLast?.all (fun c => (below fp d c).value = 0 || (height fp d s).isSome || (!root && openBottom fp d s)) &&
  (!cs.isEmpty || root || !through fp d (.mk s .initial none cs)) &&
  (height fp d s).all (fun h => least fp d s ≤ limited none ((s.get .maxHeight).pixels fp d) h) &&
  ((height fp d s).isSome || if cs.isEmpty then 0 ≤ least fp d s && hi .maxHeight 0 else least fp d s ≤ inner && hi .maxHeight inner) &&
  (size .width).all (fun w => 0 ≤ limited (size .minWidth) (size .maxWidth) w &&
    ((Moved.outside fp d s .left W).isSome || (Moved.outside fp d s .right W).isSome || W < wide fp d W s || ((W - wide fp d W s) / 2).den = 1)) &&
  ((size .width).isSome || ((size .minWidth).getD 0 ≤ left fp d W s && (size .maxWidth).all fun x => left fp d W s ≤ x)) &&
  (ltr s == dir || (size .width).isNone || ((Moved.outside fp d s .left W).isNone || (Moved.outside fp d s .right W).isNone) && wide fp d W s + beside fp d W s .left + beside fp d W s .right ≤ W) &&
  (!relative s || edge fp d s .top = 0 && (dir || (size .left).isNone || (size .right).isNone)) &&
  ((height fp d s).isSome || cs.getLast?.all fun c => lowered fp d c.style = 0)

theorem den_one {x : Rat} (h : x.den = 1) : ((x.num : Int) : Rat) = x := (Rat.den_eq_one_iff x).1 h

theorem fineTest_sound {fp : FP} {d : Display} {root dir : Bool} {W : Rat} {s : CSS} {cs : List Node} (h : fineTest fp d root dir W s cs = true) : Fine fp d root dir W s cs := by
  simp only [fineTest, Bool.and_eq_true, List.all_eq_true, decide_eq_true_eq] at h
  obtain ⟨⟨⟨⟨⟨⟨⟨⟨⟨⟨⟨h1, h2⟩, h3⟩, h4⟩, h5⟩, h6⟩, h7⟩, h8⟩, h9⟩, h10⟩, h11⟩, h12⟩ := h
  have all : ∀ t : Side, t ∈ [Side.top, .right, .bottom, .left] := by intro t; cases t <;> simp
  refine ⟨fun t => h1 t (all t), fun t ht => ?_, fun c hc => ?_, fun c hc => ?_, fun he => ?_, fun x hx => ?_, fun e1 e2 => ?_, fun e1 e2 => ?_, fun w hw => ?_, fun hw => ?_,
    fun m1 m2 w hw hle => ?_, ?_, fun hm => ?_, fun hh c hc => ?_⟩
  · obtain ⟨a, b⟩ := h2 t (by rcases ht with rfl | rfl <;> simp)
    obtain ⟨k, hk⟩ := Int.eq_ofNat_of_zero_le b
    refine ⟨k, ?_⟩
    rw [← den_one a, hk]
    rfl
  · rw [hc] at h3
    simpa [and_assoc] using h3
  · rw [hc] at h4
    simpa [and_assoc, or_assoc] using h4
  · subst he
    rcases (by simpa [or_assoc] using h5) with h | h
    · exact .inl h
    · refine .inr fun z l => ?_
      simpa [through] using h
  · rw [hx] at h6
    simpa using h6
  · rw [e1, e2] at h7
    have h7' : 0 ≤ least fp d s ∧ ((s.get .maxHeight).pixels fp d).all (fun x => 0 ≤ x) = true := by simpa using h7
    exact ⟨h7'.1, fun hi hx => by have := h7'.2; rw [hx] at this; simpa using this⟩
  · rw [e1] at h7
    have hne : cs.isEmpty = false := by cases cs with
      | nil => exact absurd rfl e2
      | cons c cs => rfl
    rw [hne] at h7
    simp only [Option.isSome_none, Bool.false_or, Bool.false_eq_true, if_false, Bool.and_eq_true, decide_eq_true_eq] at h7
    exact ⟨h7.1, fun hi hx => by have := h7.2; rw [hx] at this; simpa using this⟩
  · rw [hw] at h8
    simp only [Option.all_some, Bool.and_eq_true, decide_eq_true_eq] at h8
    exact h8.1
  · rw [hw] at h9
    simp only [Option.isSome_none, Bool.false_or, Bool.and_eq_true, decide_eq_true_eq] at h9
    exact ⟨h9.1, fun hi hx => by have := h9.2; rw [hx] at this; simpa using this⟩
  · rw [hw] at h8
    simp only [Option.all_some, Bool.and_eq_true, decide_eq_true_eq, Bool.or_eq_true] at h8
    rcases h8.2 with ((h | h) | h) | h
    · rw [m1] at h; cases h
    · rw [m2] at h; cases h
    · exact absurd hle (not_le.2 h)
    · refine ⟨((W - wide fp d W s) / 2).num, ?_⟩
      rw [den_one h]
      ring
  · simpa [or_assoc] using h10
  · rw [hm] at h11
    simpa [or_assoc] using h11
  · rw [hh, hc] at h12
    simpa using h12

mutual
/-- A test for `Conforming`. -/
def conformTest (fp : FP) (d : Display) : Node → Bool → Bool → Rat → Bool
  | .mk s _ _ cs, root, dir, W => fineTest fp d root dir W s cs && conformTests fp d cs (ltr s) (contentWide fp d W s).1
/-- See `conformTest`. -/
def conformTests (fp : FP) (d : Display) : List Node → Bool → Rat → Bool
  | [], _, _ => true
  | c :: cs, dir, W => conformTest fp d c false dir W && conformTests fp d cs dir W
end

mutual
theorem conformTest_sound {fp : FP} {d : Display} {root dir : Bool} {W : Rat} : ∀ {n : Node}, conformTest fp d n root dir W = true → Conforming fp d root dir W n
  | .mk s z l cs, h => by
    simp only [conformTest, Bool.and_eq_true] at h
    exact ⟨fineTest_sound h.1, conformTests_sound h.2⟩
theorem conformTests_sound {fp : FP} {d : Display} {dir : Bool} {W : Rat} : ∀ {cs : List Node}, conformTests fp d cs dir W = true → conformingAll fp d dir W cs
  | [], _ => trivial
  | c :: cs, h => by
    simp only [conformTests, Bool.and_eq_true] at h
    exact ⟨conformTest_sound h.1, conformTests_sound h.2⟩
end

end Css

/-- A page with a heading, a centred column of half the width with a border, whose paragraphs are apart by the larger of their margins and of which the first one has been moved, and
a footer of limited height. -/
def essay : Node :=
  block [(.padding .left, px 10), (.padding .right, px 10), (.margin .top, px 4)] [
    block [(.height, px 30), (.margin .bottom, px 6), (.borderWidth .bottom, px 2), (.borderStyle .bottom, kw "solid"), (.position, kw "relative"), (.right, px 7)] [],
    block [(.width, pct 75), (.maxWidth, pct 50), (.margin .left, kw "auto"), (.margin .right, kw "auto"), (.margin .top, px 9), (.borderWidth .left, kw "thick"),
        (.borderStyle .left, kw "dotted"), (.borderWidth .right, px 5), (.borderStyle .right, kw "solid")] [
      block [(.height, px 70), (.margin .top, px 9), (.margin .left, px (-3)), (.margin .bottom, px 4), (.position, kw "relative"), (.top, px 3), (.left, px (-2))] [
        block [(.height, px 11)] []],
      block [(.minHeight, px 20), (.direction, kw "rtl"), (.width, px 100), (.margin .left, kw "auto"), (.margin .top, px 5), (.margin .bottom, px 12)] []],
    block [(.margin .top, px 3), (.maxHeight, px 50), (.direction, kw "rtl")] [block [(.height, px 15), (.padding .top, px 2), (.width, pct 25), (.direction, kw "rtl")] []]]

theorem essay_moderate : essay.Moderate .b64 screen 1000 := by
  have h : essay.mildTest .b64 screen 1000 = true := by decide +kernel
  have hc : essay.count = 8 := by decide +kernel
  refine ⟨fun m hm => (mildTest_all h hm).1, ⟨screen_mild, fun m hm => (mildTest_all h hm).2⟩, by norm_num, ?_, ?_⟩ <;> rw [hc] <;> norm_num

theorem essay_conforming : Css.Conforming .b64 screen true true screen.contentWidth.val essay := Css.conformTest_sound (by decide +kernel)

/-- The hypotheses hold for this document. -/
example : ∃ n', layout .b64 screen false none essay = .ok n' ∧
    ∀ q, false = false ∨ q ≠ [] → Option.Rel (fun b f => b.Fills .b64 f) (n'.boxAt q) (Css.layoutAt .b64 screen essay q) :=
  C110_css_partial .b64 b64_laws screen 1000 false none essay essay_moderate (Moved.test_sound (by decide +kernel)) (fun _ h => nomatch h) essay_conforming

/-- What CSS prescribes: the left and the top of the border box, its width and its height. -/
example : [[], [0], [1], [1, 0], [1, 0, 0], [1, 1], [2], [2, 0], [3]].map (fun q => (Css.layoutAt .b64 screen essay q).map fun f => (f.left, f.top, f.width, f.height)) =
    [some (0, 4, 640, 165), some (3, 4, 620, 32), some (160, 45, 320, 95), some (160, 48, 313, 70), some (160, 48, 313, 11), some (375, 120, 100, 20), some (10, 152, 620, 17),
      some (475, 152, 155, 17), none] := by decide +kernel

/-! ## Where the engine departs from CSS 2.1

Each of these documents is as in C111 but misses one of the conditions. -/

namespace Css

/-- The box at a path is not where CSS 2.1 has it. -/
def Departs (n : Node) (q : List Nat) : Prop :=
  (∀ m, Sub m n → Moved.Regular .b64 screen m) ∧ ∃ b f, laidBox .b64 screen n q = some b ∧ layoutAt .b64 screen n q = some f ∧ ¬b.Fills .b64 f

/-- A test for `Departs`. -/
def departs (n : Node) (q : List Nat) : Bool :=
  Moved.test .b64 screen n && match laidBox .b64 screen n q, layoutAt .b64 screen n q with
  | some b, some f => (b.absBorderBoxLeft .b64).val ≠ f.left || (b.absBorderBoxTop .b64).val ≠ f.top ||
    (b.absBorderBoxRight .b64).map Num.val ≠ some (f.left + f.width) || (b.absBorderBoxBottom .b64).map Num.val ≠ some (f.top + f.height)
  | _, _ => false

theorem departs_sound {n : Node} {q : List Nat} (h : departs n q = true) : Departs n q := by
  simp only [departs, Bool.and_eq_true] at h
  refine ⟨Moved.test_sound h.1, ?_⟩
  have h2 := h.2
  cases hb : laidBox .b64 screen n q with
  | none => rw [hb] at h2; cases h2
  | some b =>
    cases hf : layoutAt .b64 screen n q with
    | none => rw [hb, hf] at h2; cases h2
    | some f =>
      rw [hb, hf] at h2
      refine ⟨b, f, rfl, rfl, fun w => ?_⟩
      obtain ⟨x, e1, e2⟩ := w.right
      obtain ⟨y, e3, e4⟩ := w.bottom
      simp only [w.left, w.top, e1, e3, Option.map_some, e2, e4] at h2
      simp at h2

end Css

/-- A border without a style takes space. -/
theorem C110_false_border : Css.Departs (block [(.borderWidth .top, px 5)] [block [(.height, px 10)] []]) [0] := Css.departs_sound (by decide +kernel)

/-- A negative margin does not pull. -/
theorem C110_false_negative : Css.Departs (block [] [block [(.height, px 10)] [], block [(.height, px 10), (.margin .top, px (-4))] []]) [1] :=
  Css.departs_sound (by decide +kernel)

/-- A margin with a fraction of a pixel is cut. -/
theorem C110_false_fraction : Css.Departs (block [] [block [(.height, px 10), (.margin .bottom, .unit ⟨.len .px, .fin (.flt (5 / 2))⟩)] [],
    block [(.height, px 10)] []]) [1] := Css.departs_sound (by decide +kernel)

/-- The top margin of the first child of the root is outside of the root. -/
theorem C110_false_first : Css.Departs (block [] [block [(.height, px 10), (.margin .top, px 8)] []]) [] := Css.departs_sound (by decide +kernel)

/-- The top margin of the first child of another element is lost. -/
theorem C110_false_nested : Css.Departs (block [] [block [(.height, px 10)] [], block [] [block [(.height, px 10), (.margin .top, px 30)] []]]) [1] :=
  Css.departs_sound (by decide +kernel)

/-- The bottom margin of the last child passes through the padding of its parent. -/
theorem C110_false_last : Css.Departs (block [] [block [(.padding .bottom, px 1)] [block [(.height, px 10), (.margin .bottom, px 30)] []]]) [0] :=
  Css.departs_sound (by decide +kernel)

/-- The margins of an empty element do not collapse with each other. -/
theorem C110_false_empty : Css.Departs (block [] [block [(.height, px 10)] [], block [(.margin .top, px 20), (.margin .bottom, px 20)] [], block [(.height, px 10)] []]) [2] :=
  Css.departs_sound (by decide +kernel)

/-- A given height may be less than the least height. -/
theorem C110_false_given : Css.Departs (block [] [block [(.height, px 10), (.minHeight, px 20)] []]) [0] := Css.departs_sound (by decide +kernel)

/-- The height of the content may be less than the least height. -/
theorem C110_false_least : Css.Departs (block [] [block [(.minHeight, px 20)] [block [(.height, px 10)] []]]) [0] := Css.departs_sound (by decide +kernel)

/-- The height of the content may be more than the greatest height. -/
theorem C110_false_most : Css.Departs (block [] [block [(.maxHeight, px 5)] [block [(.height, px 10)] []]]) [0] := Css.departs_sound (by decide +kernel)

/-- An automatic width may be more than the greatest width. -/
theorem C110_false_auto : Css.Departs (block [] [block [(.maxWidth, px 100)] []]) [0] := Css.departs_sound (by decide +kernel)

/-- A centred element is half a pixel aside. -/
theorem C110_false_even : Css.Departs (block [] [block [(.width, px 101), (.margin .left, kw "auto"), (.margin .right, kw "auto")] []]) [0] :=
  Css.departs_sound (by decide +kernel)

/-- The direction of the element instead of that of its container decides which margin gives way. -/
theorem C110_false_direction : Css.Departs (block [] [block [(.direction, kw "rtl"), (.width, px 100)] []]) [0] := Css.departs_sound (by decide +kernel)

/-- A relatively positioned element is moved down by its padding. -/
theorem C110_false_double : Css.Departs (block [] [block [(.position, kw "relative"), (.padding .top, px 5)] []]) [0] := Css.departs_sound (by decide +kernel)

/-- The left offset counts before the right one in a container from right to left. -/
theorem C110_false_offsets : Css.Departs (block [(.direction, kw "rtl")] [block [(.position, kw "relative"), (.left, px 5), (.right, px 30)] []]) [0] :=
  Css.departs_sound (by decide +kernel)

/-- A block of automatic height is stretched by its last child when this is moved. -/
theorem C110_false_moved : Css.Departs (block [] [block [(.position, kw "relative"), (.top, px 5), (.height, px 10)] []]) [] := Css.departs_sound (by decide +kernel)

end Colosseum
