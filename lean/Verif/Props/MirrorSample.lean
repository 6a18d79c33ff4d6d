import Verif.Props.Mirror

/-!
# Documents for C88, C89 and C90
-/

namespace Colosseum

/-! ## Tests -/

/-- The number of pixels of a length. -/
def Val.lengthOf (fp : FP) (d : Display) : Val → Option Num
  | .unit ⟨.len k, x⟩ => if k = .percent then Option.none else (pxOf fp k x ⟨d, dummyFont fp, Option.none⟩).toOption
  | _ => Option.none

theorem lengthOf_sound {fp : FP} {d : Display} {v : Val} {x : Num} (h : v.lengthOf fp d = some x) : v.Length fp d (dummyFont fp) x := by
  unfold Val.lengthOf at h
  split at h
  · next k y =>
    split at h
    · cases h
    · next hk =>
      refine ⟨k, y, rfl, hk, ?_⟩
      generalize pxOf fp k y ⟨d, dummyFont fp, none⟩ = r at h ⊢
      cases r with
      | error => cases h
      | ok z => cases h; rfl
  · cases h

/-- The same keyword, or the same length. -/
def Val.sameTest : Val → Val → Bool
  | .str s, .str s' => s = s'
  | .none, .none => true
  | .unit ⟨.len .px, .fin x⟩, .unit ⟨.len .px, .fin x'⟩ => x = x'
  | _, _ => false

theorem sameTest_sound {v v' : Val} (h : v.sameTest v' = true) : v' = v := by
  unfold Val.sameTest at h
  split at h
  · rw [of_decide_eq_true h]
  · rfl
  · rw [of_decide_eq_true h]
  · cases h

/-- A test for lengths of which the second is not smaller. -/
def Val.grownTest (fp : FP) (d : Display) (v v' : Val) : Bool :=
  v.sameTest v' || match v.lengthOf fp d, v'.lengthOf fp d with
    | some x, some x' => x.val ≤ x'.val
    | _, _ => false

theorem grownTest_sound {fp : FP} {d : Display} {v v' : Val} (h : v.grownTest fp d v' = true) : v.Grown fp d v' := by
  unfold Val.grownTest at h
  rw [Bool.or_eq_true] at h
  refine h.imp sameTest_sound fun h => ?_
  split at h
  · next e e' => exact ⟨_, _, lengthOf_sound e, lengthOf_sound e', of_decide_eq_true h⟩
  · cases h

/-- The same for whole numbers of pixels. -/
def Val.wholeTest (fp : FP) (d : Display) (v v' : Val) : Bool :=
  v.sameTest v' || match v.lengthOf fp d, v'.lengthOf fp d with
    | some (.int i), some (.int i') => i ≤ i'
    | _, _ => false

theorem wholeTest_sound {fp : FP} {d : Display} {v v' : Val} (h : v.wholeTest fp d v' = true) : v.GrownWhole fp d v' := by
  unfold Val.wholeTest at h
  rw [Bool.or_eq_true] at h
  refine h.imp sameTest_sound fun h => ?_
  split at h
  · next e e' => exact ⟨_, _, lengthOf_sound e, lengthOf_sound e', of_decide_eq_true h⟩
  · cases h

/-- A test for lengths of which the second is a multiple. -/
def Val.scaledTest (fp : FP) (d d' : Display) (k : Nat) (v v' : Val) : Bool :=
  match v, v' with
  | .str s, .str s' => s = s'
  | .none, .none => true
  | v, v' => match v.lengthOf fp d, v'.lengthOf fp d' with
    | some (.int i), some (.int i') => i' = k * i
    | some (.flt x), some (.flt x') => x' = k * x
    | _, _ => false

theorem scaledTest_sound {fp : FP} {d d' : Display} {k : Nat} {v v' : Val} (h : v.scaledTest fp d d' k v' = true) : v.Scaled fp d d' k v' := by
  unfold Val.scaledTest at h
  split at h
  · rw [of_decide_eq_true h]
    exact .inl ⟨rfl, _, rfl⟩
  · exact .inr (.inl ⟨rfl, rfl⟩)
  · split at h
    · next e e' =>
      rw [of_decide_eq_true h] at e'
      exact .inr (.inr (.inl ⟨_, lengthOf_sound e, lengthOf_sound e'⟩))
    · next e e' => exact .inr (.inr (.inr ⟨_, _, lengthOf_sound e, lengthOf_sound e', of_decide_eq_true h⟩))
    · cases h

/-- A test for mirror images. -/
def CSS.mirroredTest (s s' : CSS) : Bool :=
  [Side.top, .right, .bottom, .left].all (fun t => (s.get (.margin t)).sameTest (s'.get (.margin t.opposite)) &&
    (s.get (.borderWidth t)).sameTest (s'.get (.borderWidth t.opposite)) && (s.get (.padding t)).sameTest (s'.get (.padding t.opposite))) &&
  [LH.width, .minWidth, .maxWidth, .height, .minHeight, .maxHeight].all (fun p => (s.get p).sameTest (s'.get p)) &&
  (s'.get .direction).isKw "ltr" != (s.get .direction).isKw "ltr"

theorem all_sides (t : Side) : t ∈ [Side.top, .right, .bottom, .left] := by cases t <;> simp

theorem mirroredTest_sound (s s' : CSS) (h : s.mirroredTest s' = true) : s.Mirrored s' := by
  simp only [CSS.mirroredTest, Bool.and_eq_true, List.all_eq_true] at h
  obtain ⟨⟨h1, h2⟩, h3⟩ := h
  refine ⟨fun t => sameTest_sound (h1 t (all_sides t)).1.1, fun t => sameTest_sound (h1 t (all_sides t)).1.2,
    fun t => sameTest_sound (h1 t (all_sides t)).2, fun p hp => sameTest_sound (h2 p (by simpa using hp)), ?_⟩
  rw [← isKw_iff, ne_eq, ← isKw_iff]
  revert h3
  cases (s'.get .direction).isKw "ltr" <;> cases (s.get .direction).isKw "ltr" <;> simp

/-- A test for growth. -/
def CSS.grownTest (fp : FP) (d : Display) (s s' : CSS) : Bool :=
  [Side.top, .bottom].all (fun t => (s.get (.margin t)).wholeTest fp d (s'.get (.margin t)) &&
    (s.get (.borderWidth t)).grownTest fp d (s'.get (.borderWidth t)) && (s.get (.padding t)).grownTest fp d (s'.get (.padding t))) &&
  [LH.height, .minHeight].all (fun p => (s.get p).grownTest fp d (s'.get p)) &&
  ((s.get .maxHeight).grownTest fp d (s'.get .maxHeight) || (s'.get .maxHeight).isNone) &&
  [Side.left, .right].all (fun t => (s.get (.margin t)).sameTest (s'.get (.margin t)) &&
    (s.get (.borderWidth t)).sameTest (s'.get (.borderWidth t)) && (s.get (.padding t)).sameTest (s'.get (.padding t))) &&
  [LH.width, .minWidth, .maxWidth, .direction].all (fun p => (s.get p).sameTest (s'.get p))

theorem CSS.grownTest_sound (fp : FP) (d : Display) (s s' : CSS) (h : s.grownTest fp d s' = true) : s.Grown fp d s' := by
  simp only [CSS.grownTest, Bool.and_eq_true, List.all_eq_true, Bool.or_eq_true] at h
  obtain ⟨⟨⟨⟨h1, h2⟩, h3⟩, h4⟩, h5⟩ := h
  exact ⟨fun t ht => wholeTest_sound (h1 t (by simpa using ht)).1.1, fun t ht => Colosseum.grownTest_sound (h1 t (by simpa using ht)).1.2,
    fun t ht => Colosseum.grownTest_sound (h1 t (by simpa using ht)).2, fun p hp => Colosseum.grownTest_sound (h2 p (by simpa using hp)),
    h3.imp Colosseum.grownTest_sound isNone_eq,
    fun t ht => ⟨sameTest_sound (h4 t (by simpa using ht)).1.1, sameTest_sound (h4 t (by simpa using ht)).1.2, sameTest_sound (h4 t (by simpa using ht)).2⟩,
    fun p hp => sameTest_sound (h5 p (by simpa using hp))⟩

/-- A test for enlargement. -/
def CSS.scaledTest (fp : FP) (d d' : Display) (k : Nat) (s s' : CSS) : Bool :=
  [Side.top, .right, .bottom, .left].all (fun t => (s.get (.margin t)).scaledTest fp d d' k (s'.get (.margin t)) &&
    (s.get (.borderWidth t)).scaledTest fp d d' k (s'.get (.borderWidth t)) && (s.get (.padding t)).scaledTest fp d d' k (s'.get (.padding t))) &&
  [LH.width, .minWidth, .maxWidth, .height, .minHeight, .maxHeight].all (fun p => (s.get p).scaledTest fp d d' k (s'.get p)) &&
  (s.get .direction).sameTest (s'.get .direction)

theorem CSS.scaledTest_sound (fp : FP) (d d' : Display) (k : Nat) (s s' : CSS) (h : s.scaledTest fp d d' k s' = true) : s.Scaled fp d d' k s' := by
  simp only [CSS.scaledTest, Bool.and_eq_true, List.all_eq_true] at h
  obtain ⟨⟨h1, h2⟩, h3⟩ := h
  exact ⟨fun t => Colosseum.scaledTest_sound (h1 t (all_sides t)).1.1, fun t => Colosseum.scaledTest_sound (h1 t (all_sides t)).1.2,
    fun t => Colosseum.scaledTest_sound (h1 t (all_sides t)).2, fun p hp => Colosseum.scaledTest_sound (h2 p (by simpa using hp)), sameTest_sound h3⟩

mutual
/-- A test for documents of the same structure. -/
def Node.alongTest (t : CSS → CSS → Bool) : Node → Node → Bool
  | .mk s _ _ cs, .mk s' _ _ cs' => t s s' && alongsTest t cs cs'
/-- The test for lists. -/
def alongsTest (t : CSS → CSS → Bool) : List Node → List Node → Bool
  | [], [] => true
  | c :: cs, c' :: cs' => c.alongTest t c' && alongsTest t cs cs'
  | _, _ => false
end

mutual
theorem alongTest_sound {t : CSS → CSS → Bool} {R : CSS → CSS → Prop} (f : ∀ s s', t s s' = true → R s s') :
    ∀ {n n' : Node}, n.alongTest t n' = true → n.Along R n'
  | .mk s z l cs, .mk s' z' l' cs', h => by
    rw [Node.alongTest, Bool.and_eq_true] at h
    exact ⟨f _ _ h.1, alongsTest_sound f h.2⟩
theorem alongsTest_sound {t : CSS → CSS → Bool} {R : CSS → CSS → Prop} (f : ∀ s s', t s s' = true → R s s') :
    ∀ {cs cs' : List Node}, alongsTest t cs cs' = true → Alongs R cs cs'
  | [], [], _ => trivial
  | c :: cs, c' :: cs', h => by
    rw [alongsTest, Bool.and_eq_true] at h
    exact ⟨alongTest_sound f h.1, alongsTest_sound f h.2⟩
  | [], _ :: _, h => nomatch h
  | _ :: _, [], h => nomatch h
end

mutual
/-- A test for the styles of all elements. -/
def Node.everyTest (t : CSS → Bool) : Node → Bool
  | .mk s _ _ cs => t s && everyTests t cs
/-- The test for lists. -/
def everyTests (t : CSS → Bool) : List Node → Bool
  | [] => true
  | c :: cs => c.everyTest t && everyTests t cs
end

theorem everyTests_mem {t : CSS → Bool} {c : Node} : ∀ {cs : List Node}, everyTests t cs = true → c ∈ cs → c.everyTest t = true
  | e :: cs, h, hc => by
    rw [everyTests, Bool.and_eq_true] at h
    rcases List.mem_cons.1 hc with rfl | hc
    · exact h.1
    · exact everyTests_mem h.2 hc

theorem everyTest_sound {t : CSS → Bool} {n m : Node} (h : n.everyTest t = true) (hm : Sub m n) : t m.style = true := by
  induction hm with
  | refl =>
    obtain ⟨s, z, l, cs⟩ := m
    rw [Node.everyTest, Bool.and_eq_true] at h
    exact h.1
  | @child c n hc _ ih =>
    obtain ⟨s, z, l, cs⟩ := n
    rw [Node.everyTest, Bool.and_eq_true] at h
    exact ih (everyTests_mem h.2 hc)

/-- A test for elements without two automatic margins at the sides of a specified width. -/
def CSS.uncentredTest (s : CSS) : Bool :=
  (s.get .width).isKw "auto" || !(s.get (.margin .left)).isKw "auto" || !(s.get (.margin .right)).isKw "auto"

theorem uncentredTest_sound {n : Node} (h : n.everyTest CSS.uncentredTest = true) (m : Node) (hm : Sub m n) : m.style.Uncentred := by
  have := everyTest_sound h hm
  simp only [CSS.uncentredTest, Bool.or_eq_true, Bool.not_eq_true', ← Bool.not_eq_true, isKw_iff] at this
  unfold CSS.Uncentred
  exact or_assoc.1 this

theorem moderate_of {d : Display} {n : Node} (hd : d.Mild 3000) (h : n.mildTest .b64 d 3000 = true) (hc : n.count ≤ 100) : n.Moderate .b64 d 3000 := by
  refine ⟨fun m hm => (mildTest_all h hm).1, ⟨hd, fun m hm => (mildTest_all h hm).2⟩, by norm_num, ?_, ?_⟩
  · exact le_trans (Nat.mul_le_mul_left _ hc) (by norm_num)
  · exact le_trans (Nat.mul_le_mul (Nat.mul_le_mul_left _ hc) hc) (by norm_num)

theorem screen_mild' : screen.Mild 3000 :=
  ⟨⟨onGrid_int _, onGrid_int _, onGrid_int _, onGrid_int _, onGrid_int _⟩, by norm_num [screen], by norm_num [screen]⟩

/-- What can be seen of a layout: the left, the top, the width and the height of the border boxes. -/
def visible (d : Display) (n : Node) (q : List Nat) : Option (Rat × Rat × Option Rat × Option Rat) :=
  (laidBox .b64 d n q).map fun b =>
    ((b.absBorderBoxLeft .b64).val, (b.absBorderBoxTop .b64).val, (b.borderBoxWidth .b64).map Num.val, (b.borderBoxHeight .b64).map Num.val)

/-! ## C88 -/

/-- Blocks at the left. -/
def leftish : Node :=
  block [(.padding .left, px 10), (.borderWidth .right, kw "thick")] [
    block [(.width, px 200), (.margin .left, px 30), (.height, px 10)] [],
    block [(.width, px 100), (.margin .right, px 7), (.direction, kw "rtl"), (.padding .left, px 3)] [block [(.width, px 150), (.height, px 20)] []],
    block [(.width, px 50), (.margin .left, kw "auto"), (.margin .right, px 4)] []]

/-- Its image. -/
def rightish : Node :=
  block [(.padding .right, px 10), (.borderWidth .left, kw "thick"), (.direction, kw "rtl")] [
    block [(.width, px 200), (.margin .right, px 30), (.height, px 10), (.direction, kw "rtl")] [],
    block [(.width, px 100), (.margin .left, px 7), (.padding .right, px 3)] [block [(.width, px 150), (.height, px 20), (.direction, kw "rtl")] []],
    block [(.width, px 50), (.margin .right, kw "auto"), (.margin .left, px 4), (.direction, kw "rtl")] []]

/-- The hypotheses of C88 hold for these documents, in IEEE double arithmetic. -/
example : ∃ r r', layout .b64 screen true none leftish = .ok r ∧ layout .b64 screen true none rightish = .ok r' ∧
    ∀ q, Option.Rel (Box.Image .b64 screen.contentWidth.val) (r.boxAt q) (r'.boxAt q) :=
  C88_mirror .b64 b64_laws screen 3000 3000 true leftish rightish (moderate_of screen_mild' (by decide +kernel) (by decide +kernel))
    (moderate_of screen_mild' (by decide +kernel) (by decide +kernel)) (regularTest_sound (by decide +kernel)) (regularTest_sound (by decide +kernel))
    (alongTest_sound mirroredTest_sound (by decide +kernel)) (uncentredTest_sound (by decide +kernel))

/-- The layouts: the child of the second block sticks out, at the right of the first document and at the left of the second one. -/
example : [[], [0], [1], [1, 0], [2]].map (visible screen leftish) =
    [some (0, 0, some 640, some 30), some (40, 0, some 200, some 10), some (525, 10, some 103, some 20), some (528, 10, some 150, some 20),
      some (581, 30, some 50, some 0)] ∧
    [[], [0], [1], [1, 0], [2]].map (visible screen rightish) =
    [some (0, 0, some 640, some 30), some (400, 0, some 200, some 10), some (12, 10, some 103, some 20), some (-38, 10, some 150, some 20),
      some (9, 30, some 50, some 0)] := by
  constructor <;> decide +kernel

/-- A centred block; the direction of text is the first one. -/
def centred (dir : String) : Node :=
  block [(.direction, kw dir)] [block [(.direction, kw dir), (.width, px 101), (.margin .left, kw "auto"), (.margin .right, kw "auto")] []]

/-- C88, the condition on automatic margins. Two of them share an odd number of pixels unequally, always in the same way: the image of a centred block is
half a pixel off on both sides, and so not its image. -/
theorem C88_centred : (centred "ltr").Along CSS.Mirrored (centred "rtl") ∧
    ∃ b c, laidBox .b64 screen (centred "ltr") [0] = some b ∧ laidBox .b64 screen (centred "rtl") [0] = some c ∧ ¬ b.Image .b64 screen.contentWidth.val c ∧
      (b.absBorderBoxLeft .b64).val = 269 ∧ (c.absBorderBoxLeft .b64).val = 269 := by
  refine ⟨alongTest_sound mirroredTest_sound (by decide +kernel), ?_⟩
  have e1 : (laidBox .b64 screen (centred "ltr") [0]).map (fun b => ((b.absBorderBoxLeft .b64).val, (b.absBorderBoxRight .b64).map Num.val)) =
    some (269, some 370) := by decide +kernel
  have e2 : (laidBox .b64 screen (centred "rtl") [0]).map (fun b => ((b.absBorderBoxLeft .b64).val, (b.absBorderBoxRight .b64).map Num.val)) =
    some (269, some 370) := by decide +kernel
  obtain ⟨b, hb, e1⟩ := Option.map_eq_some_iff.1 e1
  obtain ⟨c, hc, e2⟩ := Option.map_eq_some_iff.1 e2
  refine ⟨b, c, hb, hc, fun i => ?_, congrArg Prod.fst e1, congrArg Prod.fst e2⟩
  obtain ⟨x, hx, h⟩ := i.right
  have k1 := congrArg Prod.snd e1
  have k2 : (c.absBorderBoxLeft .b64).val = 269 := congrArg Prod.fst e2
  simp only [hx, Option.map_some, Option.some.injEq] at k1
  rw [k1, k2] at h
  norm_num [screen] at h

/-! ## C89 -/

/-- Blocks before they grow. -/
def sapling : Node :=
  block [(.margin .top, px 5)] [
    block [(.height, px 30), (.margin .bottom, px 6), (.borderWidth .bottom, kw "thin")] [],
    block [(.padding .top, px 5), (.width, px 101), (.margin .left, kw "auto"), (.margin .right, kw "auto")] [
      block [(.height, px 70), (.maxHeight, px 60), (.margin .bottom, px 4)] [], block [(.minHeight, px 20)] []],
    block [(.margin .top, px 12), (.borderWidth .top, px 1)] [block [(.height, px 15)] []]]

/-- Blocks that have grown. -/
def tree : Node :=
  block [(.margin .top, px 8)] [
    block [(.height, px 32), (.margin .bottom, px 6), (.borderWidth .bottom, kw "thin")] [],
    block [(.padding .top, px 5), (.width, px 101), (.margin .left, kw "auto"), (.margin .right, kw "auto")] [
      block [(.height, px 70), (.margin .bottom, px 4)] [], block [(.minHeight, px 25)] []],
    block [(.margin .top, px 12), (.borderWidth .top, px 3)] [block [(.height, px 15)] []]]

/-- The hypotheses of C89 hold for these documents. -/
example : ∃ r r', layout .b64 screen false none sapling = .ok r ∧ layout .b64 screen false none tree = .ok r' ∧
    ∀ q, Option.Rel (fun b c => Box.Lower .b64 b c ∧ (false = false ∨ q ≠ [] → Box.Taller .b64 b c)) (r.boxAt q) (r'.boxAt q) :=
  C89_grown .b64 b64_laws screen 3000 3000 false sapling tree (moderate_of screen_mild' (by decide +kernel) (by decide +kernel))
    (moderate_of screen_mild' (by decide +kernel) (by decide +kernel)) (regularTest_sound (by decide +kernel)) (regularTest_sound (by decide +kernel))
    (alongTest_sound (CSS.grownTest_sound .b64 screen) (by decide +kernel))

/-- The layouts. -/
example : [[], [0], [1], [1, 0], [1, 1], [2], [2, 0]].map (visible screen sapling) =
    [some (0, 5, some 640, some 154), some (0, 5, some 640, some 31), some (269, 42, some 101, some 89), some (269, 47, some 101, some 60),
      some (269, 111, some 101, some 20), some (0, 143, some 640, some 16), some (0, 144, some 640, some 15)] ∧
    [[], [0], [1], [1, 0], [1, 1], [2], [2, 0]].map (visible screen tree) =
    [some (0, 8, some 640, some 173), some (0, 8, some 640, some 33), some (269, 47, some 101, some 104), some (269, 52, some 101, some 70),
      some (269, 126, some 101, some 25), some (0, 163, some 640, some 18), some (0, 166, some 640, some 15)] := by
  constructor <;> decide +kernel

/-- Two blocks, the first one with this bottom margin. -/
def gapped (v : Val) : Node := block [] [block [(.height, px 20), (.margin .bottom, v)] [], block [(.height, px 10)] []]

/-- C89, the condition on margins. A bottom margin of 3.5 pixels is larger than one of 3 pixels, but keeps less distance: only whole numbers of pixels are
collapsed, and only collapsed margins count between blocks. The second block moves up. -/
theorem C89_fraction : ∃ v v' : Val, v.Grown .b64 screen v' ∧
    ∃ b c, laidBox .b64 screen (gapped v) [1] = some b ∧ laidBox .b64 screen (gapped v') [1] = some c ∧
      (b.absBorderBoxTop .b64).val = 23 ∧ (c.absBorderBoxTop .b64).val = 20 := by
  refine ⟨px 3, .unit ⟨.len .px, .fin (.flt (7 / 2))⟩, grownTest_sound (by decide +kernel), ?_⟩
  have e1 : (laidBox .b64 screen (gapped (px 3)) [1]).map (fun b => (b.absBorderBoxTop .b64).val) = some 23 := by decide +kernel
  have e2 : (laidBox .b64 screen (gapped (.unit ⟨.len .px, .fin (.flt (7 / 2))⟩)) [1]).map (fun b => (b.absBorderBoxTop .b64).val) = some 20 := by
    decide +kernel
  obtain ⟨b, hb, e1⟩ := Option.map_eq_some_iff.1 e1
  obtain ⟨c, hc, e2⟩ := Option.map_eq_some_iff.1 e2
  exact ⟨b, c, hb, hc, e1, e2⟩

/-! ## C90 -/

/-- A display three times as large. -/
def cinema : Display := ⟨.int 288, .int 1920, .int 1440, .int 3, .int 9, .int 15⟩

theorem cinema_mild : cinema.Mild 3000 :=
  ⟨⟨onGrid_int _, onGrid_int _, onGrid_int _, onGrid_int _, onGrid_int _⟩, by norm_num [cinema], by norm_num [cinema]⟩

theorem cinema_scaled : screen.Scaled 3 cinema := by constructor <;> norm_num [screen, cinema]

/-- A document in which all lengths are `k` times as large. -/
def poster (k : Int) : Node :=
  block [(.padding .left, px (10 * k)), (.margin .top, px (8 * k)), (.borderWidth .right, kw "thick")] [
    block [(.width, px (200 * k)), (.margin .left, px (30 * k)), (.height, px (10 * k)), (.margin .bottom, px (9 * k))] [],
    block [(.width, px (100 * k)), (.maxWidth, px (80 * k)), (.margin .right, px (7 * k)), (.direction, kw "rtl"), (.borderWidth .top, kw "medium")] [
      block [(.width, px (150 * k)), (.height, px (20 * k))] []],
    block [(.width, .unit ⟨.len .inch, .fin (.int 1)⟩), (.margin .left, kw "auto")] []]

/-- The hypotheses of C90 hold for these documents; an inch has three times as many pixels on the larger display, too. -/
example : ∃ r r', layout .b64 screen true none (poster 1) = .ok r ∧ layout .b64 cinema true none (poster 3) = .ok r' ∧
    ∀ q, Option.Rel (Box.Scaled .b64 3) (r.boxAt q) (r'.boxAt q) :=
  C90_scaled .b64 b64_laws 3 (by norm_num) screen cinema 3000 3000 true (poster 1) (poster 3)
    (moderate_of screen_mild' (by decide +kernel) (by decide +kernel)) (moderate_of cinema_mild (by decide +kernel) (by decide +kernel))
    (regularTest_sound (by decide +kernel)) (regularTest_sound (by decide +kernel)) cinema_scaled
    (alongTest_sound (CSS.scaledTest_sound .b64 screen cinema 3) (by decide +kernel)) (uncentredTest_sound (by decide +kernel))

/-- The layouts. -/
example : [[], [0], [1], [1, 0], [2]].map (visible screen (poster 1)) =
    [some (0, 8, some 640, some 42), some (40, 8, some 200, some 10), some (548, 27, some 80, some 23), some (548, 30, some 150, some 20),
      some (539, 50, some 96, some 0)] ∧
    [[], [0], [1], [1, 0], [2]].map (visible cinema (poster 3)) =
    [some (0, 24, some 1920, some 126), some (120, 24, some 600, some 30), some (1644, 81, some 240, some 69), some (1644, 90, some 450, some 60),
      some (1617, 150, some 288, some 0)] := by
  constructor <;> decide +kernel

/-- A centred block, multiplied by `k`. -/
def middle (k : Int) : Node := block [] [block [(.width, px (101 * k)), (.margin .left, kw "auto"), (.margin .right, kw "auto")] []]

/-- A display twice as large. -/
def double : Display := ⟨.int 192, .int 1280, .int 960, .int 2, .int 6, .int 10⟩

/-- C90, the condition on automatic margins: half pixels are lost, so that a centred block is not where it should be after enlargement by 2. -/
theorem C90_centred : screen.Scaled 2 double ∧ (middle 1).Along (CSS.Scaled .b64 screen double 2) (middle 2) ∧
    ∃ b c, laidBox .b64 screen (middle 1) [0] = some b ∧ laidBox .b64 double (middle 2) [0] = some c ∧ ¬ b.Scaled .b64 2 c ∧
      (b.absBorderBoxLeft .b64).val = 269 ∧ (c.absBorderBoxLeft .b64).val = 539 := by
  refine ⟨by constructor <;> norm_num [screen, double], alongTest_sound (CSS.scaledTest_sound .b64 screen double 2) (by decide +kernel), ?_⟩
  have e1 : (laidBox .b64 screen (middle 1) [0]).map (fun b => (b.absBorderBoxLeft .b64).val) = some 269 := by decide +kernel
  have e2 : (laidBox .b64 double (middle 2) [0]).map (fun b => (b.absBorderBoxLeft .b64).val) = some 539 := by decide +kernel
  obtain ⟨b, hb, e1⟩ := Option.map_eq_some_iff.1 e1
  obtain ⟨c, hc, e2⟩ := Option.map_eq_some_iff.1 e2
  refine ⟨b, c, hb, hc, fun i => ?_, e1, e2⟩
  have := i.left
  rw [e1, e2] at this
  norm_num at this

end Colosseum
