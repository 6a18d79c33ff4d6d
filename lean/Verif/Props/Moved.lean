import Verif.Lemmas.Moved
import Verif.Props.Reference

/-!
# C111: blocks with relative positions and widths in per cent are laid out as by a reference algorithm
-/

namespace Colosseum

namespace Moved

theorem reference_of (fp : FP) (L : fp.Laws) (d : Display) (K : Nat) (html5 : Bool) (p : Option CSS) (n n' : Node) (hn : Easy fp d p n K)
    (hr : All fp d n) (h : layout fp d html5 p n = .ok n') (q : List Nat) :
    Option.Rel (fun b f => b.Fills fp f) (n'.boxAt q) (reference fp d html5 n q) := by
  rw [← reference_strip (layout_strip h)]
  have hr' := all_strip (layout_strip h) hr
  have hb := regular_blocky hr
  have r := hr' n' (.refl _)
  have hw : Within (some d.contentWidth) p n' (some d.contentWidth) p n' := .here ..
  have ⟨b, hl, e0⟩ : ∃ b, n'.layout = some b ∧ (b.borderBoxTop fp).val = n'.edgeTop fp d + lowered fp d n'.style := by
    cases html5 with
    | false => exact regular_root L hn hb h hr'
    | true =>
      obtain ⟨n4, b4, b5, k1, k2, k3, k4, _, k5, k6⟩ := (C51_standards fp d p n).2 n' h
      obtain ⟨b, k7, k8⟩ := regular_root L hn hb k1 (all_strip (layout_strip k1) hr)
      cases k2.symm.trans k7
      refine ⟨b5, k3, ?_⟩
      have e1 : n'.edgeTop fp d = n4.edgeTop fp d := by
        rw [← edgeTop_strip n', layout_strip h, ← layout_strip k1, edgeTop_strip]
      have e2 : b5.borderBoxTop fp = b4.borderBoxTop fp := by rw [k6]; rfl
      rw [e2, k8, e1, k4]
  obtain ⟨b1, k1, o1⟩ := (C49_origins_partial fp d html5 p n n' hn.boxed h .h).2
  obtain ⟨b2, k2, o2⟩ := (C49_origins_partial fp d html5 p n n' hn.boxed h .v).2
  cases hl.symm.trans k1
  cases hl.symm.trans k2
  have hX : (b.pos .h).origin.val = 0 := by rw [o1, Num.val_int]; rfl
  have hY : (b.pos .v).origin.val + (b.borderBoxTop fp).val = n'.edgeTop fp d + lowered fp d n'.style := by
    rw [o2, Num.val_int, e0]
    simp
  unfold reference
  cases html5 with
  | false =>
    have e : (regionAt fp d d.contentWidth.val 0 (n'.edgeTop fp d) n' q).map (fun f => if false = true ∧ q = [] then
        let c := d.contentHeight.val - n'.edgeTop fp d - n'.edgeBottom fp d
        { f with contentHeight := c, height := n'.style.edge fp d .top + c + n'.style.edge fp d .bottom } else f) =
        regionAt fp d d.contentWidth.val 0 (n'.edgeTop fp d) n' q := by
      simp
    rw [e]
    obtain ⟨b3, y, _, k3, k4, _⟩ := regular_tall (html5 := false) L hn hb h _ _ _ n' le_rfl hr' hw
    cases hl.symm.trans k3
    exact regular_path L hn hb h q n' p d.contentWidth [] b 0 _ hw hr' (fun _ _ hs => hs) hl hX hY ⟨y, k4⟩ fun _ => hw
  | true =>
    obtain ⟨b3, y, k3, k4, k5⟩ := easy_display hn h
    obtain ⟨b4, k6, k7, k8⟩ := C82_ends fp L d true p p n n' n' _ hn.boxed hb h hw
    cases hl.symm.trans k3
    cases hl.symm.trans k6
    cases q with
    | nil =>
      have fill := regular_fills L hn h hw r rfl hl k4 hX hY
      have ey : y.val = d.contentHeight.val - n'.edgeTop fp d - n'.edgeBottom fp d := by
        rw [← k5, k7, k8]; ring
      rw [ey] at fill
      rw [regionAt]
      show Option.Rel _ n'.layout _
      rw [hl]
      refine .some ?_
      simp only [true_and, if_true]
      exact fill
    | cons i q =>
      have := regular_path L hn hb h (i :: q) n' p d.contentWidth [] b 0 _ hw hr' (fun _ _ hs => hs) hl hX hY ⟨y, k4⟩ (fun e => nomatch e)
      simpa using this

end Moved

/-- C111. A document of moderate size that consists of blocks in normal flow and relatively positioned blocks, whose sizes are lengths or the keywords of their properties or, for
widths and their limits and for margins at the left and at the right, percentages, can be laid out, and the border boxes and content boxes of all its elements are where the reference layout has them. -/
theorem C111_reference (fp : FP) (L : fp.Laws) (d : Display) (M : Nat) (html5 : Bool) (p : Option CSS) (n : Node) (hn : n.Moderate fp d M)
    (hr : ∀ m, Sub m n → Moved.Regular fp d m) (hp : ∀ s, p = some s → s.get .height = kw "auto" ∨ (s.get .height).Finite) :
    ∃ n', layout fp d html5 p n = .ok n' ∧ ∀ q, Option.Rel (fun b f => b.Fills fp f) (n'.boxAt q) (Moved.reference fp d html5 n q) := by
  obtain ⟨n', h⟩ := Moved.regular_laid (html5 := html5) hn.boxed hr hp
  exact ⟨n', h, Moved.reference_of fp L d _ html5 p n n' (moderate_easy L p hn) hr h⟩

namespace Moved

/-! ## A document -/

/-- A test for percentages. -/
def percentTest : Val → Bool
  | .unit ⟨.len .percent, .fin _⟩ => true
  | _ => false

theorem percentTest_sound {fp : FP} {d : Display} {v : Val} (h : (v.lengthTest fp d || percentTest v) = true) : Sized fp d v := by
  rcases Bool.or_eq_true _ _ ▸ h with h | h
  · exact Or.inl (lengthTest_sound h)
  · right
    unfold percentTest at h
    split at h
    · exact ⟨_, rfl⟩
    · cases h

/-- A test for such blocks. -/
def styleTest (fp : FP) (d : Display) (s : CSS) (z : Intrinsic) : Bool :=
  ((s.get .display).isKw "block" || (s.get .display).isKw "list-item") && !z.isReplaced && (s.get .float).isNone &&
  ((s.get .position).isKw "static" || (s.get .position).isKw "relative" && [LH.top, .bottom].all (fun p => (s.get p).isKw "auto" || (s.get p).lengthTest fp d) &&
    [LH.left, .right].all (fun p => (s.get p).isKw "auto" || ((s.get p).lengthTest fp d || percentTest (s.get p)))) &&
  [Side.top, .bottom].all (fun t => (s.get (.margin t)).isKw "auto" || (s.get (.margin t)).lengthTest fp d) &&
  [Side.left, .right].all (fun t => (s.get (.margin t)).isKw "auto" || ((s.get (.margin t)).lengthTest fp d || percentTest (s.get (.margin t)))) &&
  [Side.top, .right, .bottom, .left].all (fun t =>
    ((s.get (.borderWidth t)).isKw "thin" || (s.get (.borderWidth t)).isKw "medium" || (s.get (.borderWidth t)).isKw "thick" ||
      (s.get (.borderWidth t)).lengthTest fp d) && (s.get (.padding t)).lengthTest fp d) &&
  [LH.width, .minWidth].all (fun p => (s.get p).isKw "auto" || ((s.get p).lengthTest fp d || percentTest (s.get p))) &&
  ((s.get .maxWidth).isNone || ((s.get .maxWidth).lengthTest fp d || percentTest (s.get .maxWidth))) &&
  [LH.height, .minHeight].all (fun p => (s.get p).isKw "auto" || (s.get p).lengthTest fp d) && ((s.get .maxHeight).isNone || (s.get .maxHeight).lengthTest fp d)

theorem styleTest_sound {fp : FP} {d : Display} {s : CSS} {z : Intrinsic} {l : Option Box} {cs : List Node} (h : styleTest fp d s z = true) :
    Regular fp d (.mk s z l cs) := by
  unfold styleTest at h
  simp only [Bool.and_eq_true] at h
  obtain ⟨⟨⟨⟨⟨⟨⟨⟨⟨⟨h1, h2⟩, h3⟩, h4⟩, h10⟩, h11⟩, h5⟩, h6⟩, h7⟩, h8⟩, h9⟩ := h
  simp only [Bool.and_eq_true, List.all_eq_true, Bool.not_eq_true'] at h2 h5 h6 h8 h10 h11
  have all : ∀ t : Side, t ∈ [Side.top, .right, .bottom, .left] := by intro t; cases t <;> simp
  constructor
  · simp only [Bool.or_eq_true, isKw_iff] at h1
    exact h1
  · exact h2
  · exact isNone_eq h3
  · simp only [Bool.and_eq_true, Bool.or_eq_true, List.all_eq_true, isKw_iff] at h4
    exact h4.imp id fun k => ⟨k.1.1, fun p hp => (k.1.2 p (by simpa using hp)).imp id lengthTest_sound,
      fun p hp => (k.2 p (by simpa using hp)).imp id fun e => percentTest_sound (Bool.or_eq_true _ _ ▸ e)⟩
  · intro t ht
    have := h10 t (by simpa using ht)
    simp only [Bool.or_eq_true, isKw_iff] at this
    exact this.imp id lengthTest_sound
  · intro t ht
    rcases Bool.or_eq_true _ _ ▸ h11 t (by simpa using ht) with h | h
    · exact Or.inl ((isKw_iff _ _).1 h)
    · exact Or.inr (percentTest_sound h)
  · intro t
    have := (h5 t (all t)).1
    simp only [Bool.or_eq_true, isKw_iff] at this
    rcases this with ((h | h) | h) | h
    · exact Or.inl h
    · exact Or.inr (Or.inl h)
    · exact Or.inr (Or.inr (Or.inl h))
    · exact Or.inr (Or.inr (Or.inr (lengthTest_sound h)))
  · exact fun t => lengthTest_sound (h5 t (all t)).2
  · intro p hp
    rcases Bool.or_eq_true _ _ ▸ h6 p (by simpa using hp) with h | h
    · exact Or.inl ((isKw_iff _ _).1 h)
    · exact Or.inr (percentTest_sound h)
  · rcases Bool.or_eq_true _ _ ▸ h7 with h | h
    · exact Or.inl (isNone_eq h)
    · exact Or.inr (percentTest_sound h)
  · intro p hp
    rcases Bool.or_eq_true _ _ ▸ h8 p (by simpa using hp) with h | h
    · exact Or.inl ((isKw_iff _ _).1 h)
    · exact Or.inr (lengthTest_sound h)
  · rcases Bool.or_eq_true _ _ ▸ h9 with h | h
    · exact Or.inl (isNone_eq h)
    · exact Or.inr (lengthTest_sound h)

mutual
/-- The test for documents. -/
def test (fp : FP) (d : Display) : Node → Bool
  | .mk s z _ cs => styleTest fp d s z && tests fp d cs
/-- The test for lists. -/
def tests (fp : FP) (d : Display) : List Node → Bool
  | [] => true
  | c :: cs => test fp d c && tests fp d cs
end

theorem tests_mem {fp : FP} {d : Display} {cs : List Node} (h : tests fp d cs = true) {c : Node} (hc : c ∈ cs) : test fp d c = true := by
  induction cs with
  | nil => cases hc
  | cons x cs ih =>
    simp only [tests, Bool.and_eq_true] at h
    rcases List.mem_cons.1 hc with rfl | hc
    · exact h.1
    · exact ih h.2 hc

theorem test_sound {fp : FP} {d : Display} {n : Node} (h : test fp d n = true) : All fp d n := by
  intro m hm
  induction hm with
  | refl =>
    obtain ⟨s, z, l, cs⟩ := m
    simp only [test, Bool.and_eq_true] at h
    exact styleTest_sound h.1
  | @child c n hc _ ih =>
    obtain ⟨s, z, l, cs⟩ := n
    simp only [test, Bool.and_eq_true] at h
    exact ih (tests_mem h.2 hc)

/-- A page with a column of 75% of the width in the middle, a block in it that is moved with its content, a block of at most half the width of the column, and a footer that is moved and has a margin of a fifth of the width. -/
def flyer : Node :=
  block [(.padding .left, px 10), (.padding .right, px 10), (.position, kw "relative"), (.left, px 3)] [
    block [(.width, pct 75), (.margin .left, kw "auto"), (.margin .right, kw "auto"), (.borderWidth .left, px 5), (.padding .top, px 5)] [
      block [(.height, px 70), (.position, kw "relative"), (.top, px (-4)), (.right, px 20), (.margin .bottom, px 6)] [block [(.height, px 5), (.width, pct 10)] []],
      block [(.height, px 20), (.direction, kw "rtl"), (.width, px 500), (.maxWidth, pct 50)] []],
    block [(.height, px 15), (.position, kw "relative"), (.padding .top, px 2), (.top, px 9), (.bottom, px 4), (.margin .top, px 12), (.margin .left, pct 20)] []]

theorem flyer_moderate : flyer.Moderate .b64 screen 1000 := by
  have h : flyer.mildTest .b64 screen 1000 = true := by decide +kernel
  have hc : flyer.count = 6 := by decide +kernel
  refine ⟨fun m hm => (mildTest_all h hm).1, ⟨screen_mild, fun m hm => (mildTest_all h hm).2⟩, by norm_num, ?_, ?_⟩ <;> rw [hc] <;> norm_num

theorem flyer_regular : All .b64 screen flyer := test_sound (by decide +kernel)

/-- The hypotheses hold for this document. -/
example : ∃ n', layout .b64 screen true none flyer = .ok n' ∧
    ∀ q, Option.Rel (fun b f => b.Fills .b64 f) (n'.boxAt q) (reference .b64 screen true flyer q) :=
  C111_reference .b64 b64_laws screen 1000 true none flyer flyer_moderate flyer_regular (fun _ h => nomatch h)

/-- What the reference has: the left and the top of the border box, its width and its height. -/
example : [[], [0], [0, 0], [0, 0, 0], [0, 1], [1], [2]].map (fun q => (reference .b64 screen true flyer q).map fun f => (f.left, f.top, f.width, f.height)) =
    [some (3, 0, 640, 480), some (88, 0, 470, 101), some (73, 1, 465, 70), some (73, 1, 93 / 2, 5), some (651 / 2, 81, 465 / 2, 20), some (137, 124, 496, 17), none] := by
  decide +kernel

/-- What the engine does, without the rules of HTML5. -/
example : [[], [0], [0, 0], [0, 0, 0], [0, 1], [1], [2]].map (fun q => (laidBox .b64 screen flyer q).map fun b =>
      ((b.absBorderBoxLeft .b64).val, (b.absBorderBoxTop .b64).val, (b.borderBoxWidth .b64).map Num.val, (b.borderBoxHeight .b64).map Num.val)) =
    [some (3, 0, some 640, some 141), some (88, 0, some 470, some 101), some (73, 1, some 465, some 70), some (73, 1, some (93 / 2), some 5),
      some (651 / 2, 81, some (465 / 2), some 20), some (137, 124, some 496, some 17), none] := by decide +kernel

end Moved

end Colosseum
