import Verif.Lemmas.Reference

/-!
# C84: blocks are laid out as by a reference algorithm
-/

namespace Colosseum

theorem reference_of (fp : FP) (L : fp.Laws) (d : Display) (M : Nat) (html5 : Bool) (p : Option CSS) (n n' : Node) (hn : n.Moderate fp d M)
    (hr : n.AllRegular fp d) (h : layout fp d html5 p n = .ok n') (q : List Nat) :
    Option.Rel (fun b f => b.Fills fp f) (n'.boxAt q) (n.reference fp d html5 q) := by
  rw [← reference_strip (layout_strip h)]
  have hr' := allRegular_strip (layout_strip h) hr
  have hb := regular_blocky hr
  have r := hr' n' (.refl _)
  have hw : Within (some d.contentWidth) p n' (some d.contentWidth) p n' := .here ..
  obtain ⟨b, hl, e0⟩ := C82_root fp L d M html5 p n n' hn hb h r.static
  obtain ⟨b1, k1, o1⟩ := (C49_origins_partial fp d html5 p n n' hn.boxed h .h).2
  obtain ⟨b2, k2, o2⟩ := (C49_origins_partial fp d html5 p n n' hn.boxed h .v).2
  cases hl.symm.trans k1
  cases hl.symm.trans k2
  have hX : (b.pos .h).origin.val = 0 := by rw [o1, Num.val_int]; rfl
  have hY : (b.pos .v).origin.val + (b.borderBoxTop fp).val = n'.edgeTop fp d := by
    rw [o2, Num.val_int, e0]
    simp
  unfold Node.reference
  cases html5 with
  | false =>
    have e : (n'.regionAt fp d d.contentWidth.val 0 (n'.edgeTop fp d) q).map (fun f => if false = true ∧ q = [] then
        let c := d.contentHeight.val - n'.edgeTop fp d - n'.edgeBottom fp d
        { f with contentHeight := c, height := n'.style.edge fp d .top + c + n'.style.edge fp d .bottom } else f) =
        n'.regionAt fp d d.contentWidth.val 0 (n'.edgeTop fp d) q := by
      simp
    rw [e]
    obtain ⟨b3, y, _, k3, k4, _⟩ := regular_tall (html5 := false) L hn hb h _ _ _ n' le_rfl hr' hw
    cases hl.symm.trans k3
    exact regular_path L hn hb h q n' p d.contentWidth [] b 0 _ hw hr' (fun _ _ hs => hs) hl hX hY ⟨y, k4⟩ fun _ => hw
  | true =>
    obtain ⟨b3, y, k3, k4, k5⟩ := C80_display fp L d M p n n' hn h
    obtain ⟨b4, k6, k7, k8⟩ := C82_ends fp L d true p p n n' n' _ hn.boxed hb h hw
    cases hl.symm.trans k3
    cases hl.symm.trans k6
    cases q with
    | nil =>
      have fill := regular_fills L hn h hw r rfl hl k4 hX hY
      have ey : y.val = d.contentHeight.val - n'.edgeTop fp d - n'.edgeBottom fp d := by
        rw [← k5, k7, k8]; ring
      rw [ey] at fill
      rw [Node.regionAt]
      show Option.Rel _ n'.layout _
      rw [hl]
      refine .some ?_
      simp only [true_and, if_true]
      exact fill
    | cons i q =>
      have := regular_path L hn hb h (i :: q) n' p d.contentWidth [] b 0 _ hw hr' (fun _ _ hs => hs) hl hX hY ⟨y, k4⟩ (fun e => nomatch e)
      simpa using this

/-- C84. A document of moderate size that consists of blocks in normal flow, whose sizes are lengths or the keywords of their properties, can be laid out,
and the border boxes and content boxes of all its elements are where the reference layout has them. -/
theorem C84_reference (fp : FP) (L : fp.Laws) (d : Display) (M : Nat) (html5 : Bool) (p : Option CSS) (n : Node) (hn : n.Moderate fp d M)
    (hr : ∀ m, Sub m n → m.Regular fp d) (hp : ∀ s, p = some s → s.get .height = kw "auto" ∨ (s.get .height).Finite) :
    ∃ n', layout fp d html5 p n = .ok n' ∧ ∀ q, Option.Rel (fun b f => b.Fills fp f) (n'.boxAt q) (n.reference fp d html5 q) := by
  obtain ⟨n', h⟩ := regular_laid (html5 := html5) hn.boxed hr hp
  exact ⟨n', h, reference_of fp L d M html5 p n n' hn hr h⟩

/-! ## A document -/

/-- A test for such blocks. -/
def regularStyle (fp : FP) (d : Display) (s : CSS) (z : Intrinsic) : Bool :=
  ((s.get .display).isKw "block" || (s.get .display).isKw "list-item") && !z.isReplaced && (s.get .float).isNone && (s.get .position).isKw "static" &&
  [Side.top, .right, .bottom, .left].all (fun t => ((s.get (.margin t)).isKw "auto" || (s.get (.margin t)).lengthTest fp d) &&
    ((s.get (.borderWidth t)).isKw "thin" || (s.get (.borderWidth t)).isKw "medium" || (s.get (.borderWidth t)).isKw "thick" ||
      (s.get (.borderWidth t)).lengthTest fp d) && (s.get (.padding t)).lengthTest fp d) &&
  [LH.width, .minWidth, .height, .minHeight].all (fun p => (s.get p).isKw "auto" || (s.get p).lengthTest fp d) &&
  [LH.maxWidth, .maxHeight].all (fun p => (s.get p).isNone || (s.get p).lengthTest fp d)

theorem regularStyle_sound {fp : FP} {d : Display} {s : CSS} {z : Intrinsic} {l : Option Box} {cs : List Node} (h : regularStyle fp d s z = true) :
    (Node.mk s z l cs).Regular fp d := by
  simp only [regularStyle, Bool.and_eq_true, Bool.or_eq_true, List.all_eq_true, Bool.not_eq_true', isKw_iff] at h
  obtain ⟨⟨⟨⟨⟨⟨h1, h2⟩, h3⟩, h4⟩, h5⟩, h6⟩, h7⟩ := h
  have all : ∀ t : Side, t ∈ [Side.top, .right, .bottom, .left] := by intro t; cases t <;> simp
  refine ⟨h1, h2, isNone_eq h3, h4, fun t => (h5 t (all t)).1.1.imp id lengthTest_sound, fun t => ?_, fun t => lengthTest_sound (h5 t (all t)).2,
    fun p hp => (h6 p (by simpa using hp)).imp id lengthTest_sound, fun p hp => (h7 p (by simpa using hp)).imp isNone_eq lengthTest_sound⟩
  rcases (h5 t (all t)).1.2 with ((h | h) | h) | h
  · exact Or.inl h
  · exact Or.inr (Or.inl h)
  · exact Or.inr (Or.inr (Or.inl h))
  · exact Or.inr (Or.inr (Or.inr (lengthTest_sound h)))

mutual
/-- The test for documents. -/
def Node.regularTest (fp : FP) (d : Display) : Node → Bool
  | .mk s z _ cs => regularStyle fp d s z && regularTests fp d cs
/-- The test for lists. -/
def regularTests (fp : FP) (d : Display) : List Node → Bool
  | [] => true
  | c :: cs => c.regularTest fp d && regularTests fp d cs
end

theorem regularTests_mem {fp : FP} {d : Display} {cs : List Node} (h : regularTests fp d cs = true) {c : Node} (hc : c ∈ cs) : c.regularTest fp d = true := by
  induction cs with
  | nil => cases hc
  | cons x cs ih =>
    simp only [regularTests, Bool.and_eq_true] at h
    rcases List.mem_cons.1 hc with rfl | hc
    · exact h.1
    · exact ih h.2 hc

theorem regularTest_sound {fp : FP} {d : Display} {n : Node} (h : n.regularTest fp d = true) : n.AllRegular fp d := by
  intro m hm
  induction hm with
  | refl =>
    obtain ⟨s, z, l, cs⟩ := m
    simp only [Node.regularTest, Bool.and_eq_true] at h
    exact regularStyle_sound h.1
  | @child c n hc _ ih =>
    obtain ⟨s, z, l, cs⟩ := n
    simp only [Node.regularTest, Bool.and_eq_true] at h
    exact ih (regularTests_mem h.2 hc)

/-- A page with a heading, a centred column of limited width, with a thick border, and a footer. -/
def sheet : Node :=
  block [(.padding .left, px 10), (.padding .right, px 10)] [
    block [(.height, px 30), (.margin .top, px 8), (.margin .bottom, px 6), (.borderWidth .bottom, px 2)] [],
    block [(.width, px 500), (.maxWidth, px 301), (.margin .left, kw "auto"), (.margin .right, kw "auto"), (.borderWidth .left, kw "thick"),
        (.padding .top, px 5)] [
      block [(.height, px 70), (.maxHeight, px 60), (.margin .left, px (-3)), (.margin .bottom, px 4)] [],
      block [(.minHeight, px 20), (.direction, kw "rtl"), (.width, px 100)] []],
    block [(.margin .top, px 12), (.borderWidth .top, px 1)] [block [(.height, px 15)] []]]

theorem sheet_moderate : sheet.Moderate .b64 screen 1000 := by
  have h : sheet.mildTest .b64 screen 1000 = true := by decide +kernel
  have hc : sheet.count = 7 := by decide +kernel
  refine ⟨fun m hm => (mildTest_all h hm).1, ⟨screen_mild, fun m hm => (mildTest_all h hm).2⟩, by norm_num, ?_, ?_⟩ <;> rw [hc] <;> norm_num

theorem sheet_regular : sheet.AllRegular .b64 screen := regularTest_sound (by decide +kernel)

/-- The hypotheses hold for this document. -/
example : ∃ n', layout .b64 screen true none sheet = .ok n' ∧
    ∀ q, Option.Rel (fun b f => b.Fills .b64 f) (n'.boxAt q) (sheet.reference .b64 screen true q) :=
  C84_reference .b64 b64_laws screen 1000 true none sheet sheet_moderate sheet_regular (fun _ h => nomatch h)

/-- What the reference has: the left and the top of the border box, its width and its height. -/
example : [[], [0], [1], [1, 0], [1, 1], [2], [2, 0], [3]].map (fun q => (sheet.reference .b64 screen true q).map fun f => (f.left, f.top, f.width, f.height)) =
    [some (0, 8, 640, 472), some (10, 8, 620, 32), some (167, 46, 306, 89), some (169, 51, 304, 60), some (373, 115, 100, 20), some (10, 147, 620, 16),
      some (10, 148, 620, 15), none] := by decide +kernel

/-- What the engine does, without the rules of HTML5: the root is as high as its content. -/
example : [[], [0], [1], [1, 0], [1, 1], [2], [2, 0], [3]].map (fun q => (laidBox .b64 screen sheet q).map fun b =>
      ((b.absBorderBoxLeft .b64).val, (b.absBorderBoxTop .b64).val, (b.borderBoxWidth .b64).map Num.val, (b.borderBoxHeight .b64).map Num.val)) =
    [some (0, 8, some 640, some 155), some (10, 8, some 620, some 32), some (167, 46, some 306, some 89), some (169, 51, some 304, some 60),
      some (373, 115, some 100, some 20), some (10, 147, some 620, some 16), some (10, 148, some 620, some 15), none] := by decide +kernel

end Colosseum
