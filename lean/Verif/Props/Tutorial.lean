import Verif.Spec.Tutorial
import Verif.Props.Moved
import Verif.Props.Whole
import Verif.Props.Shown
import Verif.Props.Css

/-!
# C114: the reference layout without bounds, and what is printed
-/

namespace Colosseum

open Whole

/-- C114. In exact arithmetic the border boxes and content boxes are where the reference layout has them, however large the document is. -/
theorem C114_exact (d : Display) (html5 : Bool) (p : Option CSS) (n : Node) (hn : ∀ m, Visible m n → m.layout ≠ none)
    (hr : ∀ m, Sub m n → Moved.Regular .exact d m) (hp : ∀ s, p = some s → s.get .height = kw "auto" ∨ (s.get .height).Finite) :
    ∃ n', layout .exact d html5 p n = .ok n' ∧ ∀ q, Option.Rel (fun b f => b.Fills .exact f) (n'.boxAt q) (Moved.reference .exact d html5 n q) := by
  obtain ⟨n', h⟩ := Moved.regular_laid (html5 := html5) hn hr hp
  exact ⟨n', h, Moved.reference_of .exact exact_laws d 0 html5 p n n' (exact_easy FP.exact_exact d p hn) hr h⟩

namespace Tutorial

theorem left_whole {fp fp' : FP} {b : Box} (hb : b.Integral) : b.absBorderBoxLeft fp = b.absBorderBoxLeft fp' := by
  obtain ⟨i, hi⟩ := hb.origin .h
  obtain ⟨j, hj⟩ := hb.content .h
  obtain ⟨k, hk⟩ := hb.padding .left
  obtain ⟨l, hl⟩ := hb.border .left
  have hi : b.h.origin = _ := hi
  have hj : b.h.content = _ := hj
  have hk : b.padding.left = _ := hk
  have hl : b.border.left = _ := hl
  simp only [Box.absBorderBoxLeft, hi, hj, hk, hl, Num.add, Num.sub]

theorem top_whole {fp fp' : FP} {b : Box} (hb : b.Integral) : b.absBorderBoxTop fp = b.absBorderBoxTop fp' := by
  obtain ⟨i, hi⟩ := hb.origin .v
  obtain ⟨j, hj⟩ := hb.content .v
  obtain ⟨k, hk⟩ := hb.padding .top
  obtain ⟨l, hl⟩ := hb.border .top
  have hi : b.v.origin = _ := hi
  have hj : b.v.content = _ := hj
  have hk : b.padding.top = _ := hk
  have hl : b.border.top = _ := hl
  simp only [Box.absBorderBoxTop, hi, hj, hk, hl, Num.add, Num.sub]

theorem right_whole {fp fp' : FP} {b : Box} (hb : b.Integral) : b.absBorderBoxRight fp = b.absBorderBoxRight fp' := by
  obtain ⟨i, hi⟩ := hb.origin .h
  obtain ⟨j, hj⟩ := hb.content .h
  obtain ⟨k, hk⟩ := hb.padding .right
  obtain ⟨l, hl⟩ := hb.border .right
  have hi : b.h.origin = _ := hi
  have hj : b.h.content = _ := hj
  have hk : b.padding.right = _ := hk
  have hl : b.border.right = _ := hl
  unfold Box.absBorderBoxRight
  cases hw : b.contentWidth with
  | none => rfl
  | some w =>
    obtain ⟨m, rfl⟩ := hb.width w hw
    simp only [Option.map_some, hi, hj, hk, hl, Num.add]

theorem bottom_whole {fp fp' : FP} {b : Box} (hb : b.Integral) : b.absBorderBoxBottom fp = b.absBorderBoxBottom fp' := by
  obtain ⟨i, hi⟩ := hb.origin .v
  obtain ⟨j, hj⟩ := hb.content .v
  obtain ⟨k, hk⟩ := hb.padding .bottom
  obtain ⟨l, hl⟩ := hb.border .bottom
  have hi : b.v.origin = _ := hi
  have hj : b.v.content = _ := hj
  have hk : b.padding.bottom = _ := hk
  have hl : b.border.bottom = _ := hl
  unfold Box.absBorderBoxBottom
  cases hw : b.contentHeight with
  | none => rfl
  | some w =>
    obtain ⟨m, rfl⟩ := hb.height w hw
    simp only [Option.map_some, hi, hj, hk, hl, Num.add]

theorem fills_any {fp fp' : FP} {b : Box} (hb : b.Integral) {f : Region} (h : b.Fills fp f) : b.Fills fp' f := by
  obtain ⟨h1, h2, h3, h4, h5, h6, h7, h8⟩ := h
  rw [left_whole (fp' := fp') hb] at h1
  rw [top_whole (fp' := fp') hb] at h2
  rw [right_whole (fp' := fp') hb] at h3
  rw [bottom_whole (fp' := fp') hb] at h4
  rw [(absContent_whole (fp' := fp') hb .h).1] at h5
  rw [(absContent_whole (fp' := fp') hb .v).1] at h6
  exact ⟨h1, h2, h3, h4, h5, h6, h7, h8⟩

/-- The text of a box whose numbers are `int`s. -/
theorem text_whole (P : Printer) {fp : FP} {b : Box} (hb : b.Integral) {f : Region} (h : b.Fills fp f) :
    ∃ w h x y : Int, f.contentWidth = (w : Rat) ∧ f.contentHeight = (h : Rat) ∧ f.contentLeft = (x : Rat) ∧ f.contentTop = (y : Rat) ∧ P.box fp b = text w h x y := by
  obtain ⟨w, w1, w2⟩ := h.contentWidth
  obtain ⟨t, t1, t2⟩ := h.contentHeight
  obtain ⟨i, rfl⟩ := hb.width w w1
  obtain ⟨j, rfl⟩ := hb.height t t1
  obtain ⟨k, hk⟩ := (absContent_whole (fp := fp) (fp' := fp) hb .h).2
  obtain ⟨l, hl⟩ := (absContent_whole (fp := fp) (fp' := fp) hb .v).2
  refine ⟨i, j, k, l, w2.symm, t2.symm, ?_, ?_, ?_⟩
  · rw [← h.contentLeft, hk]; rfl
  · rw [← h.contentTop, hl]; rfl
  · unfold Printer.box text
    rw [w1, t1, hk, hl]
    simp only [Printer.optNum, Printer.num]

end Tutorial

/-- C114. A document in whole pixels that consists of blocks in normal flow and relatively positioned blocks can be laid out by any lawful arithmetic, and the border boxes and content
boxes of its elements are where the reference layout has them in exact arithmetic, without any bound on the number of elements or on sums of lengths. The four numbers that are printed for
a box are the size and the place of its content in the reference layout, as whole numbers. -/
theorem C114_whole (fp : FP) (L : fp.Laws) (P : Printer) (d : Display) (html5 : Bool) (n : Node) (hd : d.Integral) (hn : Simple d n)
    (hr : ∀ m, Sub m n → Moved.Regular .exact d m) :
    ∃ n', layout fp d html5 none n = .ok n' ∧ ∀ q, Option.Rel (fun (b : Box) (f : Region) => b.Fills fp f ∧
      ∃ w h x y : Int, f.contentWidth = (w : Rat) ∧ f.contentHeight = (h : Rat) ∧ f.contentLeft = (x : Rat) ∧ f.contentTop = (y : Rat) ∧ P.box fp b = Tutorial.text w h x y)
      (n'.boxAt q) (Moved.reference .exact d html5 n q) := by
  obtain ⟨n', h, hf⟩ := C114_exact d html5 none n (fun m hm => (hn m hm).1) hr (fun _ e => nomatch e)
  have h' := (C113_exact fp L d html5 n hd hn).trans h
  refine ⟨n', h', fun q => ?_⟩
  have := hf q
  cases hb : n'.boxAt q with
  | none =>
    rw [hb] at this
    generalize Moved.reference .exact d html5 n q = r at this ⊢
    cases this
    exact .none
  | some b =>
    rw [hb] at this
    generalize Moved.reference .exact d html5 n q = r at this ⊢
    cases this with
    | some hfill =>
      obtain ⟨bs, hs, _⟩ := boxAt_shown q hb
      have hi := C113_whole fp d html5 none n n' hd (fun _ e => nomatch e) (simple_doc L L n hn) h' bs b hs
      have hfill := Tutorial.fills_any (fp' := fp) hi hfill
      exact .some ⟨hfill, Tutorial.text_whole P hi hfill⟩

open Css in
/-- C110. If the elements of a document in whole pixels all are `Fine`, their border boxes and content boxes, apart from the root by the rules of HTML5, are where CSS 2.1 has them,
without any bound. -/
theorem C110_whole_partial (fp : FP) (L : fp.Laws) (d : Display) (html5 : Bool) (n : Node) (hd : d.Integral) (hn : Simple d n) (hr : ∀ m, Sub m n → Moved.Regular .exact d m)
    (hc : Conforming .exact d true (ltr n.style) d.contentWidth.val n) :
    ∃ n', layout fp d html5 none n = .ok n' ∧
      ∀ q, html5 = false ∨ q ≠ [] → Option.Rel (fun b f => b.Fills fp f) (n'.boxAt q) (layoutAt .exact d n q) := by
  obtain ⟨n', h, hf⟩ := C114_whole fp L ⟨fun _ => [], fun _ => true, fun _ => .error .type⟩ d html5 n hd hn hr
  refine ⟨n', h, fun q hq => ?_⟩
  have := hf q
  rw [reference_css hr hc hq] at this
  generalize n'.boxAt q = o at this ⊢
  generalize layoutAt .exact d n q = o' at this ⊢
  cases this with
  | none => exact .none
  | some k => exact .some k.1

open Css in
/-- C110 in exact arithmetic: documents of any size. -/
theorem C110_exact_partial (d : Display) (html5 : Bool) (p : Option CSS) (n : Node) (hn : ∀ m, Visible m n → m.layout ≠ none)
    (hr : ∀ m, Sub m n → Moved.Regular .exact d m) (hp : ∀ s, p = some s → s.get .height = kw "auto" ∨ (s.get .height).Finite)
    (hc : Conforming .exact d true (ltr n.style) d.contentWidth.val n) :
    ∃ n', layout .exact d html5 p n = .ok n' ∧
      ∀ q, html5 = false ∨ q ≠ [] → Option.Rel (fun b f => b.Fills .exact f) (n'.boxAt q) (layoutAt .exact d n q) := by
  obtain ⟨n', h, hf⟩ := C114_exact d html5 p n hn hr hp
  exact ⟨n', h, fun q hq => reference_css hr hc hq ▸ hf q⟩

namespace Tutorial

/-- A document with a relatively positioned element, `auto` margins and sums that no longer fit into a `float`. -/
def banner : Node := block [(.padding .top, px 9007199254740992)] [
  block [(.height, px 9007199254740992), (.width, px 33), (.margin .left, kw "auto"), (.margin .right, kw "auto")] [],
  block [(.height, px 9007199254740991), (.position, kw "relative"), (.top, px 7), (.margin .top, px 9007199254740992)] [block [(.height, px 3)] []],
  block [(.height, px 1), (.borderWidth .top, kw "thin")] []]

theorem banner_simple : Simple screen banner := by
  refine block_simple (fun q hq => Whole.plainTest_sound ?_) (fun c hc => ?_)
  · revert q
    decide +kernel
  · simp only [List.mem_cons, List.not_mem_nil, or_false] at hc
    rcases hc with rfl | rfl | rfl
    · refine block_simple (fun q hq => Whole.plainTest_sound ?_) (fun c hc => nomatch hc)
      revert q
      decide +kernel
    · refine block_simple (fun q hq => Whole.plainTest_sound ?_) (fun c hc => ?_)
      · revert q
        decide +kernel
      · rw [List.mem_singleton.1 hc]
        refine block_simple (fun q hq => Whole.plainTest_sound ?_) (fun c hc => nomatch hc)
        revert q
        decide +kernel
    · refine block_simple (fun q hq => Whole.plainTest_sound ?_) (fun c hc => nomatch hc)
      revert q
      decide +kernel

theorem banner_regular : ∀ m, Sub m banner → Moved.Regular .exact screen m := Moved.test_sound (by decide +kernel)

/-- The hypotheses hold for this document. -/
example (P : Printer) := C114_whole .b64 b64_laws P screen true banner screen_integral banner_simple banner_regular

/-- The top of this element is no `float`. -/
example : (laidBox .b64 screen banner [1, 0]).map (fun b => (Printer.mk (pyRepr .b64) (fun _ => true) (fun _ => .error .type)).box .b64 b) =
    some "<Box (640x3 @ 0,27021597764222983)>".toList := by
  decide +kernel

/-- A document where nothing deviates from CSS 2.1, with heights whose sum is no `float`. -/
def tower : Node := block [] [
  block [(.height, px 9007199254740991), (.width, px 40), (.margin .left, kw "auto"), (.margin .right, kw "auto")] [],
  block [(.height, px 9007199254740991), (.margin .top, px 7), (.margin .bottom, px 9), (.position, kw "relative"), (.left, px 3)] [block [(.height, px 3)] []],
  block [(.height, px 9007199254740991)] []]

theorem tower_simple : Simple screen tower := by
  refine block_simple (fun q hq => nomatch hq) (fun c hc => ?_)
  simp only [List.mem_cons, List.not_mem_nil, or_false] at hc
  rcases hc with rfl | rfl | rfl
  · refine block_simple (fun q hq => Whole.plainTest_sound ?_) (fun c hc => nomatch hc)
    revert q
    decide +kernel
  · refine block_simple (fun q hq => Whole.plainTest_sound ?_) (fun c hc => ?_)
    · revert q
      decide +kernel
    · rw [List.mem_singleton.1 hc]
      refine block_simple (fun q hq => Whole.plainTest_sound ?_) (fun c hc => nomatch hc)
      revert q
      decide +kernel
  · refine block_simple (fun q hq => Whole.plainTest_sound ?_) (fun c hc => nomatch hc)
    revert q
    decide +kernel

/-- The hypotheses hold for this document. -/
example := C110_whole_partial .b64 b64_laws screen false tower screen_integral tower_simple (Moved.test_sound (by decide +kernel)) (Css.conformTest_sound (by decide +kernel))

/-- Likewise in exact arithmetic. -/
example := C110_exact_partial screen false none tower (fun m hm => (tower_simple m hm).1) (Moved.test_sound (by decide +kernel)) (fun _ h => nomatch h)
  (Css.conformTest_sound (by decide +kernel))

/-! ## The document of the tutorial -/

/-- The properties of such a block. -/
structure Plate (s : CSS) (w h top left : Int) : Prop where
  display : s.get .display = kw "block"
  float : s.get .float = .none
  position : s.get .position = kw "static"
  direction : s.get .direction = kw "ltr"
  width : s.get .width = px w
  height : s.get .height = px h
  margin : s.get (.margin .top) = px top ∧ s.get (.margin .right) = px 0 ∧ s.get (.margin .bottom) = px 0 ∧ s.get (.margin .left) = px left
  border : ∀ t, s.get (.borderWidth t) = px 0
  padding : ∀ t, s.get (.padding t) = px 0
  least : s.get .minWidth = kw "auto" ∧ s.get .minHeight = kw "auto"
  most : s.get .maxWidth = .none ∧ s.get .maxHeight = .none

theorem root_plate (w h top left : Int) (kids : List (Int × Int)) : Plate (doc w h top left kids).style w h top left :=
  ⟨rfl, rfl, rfl, rfl, rfl, rfl, ⟨rfl, rfl, rfl, rfl⟩, fun t => by cases t <;> rfl, fun t => by cases t <;> rfl, ⟨rfl, rfl⟩, ⟨rfl, rfl⟩⟩

theorem kid_plate (w h : Int) : Plate (block [(.width, px w), (.height, px h)] []).style w h 0 0 :=
  ⟨rfl, rfl, rfl, rfl, rfl, rfl, ⟨rfl, rfl, rfl, rfl⟩, fun t => by cases t <;> rfl, fun t => by cases t <;> rfl, ⟨rfl, rfl⟩, ⟨rfl, rfl⟩⟩

theorem px_exact (i : Int) (c : PxCtx) : (px i).px .exact c = .ok (.int i) := by
  show Except.ok (pxOfLu .exact (64 * i)) = _
  have e : ((64 * i : Int) : Rat) / 64 = (i : Rat) := by push_cast; ring
  have t : pyTrunc (i : Rat) = i := by
    have := (pyTrunc_eq_iff (i : Rat)).2 ⟨i, rfl⟩
    exact_mod_cast this.symm
  have r : FP.exact.rnd (i : Rat) = i := rfl
  simp [pxOfLu, e, r, t]

theorem px_sure (d : Display) (i : Int) : (px i).Sure .exact d := ⟨.int i, .px, .fin (.int i), rfl, by simp, px_exact i ⟨d, dummyFont .exact, none⟩⟩

theorem px_pixels (d : Display) (i : Int) : (px i).pixels .exact d = some (i : Rat) := by
  unfold Val.pixels
  rw [px_exact]; rfl

theorem px_of (d : Display) (i : Int) (W : Rat) : Moved.pixelsOf .exact d (px i) W = some (i : Rat) := by
  unfold Moved.pixelsOf
  rw [px_exact]; rfl

theorem px_whole (d : Display) (i : Int) : (px i).whole .exact d = i := by
  unfold Val.whole
  rw [px_exact]

variable {d : Display} {s : CSS} {w h top left : Int}

theorem plate_regular (hs : Plate s w h top left) (b : Option Box) (cs : List Node) : Moved.Regular .exact d (.mk s .initial b cs) where
  block := .inl hs.display
  content := rfl
  float := hs.float
  position := .inl hs.position
  margin t ht := by
    right
    show ((s.get (.margin t))).Sure .exact d
    obtain ⟨h1, _, h3, _⟩ := hs.margin
    rcases ht with rfl | rfl
    · rw [h1]; exact px_sure d _
    · rw [h3]; exact px_sure d _
  beside t ht := by
    right
    left
    show ((s.get (.margin t))).Sure .exact d
    obtain ⟨_, h2, _, h4⟩ := hs.margin
    rcases ht with rfl | rfl
    · rw [h4]; exact px_sure d _
    · rw [h2]; exact px_sure d _
  border t := .inr (.inr (.inr (by show (s.get (.borderWidth t)).Sure .exact d; rw [hs.border]; exact px_sure d _)))
  padding t := by show (s.get (.padding t)).Sure .exact d; rw [hs.padding]; exact px_sure d _
  width p hp := by
    rcases hp with rfl | rfl
    · right; left; show (s.get .width).Sure .exact d; rw [hs.width]; exact px_sure d _
    · exact .inl hs.least.1
  widest := .inl hs.most.1
  height p hp := by
    rcases hp with rfl | rfl
    · right; show (s.get .height).Sure .exact d; rw [hs.height]; exact px_sure d _
    · exact .inl hs.least.2
  highest := .inl hs.most.2

theorem plate_edge (hs : Plate s w h top left) (t : Side) : s.edge .exact d t = 0 := by
  unfold CSS.edge CSS.bordered CSS.padded
  rw [hs.border, hs.padding, px_pixels]
  have e : ∀ k, (px 0).isKw k = false := fun _ => rfl
  simp [e, px_pixels]

theorem plate_wide (hs : Plate s w h top left) (W : Rat) : Moved.contentWide .exact d s W = w := by
  unfold Moved.contentWide
  rw [hs.width, px_of, hs.least.1, hs.most.1]
  rfl

theorem plate_shift (hs : Plate s w h top left) (W : Rat) : Moved.shift .exact d s W = left := by
  have e1 : Moved.outside .exact d s .left W = some (left : Rat) := by unfold Moved.outside; rw [hs.margin.2.2.2, px_of]
  have e2 : Moved.outside .exact d s .right W = some ((0 : Int) : Rat) := by unfold Moved.outside; rw [hs.margin.2.1, px_of]
  unfold Moved.shift
  simp only
  rw [e1, e2, hs.width, px_of, hs.direction]
  have : (kw "ltr").isKw "ltr" = true := rfl
  rw [this]
  simp [usedMargins]

theorem plate_still (hs : Plate s w h top left) (W : Rat) : Moved.aside .exact d s W = 0 ∧ Moved.lowered .exact d s = 0 := by
  unfold Moved.aside Moved.lowered
  have : (s.get .position).isKw "relative" = false := by rw [hs.position]; rfl
  rw [this]
  simp

theorem plate_tall (hs : Plate s w h top left) (z : Intrinsic) (b : Option Box) (cs : List Node) : Moved.tall .exact d (.mk s z b cs) = h := by
  rw [Moved.tall, plate_edge hs, plate_edge hs, hs.height, px_pixels, hs.most.2]
  show 0 + limited none none (h : Rat) + 0 = h
  simp [limited]

theorem plate_bottom (hs : Plate s w h top left) (z : Intrinsic) (b : Option Box) (cs : List Node) : (Node.mk s z b cs).edgeBottom .exact d = 0 := by
  rw [Node.edgeBottom, hs.margin.2.2.1, px_whole, hs.height]
  rfl

/-- A child. -/
abbrev kid (k : Int × Int) : Node := block [(.width, px k.1), (.height, px k.2)] []

theorem kid_top (k : Int × Int) : (kid k).edgeTop .exact d = 0 := by
  show Node.edgeTop .exact d (.mk (kid k).style _ _ []) = 0
  rw [Node.edgeTop, (kid_plate k.1 k.2).margin.1, px_whole]
  rfl

theorem kids_place (kids : List (Int × Int)) : ∀ i, i < kids.length → Moved.place .exact d (kids.map kid) i = above kids i := by
  induction kids with
  | nil => intro i hi; cases hi
  | cons k ks ih =>
    intro i hi
    cases i with
    | zero => cases ks <;> simp [Moved.place, above]
    | succ i =>
      cases ks with
      | nil => simp at hi
      | cons k' ks =>
        have hi : i < (k' :: ks).length := by simpa using hi
        rw [List.map_cons, List.map_cons, Moved.place]
        have e1 : Moved.tall .exact d (kid k) = k.2 := plate_tall (kid_plate k.1 k.2) _ _ _
        have e2 : between .exact d (kid k) (kid k') = 0 := by
          unfold between
          have e3 : (kid k).edgeBottom .exact d = 0 := plate_bottom (kid_plate k.1 k.2) _ _ _
          have e4 : (kid k').style.outside .exact d .top = some ((0 : Int) : Rat) := by unfold CSS.outside; rw [(kid_plate k'.1 k'.2).margin.1, px_pixels]
          rw [e3, e4]
          simp
        have := ih i hi
        rw [List.map_cons] at this
        rw [e1, e2, this]
        simp [above]

theorem doc_top (w h top left : Int) (kids : List (Int × Int)) : (doc w h top left kids).edgeTop .exact d = max 0 top := by
  have hs := root_plate w h top left kids
  cases kids with
  | nil =>
    show Node.edgeTop .exact d (.mk (doc w h top left []).style _ _ []) = _
    rw [Node.edgeTop, hs.margin.1, px_whole]
  | cons k ks =>
    show Node.edgeTop .exact d (.mk (doc w h top left (k :: ks)).style _ _ (kid k :: ks.map kid)) = _
    rw [Node.edgeTop, hs.margin.1, px_whole, kid_top]
    omega

theorem plate_region (hs : Plate s w h top left) (W x y : Rat) (b : Option Box) (cs : List Node) :
    (Moved.region .exact d W x y (.mk s .initial b cs)).contentWidth = w ∧ (Moved.region .exact d W x y (.mk s .initial b cs)).contentHeight = h ∧
    (Moved.region .exact d W x y (.mk s .initial b cs)).contentLeft = x + left ∧ (Moved.region .exact d W x y (.mk s .initial b cs)).contentTop = y := by
  obtain ⟨a1, a2⟩ := plate_still (d := d) hs W
  refine ⟨plate_wide hs W, ?_, ?_, ?_⟩
  · show Moved.tall .exact d (.mk s .initial b cs) - s.edge .exact d .top - s.edge .exact d .bottom = h
    rw [plate_tall hs, plate_edge hs, plate_edge hs]; simp
  · show x + Moved.shift .exact d s W + Moved.aside .exact d s W + s.edge .exact d .left = x + left
    rw [plate_shift hs, a1, plate_edge hs]; ring
  · show y + Moved.lowered .exact d s + s.edge .exact d .top = y
    rw [a2, plate_edge hs]; ring

theorem doc_regular (w h top left : Int) (kids : List (Int × Int)) : ∀ m, Sub m (doc w h top left kids) → Moved.Regular .exact d m := by
  intro m hm
  cases hm with
  | refl => exact plate_regular (root_plate w h top left kids) _ _
  | child hc hm =>
    obtain ⟨k, _, rfl⟩ := List.mem_map.1 hc
    cases hm with
    | refl => exact plate_regular (kid_plate k.1 k.2) _ _
    | child hc _ => cases hc

theorem doc_simple (w h top left : Int) (kids : List (Int × Int)) (hb : ∀ i ∈ [w, h, top, left], i.natAbs ≤ 2 ^ 53)
    (hk : ∀ k ∈ kids, k.1.natAbs ≤ 2 ^ 53 ∧ k.2.natAbs ≤ 2 ^ 53) : Simple d (doc w h top left kids) := by
  refine block_simple (fun q hq => ?_) (fun c hc => ?_)
  · simp only [List.mem_cons, List.not_mem_nil, or_false] at hq
    rcases hq with rfl | rfl | rfl | rfl <;> exact .pixels _ (hb _ (by simp))
  · obtain ⟨k, hk', rfl⟩ := List.mem_map.1 hc
    refine block_simple (fun q hq => ?_) (fun c hc => nomatch hc)
    simp only [List.mem_cons, List.not_mem_nil, or_false] at hq
    rcases hq with rfl | rfl
    · exact .pixels _ (hk k hk').1
    · exact .pixels _ (hk k hk').2

end Tutorial

/-- C114. The session of the tutorial, whatever the sizes are: on a page of a whole number of pixels the root is as wide as declared and as high as the page without its top margin, it is
below this margin and right of its left margin, and its children are below each other at its left, each as large as declared. The lengths may be up to 2^53 pixels; there may be any number
of children. -/
theorem C114_tutorial (fp : FP) (L : fp.Laws) (P : Printer) (d : Display) (hd : d.Integral) (H : Int) (hH : d.contentHeight = .int H) (w h top left : Int)
    (kids : List (Int × Int)) (hb : ∀ i ∈ [w, h, top, left], i.natAbs ≤ 2 ^ 53) (hk : ∀ k ∈ kids, k.1.natAbs ≤ 2 ^ 53 ∧ k.2.natAbs ≤ 2 ^ 53) :
    ∃ n', layout fp d true none (Tutorial.doc w h top left kids) = .ok n' ∧
      (∃ b, n'.boxAt [] = some b ∧ P.box fp b = Tutorial.text w (H - max 0 top) left (max 0 top)) ∧
      ∀ i k, kids[i]? = some k → ∃ b, n'.boxAt [i] = some b ∧ P.box fp b = Tutorial.text k.1 k.2 left (max 0 top + Tutorial.above kids i) := by
  obtain ⟨n', h1, h2⟩ := C114_whole fp L P d true (Tutorial.doc w h top left kids) hd (Tutorial.doc_simple w h top left kids hb hk) (Tutorial.doc_regular w h top left kids)
  have hs := Tutorial.root_plate w h top left kids
  have et := Tutorial.doc_top (d := d) w h top left kids
  have eb : (Tutorial.doc w h top left kids).edgeBottom .exact d = 0 := Tutorial.plate_bottom hs _ _ _
  obtain ⟨r1, _, r3, r4⟩ := Tutorial.plate_region (d := d) hs d.contentWidth.val 0 (max 0 top : Int) (some .fresh) (kids.map Tutorial.kid)
  refine ⟨n', h1, ?_, ?_⟩
  · have := h2 []
    unfold Moved.reference at this
    rw [Moved.regionAt, et, eb, hH] at this
    simp only [Option.map_some, true_and, if_true] at this
    cases hx : n'.boxAt [] with
    | none => rw [hx] at this; cases this
    | some b =>
      rw [hx] at this
      cases this with
      | some q =>
        obtain ⟨_, w', h', x', y', q1, q2, q3, q4, q5⟩ := q
        refine ⟨b, rfl, ?_⟩
        rw [q5]
        simp only at q1 q2 q3 q4
        rw [show Tutorial.doc w h top left kids = .mk (Tutorial.doc w h top left kids).style .initial (some .fresh) (kids.map Tutorial.kid) from rfl] at q1 q3 q4
        rw [r1] at q1
        rw [r3] at q3
        rw [r4] at q4
        simp only [Num.val_int] at q2
        have e1 : w = w' := by exact_mod_cast q1
        have e2 : H - max 0 top - 0 = h' := by exact_mod_cast q2
        have e3 : left = x' := by
          have : ((0 : Rat) + left) = x' := q3
          rw [zero_add] at this
          exact_mod_cast this
        have e4 : max 0 top = y' := by exact_mod_cast q4
        rw [← e1, ← e2, ← e3, ← e4, sub_zero]
  · intro i k hi
    have := h2 [i]
    unfold Moved.reference at this
    rw [Moved.regionAt, et] at this
    have hc : (Tutorial.doc w h top left kids).children[i]? = some (Tutorial.kid k) := by
      show (kids.map Tutorial.kid)[i]? = _
      rw [List.getElem?_map, hi]; rfl
    rw [hc, Option.bind_some, Moved.regionAt] at this
    rw [show Tutorial.doc w h top left kids = .mk (Tutorial.doc w h top left kids).style .initial (some .fresh) (kids.map Tutorial.kid) from rfl, r1, r3, r4] at this
    have hp : Moved.place .exact d (Node.mk (Tutorial.doc w h top left kids).style .initial (some .fresh) (kids.map Tutorial.kid)).children i = Tutorial.above kids i :=
      Tutorial.kids_place kids i (List.getElem?_eq_some_iff.1 hi).1
    rw [hp] at this
    obtain ⟨p1, p2, p3, p4⟩ := Tutorial.plate_region (d := d) (Tutorial.kid_plate k.1 k.2) (w : Rat) (0 + left) (((max 0 top : Int) : Rat) + Tutorial.above kids i) (some .fresh) []
    simp only [Option.map_some, List.cons_ne_nil, and_false, if_false] at this
    cases hx : n'.boxAt [i] with
    | none => rw [hx] at this; cases this
    | some b =>
      rw [hx] at this
      cases this with
      | some q =>
        obtain ⟨_, w', h', x', y', q1, q2, q3, q4, q5⟩ := q
        refine ⟨b, rfl, ?_⟩
        rw [q5]
        have e1 : k.1 = w' := by exact_mod_cast p1.symm.trans q1
        have e2 : k.2 = h' := by exact_mod_cast p2.symm.trans q2
        have e3 : left = x' := by
          have := p3.symm.trans q3
          rw [zero_add, Int.cast_zero, add_zero] at this
          exact_mod_cast this
        have e4 : max 0 top + Tutorial.above kids i = y' := by exact_mod_cast p4.symm.trans q4
        rw [← e1, ← e2, ← e3, ← e4]

/-- The numbers of the tutorial, with its page of 2000 by 2000 pixels. -/
example (P : Printer) : ∃ n', layout .b64 ⟨.int 96, .int 2000, .int 2000, .int 1, .int 3, .int 5⟩ true none (Tutorial.doc 1500 800 10 20 [(100, 200), (300, 150)]) = .ok n' ∧
    (∃ b, n'.boxAt [] = some b ∧ P.box .b64 b = "<Box (1500x1990 @ 20,10)>".toList) ∧ ∃ b, n'.boxAt [1] = some b ∧ P.box .b64 b = "<Box (300x150 @ 20,210)>".toList := by
  obtain ⟨n', h1, h2, h3⟩ := C114_tutorial .b64 b64_laws P ⟨.int 96, .int 2000, .int 2000, .int 1, .int 3, .int 5⟩ ⟨⟨_, rfl⟩, ⟨_, rfl⟩, ⟨_, rfl⟩, ⟨_, rfl⟩, ⟨_, rfl⟩⟩ 2000 rfl
    1500 800 10 20 [(100, 200), (300, 150)] (by decide) (by decide)
  exact ⟨n', h1, h2, h3 1 (300, 150) rfl⟩

end Colosseum
