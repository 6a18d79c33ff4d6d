import Verif.Props.Placed
import Verif.Props.Tutorial

/-!
# C111, C114: the reference layout with percentages that are relative to heights
-/

namespace Colosseum

/-- Boxes with the same numbers, at the same place, fill the same region. -/
theorem fills_of_figures {fp : FP} {b b' : Box} {f : Region} (hf : b'.Fits fp (2 ^ 50)) (he : b.figures = b'.figures)
    (ho : ∀ a, (b.pos a).origin.val = (b'.pos a).origin.val) (h : b'.Fills fp f) : b.Fills fp f := by
  simp only [Box.figures, Figures.mk.injEq] at he
  obtain ⟨e1, e2, e3, e4, _, e6, e7, _⟩ := he
  have hb : b.Fits fp (2 ^ 50) := by
    refine ⟨fun a => ⟨(hf.pos a).1.of_val (ho a), ?_⟩, fun w hw => hf.width w (e3 ▸ hw), fun w hw => hf.height w (e4 ▸ hw), fun t => ?_, fun t => ?_⟩
    · have := (hf.pos a).2
      cases a
      · rw [show (b.pos .v).content = (b'.pos .v).content from e2]; exact this
      · rw [show (b.pos .h).content = (b'.pos .h).content from e1]; exact this
    · rw [e6]; exact hf.border t
    · rw [e7]; exact hf.padding t
  obtain ⟨x, hx, vx⟩ := h.contentWidth
  obtain ⟨y, hy, vy⟩ := h.contentHeight
  have oh : b.h.origin.val = b'.h.origin.val := ho .h
  have ov : b.v.origin.val = b'.v.origin.val := ho .v
  obtain ⟨cr, acr, pr, pw, apr, br, bw, abr, q1, q2, q3, q4, q5, q6, q7, q8, f1, f2, f3, f4, f5, f6, f7, f8, f9, f10, f11, f12, f13⟩ :=
    C39_horizontal fp b x (e3 ▸ hx) hb
  obtain ⟨cr', acr', pr', pw', apr', br', bw', abr', q1', q2', q3', q4', q5', q6', q7', q8', f1', f2', f3', f4', f5', f6', f7', f8', f9', f10', f11', f12', f13'⟩ :=
    C39_horizontal fp b' x hx hf
  obtain ⟨ds, ads, ps, pt, aps, bs, bt, abs, r1, r2, r3, r4, r5, r6, r7, r8, g1, g2, g3, g4, g5, g6, g7, g8, g9, g10, g11, g12, g13⟩ :=
    C39_vertical fp b y (e4 ▸ hy) hb
  obtain ⟨ds', ads', ps', pt', aps', bs', bt', abs', r1', r2', r3', r4', r5', r6', r7', r8', g1', g2', g3', g4', g5', g6', g7', g8', g9', g10', g11', g12', g13'⟩ :=
    C39_vertical fp b' y hy hf
  simp only [Box.frame] at *
  have hl := h.left
  have ht := h.top
  obtain ⟨u, hu, vu⟩ := h.right
  obtain ⟨v, hv, vv⟩ := h.bottom
  cases q8'.symm.trans hu
  cases r8'.symm.trans hv
  constructor
  · rw [← hl, f12, f12', f5, f5', f2, f2', oh, e1, e6, e7]
  · rw [← ht, g12, g12', g5, g5', g2, g2', ov, e2, e6, e7]
  · refine ⟨_, q8, ?_⟩
    rw [← vu, f13, f13', f6, f6', f3, f3', f1, f1', oh, e1, e6, e7]
  · refine ⟨_, r8, ?_⟩
    rw [← vv, g13, g13', g6, g6', g3, g3', g1, g1', ov, e2, e6, e7]
  · rw [← h.contentLeft, f8, f8', oh, e1]
  · rw [← h.contentTop, g8, g8', ov, e2]
  · exact ⟨x, e3 ▸ hx, vx⟩
  · exact ⟨y, e4 ▸ hy, vy⟩

theorem abs_val {fp : FP} {b : Box} (hf : b.Fits fp (2 ^ 50)) (a : Axis) : (b.absContent fp a).val = (b.pos a).origin.val + (b.pos a).content.val :=
  ((hf.pos a).1.add (hf.pos a).2 (by norm_num)).1

/-- Where the boxes of two documents have the same numbers, and those of one of them are exact, the boxes start from the same points. -/
theorem origin_of_figures {fp : FP} {d : Display} {html5 : Bool} {p : Option CSS} {n n' m m' : Node} (hn : AllBoxed n) (hm : AllBoxed m)
    (h : layout fp d html5 p n = .ok n') (h' : layout fp d html5 p m = .ok m') (hf : ∀ q b, m'.boxAt q = some b → b.Fits fp (2 ^ 50))
    (hs : ∀ q, (m'.boxAt q).map Box.figures = (n'.boxAt q).map Box.figures) (a : Axis) : ∀ q b b', n'.boxAt q = some b → m'.boxAt q = some b' →
      (b.pos a).origin.val = (b'.pos a).origin.val := by
  obtain ⟨c1, r, hr, z⟩ := layout_coherent h hn a
  obtain ⟨c1', r', hr', z'⟩ := layout_coherent h' hm a
  intro q
  induction q using List.reverseRecOn with
  | nil =>
    intro b b' e e'
    cases hr.symm.trans e
    cases hr'.symm.trans e'
    rw [z, z']
  | append_singleton q i ih =>
    intro b b' e e'
    obtain ⟨bs, s1, s2, s3⟩ := boxAt_shown _ e
    obtain ⟨bs', s1', s2', s3'⟩ := boxAt_shown _ e'
    have k := s3 q.length (by simp)
    have k' := s3' q.length (by simp)
    rw [List.take_left] at k k'
    rcases List.eq_nil_or_concat bs with rfl | ⟨cs, c, rfl⟩
    · simp at s2
    rcases List.eq_nil_or_concat bs' with rfl | ⟨cs', c', rfl⟩
    · simp at s2'
    have l : cs.length = q.length := by simpa using s2
    have l' : cs'.length = q.length := by simpa using s2'
    rw [List.concat_eq_append] at s1 s1'
    rw [List.concat_eq_append, ← l, List.getElem?_concat_length] at k
    rw [List.concat_eq_append, ← l', List.getElem?_concat_length] at k'
    rw [c1 _ _ _ s1, c1' _ _ _ s1']
    have := hs q
    rw [← k, ← k'] at this
    have he : c'.figures = c.figures := Option.some.inj this
    have fc' := hf q c' k'.symm
    have o := ih c c' k.symm k'.symm
    have ec : (c.pos a).content = (c'.pos a).content := by
      simp only [Box.figures, Figures.mk.injEq] at he
      cases a
      · exact he.2.1.symm
      · exact he.1.symm
    rw [abs_val fc' a]
    have f1 := (fc'.pos a).1.of_val o
    have f2 := (fc'.pos a).2
    rw [← ec] at f2
    exact (f1.add f2 (by norm_num)).1.trans (by rw [o, ec])

theorem reference_level {fp : FP} (L : fp.Laws) {d : Display} {K : Nat} {html5 : Bool} {p : Option CSS} {n m' : Node} (hb : AllBoxed n)
    (hn : Easy fp d p (n.level none) K) (h' : layout fp d html5 p (n.level none) = .ok m')
    (hr : ∀ m, Sub m (n.level none) → Moved.Regular fp d m) :
    ∃ n', layout fp d html5 p n = .ok n' ∧ ∀ q, Option.Rel (fun b f => b.Fills fp f) (n'.boxAt q) (Moved.reference fp d html5 (n.level none) q) := by
  have e := C108_level fp L d html5 p n hb
  rw [h'] at e
  cases h : layout fp d html5 p n with
  | error x =>
    rw [h] at e
    cases e
  | ok n' =>
    refine ⟨n', rfl, fun q => ?_⟩
    obtain ⟨m₁, h1, hq⟩ := C108_boxes fp L d html5 p n n' hb h
    rw [h'] at h1
    cases h1
    have hf : ∀ q b, m'.boxAt q = some b → b.Fits fp (2 ^ 50) := fun q b e => by
      obtain ⟨bs, hs, _⟩ := boxAt_shown q e
      exact hn.whole h' hs
    have ho := origin_of_figures hb hn.boxed h h' hf hq
    have hm := Moved.reference_of fp L d K html5 p _ m' hn hr h' q
    have hq := hq q
    cases e : n'.boxAt q with
    | none =>
      rw [e] at hq
      have e' : m'.boxAt q = none := Option.map_eq_none_iff.1 hq
      rwa [e'] at hm
    | some b =>
      rw [e] at hq
      obtain ⟨b', e', hfig⟩ := Option.map_eq_some_iff.1 hq
      rw [e'] at hm
      generalize Moved.reference fp d html5 (n.level none) q = r at hm
      cases hm with
      | some k => exact .some (fills_of_figures (hf q b' e') hfig.symm (fun a => ho a q b b' e e') k)

/-- **C111**, with percentages that are relative to heights: where only these keep the blocks of a document from being of the kind the reference layout is for, the boxes are
those of the reference layout of the document in which they are 0. -/
theorem C111_level (fp : FP) (L : fp.Laws) (d : Display) (M : Nat) (html5 : Bool) (p : Option CSS) (n : Node) (hb : ∀ m, Visible m n → m.layout ≠ none)
    (hn : (n.level none).Moderate fp d M) (hr : ∀ m, Sub m (n.level none) → Moved.Regular fp d m)
    (hp : ∀ s, p = some s → s.get .height = kw "auto" ∨ (s.get .height).Finite) :
    ∃ n', layout fp d html5 p n = .ok n' ∧ ∀ q, Option.Rel (fun b f => b.Fills fp f) (n'.boxAt q) (Moved.reference fp d html5 (n.level none) q) := by
  obtain ⟨m', h⟩ := Moved.regular_laid (html5 := html5) hn.boxed hr hp
  exact reference_level L hb (moderate_easy L p hn) h hr

/-- C114, likewise: with exact arithmetic, documents of any size. -/
theorem C114_level (d : Display) (html5 : Bool) (p : Option CSS) (n : Node) (hb : ∀ m, Visible m n → m.layout ≠ none)
    (hr : ∀ m, Sub m (n.level none) → Moved.Regular .exact d m) (hp : ∀ s, p = some s → s.get .height = kw "auto" ∨ (s.get .height).Finite) :
    ∃ n', layout .exact d html5 p n = .ok n' ∧ ∀ q, Option.Rel (fun b f => b.Fills .exact f) (n'.boxAt q) (Moved.reference .exact d html5 (n.level none) q) := by
  have hb' := level_boxed n none hb
  obtain ⟨m', h⟩ := Moved.regular_laid (html5 := html5) hb' hr hp
  exact reference_level exact_laws hb (exact_easy FP.exact_exact d p hb') h hr

namespace Moved

/-- A page with percentages that are relative to heights in the blocks on it: an offset, a margin, paddings, a height and its bounds. -/
def poster : Node :=
  block [(.height, px 200), (.padding .top, px 7)] [
    block [(.padding .left, pct 10), (.margin .top, pct 5), (.margin .left, pct 25), (.position, kw "relative"), (.top, pct 50), (.height, px 30)] [
      block [(.height, px 10)] []],
    block [(.minHeight, pct 60), (.margin .bottom, px 8)] [block [(.height, pct 30), (.padding .right, pct 40), (.padding .bottom, px 4)] []],
    block [(.height, px 5), (.maxHeight, pct 50)] []]

theorem poster_boxed : ∀ m, Visible m poster → m.layout ≠ none := full_boxed _ (by decide +kernel)

theorem poster_moderate : (poster.level none).Moderate .b64 screen 1000 := by
  have h : (poster.level none).mildTest .b64 screen 1000 = true := by decide +kernel
  have hc : (poster.level none).count = 6 := by decide +kernel
  refine ⟨fun m hm => (mildTest_all h hm).1, ⟨screen_mild, fun m hm => (mildTest_all h hm).2⟩, by norm_num, ?_, ?_⟩ <;> rw [hc] <;> norm_num

/-- The hypotheses hold for this document, which is not itself of the kind the reference is for. -/
example : (∃ n', layout .b64 screen true none poster = .ok n' ∧
      ∀ q, Option.Rel (fun b f => b.Fills .b64 f) (n'.boxAt q) (reference .b64 screen true (poster.level none) q)) ∧
    test .b64 screen poster = false :=
  ⟨C111_level .b64 b64_laws screen 1000 true none poster poster_boxed poster_moderate (test_sound (by decide +kernel)) (fun _ h => nomatch h), by decide +kernel⟩

/-- What the reference has. -/
example : [[], [0], [0, 0], [1], [1, 0], [2]].map (fun q => (reference .b64 screen true (poster.level none) q).map fun f => (f.left, f.top, f.width, f.height)) =
    [some (0, 0, 640, 487), some (160, 7, 480, 30), some (160, 7, 480, 10), some (0, 37, 640, 4), some (0, 37, 640, 4), some (0, 49, 640, 0)] := by
  decide +kernel

/-- With exact arithmetic the offsets at the left and at the right may be percentages too, the margins may be any percentages, and nothing need be small. -/
def banner : Node :=
  block [(.height, px 200)] [
    block [(.position, kw "relative"), (.left, pct 30), (.margin .top, pct 50), (.margin .right, pct 130), (.height, px 30)] [],
    block [(.height, px (10 ^ 20)), (.position, kw "relative"), (.right, pct 15), (.margin .left, pct (-10))] []]

/-- The hypotheses hold for this one. -/
example : (∃ n', layout .exact screen true none banner = .ok n' ∧
      ∀ q, Option.Rel (fun b f => b.Fills .exact f) (n'.boxAt q) (reference .exact screen true (banner.level none) q)) ∧
    test .exact screen banner = false :=
  ⟨C114_level screen true none banner (full_boxed _ (by decide +kernel)) (test_sound (by decide +kernel)) (fun _ h => nomatch h), by decide +kernel⟩

/-- What the reference has. -/
example : [[], [0], [1]].map (fun q => (reference .exact screen true (banner.level none) q).map fun f => (f.left, f.top, f.width, f.height)) =
    [some (0, 0, 640, 480), some (192, 0, -192, 30), some (-160, 30, 704, 10 ^ 20)] := by
  decide +kernel

end Moved

end Colosseum
