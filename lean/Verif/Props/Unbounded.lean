import Verif.Props.Regroup
import Verif.Props.MirrorSample
import Verif.Props.Tutorial

/-!
# C84, C88, C89, C90, C94, C95 without bounds

The theorems on blocks in normal flow for exact arithmetic, where there is no bound on lengths, their sums or the number of elements, and for documents in whole pixels, which any lawful
arithmetic lays out as the exact one does.
-/

namespace Colosseum

open Whole

namespace Moved

variable {fp : FP} {d : Display}

theorem pixelsOf_kw (s : String) (W : Rat) : pixelsOf fp d (kw s) W = (kw s).pixels fp d := rfl

theorem pixelsOf_sure {v : Val} (h : v.Sure fp d) (W : Rat) : pixelsOf fp d v W = v.pixels fp d := by
  obtain ⟨x, hx⟩ := h
  unfold pixelsOf
  rw [length_px hx, pixels_length hx]

theorem pixelsOf_auto {v : Val} (h : v = kw "auto" ∨ v.Sure fp d) (W : Rat) : pixelsOf fp d v W = v.pixels fp d := by
  rcases h with rfl | h
  · rfl
  · exact pixelsOf_sure h W

theorem pixelsOf_none {v : Val} (h : v = .none ∨ v.Sure fp d) (W : Rat) : pixelsOf fp d v W = v.pixels fp d := by
  rcases h with rfl | h
  · rfl
  · exact pixelsOf_sure h W

/-- Blocks in normal flow without percentages are a special case. -/
theorem regular_still {m : Node} (h : m.Regular fp d) : Regular fp d m where
  block := h.block
  content := h.content
  float := h.float
  position := .inl h.position
  margin := fun t _ => h.margin t
  beside := fun t _ => (h.margin t).imp_right .inl
  border := h.border
  padding := h.padding
  width := fun p hp => (h.size p (by rcases hp with rfl | rfl <;> simp)).imp_right .inl
  widest := (h.most .maxWidth (by simp)).imp_right .inl
  height := fun p hp => h.size p (by rcases hp with rfl | rfl <;> simp)
  highest := h.most .maxHeight (by simp)

theorem outside_still {m : Node} (h : m.Regular fp d) (t : Side) (W : Rat) : outside fp d m.style t W = m.style.outside fp d t :=
  pixelsOf_auto (h.margin t) W

theorem contentWide_still {m : Node} (h : m.Regular fp d) (W : Rat) : contentWide fp d m.style W = m.style.contentWide fp d W := by
  unfold contentWide CSS.contentWide
  rw [pixelsOf_auto (h.size .width (by simp)), pixelsOf_auto (h.size .minWidth (by simp)), pixelsOf_none (h.most .maxWidth (by simp)), outside_still h, outside_still h]
  cases (m.style.get .width).pixels fp d <;> rfl

theorem wide_still {m : Node} (h : m.Regular fp d) (W : Rat) : wide fp d m.style W = m.style.wide fp d W := by
  unfold wide CSS.wide
  rw [contentWide_still h]

theorem shift_still {m : Node} (h : m.Regular fp d) (W : Rat) : shift fp d m.style W = m.style.shift fp d W := by
  unfold shift CSS.shift
  rw [pixelsOf_auto (h.size .width (by simp)), wide_still h, outside_still h, outside_still h]

theorem aside_still {m : Node} (h : m.Regular fp d) (W : Rat) : aside fp d m.style W = 0 := by
  unfold aside
  rw [h.position]
  rfl

theorem lowered_still {m : Node} (h : m.Regular fp d) : lowered fp d m.style = 0 := by
  unfold lowered
  rw [h.position]
  rfl

mutual
theorem tall_still : ∀ {n : Node}, n.AllRegular fp d → tall fp d n = n.tall fp d
  | .mk s z l cs, h => by
    unfold tall Node.tall
    rw [stack_still (cs := cs) fun c hc => allRegular_kid h hc]
    cases (s.get .height).pixels fp d <;> rfl
theorem stack_still : ∀ {cs : List Node}, (∀ c ∈ cs, c.AllRegular fp d) → stack fp d cs = stackTall fp d cs
  | [], _ => rfl
  | [c], h => by
    unfold stack stackTall
    rw [tall_still (h c (by simp)), lowered_still (h c (by simp) c (.refl _)), add_zero]
  | c :: c' :: cs, h => by
    unfold stack stackTall
    rw [tall_still (h c (by simp)), stack_still (cs := c' :: cs) fun x hx => h x (by simp [List.mem_cons.1 hx])]
end

theorem place_still : ∀ {cs : List Node} (i : Nat), (∀ c ∈ cs, c.AllRegular fp d) → place fp d cs i = topAt fp d cs i
  | [], _, _ => by unfold place topAt; rfl
  | [c], _, _ => by unfold place topAt; rfl
  | c :: c' :: cs, 0, _ => by unfold place topAt; rfl
  | c :: c' :: cs, i + 1, h => by
    unfold place topAt
    rw [tall_still (h c (by simp)), place_still i fun x hx => h x (by simp [List.mem_cons.1 hx])]

theorem region_still {n : Node} (h : n.AllRegular fp d) (W x y : Rat) : region fp d W x y n = n.region fp d W x y := by
  have k := h n (.refl _)
  unfold region Node.region
  simp only [shift_still k, aside_still k, lowered_still k, wide_still k, contentWide_still k, tall_still h, add_zero]

theorem regionAt_still : ∀ (q : List Nat) {n : Node} (W x y : Rat), n.AllRegular fp d → regionAt fp d W x y n q = n.regionAt fp d W x y q
  | [], n, W, x, y, h => by
    unfold regionAt Node.regionAt
    rw [region_still h]
  | i :: q, n, W, x, y, h => by
    have kids : ∀ c ∈ n.children, c.AllRegular fp d := by
      cases n
      exact fun c hc => allRegular_kid h hc
    unfold regionAt Node.regionAt
    rw [region_still h, place_still i kids]
    cases e : n.children[i]? with
    | none => rfl
    | some c => exact regionAt_still q _ _ _ (kids c (List.mem_of_getElem? e))

/-- For blocks in normal flow without percentages the two reference layouts are the same. -/
theorem reference_still {n : Node} (h : n.AllRegular fp d) (html5 : Bool) (q : List Nat) : reference fp d html5 n q = n.reference fp d html5 q := by
  unfold reference Node.reference
  rw [regionAt_still q _ _ _ h]

end Moved

/-- C84. With exact arithmetic, blocks in normal flow whose sizes are lengths or the keywords of their properties are laid out as the reference layout has them, whatever their number and
size. -/
theorem C84_exact (d : Display) (html5 : Bool) (p : Option CSS) (n : Node) (hn : ∀ m, Visible m n → m.layout ≠ none) (hr : ∀ m, Sub m n → m.Regular .exact d)
    (hp : ∀ s, p = some s → s.get .height = kw "auto" ∨ (s.get .height).Finite) :
    ∃ n', layout .exact d html5 p n = .ok n' ∧ ∀ q, Option.Rel (fun b f => b.Fills .exact f) (n'.boxAt q) (n.reference .exact d html5 q) := by
  obtain ⟨n', h, hf⟩ := C114_exact d html5 p n hn (fun m hm => Moved.regular_still (hr m hm)) hp
  exact ⟨n', h, fun q => Moved.reference_still hr html5 q ▸ hf q⟩

/-- C84. If the document is in whole pixels, it is laid out so by any lawful arithmetic. -/
theorem C84_whole (fp : FP) (L : fp.Laws) (d : Display) (html5 : Bool) (n : Node) (hd : d.Integral) (hn : Simple d n) (hr : ∀ m, Sub m n → m.Regular .exact d) :
    ∃ n', layout fp d html5 none n = .ok n' ∧ ∀ q, Option.Rel (fun b f => b.Fills fp f) (n'.boxAt q) (n.reference .exact d html5 q) := by
  obtain ⟨n', h, hf⟩ := C114_whole fp L ⟨fun _ => [], fun _ => true, fun _ => .error .type⟩ d html5 n hd hn (fun m hm => Moved.regular_still (hr m hm))
  refine ⟨n', h, fun q => ?_⟩
  have := hf q
  rw [Moved.reference_still hr] at this
  generalize n'.boxAt q = o at this ⊢
  generalize n.reference .exact d html5 q = o' at this ⊢
  cases this with
  | none => exact .none
  | some k => exact .some k.1

/-- The two cases of this file: exact arithmetic and any document, or any lawful arithmetic and a document in whole pixels. -/
def Untroubled (fp : FP) (d : Display) (n : Node) : Prop :=
  fp = .exact ∧ (∀ m, Visible m n → m.layout ≠ none) ∨ fp.Laws ∧ d.Integral ∧ Simple d n

theorem untroubled_meets {fp : FP} {d : Display} (html5 : Bool) {n : Node} (h : Untroubled fp d n) (hr : ∀ m, Sub m n → m.Regular .exact d) :
    n.Meets fp .exact d html5 := by
  rcases h with ⟨rfl, h⟩ | ⟨L, hd, hn⟩
  · exact C84_exact d html5 none n h hr (fun _ e => nomatch e)
  · exact C84_whole fp L d html5 n hd hn hr

/-- C88 for documents of any size: a document and its mirror image, where arithmetic is exact or both are in whole pixels. -/
theorem C88_untroubled (fp : FP) (d : Display) (html5 : Bool) (n n' : Node) (hn : Untroubled fp d n) (hn' : Untroubled fp d n')
    (hr : ∀ m, Sub m n → m.Regular .exact d) (hr' : ∀ m, Sub m n' → m.Regular .exact d) (h : n.Along CSS.Mirrored n')
    (hu : ∀ m, Sub m n → m.style.Uncentred) :
    ∃ r r', layout fp d html5 none n = .ok r ∧ layout fp d html5 none n' = .ok r' ∧
      ∀ q, Option.Rel (Box.Image fp d.contentWidth.val) (r.boxAt q) (r'.boxAt q) :=
  mirror_of (untroubled_meets html5 hn hr) (untroubled_meets html5 hn' hr') hr hr' h hu

/-- C89 for documents of any size: a document and one with vertical sizes that are not smaller, where arithmetic is exact or both are in whole pixels. -/
theorem C89_untroubled (fp : FP) (d : Display) (html5 : Bool) (n n' : Node) (hn : Untroubled fp d n) (hn' : Untroubled fp d n')
    (hr : ∀ m, Sub m n → m.Regular .exact d) (hr' : ∀ m, Sub m n' → m.Regular .exact d) (h : n.Along (CSS.Grown .exact d) n') :
    ∃ r r', layout fp d html5 none n = .ok r ∧ layout fp d html5 none n' = .ok r' ∧
      ∀ q, Option.Rel (fun b c => Box.Lower fp b c ∧ (html5 = false ∨ q ≠ [] → Box.Taller fp b c)) (r.boxAt q) (r'.boxAt q) :=
  grown_of (untroubled_meets html5 hn hr) (untroubled_meets html5 hn' hr') h

/-- C90 for documents of any size: a document and its enlargement, where arithmetic is exact or both are in whole pixels. -/
theorem C90_untroubled (fp : FP) (k : Nat) (hk : 0 < k) (d d' : Display) (html5 : Bool) (n n' : Node) (hn : Untroubled fp d n) (hn' : Untroubled fp d' n')
    (hr : ∀ m, Sub m n → m.Regular .exact d) (hr' : ∀ m, Sub m n' → m.Regular .exact d') (hd : d.Scaled k d')
    (h : n.Along (CSS.Scaled .exact d d' k) n') (hu : ∀ m, Sub m n → m.style.Uncentred) :
    ∃ r r', layout fp d html5 none n = .ok r ∧ layout fp d' html5 none n' = .ok r' ∧ ∀ q, Option.Rel (Box.Scaled fp k) (r.boxAt q) (r'.boxAt q) :=
  scaled_of hk (untroubled_meets html5 hn hr) (untroubled_meets html5 hn' hr') hr hr' hd h hu

/-! ## Undecorated blocks -/

/-- What is said about an element depends on its style, its intrinsic sizes and whether it has a box, and it is said about all elements. -/
def Pervades (Q : CSS → Intrinsic → Option Box → Prop) (n : Node) : Prop := ∀ m, Sub m n → Q m.style m.intrinsic m.layout

theorem pervades_mk {Q : CSS → Intrinsic → Option Box → Prop} {s : CSS} {z : Intrinsic} {l : Option Box} {cs : List Node} (h : Q s z l)
    (hc : ∀ c ∈ cs, Pervades Q c) : Pervades Q (.mk s z l cs) := by
  intro m hm
  cases hm with
  | refl => exact h
  | child hk hm => exact hc _ hk m hm

theorem pervades_kid {Q : CSS → Intrinsic → Option Box → Prop} {n c : Node} (h : Pervades Q n) (hc : c ∈ n.children) : Pervades Q c :=
  fun m hm => h m (.child hc hm)

theorem pervades_atPath {Q : CSS → Intrinsic → Option Box → Prop} {f : Node → Node} (hf : ∀ m, Pervades Q m → Pervades Q (f m)) :
    ∀ {q : List Nat} {n : Node}, Pervades Q n → Pervades Q (n.atPath f q)
  | [], n, h => hf n h
  | i :: q, .mk s z l cs, h => by
    rw [Node.atPath]
    refine pervades_mk (h _ (.refl _)) fun c hc => ?_
    rcases mem_modify hc with k | ⟨c0, k, rfl⟩
    · exact pervades_kid h k
    · exact pervades_atPath hf (pervades_kid h (List.mem_of_getElem? k))

theorem pervades_group {Q : CSS → Intrinsic → Option Box → Prop} {s : CSS} {z : Intrinsic} {l : Option Box} (h : Q s z l) (i k : Nat) {q : List Nat} {n : Node}
    (hn : Pervades Q n) : Pervades Q (n.atPath (Node.group (.mk s z l) i k) q) := by
  refine pervades_atPath (fun m hm => ?_) hn
  obtain ⟨s', z', l', cs⟩ := m
  have kids : ∀ c ∈ cs, Pervades Q c := fun c hc => pervades_kid hm hc
  refine pervades_mk (hm _ (.refl _)) fun c hc => ?_
  rcases List.mem_append.1 hc with hc | hc
  · exact kids c (List.mem_of_mem_take hc)
  · rcases List.mem_cons.1 hc with rfl | hc
    · exact pervades_mk h fun c hc => kids c (List.mem_of_mem_drop (List.mem_of_mem_take hc))
    · exact kids c (List.mem_of_mem_drop hc)

theorem pervades_insert {Q : CSS → Intrinsic → Option Box → Prop} {s : CSS} {z : Intrinsic} {l : Option Box} (h : Q s z l) (i : Nat) {q : List Nat} {n : Node}
    (hn : Pervades Q n) : Pervades Q (n.atPath (Node.addChild i (.mk s z l [])) q) := by
  refine pervades_atPath (fun m hm => ?_) hn
  obtain ⟨s', z', l', cs⟩ := m
  have kids : ∀ c ∈ cs, Pervades Q c := fun c hc => pervades_kid hm hc
  refine pervades_mk (hm _ (.refl _)) fun c hc => ?_
  rcases List.mem_append.1 hc with hc | hc
  · exact kids c (List.mem_of_mem_take hc)
  · rcases List.mem_cons.1 hc with rfl | hc
    · exact pervades_mk h fun c hc => nomatch hc
    · exact kids c (List.mem_of_mem_drop hc)

theorem visible_sub_of {m n : Node} (h : Visible m n) : Sub m n := by
  induction h with
  | here => exact .refl _
  | step _ hc _ ih => exact .child hc ih

theorem regular_visible {fp : FP} {d : Display} {m n : Node} (h : Sub m n) (hr : n.AllRegular fp d) : Visible m n := by
  induction h with
  | refl => exact .here (hr _ (.refl _)).shown
  | child hc _ ih => exact .step (hr _ (.refl _)).shown hc (ih (allRegular_kid hr hc))

theorem bare_plain {d : Display} {s : CSS} {z : Intrinsic} {l : Option Box} (hu : (Node.mk s z l []).Undecorated) (p : LH) (hp : p.Sizing ∨ p.Offset) :
    Plain d (s.get p) := by
  by_cases e : p = .display
  · subst e
    have := hu.block
    rw [show s.get .display = _ from this]
    exact .other fun u => nofun
  · rw [show s.get p = _ from bare_get hu e]
    cases p <;> first
      | exact .pixels 0 (by norm_num)
      | exact .other fun u => nofun
      | (rcases hp with hp | hp <;> exact hp.elim)

/-- The undecorated block makes no trouble, if its intrinsic sizes are whole numbers or arithmetic is exact. -/
theorem untroubled_change {fp : FP} {d : Display} {n n' : Node} {s : CSS} {z : Intrinsic} {l : Option Box} (hn : Untroubled fp d n) (hr : n.AllRegular .exact d)
    (hu : (Node.mk s z l []).Undecorated) (hz : z.Integral) (hc : ∀ Q, Q s z l → Pervades Q n → Pervades Q n') : Untroubled fp d n' := by
  rcases hn with ⟨e, h⟩ | ⟨L, hd, h⟩
  · refine .inl ⟨e, fun m hm => ?_⟩
    exact hc (fun _ _ l => l ≠ none) hu.boxed (fun m hm => h m (regular_visible hm hr)) m (visible_sub_of hm)
  · refine .inr ⟨L, hd, fun m hm => ?_⟩
    exact hc (fun s z l => l ≠ none ∧ z.Integral ∧ ∀ p : LH, p.Sizing ∨ p.Offset → Plain d (s.get p)) ⟨hu.boxed, hz, bare_plain hu⟩
      (fun m hm => h m (regular_visible hm hr)) m (visible_sub_of hm)

/-- C94 for documents of any size, where arithmetic is exact or the document is in whole pixels: `k` of the children of an element are put into a block without decoration. -/
theorem C94_untroubled_partial (fp : FP) (d : Display) (html5 : Bool) (n m : Node) (q : List Nat) (s : CSS) (z : Intrinsic) (l : Option Box) (i k : Nat)
    (hn : Untroubled fp d n) (hr : ∀ m, Sub m n → m.Regular .exact d) (hm : n.find q = some m) (hu : (Node.mk s z l []).Undecorated) (hz : z.Integral) (hk : 0 < k)
    (hi : i + k ≤ m.children.length) (h : m.RunsOn .exact d i) :
    ∃ n1 n2, layout fp d html5 none n = .ok n1 ∧ layout fp d html5 none (n.atPath (Node.group (.mk s z l) i k) q) = .ok n2 ∧
      (∀ r, Option.Rel (Box.Coincides fp) (n1.boxAt (q ++ r)) (n2.boxAt (q ++ groupPath i k r))) ∧
      ∀ r, ¬ q <+: r → Option.Rel (Box.Coincides fp) (n1.boxAt r) (n2.boxAt r) :=
  group_of exact_laws (untroubled_meets html5 hn hr)
    (untroubled_meets html5 (untroubled_change hn hr hu hz fun _ h1 h2 => pervades_group h1 i k h2) (group_regular exact_laws hr hm hu)) hm hu hk hi h

/-- C94. A block without decoration around all children of an element changes nothing, in documents of any size. -/
theorem C94_untroubled_all (fp : FP) (d : Display) (html5 : Bool) (n m : Node) (q : List Nat) (s : CSS) (z : Intrinsic) (l : Option Box)
    (hn : Untroubled fp d n) (hr : ∀ m, Sub m n → m.Regular .exact d) (hm : n.find q = some m) (hu : (Node.mk s z l []).Undecorated) (hz : z.Integral)
    (hc : m.children ≠ []) :
    ∃ n1 n2, layout fp d html5 none n = .ok n1 ∧ layout fp d html5 none (n.atPath (Node.group (.mk s z l) 0 m.children.length) q) = .ok n2 ∧
      (∀ r, Option.Rel (Box.Coincides fp) (n1.boxAt (q ++ r)) (n2.boxAt (q ++ groupPath 0 m.children.length r))) ∧
      ∀ r, ¬ q <+: r → Option.Rel (Box.Coincides fp) (n1.boxAt r) (n2.boxAt r) :=
  C94_untroubled_partial fp d html5 n m q s z l 0 m.children.length hn hr hm hu hz (List.length_pos_iff.2 hc) (by omega) (.inl rfl)

/-- C95 for documents of any size, where arithmetic is exact or the document is in whole pixels: an empty block without decoration is inserted. -/
theorem C95_untroubled_partial (fp : FP) (d : Display) (html5 : Bool) (n m : Node) (q : List Nat) (s : CSS) (z : Intrinsic) (l : Option Box) (i : Nat)
    (hn : Untroubled fp d n) (hr : ∀ m, Sub m n → m.Regular .exact d) (hm : n.find q = some m) (hu : (Node.mk s z l []).Undecorated) (hz : z.Integral)
    (hi : i ≤ m.children.length) (h : m.Open .exact d i) :
    ∃ n1 n2, layout fp d html5 none n = .ok n1 ∧ layout fp d html5 none (n.atPath (Node.addChild i (.mk s z l [])) q) = .ok n2 ∧
      (∀ r, Option.Rel (Box.Coincides fp) (n1.boxAt (q ++ r)) (n2.boxAt (q ++ insertPath i r))) ∧
      ∀ r, ¬ q <+: r → Option.Rel (Box.Coincides fp) (n1.boxAt r) (n2.boxAt r) :=
  insert_of exact_laws (untroubled_meets html5 hn hr)
    (untroubled_meets html5 (untroubled_change hn hr hu hz fun _ h1 h2 => pervades_insert h1 i h2) (insert_regular exact_laws hr hm hu)) hr hm hu hi h

/-! ## Documents -/

namespace Huge

/-- What counts for a layout. -/
def counting : List LH :=
  [Side.top, .right, .bottom, .left].flatMap (fun t => [.margin t, .padding t, .borderWidth t]) ++
  [.display, .position, .float, .direction, .width, .minWidth, .maxWidth, .height, .minHeight, .maxHeight, .top, .right, .bottom, .left]

mutual
/-- A test for documents in whole pixels. -/
def test : Node → Bool
  | .mk s z l cs => l.isSome && z == .initial && counting.all (fun p => Whole.plainTest (s.get p)) && tests cs
/-- See `test`. -/
def tests : List Node → Bool
  | [] => true
  | c :: cs => test c && tests cs
end

theorem tests_mem : ∀ {cs : List Node} {c : Node}, tests cs = true → c ∈ cs → test c = true
  | c :: cs, c', h, hc => by
    rw [tests, Bool.and_eq_true] at h
    rcases List.mem_cons.1 hc with rfl | hc
    · exact h.1
    · exact tests_mem h.2 hc

theorem test_sound {d : Display} {n : Node} (h : test n = true) : Simple d n := by
  intro m hm
  induction hm with
  | here _ =>
    obtain ⟨s, z, l, cs⟩ := m
    simp only [test, Bool.and_eq_true, List.all_eq_true] at h
    obtain ⟨⟨⟨h1, h2⟩, h3⟩, _⟩ := h
    refine ⟨fun e => ?_, ?_, fun p hp => Whole.plainTest_sound (h3 p ?_)⟩
    · have e : l = none := e
      rw [e] at h1
      cases h1
    · have e : z = .initial := by simpa using h2
      show z.Integral
      rw [e]
      exact initial_integral
    · cases p <;> first
        | decide
        | (rename_i t; cases t <;> decide)
        | (rcases hp with hp | hp <;> exact hp.elim)
  | @step c n _ hc _ ih =>
    obtain ⟨s, z, l, cs⟩ := n
    rw [test, Bool.and_eq_true] at h
    exact ih (tests_mem h.2 hc)

theorem untroubled {n : Node} (h : test n = true) : Untroubled .b64 screen n := .inr ⟨b64_laws, screen_integral, test_sound h⟩

/-- Blocks that are too large for sums of floats to be exact. -/
def heap (dir : String) (t u : Side) (k : Int) : Node :=
  block [(.padding t, px 9007199254740992), (.margin .top, px 9007199254740991), (.direction, kw dir)] [
    block [(.height, px (9007199254740992 - k)), (.margin t, px 9007199254740991), (.direction, kw dir)] [],
    block [(.width, px 9007199254740991), (.margin u, px 3), (.height, px (7 - k)), (.margin .top, px 9007199254740992), (.direction, kw dir)] [
      block [(.height, px 9007199254740992), (.direction, kw dir)] []],
    block [(.height, px 9), (.direction, kw dir)] [block [(.width, px 1), (.margin t, kw "auto"), (.direction, kw dir)] []]]

end Huge

open Huge

/-- A document and its mirror image. -/
example := C88_untroubled .b64 screen true (heap "ltr" .left .right 0) (heap "rtl" .right .left 0) (untroubled (by decide +kernel)) (untroubled (by decide +kernel))
  (regularTest_sound (by decide +kernel)) (regularTest_sound (by decide +kernel)) (alongTest_sound mirroredTest_sound (by decide +kernel))
  (uncentredTest_sound (by decide +kernel))

/-- A document that grows. -/
example := C89_untroubled .b64 screen false (heap "ltr" .left .right 5) (heap "ltr" .left .right 2) (untroubled (by decide +kernel)) (untroubled (by decide +kernel))
  (regularTest_sound (by decide +kernel)) (regularTest_sound (by decide +kernel)) (alongTest_sound (CSS.grownTest_sound .exact screen) (by decide +kernel))

/-- An enlargement. -/
example := C90_untroubled .exact 3 (by norm_num) screen cinema true (poster (2 ^ 80)) (poster (3 * 2 ^ 80))
  (.inl ⟨rfl, fun m hm => (mildTest_all (fp := .exact) (d := screen) (M := 2 ^ 100) (by decide +kernel) hm).1⟩)
  (.inl ⟨rfl, fun m hm => (mildTest_all (fp := .exact) (d := cinema) (M := 2 ^ 100) (by decide +kernel) hm).1⟩)
  (regularTest_sound (by decide +kernel)) (regularTest_sound (by decide +kernel)) cinema_scaled
  (alongTest_sound (CSS.scaledTest_sound .exact screen cinema 3) (by decide +kernel)) (uncentredTest_sound (by decide +kernel))

/-- A group of all children of the document. -/
example := C94_untroubled_all .b64 screen true (heap "ltr" .left .right 0) (heap "ltr" .left .right 0) [] _ _ _ (untroubled (by decide +kernel))
  (regularTest_sound (by decide +kernel)) rfl (plainly_bare []) initial_integral nofun

/-- A group of one child. -/
example := C94_untroubled_partial .b64 screen true (heap "ltr" .left .right 0) (heap "ltr" .left .right 0) [] _ _ _ 2 1 (untroubled (by decide +kernel))
  (regularTest_sound (by decide +kernel)) rfl (plainly_bare []) initial_integral (by norm_num) (by decide +kernel)
  (.inr fun c c' hc hc' => by cases hc; cases hc'; decide +kernel)

/-- An empty block before it. -/
example := C95_untroubled_partial .b64 screen true (heap "ltr" .left .right 0) (heap "ltr" .left .right 0) [] _ _ _ 2 (untroubled (by decide +kernel))
  (regularTest_sound (by decide +kernel)) rfl (plainly_bare []) initial_integral (by decide +kernel)
  ⟨fun c c' _ hc hc' => .inl (by cases hc; decide +kernel), fun c _ _ hn => (nomatch hn), fun c e => (nomatch e), nofun⟩

/-- The reference layout of the last element of that document, and its box. -/
example : ∃ n', layout .b64 screen false none (heap "ltr" .left .right 0) = .ok n' ∧ ∀ q,
    Option.Rel (fun b f => b.Fills .b64 f) (n'.boxAt q) ((heap "ltr" .left .right 0).reference .exact screen false q) :=
  C84_whole .b64 b64_laws screen false _ screen_integral (test_sound (by decide +kernel)) (regularTest_sound (by decide +kernel))

/-- With exact arithmetic. -/
example := C84_exact cinema true none (poster (2 ^ 80)) (fun m hm => (mildTest_all (fp := .exact) (d := cinema) (M := 2 ^ 100) (by decide +kernel) hm).1)
  (regularTest_sound (by decide +kernel)) nofun

end Colosseum
