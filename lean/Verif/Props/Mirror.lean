import Verif.Lemmas.Grown
import Verif.Props.Reference

/-!
# C88, C89, C90: mirror images, growth and enlargement
-/

namespace Colosseum

theorem fills_rel {fp : FP} {R : Region → Region → Prop} {S : Box → Box → Prop} {b b' : Option Box} {f f' : Option Region}
    (h : Option.Rel (fun b f => b.Fills fp f) b f) (h' : Option.Rel (fun b f => b.Fills fp f) b' f') (r : Option.Rel R f f')
    (k : ∀ b b' f f', b.Fills fp f → b'.Fills fp f' → R f f' → S b b') : Option.Rel S b b' := by
  cases r with
  | none =>
    cases h
    cases h'
    exact .none
  | some r =>
    cases h with
    | some h =>
      cases h' with
      | some h' => exact .some (k _ _ _ _ h h' r)

/-- The document can be laid out, and the layout is that of the reference, whose arithmetic is `fp'`. -/
def Node.Meets (fp fp' : FP) (d : Display) (html5 : Bool) (n : Node) : Prop :=
  ∃ r, Colosseum.layout fp d html5 none n = .ok r ∧ ∀ q, Option.Rel (fun b f => b.Fills fp f) (r.boxAt q) (n.reference fp' d html5 q)

theorem moderate_meets {fp : FP} (L : fp.Laws) {d : Display} {M : Nat} (html5 : Bool) {n : Node} (hn : n.Moderate fp d M) (hr : ∀ m, Sub m n → m.Regular fp d) :
    n.Meets fp fp d html5 := C84_reference fp L d M html5 none n hn hr (fun _ h => nomatch h)

/-! ## Mirror images -/

theorem mirrored_reference {fp : FP} {d : Display} {html5 : Bool} {n n' : Node} (h : n.Along CSS.Mirrored n') (hr : n.AllRegular fp d)
    (hr' : n'.AllRegular fp d) (hu : ∀ m, Sub m n → m.style.Uncentred) (q : List Nat) :
    Option.Rel (Region.Image d.contentWidth.val) (n.reference fp d html5 q) (n'.reference fp d html5 q) := by
  have hd : n.Along (CSS.SameDown fp d) n' := along_imp (fun _ _ => mirrored_down) h
  have := mirrored_regionAt (fp := fp) (d := d) d.contentWidth.val q (x := 0) (x' := 0) (W := d.contentWidth.val) (y := n.edgeTop fp d) h hr hr' hu
    (by ring)
  unfold Node.reference
  rw [sameDown_edgeTop hd, sameDown_edgeBottom hd, (along_style hd).edge _ (.inl rfl), (along_style hd).edge _ (.inr rfl)]
  generalize n.regionAt fp d d.contentWidth.val 0 (n.edgeTop fp d) q = f at this ⊢
  generalize n'.regionAt fp d d.contentWidth.val 0 (n.edgeTop fp d) q = g at this ⊢
  cases this with
  | none => exact .none
  | some r =>
    refine .some ?_
    split
    · exact ⟨r.left, r.top, r.width, rfl, r.contentLeft, r.contentTop, r.contentWidth, rfl⟩
    · exact r

theorem mirror_of {fp fp' : FP} {d : Display} {html5 : Bool} {n n' : Node} (hn : n.Meets fp fp' d html5) (hn' : n'.Meets fp fp' d html5)
    (hr : n.AllRegular fp' d) (hr' : n'.AllRegular fp' d) (h : n.Along CSS.Mirrored n') (hu : ∀ m, Sub m n → m.style.Uncentred) :
    ∃ r r', layout fp d html5 none n = .ok r ∧ layout fp d html5 none n' = .ok r' ∧
      ∀ q, Option.Rel (Box.Image fp d.contentWidth.val) (r.boxAt q) (r'.boxAt q) := by
  obtain ⟨r, e, k⟩ := hn
  obtain ⟨r', e', k'⟩ := hn'
  refine ⟨r, r', e, e', fun q => fills_rel (k q) (k' q) (mirrored_reference h hr hr' hu q) ?_⟩
  intro b b' f f' i i' j
  obtain ⟨x1, hx1, y1⟩ := i.right
  obtain ⟨x2, hx2, y2⟩ := i'.right
  obtain ⟨x3, hx3, y3⟩ := i.bottom
  obtain ⟨x4, hx4, y4⟩ := i'.bottom
  obtain ⟨x5, hx5, y5⟩ := i.contentWidth
  obtain ⟨x6, hx6, y6⟩ := i'.contentWidth
  obtain ⟨x7, hx7, y7⟩ := i.contentHeight
  obtain ⟨x8, hx8, y8⟩ := i'.contentHeight
  refine ⟨⟨x2, hx2, ?_⟩, ⟨x1, hx1, ?_⟩, ?_, ⟨x3, x4, hx3, hx4, ?_⟩, ⟨x5, x6, hx5, hx6, ?_, ?_⟩, ⟨x7, x8, hx7, hx8, ?_, ?_⟩⟩
  · rw [i.left, y2, j.left, j.width]; ring
  · rw [i'.left, y1, j.left]
  · rw [i.top, i'.top, j.top]
  · rw [y3, y4, j.top, j.height]
  · rw [y5, y6, j.contentWidth]
  · rw [i.contentLeft, i'.contentLeft, y5, j.contentLeft]; ring
  · rw [y7, y8, j.contentHeight]
  · rw [i.contentTop, i'.contentTop, j.contentTop]

/-- C88. Two documents of moderate size that consist of blocks in normal flow, whose sizes are lengths or the keywords of their properties: the second one
is the first one with left and right exchanged and the direction of text reversed. When no element has two automatic margins at the sides of a specified
width, both can be laid out, and each layout is the image of the other in a mirror in the middle of the display. -/
theorem C88_mirror (fp : FP) (L : fp.Laws) (d : Display) (M M' : Nat) (html5 : Bool) (n n' : Node) (hn : n.Moderate fp d M) (hn' : n'.Moderate fp d M')
    (hr : ∀ m, Sub m n → m.Regular fp d) (hr' : ∀ m, Sub m n' → m.Regular fp d) (h : n.Along CSS.Mirrored n')
    (hu : ∀ m, Sub m n → m.style.Uncentred) :
    ∃ r r', layout fp d html5 none n = .ok r ∧ layout fp d html5 none n' = .ok r' ∧
      ∀ q, Option.Rel (Box.Image fp d.contentWidth.val) (r.boxAt q) (r'.boxAt q) :=
  mirror_of (moderate_meets L html5 hn hr) (moderate_meets L html5 hn' hr') hr hr' h hu

/-! ## Growth -/

theorem grown_of {fp fp' : FP} {d : Display} {html5 : Bool} {n n' : Node} (hn : n.Meets fp fp' d html5) (hn' : n'.Meets fp fp' d html5)
    (h : n.Along (CSS.Grown fp' d) n') :
    ∃ r r', layout fp d html5 none n = .ok r ∧ layout fp d html5 none n' = .ok r' ∧
      ∀ q, Option.Rel (fun b c => Box.Lower fp b c ∧ (html5 = false ∨ q ≠ [] → Box.Taller fp b c)) (r.boxAt q) (r'.boxAt q) := by
  obtain ⟨r, e, k⟩ := hn
  obtain ⟨r', e', k'⟩ := hn'
  have ref : ∀ q, Option.Rel (fun f g => Region.Lower f g ∧ (html5 = false ∨ q ≠ [] → Region.Taller f g)) (n.reference fp' d html5 q)
      (n'.reference fp' d html5 q) := by
    intro q
    have := grown_regionAt (fp := fp') (d := d) q (x := 0) (W := d.contentWidth.val) (y := n.edgeTop fp' d) (y' := n'.edgeTop fp' d) h
      (by exact_mod_cast grown_edgeTop h)
    unfold Node.reference
    generalize n.regionAt fp' d d.contentWidth.val 0 (n.edgeTop fp' d) q = f at this ⊢
    generalize n'.regionAt fp' d d.contentWidth.val 0 (n'.edgeTop fp' d) q = g at this ⊢
    cases this with
    | none => exact .none
    | some r =>
      refine .some ?_
      split
      · next c =>
        refine ⟨⟨r.1.left, r.1.width, r.1.top, r.1.contentTop⟩, fun x => ?_⟩
        rcases x with x | x
        · rw [x] at c; exact nomatch c.1
        · exact absurd c.2 x
      · exact ⟨r.1, fun _ => r.2⟩
  refine ⟨r, r', e, e', fun q => fills_rel (k q) (k' q) (ref q) ?_⟩
  intro b b' f f' i i' j
  obtain ⟨x1, hx1, y1⟩ := i.right
  obtain ⟨x2, hx2, y2⟩ := i'.right
  obtain ⟨x3, hx3, y3⟩ := i.bottom
  obtain ⟨x4, hx4, y4⟩ := i'.bottom
  obtain ⟨x7, hx7, y7⟩ := i.contentHeight
  obtain ⟨x8, hx8, y8⟩ := i'.contentHeight
  refine ⟨⟨?_, ⟨x1, x2, hx1, hx2, ?_⟩, ?_, ?_⟩, fun c => ⟨⟨x7, x8, hx7, hx8, ?_⟩, ⟨x3, x4, hx3, hx4, ?_⟩⟩⟩
  · rw [i.left, i'.left, j.1.left]
  · rw [y1, y2, j.1.left, j.1.width]
  · rw [i.top, i'.top]; exact j.1.top
  · rw [i.contentTop, i'.contentTop]; exact j.1.contentTop
  · rw [y7, y8]; exact (j.2 c).height
  · rw [y3, y4]; exact (j.2 c).bottom

/-- C89. Two documents of moderate size that consist of blocks in normal flow, whose sizes are lengths or the keywords of their properties: the second one
is the first one with vertical sizes that are not smaller, where margins that differ are whole numbers of pixels. Both can be laid out. In the second one no
box has moved up or sideways, and none has become smaller or ends earlier, except the root with the rules of HTML5. -/
theorem C89_grown (fp : FP) (L : fp.Laws) (d : Display) (M M' : Nat) (html5 : Bool) (n n' : Node) (hn : n.Moderate fp d M) (hn' : n'.Moderate fp d M')
    (hr : ∀ m, Sub m n → m.Regular fp d) (hr' : ∀ m, Sub m n' → m.Regular fp d) (h : n.Along (CSS.Grown fp d) n') :
    ∃ r r', layout fp d html5 none n = .ok r ∧ layout fp d html5 none n' = .ok r' ∧
      ∀ q, Option.Rel (fun b c => Box.Lower fp b c ∧ (html5 = false ∨ q ≠ [] → Box.Taller fp b c)) (r.boxAt q) (r'.boxAt q) :=
  grown_of (moderate_meets L html5 hn hr) (moderate_meets L html5 hn' hr') h

/-! ## Enlargement -/

theorem scaled_of {fp fp' : FP} {k : Nat} (hk : 0 < k) {d d' : Display} {html5 : Bool} {n n' : Node} (hn : n.Meets fp fp' d html5)
    (hn' : n'.Meets fp fp' d' html5) (hr : n.AllRegular fp' d) (hr' : n'.AllRegular fp' d') (hd : d.Scaled k d')
    (h : n.Along (CSS.Scaled fp' d d' k) n') (hu : ∀ m, Sub m n → m.style.Uncentred) :
    ∃ r r', layout fp d html5 none n = .ok r ∧ layout fp d' html5 none n' = .ok r' ∧ ∀ q, Option.Rel (Box.Scaled fp k) (r.boxAt q) (r'.boxAt q) := by
  obtain ⟨r, e, c⟩ := hn
  obtain ⟨r', e', c'⟩ := hn'
  have ref : ∀ q, Option.Rel (Region.Scaled k) (n.reference fp' d html5 q) (n'.reference fp' d' html5 q) := by
    intro q
    have et : (n'.edgeTop fp' d' : Rat) = k * n.edgeTop fp' d := by rw [scaled_edgeTop h]; push_cast; rfl
    have eb : (n'.edgeBottom fp' d' : Rat) = k * n.edgeBottom fp' d := by rw [scaled_edgeBottom h]; push_cast; rfl
    have := scaled_regionAt hk hd q (x := 0) (x' := 0) (y := n.edgeTop fp' d) (y' := n'.edgeTop fp' d') h hr hr' hu hd.width (mul_zero _).symm et
    unfold Node.reference
    generalize n.regionAt fp' d d.contentWidth.val 0 (n.edgeTop fp' d) q = f at this ⊢
    generalize n'.regionAt fp' d' d'.contentWidth.val 0 (n'.edgeTop fp' d') q = g at this ⊢
    cases this with
    | none => exact .none
    | some r =>
      refine .some ?_
      split
      · refine ⟨r.left, r.top, r.width, ?_, r.contentLeft, r.contentTop, r.contentWidth, ?_⟩
        · simp only
          rw [hd.height, et, eb, scaled_edge hd (along_style h), scaled_edge hd (along_style h)]
          ring
        · simp only
          rw [hd.height, et, eb]
          ring
      · exact r
  refine ⟨r, r', e, e', fun q => fills_rel (c q) (c' q) (ref q) ?_⟩
  intro b b' f f' i i' j
  obtain ⟨x1, hx1, y1⟩ := i.right
  obtain ⟨x2, hx2, y2⟩ := i'.right
  obtain ⟨x3, hx3, y3⟩ := i.bottom
  obtain ⟨x4, hx4, y4⟩ := i'.bottom
  obtain ⟨x5, hx5, y5⟩ := i.contentWidth
  obtain ⟨x6, hx6, y6⟩ := i'.contentWidth
  obtain ⟨x7, hx7, y7⟩ := i.contentHeight
  obtain ⟨x8, hx8, y8⟩ := i'.contentHeight
  refine ⟨?_, ?_, ⟨x1, x2, hx1, hx2, ?_⟩, ⟨x3, x4, hx3, hx4, ?_⟩, ?_, ?_, ⟨x5, x6, hx5, hx6, ?_⟩, ⟨x7, x8, hx7, hx8, ?_⟩⟩
  · rw [i.left, i'.left, j.left]
  · rw [i.top, i'.top, j.top]
  · rw [y1, y2, j.left, j.width]; ring
  · rw [y3, y4, j.top, j.height]; ring
  · rw [i.contentLeft, i'.contentLeft, j.contentLeft]
  · rw [i.contentTop, i'.contentTop, j.contentTop]
  · rw [y5, y6, j.contentWidth]
  · rw [y7, y8, j.contentHeight]

/-- C90. Two documents of moderate size that consist of blocks in normal flow, whose sizes are lengths or the keywords of their properties, and two displays:
all sizes of the second ones are `k` times those of the first ones. When no element has two automatic margins at the sides of a specified width, both can
be laid out, and the second layout is `k` times the first one. -/
theorem C90_scaled (fp : FP) (L : fp.Laws) (k : Nat) (hk : 0 < k) (d d' : Display) (M M' : Nat) (html5 : Bool) (n n' : Node) (hn : n.Moderate fp d M)
    (hn' : n'.Moderate fp d' M') (hr : ∀ m, Sub m n → m.Regular fp d) (hr' : ∀ m, Sub m n' → m.Regular fp d') (hd : d.Scaled k d')
    (h : n.Along (CSS.Scaled fp d d' k) n') (hu : ∀ m, Sub m n → m.style.Uncentred) :
    ∃ r r', layout fp d html5 none n = .ok r ∧ layout fp d' html5 none n' = .ok r' ∧ ∀ q, Option.Rel (Box.Scaled fp k) (r.boxAt q) (r'.boxAt q) :=
  scaled_of hk (moderate_meets L html5 hn hr) (moderate_meets L html5 hn' hr') hr hr' hd h hu

end Colosseum
