import Verif.Lemmas.Twins

/-!
# C102: equal elements in equally wide parents look alike

What an element looks like depends on little around it: on the width of the content of its parent, on the `height` in the style of the parent, and on whether
the parent puts its children below each other. Where the parent is, what its siblings are, how deep it is in the document and which document that is have an
effect only on where the element is below the top of its parent.
-/

namespace Colosseum

/-- An element of a document that has been laid out: its parent has a content of width `w`, is not relatively positioned, and has the element as a child. -/
structure Hosts (fp : FP) (d : Display) (m : Node) (w : Num) (P : Node) (n' : Node) (q : List Nat) (i : Nat) : Prop where
  /-- It is a layout of a document. -/
  laid : ∃ html5 p n, AllBoxed n ∧ layout fp d html5 p n = .ok n' ∧ n.find q = some P
  child : P.children[i]? = some m
  width : (n'.boxAt q).bind (Box.contentWidth ·) = some w
  static : (P.style.get .position).isKw "relative" = false

theorem Hosts.plan {fp : FP} {d : Display} {m : Node} {w : Num} {P n' : Node} {q : List Nat} {i : Nat} (h : Hosts fp d m w P n' q i) (h0 : w.val ≠ 0) :
    ∃ c k, (if P.piles then InStack fp d P.style ⟨some w, some (.int 0), c⟩ m k else m.plan fp d (some P.style) ⟨some w, some (.int 0), c⟩ = some k) ∧
      ∀ r, (n'.boxAt (q ++ i :: r)).map Box.figures = k.at r := by
  obtain ⟨html5, p, n, hb, hl, hP⟩ := h.laid
  have hbox := C91_boxes hb hl
  have hK : ∃ K, n.blueprint fp d html5 p = some K := by
    rw [← C91_blueprint hb, hl]
    exact ⟨_, rfl⟩
  obtain ⟨K, hK⟩ := hK
  simp only [hK, Option.bind_some] at hbox
  obtain ⟨b, hbq, hw⟩ := Option.bind_eq_some_iff.1 h.width
  have h1 := hbox q
  rw [hbq, sub_at] at h1
  cases hs : K.sub q with
  | none => rw [hs] at h1; cases h1
  | some j =>
    cases j with
    | absent => rw [hs] at h1; cases h1
    | mk f ks =>
      rw [hs] at h1
      have h1 : b.figures = f := by
        simpa [Blueprint.at] using h1
      obtain ⟨H, c, hin, hH⟩ := blueprint_deep hK hP hs (by rw [← h1]; exact hw) h0
      rw [hH h.static] at hin
      obtain ⟨k, hk, hkk⟩ := inside_get hin h.child
      refine ⟨c, k, hkk, fun r => ?_⟩
      rw [hbox, sub_at, sub_append, hs]
      simp only [Option.bind_some, Blueprint.sub, hk]
      rw [← sub_at]

/-- **C102.** The same element in two places, of the same document or of two documents on the same display: if the contents of its parents are equally wide
and not of width zero, the styles of the parents have the same `height`, and neither the element nor a parent is relatively positioned, and the element is a
block or both parents put their children below each other or neither does, then all boxes inside the two elements have the same figures, and so have the
boxes of the elements themselves, apart from how far they are below the top of the parent; for every arithmetic. -/
theorem C102_alike {fp : FP} {d : Display} {m : Node} {w : Num} {P₁ P₂ n₁ n₂ : Node} {q₁ q₂ : List Nat} {i₁ i₂ : Nat}
    (h₁ : Hosts fp d m w P₁ n₁ q₁ i₁) (h₂ : Hosts fp d m w P₂ n₂ q₂ i₂) (h0 : w.val ≠ 0) (hh : P₁.style.get .height = P₂.style.get .height)
    (hm : (m.style.get .position).isKw "relative" = false) (hb : m.blockish = true ∨ P₁.piles = P₂.piles) :
    (∀ j r, (n₁.boxAt (q₁ ++ i₁ :: j :: r)).map Box.figures = (n₂.boxAt (q₂ ++ i₂ :: j :: r)).map Box.figures) ∧
    (∀ y, ((n₁.boxAt (q₁ ++ [i₁])).map fun b => { b.figures with y }) = (n₂.boxAt (q₂ ++ [i₂])).map fun b => { b.figures with y }) := by
  obtain ⟨c₁, k₁, hk₁, hr₁⟩ := h₁.plan h0
  obtain ⟨c₂, k₂, hk₂, hr₂⟩ := h₂.plan h0
  have he : m.plan fp d (some P₁.style) ⟨some w, some (.int 0), c₁⟩ = m.plan fp d (some P₂.style) ⟨some w, some (.int 0), c₂⟩ := plan_context hh rfl rfl hm
  have key : (∀ j r, k₁.at (j :: r) = k₂.at (j :: r)) ∧ ∀ y, ((k₁.at []).map fun f => { f with y }) = (k₂.at []).map fun f => { f with y } := by
    split at hk₁ <;> split at hk₂
    · cases hk₁ with
      | block y₁ hb₁ hp₁ =>
        cases hk₂ with
        | block y₂ hb₂ hp₂ =>
          rw [he, hp₂] at hp₁
          cases hp₁
          exact ⟨fun _ _ => rfl, fun _ => rfl⟩
        | left hl => rw [hb₁] at hl; cases hl
      | left hl =>
        cases hk₂ with
        | block _ hb₂ _ => rw [hb₂] at hl; cases hl
        | left _ => exact ⟨fun _ _ => rfl, fun _ => rfl⟩
    · rename_i hp hp'
      have hbl : m.blockish = true := hb.resolve_right fun e => hp' (e ▸ hp)
      cases hk₁ with
      | block y₁ hb₁ hp₁ =>
        rw [he, hk₂] at hp₁
        cases hp₁
        exact ⟨fun _ _ => rfl, fun _ => rfl⟩
      | left hl => rw [hbl] at hl; cases hl
    · rename_i hp hp'
      have hbl : m.blockish = true := hb.resolve_right fun e => hp (e ▸ hp')
      cases hk₂ with
      | block y₁ hb₁ hp₁ =>
        rw [← he, hk₁] at hp₁
        cases hp₁
        exact ⟨fun _ _ => rfl, fun _ => rfl⟩
      | left hl => rw [hbl] at hl; cases hl
    · rw [he, hk₂] at hk₁
      cases hk₁
      exact ⟨fun _ _ => rfl, fun _ => rfl⟩
  refine ⟨fun j r => by rw [hr₁, hr₂]; exact key.1 j r, fun y => ?_⟩
  have a₁ := hr₁ []
  have a₂ := hr₂ []
  have e : ∀ (o : Option Box), (o.map fun b => ({ b.figures with y } : Figures)) = (o.map Box.figures).map fun f => { f with y } := by
    intro o; cases o <;> rfl
  rw [e, e, a₁, a₂]
  exact key.2 y

/-- An element with content: a block with margins, padding and a relatively positioned block half as wide as itself. -/
def card : Node :=
  block [(.margin .top, px 6), (.padding .left, px 10), (.borderWidth .top, px 1)] [
    block [(.width, pct 50), (.height, px 20), (.margin .left, kw "auto"), (.position, kw "relative"), (.left, px 3)] [], block [(.height, px 7)] []]

/-- A page on which it stands alone in a column. -/
def page₁ : Node := block [] [block [(.width, px 200)] [card]]

/-- A page on which it is between others in a narrower block with margins and padding, which leave as much room. -/
def page₂ : Node :=
  block [(.padding .top, px 9)] [
    block [(.height, px 100)] [], block [(.width, px 400)] [block [(.margin .left, px 50), (.padding .right, px 150), (.borderWidth .top, px 4)] [block [(.height, px 30)] [], card, span [] 3 3]]]

/-- The blocks around it. -/
def column₁ : Node := block [(.width, px 200)] [card]
/-- See `column₁`. -/
def column₂ : Node :=
  block [(.margin .left, px 50), (.padding .right, px 150), (.borderWidth .top, px 4)] [block [(.height, px 30)] [], card, span [] 3 3]

theorem hosts₁ : Hosts .b64 screen card (.int 200) column₁ (laidDoc .b64 screen page₁) [0] 0 :=
  ⟨⟨false, none, page₁, full_boxed _ (by decide +kernel), laidDoc_ok (by decide +kernel), rfl⟩, rfl, by decide +kernel, by decide +kernel⟩

theorem hosts₂ : Hosts .b64 screen card (.int 200) column₂ (laidDoc .b64 screen page₂) [1, 0] 1 :=
  ⟨⟨false, none, page₂, full_boxed _ (by decide +kernel), laidDoc_ok (by decide +kernel), rfl⟩, rfl, by decide +kernel, by decide +kernel⟩

/-- The two pages meet the hypotheses. -/
example : ∀ j r, ((laidDoc .b64 screen page₁).boxAt ([0] ++ 0 :: j :: r)).map Box.figures =
    ((laidDoc .b64 screen page₂).boxAt ([1, 0] ++ 1 :: j :: r)).map Box.figures :=
  (C102_alike hosts₁ hosts₂ (by decide +kernel) rfl (by decide +kernel) (.inl (by decide +kernel))).1

/-- There is something inside, and the element itself is not at the same height below the top of its parent. -/
example :
    ((laidBox .b64 screen page₁ [0, 0, 0]).map fun b => (b.figures.x.val, b.figures.width.map Num.val)) = some (98, some 95) ∧
    ((laidBox .b64 screen page₁ [0, 0]).map fun b => (b.figures.y.val, b.figures.height.map Num.val)) = some (1, some 27) ∧
    ((laidBox .b64 screen page₂ [1, 0, 1]).map fun b => (b.figures.y.val, b.figures.height.map Num.val)) = some (37, some 27) :=
  ⟨by decide +kernel, by decide +kernel, by decide +kernel⟩

/-- The widths have to be equal: in a wider column the element is wider. -/
theorem C102_needs_width : ∃ (m P₁ P₂ n₁ n₂ : Node) (w₁ w₂ : Num), Hosts .b64 screen m w₁ P₁ n₁ [] 0 ∧ Hosts .b64 screen m w₂ P₂ n₂ [] 0 ∧
    w₁.val ≠ 0 ∧ w₂.val ≠ 0 ∧ P₁.style.get .height = P₂.style.get .height ∧ (m.style.get .position).isKw "relative" = false ∧ m.blockish = true ∧
    ((n₁.boxAt [0]).map fun b => b.figures.width) ≠ (n₂.boxAt [0]).map fun b => b.figures.width :=
  ⟨block [] [], block [(.width, px 200)] [block [] []], block [(.width, px 300)] [block [] []],
    laidDoc .b64 screen (block [(.width, px 200)] [block [] []]), laidDoc .b64 screen (block [(.width, px 300)] [block [] []]), .int 200, .int 300,
    ⟨⟨false, none, _, full_boxed _ (by decide +kernel), laidDoc_ok (by decide +kernel), rfl⟩, rfl, by decide +kernel, by decide +kernel⟩,
    ⟨⟨false, none, _, full_boxed _ (by decide +kernel), laidDoc_ok (by decide +kernel), rfl⟩, rfl, by decide +kernel, by decide +kernel⟩,
    by decide +kernel, by decide +kernel, rfl, by decide +kernel, by decide +kernel, by decide +kernel⟩

/-- The heights in the styles have to be equal: a height in percent counts only where the parent has a height. -/
theorem C102_needs_height : ∃ (m P₁ P₂ n₁ n₂ : Node) (w : Num), Hosts .b64 screen m w P₁ n₁ [] 0 ∧ Hosts .b64 screen m w P₂ n₂ [] 0 ∧
    w.val ≠ 0 ∧ (m.style.get .position).isKw "relative" = false ∧ m.blockish = true ∧
    ((n₁.boxAt [0]).map fun b => b.figures.height) ≠ (n₂.boxAt [0]).map fun b => b.figures.height :=
  let m := block [(.height, pct 50)] [block [(.height, px 9)] []]
  ⟨m, block [(.height, px 80)] [m], block [] [m], laidDoc .b64 screen (block [(.height, px 80)] [m]), laidDoc .b64 screen (block [] [m]), .int 640,
    ⟨⟨false, none, _, full_boxed _ (by decide +kernel), laidDoc_ok (by decide +kernel), rfl⟩, rfl, by decide +kernel, by decide +kernel⟩,
    ⟨⟨false, none, _, full_boxed _ (by decide +kernel), laidDoc_ok (by decide +kernel), rfl⟩, rfl, by decide +kernel, by decide +kernel⟩,
    by decide +kernel, by decide +kernel, by decide +kernel, by decide +kernel⟩

end Colosseum
