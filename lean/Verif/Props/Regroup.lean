import Verif.Lemmas.Regroup
import Verif.Props.Mirror

/-!
# C94, C95: undecorated blocks around and between others
-/

namespace Colosseum

theorem fills_coincide {fp : FP} {b b' : Option Box} {f f' : Option Region} (h : Option.Rel (fun b f => b.Fills fp f) b f)
    (h' : Option.Rel (fun b f => b.Fills fp f) b' f') (e : f' = f) : Option.Rel (Box.Coincides fp) b b' := by
  refine fills_rel (R := fun f g => g = f) h h' ?_ ?_
  · subst e
    cases f' with
    | none => exact .none
    | some f => exact .some rfl
  · rintro b b' f f' i i' rfl
    obtain ⟨x1, hx1, y1⟩ := i.right
    obtain ⟨x2, hx2, y2⟩ := i'.right
    obtain ⟨x3, hx3, y3⟩ := i.bottom
    obtain ⟨x4, hx4, y4⟩ := i'.bottom
    obtain ⟨x5, hx5, y5⟩ := i.contentWidth
    obtain ⟨x6, hx6, y6⟩ := i'.contentWidth
    obtain ⟨x7, hx7, y7⟩ := i.contentHeight
    obtain ⟨x8, hx8, y8⟩ := i'.contentHeight
    exact ⟨i'.left.trans i.left.symm, i'.top.trans i.top.symm, ⟨x1, x2, hx1, hx2, y2.trans y1.symm⟩, ⟨x3, x4, hx3, hx4, y4.trans y3.symm⟩,
      i'.contentLeft.trans i.contentLeft.symm, i'.contentTop.trans i.contentTop.symm, ⟨x5, x6, hx5, hx6, y6.trans y5.symm⟩,
      ⟨x7, x8, hx7, hx8, y8.trans y7.symm⟩⟩

/-- The two layouts of a document and of one with a change below `q` that is not noticed. -/
theorem coincide_of {fp fp' : FP} {d : Display} {html5 : Bool} {f : Node → Node} {σ : List Nat → List Nat} {q : List Nat}
    {n m : Node} (hn : n.Meets fp fp' d html5) (hn' : (n.atPath f q).Meets fp fp' d html5)
    (hm : n.find q = some m) (he : Equi fp' d m (f m)) (hf : ∀ W x y r, (f m).regionAt fp' d W x y (σ r) = m.regionAt fp' d W x y r)
    (hs : ∀ r, σ r = [] ↔ r = []) :
    ∃ n1 n2, layout fp d html5 none n = .ok n1 ∧ layout fp d html5 none (n.atPath f q) = .ok n2 ∧
      (∀ r, Option.Rel (Box.Coincides fp) (n1.boxAt (q ++ r)) (n2.boxAt (q ++ σ r))) ∧
      ∀ r, ¬ q <+: r → Option.Rel (Box.Coincides fp) (n1.boxAt r) (n2.boxAt r) := by
  obtain ⟨n1, e1, k1⟩ := hn
  obtain ⟨n2, e2, k2⟩ := hn'
  obtain ⟨h1, h2⟩ := reference_change (html5 := html5) hm he hf hs
  exact ⟨n1, n2, e1, e2, fun r => fills_coincide (k1 _) (k2 _) (h1 r), fun r hr => fills_coincide (k1 r) (k2 r) (h2 r hr)⟩

/-! ## Grouping -/

theorem group_runsOn {fp : FP} {d : Display} {m : Node} {i k : Nat} (hk : 0 < k) (hi : i + k ≤ m.children.length) (h : m.RunsOn fp d i) :
    m.children.take i = [] ∨ headTop fp d ((m.children.drop i).take k) ≤ lastBottom fp d (m.children.take i) := by
  rcases h with rfl | h
  · exact .inl (List.take_zero)
  · rcases Nat.eq_zero_or_pos i with rfl | hp
    · exact .inl (List.take_zero)
    · refine .inr ?_
      have h1 : i - 1 < m.children.length := by omega
      have h2 : i < m.children.length := by omega
      have := h _ _ (List.getElem?_eq_getElem h1) (List.getElem?_eq_getElem h2)
      have e1 : lastBottom fp d (m.children.take i) = (m.children[i - 1]).edgeBottom fp d := by
        rw [lastBottom_getLast, List.getLast?_eq_getElem?, List.length_take, Nat.min_eq_left (by omega), List.getElem?_take_of_lt (by omega), List.getElem?_eq_getElem h1]
        rfl
      have e2 : headTop fp d ((m.children.drop i).take k) = (m.children[i]).marginTop fp d := by
        rw [List.drop_eq_getElem_cons h2]
        obtain ⟨k, rfl⟩ : ∃ j, k = j + 1 := ⟨k - 1, by omega⟩
        rfl
      rw [e1, e2]
      exact this

theorem group_regular {fp : FP} (L : fp.Laws) {d : Display} {n m : Node} {q : List Nat} {s : CSS} {z : Intrinsic} {l : Option Box} {i k : Nat}
    (hr : n.AllRegular fp d) (hm : n.find q = some m) (hu : (Node.mk s z l []).Undecorated) :
    (n.atPath (Node.group (.mk s z l) i k) q).AllRegular fp d := by
  refine allRegular_atPath hr hm ?_
  have hrm := allRegular_find hr hm
  obtain ⟨s', z', l', cs⟩ := m
  have hu' := undecorated_children ((cs.drop i).take k) hu
  refine allRegular_mk (hrm _ (.refl _)) fun c hc => ?_
  have kids : ∀ c ∈ cs, c.AllRegular fp d := fun c hc => allRegular_kid hrm hc
  rcases List.mem_append.1 hc with hc | hc
  · exact kids c (List.mem_of_mem_take hc)
  · rcases List.mem_cons.1 hc with rfl | hc
    · exact allRegular_mk (bare_regular L hu') fun c hc => kids c (List.mem_of_mem_drop (List.mem_of_mem_take hc))
    · exact kids c (List.mem_of_mem_drop hc)

theorem group_of {fp fp' : FP} (L : fp'.Laws) {d : Display} {html5 : Bool} {n m : Node} {q : List Nat} {s : CSS} {z : Intrinsic}
    {l : Option Box} {i k : Nat} (hn : n.Meets fp fp' d html5) (hn' : (n.atPath (Node.group (.mk s z l) i k) q).Meets fp fp' d html5)
    (hm : n.find q = some m) (hu : (Node.mk s z l []).Undecorated) (hk : 0 < k)
    (hi : i + k ≤ m.children.length) (h : m.RunsOn fp' d i) :
    ∃ n1 n2, layout fp d html5 none n = .ok n1 ∧ layout fp d html5 none (n.atPath (Node.group (.mk s z l) i k) q) = .ok n2 ∧
      (∀ r, Option.Rel (Box.Coincides fp) (n1.boxAt (q ++ r)) (n2.boxAt (q ++ groupPath i k r))) ∧
      ∀ r, ¬ q <+: r → Option.Rel (Box.Coincides fp) (n1.boxAt r) (n2.boxAt r) := by
  have hf := group_runsOn hk hi h
  obtain ⟨s', z', l', cs⟩ := m
  simp only [Node.children] at hi hf
  have e : cs = cs.take i ++ ((cs.drop i).take k ++ cs.drop (i + k)) := by
    rw [← List.drop_drop, List.take_append_drop, List.take_append_drop]
  have l1 : (cs.take i).length = i := by rw [List.length_take]; omega
  have l2 : ((cs.drop i).take k).length = k := by rw [List.length_take, List.length_drop]; omega
  have hrun : (cs.drop i).take k ≠ [] := by
    intro e
    rw [e] at l2
    simp only [List.length_nil] at l2
    omega
  have hu' := undecorated_children ((cs.drop i).take k) hu
  refine coincide_of hn hn' hm ?_ ?_ ?_
  · have := group_equi L hu' (cs.drop (i + k)) hrun hf s' z' l'
    rw [← e] at this
    exact this
  · intro W x y r
    have := group_kids L hu' (cs.drop (i + k)) hrun hf s' z' l' W x y r
    rw [← e, l1, l2] at this
    exact this
  · intro r
    cases r with
    | nil => simp [groupPath]
    | cons j r =>
      simp only [groupPath]
      split
      · simp
      · split <;> simp

/-- C94. A document of moderate size that consists of blocks in normal flow, whose sizes are lengths or the keywords of their properties. In the children of
the element `m` at the path `q`, those from the `i`-th to the one before the `i + k`-th are put into a block without decoration. When `i` is 0, or the top
margin of the first of them is not larger than the margin that the block before it leaves, both documents can be laid out, and every element of the first
one has the same border box and the same content box in the second one. -/
theorem C94_group_partial (fp : FP) (L : fp.Laws) (d : Display) (M M' : Nat) (html5 : Bool) (n m : Node) (q : List Nat) (s : CSS) (z : Intrinsic)
    (l : Option Box) (i k : Nat) (hn : n.Moderate fp d M) (hn' : (n.atPath (Node.group (.mk s z l) i k) q).Moderate fp d M')
    (hr : ∀ m, Sub m n → m.Regular fp d) (hm : n.find q = some m) (hu : (Node.mk s z l []).Undecorated) (hk : 0 < k)
    (hi : i + k ≤ m.children.length) (h : m.RunsOn fp d i) :
    ∃ n1 n2, layout fp d html5 none n = .ok n1 ∧ layout fp d html5 none (n.atPath (Node.group (.mk s z l) i k) q) = .ok n2 ∧
      (∀ r, Option.Rel (Box.Coincides fp) (n1.boxAt (q ++ r)) (n2.boxAt (q ++ groupPath i k r))) ∧
      ∀ r, ¬ q <+: r → Option.Rel (Box.Coincides fp) (n1.boxAt r) (n2.boxAt r) :=
  group_of L (moderate_meets L html5 hn hr) (moderate_meets L html5 hn' (group_regular L hr hm hu)) hm hu hk hi h

/-- C94. A block without decoration around all children of an element changes nothing. -/
theorem C94_group_all (fp : FP) (L : fp.Laws) (d : Display) (M M' : Nat) (html5 : Bool) (n m : Node) (q : List Nat) (s : CSS) (z : Intrinsic)
    (l : Option Box) (hn : n.Moderate fp d M) (hn' : (n.atPath (Node.group (.mk s z l) 0 m.children.length) q).Moderate fp d M')
    (hr : ∀ m, Sub m n → m.Regular fp d) (hm : n.find q = some m) (hu : (Node.mk s z l []).Undecorated) (hc : m.children ≠ []) :
    ∃ n1 n2, layout fp d html5 none n = .ok n1 ∧ layout fp d html5 none (n.atPath (Node.group (.mk s z l) 0 m.children.length) q) = .ok n2 ∧
      (∀ r, Option.Rel (Box.Coincides fp) (n1.boxAt (q ++ r)) (n2.boxAt (q ++ groupPath 0 m.children.length r))) ∧
      ∀ r, ¬ q <+: r → Option.Rel (Box.Coincides fp) (n1.boxAt r) (n2.boxAt r) :=
  C94_group_partial fp L d M M' html5 n m q s z l 0 m.children.length hn hn' hr hm hu (List.length_pos_iff.2 hc) (by omega) (.inl rfl)

/-! ## Empty blocks -/

theorem insert_gap {fp : FP} {d : Display} {m : Node} {i : Nat} (hi : i ≤ m.children.length) (h : m.Open fp d i) :
    Gap fp d (m.children.take i) (m.children.drop i) := by
  obtain ⟨h1, h2, h3, _⟩ := h
  have last : ∀ hp : 0 < i, lastBottom fp d (m.children.take i) = (m.children[i - 1]'(by omega)).edgeBottom fp d := by
    intro hp
    have h1 : i - 1 < m.children.length := by omega
    rw [lastBottom_getLast, List.getLast?_eq_getElem?, List.length_take, Nat.min_eq_left (by omega), List.getElem?_take_of_lt (by omega), List.getElem?_eq_getElem h1]
    rfl
  have ne : m.children.take i ≠ [] → 0 < i := by
    intro e
    rcases Nat.eq_zero_or_pos i with rfl | hp
    · exact absurd List.take_zero e
    · exact hp
  have lt : m.children.drop i ≠ [] → i < m.children.length := by
    intro e
    by_contra c
    exact e (List.drop_eq_nil_iff.2 (by omega))
  refine ⟨fun e e' => ?_, fun e e' => ?_, fun e e' => ?_⟩
  · have hp := ne e
    have hl := lt e'
    rw [last hp, List.drop_eq_getElem_cons hl]
    exact h1 _ _ (by omega) (List.getElem?_eq_getElem (by omega)) (List.getElem?_eq_getElem hl)
  · have hp := ne e
    rw [last hp]
    exact h2 _ (by omega) (List.getElem?_eq_getElem (by omega)) (List.getElem?_eq_none (List.drop_eq_nil_iff.1 e'))
  · have hl := lt e'
    have h0 : i = 0 := by
      rcases List.take_eq_nil_iff.1 e with e | e
      · exact e
      · rw [e] at hl; exact absurd hl (Nat.not_lt_zero _)
    rw [List.drop_eq_getElem_cons hl]
    exact h3 _ h0 (List.getElem?_eq_getElem hl)

theorem insert_regular {fp : FP} (L : fp.Laws) {d : Display} {n m : Node} {q : List Nat} {s : CSS} {z : Intrinsic} {l : Option Box} {i : Nat}
    (hr : n.AllRegular fp d) (hm : n.find q = some m) (hu : (Node.mk s z l []).Undecorated) :
    (n.atPath (Node.addChild i (.mk s z l [])) q).AllRegular fp d := by
  refine allRegular_atPath hr hm ?_
  have hrm := allRegular_find hr hm
  have hreg := hrm _ (.refl _)
  obtain ⟨s', z', l', cs⟩ := m
  refine allRegular_mk hreg fun c hc => ?_
  have kids : ∀ c ∈ cs, c.AllRegular fp d := fun c hc => allRegular_kid hrm hc
  rcases List.mem_append.1 hc with hc | hc
  · exact kids c (List.mem_of_mem_take hc)
  · rcases List.mem_cons.1 hc with rfl | hc
    · exact allRegular_mk (bare_regular L hu) fun c hc => nomatch hc
    · exact kids c (List.mem_of_mem_drop hc)

theorem insert_of {fp fp' : FP} (L : fp'.Laws) {d : Display} {html5 : Bool} {n m : Node} {q : List Nat} {s : CSS} {z : Intrinsic}
    {l : Option Box} {i : Nat} (hn : n.Meets fp fp' d html5) (hn' : (n.atPath (Node.addChild i (.mk s z l [])) q).Meets fp fp' d html5)
    (hr : n.AllRegular fp' d) (hm : n.find q = some m) (hu : (Node.mk s z l []).Undecorated) (hi : i ≤ m.children.length)
    (h : m.Open fp' d i) :
    ∃ n1 n2, layout fp d html5 none n = .ok n1 ∧ layout fp d html5 none (n.atPath (Node.addChild i (.mk s z l [])) q) = .ok n2 ∧
      (∀ r, Option.Rel (Box.Coincides fp) (n1.boxAt (q ++ r)) (n2.boxAt (q ++ insertPath i r))) ∧
      ∀ r, ¬ q <+: r → Option.Rel (Box.Coincides fp) (n1.boxAt r) (n2.boxAt r) := by
  have hrm := allRegular_find hr hm
  have hg := insert_gap hi h
  have h0 := h.only
  have hreg := hrm _ (.refl _)
  obtain ⟨s', z', l', cs⟩ := m
  simp only [Node.children, Node.style] at hi hg h0
  have l1 : (cs.take i).length = i := by rw [List.length_take]; omega
  have hmin : cs.take i = [] → cs.drop i = [] → (s'.get .height).pixels fp' d = none → (s'.get .minHeight).pixels fp' d = none := by
    intro e e' hh
    have ec : cs = [] := by rw [← List.take_append_drop i cs, e, e', List.append_nil]
    have hk : s'.get .height = kw "auto" ∨ (s'.get .height).Sure fp' d := hreg.size .height (by simp)
    rcases hk with hk | ⟨x, hk⟩
    · rw [h0 ec hk, pixels_kw]
    · rw [pixels_length hk] at hh
      cases hh
  refine coincide_of hn hn' hm ?_ ?_ ?_
  · have := insert_equi L hu hg s' z' l' hmin
    rw [List.take_append_drop] at this
    exact this
  · intro W x y r
    have := insert_kids L hu hg s' z' l' hmin W x y r
    rw [List.take_append_drop, l1] at this
    exact this
  · intro r
    cases r with
    | nil => simp [insertPath]
    | cons j r =>
      simp only [insertPath]
      split <;> simp

/-- C95. A document of moderate size that consists of blocks in normal flow, whose sizes are lengths or the keywords of their properties. In the children of
the element `m` at the path `q`, an empty block without decoration is inserted before the `i`-th. When it does not separate margins that would collapse with
each other or with that of `m`, and `m` is not a block whose minimal height counts because it is empty, both documents can be laid out, and every element of
the first one has the same border box and the same content box in the second one. -/
theorem C95_insert_partial (fp : FP) (L : fp.Laws) (d : Display) (M M' : Nat) (html5 : Bool) (n m : Node) (q : List Nat) (s : CSS) (z : Intrinsic)
    (l : Option Box) (i : Nat) (hn : n.Moderate fp d M) (hn' : (n.atPath (Node.addChild i (.mk s z l [])) q).Moderate fp d M')
    (hr : ∀ m, Sub m n → m.Regular fp d) (hm : n.find q = some m) (hu : (Node.mk s z l []).Undecorated) (hi : i ≤ m.children.length)
    (h : m.Open fp d i) :
    ∃ n1 n2, layout fp d html5 none n = .ok n1 ∧ layout fp d html5 none (n.atPath (Node.addChild i (.mk s z l [])) q) = .ok n2 ∧
      (∀ r, Option.Rel (Box.Coincides fp) (n1.boxAt (q ++ r)) (n2.boxAt (q ++ insertPath i r))) ∧
      ∀ r, ¬ q <+: r → Option.Rel (Box.Coincides fp) (n1.boxAt r) (n2.boxAt r) :=
  insert_of L (moderate_meets L html5 hn hr) (moderate_meets L html5 hn' (insert_regular L hr hm hu)) hr hm hu hi h

/-! ## Examples -/

/-- An undecorated block. -/
def plainly (cs : List Node) : Node := .mk (styled [(.display, kw "block")]) .initial (some .fresh) cs

theorem plainly_bare (cs : List Node) : (plainly cs).Undecorated := by
  refine ⟨rfl, fun p hp => ?_, rfl, nofun⟩
  show (styled [(.display, kw "block")]) p = none
  simp [styled, CSS.store, CSS.empty, hp]

theorem moderate_test {n : Node} {k : Nat} (h : n.mildTest .b64 screen 1000 = true) (hc : n.count = k) (hk : k ≤ 1000) :
    n.Moderate .b64 screen 1000 := by
  refine ⟨fun m hm => (mildTest_all h hm).1, ⟨screen_mild, fun m hm => (mildTest_all h hm).2⟩, by norm_num, ?_, ?_⟩ <;> rw [hc]
  · omega
  · calc 1000 * k * k ≤ 1000 * 1000 * 1000 := by
          exact Nat.mul_le_mul (Nat.mul_le_mul_left _ hk) hk
      _ ≤ 2 ^ 40 := by norm_num

/-- The last two parts of the page in a block of their own. -/
example : ∃ n1 n2, layout .b64 screen true none sheet = .ok n1 ∧ layout .b64 screen true none (sheet.atPath (Node.group plainly 1 2) []) = .ok n2 ∧
    ∀ r, Option.Rel (Box.Coincides .b64) (n1.boxAt r) (n2.boxAt (groupPath 1 2 r)) := by
  obtain ⟨n1, n2, e1, e2, h, _⟩ := C94_group_partial .b64 b64_laws screen 1000 1000 true sheet sheet [] _ _ _ 1 2 sheet_moderate
    (moderate_test (n := sheet.atPath (Node.group plainly 1 2) []) (k := 8) (by decide +kernel) (by decide +kernel) (by norm_num)) sheet_regular rfl
    (plainly_bare []) (by norm_num) (by decide +kernel) (.inr fun c c' hc hc' => by
      have e : c = block [(.height, px 30), (.margin .top, px 8), (.margin .bottom, px 6), (.borderWidth .bottom, px 2)] [] := by
        cases hc; rfl
      subst e
      cases hc'
      decide +kernel)
  exact ⟨n1, n2, e1, e2, h⟩

/-- The footer is then at another place in the document, and at the same place on the screen. -/
example : groupPath 1 2 [2, 0] = [1, 1, 0] ∧
    (laidBox .b64 screen sheet [2, 0]).map (fun b => (b.absBorderBoxTop .b64).val) = some 148 ∧
    (laidBox .b64 screen (sheet.atPath (Node.group plainly 1 2) []) [1, 1, 0]).map (fun b => (b.absBorderBoxTop .b64).val) = some 148 := by
  refine ⟨by decide, ?_, ?_⟩ <;> decide +kernel

/-- All parts of the page in one block. -/
example : ∃ n1 n2, layout .b64 screen true none sheet = .ok n1 ∧ layout .b64 screen true none (sheet.atPath (Node.group plainly 0 3) []) = .ok n2 ∧
    ∀ r, Option.Rel (Box.Coincides .b64) (n1.boxAt r) (n2.boxAt (groupPath 0 3 r)) := by
  obtain ⟨n1, n2, e1, e2, h, _⟩ := C94_group_all .b64 b64_laws screen 1000 1000 true sheet sheet [] _ _ _ sheet_moderate
    (moderate_test (n := sheet.atPath (Node.group plainly 0 3) []) (k := 8) (by decide +kernel) (by decide +kernel) (by norm_num)) sheet_regular rfl
    (plainly_bare []) nofun
  exact ⟨n1, n2, e1, e2, h⟩

/-- Two blocks with a margin between them. -/
def pair (t b : Int) : Node := block [] [block [(.height, px 10), (.margin .bottom, px b)] [], block [(.height, px 10), (.margin .top, px t)] []]

/-- C94 is false when the first block of the group has a larger top margin than the block before it leaves: that margin does not count any more, and the
block moves up. -/
theorem C94_false_margin : (pair 20 0).Moderate .b64 screen 1000 ∧ (∀ m, Sub m (pair 20 0) → m.Regular .b64 screen) ∧
    (laidBox .b64 screen (pair 20 0) [1]).map (fun b => (b.absBorderBoxTop .b64).val) = some 30 ∧
    (laidBox .b64 screen ((pair 20 0).atPath (Node.group plainly 1 1) []) [1, 0]).map (fun b => (b.absBorderBoxTop .b64).val) = some 10 := by
  refine ⟨moderate_test (k := 3) (by decide +kernel) (by decide +kernel) (by norm_num), regularTest_sound (by decide +kernel), ?_, ?_⟩ <;> decide +kernel

/-- An empty block between the column and the footer, which has a top margin; the column leaves none. -/
example : ∃ n1 n2, layout .b64 screen true none sheet = .ok n1 ∧ layout .b64 screen true none (sheet.atPath (Node.addChild 2 (plainly [])) []) = .ok n2 ∧
    ∀ r, Option.Rel (Box.Coincides .b64) (n1.boxAt r) (n2.boxAt (insertPath 2 r)) := by
  obtain ⟨n1, n2, e1, e2, h, _⟩ := C95_insert_partial .b64 b64_laws screen 1000 1000 true sheet sheet [] _ _ _ 2 sheet_moderate
    (moderate_test (n := sheet.atPath (Node.addChild 2 (plainly [])) []) (k := 8) (by decide +kernel) (by decide +kernel) (by norm_num)) sheet_regular rfl
    (plainly_bare []) (by decide +kernel) ⟨fun c c' _ hc hc' => .inl (by cases hc; decide +kernel), fun c _ _ hn => (nomatch hn), fun c e => (nomatch e), nofun⟩
  exact ⟨n1, n2, e1, e2, h⟩

/-- An empty block inside the heading, which has a specified height. -/
example : ∃ n1 n2, layout .b64 screen true none sheet = .ok n1 ∧ layout .b64 screen true none (sheet.atPath (Node.addChild 0 (plainly [])) [0]) = .ok n2 ∧
    ∀ r, ¬ [0] <+: r → Option.Rel (Box.Coincides .b64) (n1.boxAt r) (n2.boxAt r) := by
  obtain ⟨n1, n2, e1, e2, _, h⟩ := C95_insert_partial .b64 b64_laws screen 1000 1000 true sheet
    (block [(.height, px 30), (.margin .top, px 8), (.margin .bottom, px 6), (.borderWidth .bottom, px 2)] []) [0] _ _ _ 0 sheet_moderate
    (moderate_test (n := sheet.atPath (Node.addChild 0 (plainly [])) [0]) (k := 8) (by decide +kernel) (by decide +kernel) (by norm_num)) sheet_regular rfl
    (plainly_bare []) (Nat.zero_le _) ⟨fun c c' e => absurd rfl e, fun c e => absurd rfl e, fun c _ hc => (nomatch hc), fun _ e => (nomatch e)⟩
  exact ⟨n1, n2, e1, e2, h⟩

/-- C95 is false when the empty block is between two margins: they collapse no longer, and the second block moves down. -/
theorem C95_false_margins : (pair 10 10).Moderate .b64 screen 1000 ∧ (∀ m, Sub m (pair 10 10) → m.Regular .b64 screen) ∧
    (laidBox .b64 screen (pair 10 10) [1]).map (fun b => (b.absBorderBoxTop .b64).val) = some 20 ∧
    (laidBox .b64 screen ((pair 10 10).atPath (Node.addChild 1 (plainly [])) []) [2]).map (fun b => (b.absBorderBoxTop .b64).val) = some 30 := by
  refine ⟨moderate_test (k := 3) (by decide +kernel) (by decide +kernel) (by norm_num), regularTest_sound (by decide +kernel), ?_, ?_⟩ <;> decide +kernel

/-- C95 is false when the empty block is the only child of a block with a minimal height: that does not count any more. -/
theorem C95_false_minimum : (block [(.minHeight, px 50)] []).Moderate .b64 screen 1000 ∧
    (∀ m, Sub m (block [(.minHeight, px 50)] []) → m.Regular .b64 screen) ∧
    (laidBox .b64 screen (block [(.minHeight, px 50)] []) []).map (fun b => b.contentHeight.map Num.val) = some (some 50) ∧
    (laidBox .b64 screen ((block [(.minHeight, px 50)] []).atPath (Node.addChild 0 (plainly [])) []) []).map (fun b => b.contentHeight.map Num.val) =
      some (some 0) := by
  refine ⟨moderate_test (k := 1) (by decide +kernel) (by decide +kernel) (by norm_num), regularTest_sound (by decide +kernel), ?_, ?_⟩ <;> decide +kernel

end Colosseum
