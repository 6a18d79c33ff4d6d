import Verif.Lemmas.Displaced
import Verif.Props.Unbounded

/-!
# C94, C95: how far undecorated blocks move others

Without the provisos of `C94_group_partial` and `C95_insert_partial`: by how much the elements move, so that the provisos are also necessary.
-/

namespace Colosseum

theorem fills_down {fp : FP} {b b' : Option Box} {f f' : Option Region} {t : Rat} (h : Option.Rel (fun b f => b.Fills fp f) b f)
    (h' : Option.Rel (fun b f => b.Fills fp f) b' f') (e : f' = f.map (Region.down t)) : Option.Rel (Box.Down fp t) b b' := by
  refine fills_rel (R := fun f g => g = f.down t) h h' ?_ ?_
  · subst e
    cases f with
    | none => exact .none
    | some f => exact .some rfl
  · rintro b b' f f' i i' rfl
    obtain ⟨x1, hx1, y1⟩ := i.right
    obtain ⟨x2, hx2, y2⟩ := i'.right
    obtain ⟨x3, hx3, y3⟩ := i.bottom
    obtain ⟨x4, hx4, y4⟩ := i'.bottom
    obtain ⟨x5, hx5, y5⟩ := i.contentWidth
    obtain ⟨x6, hx6, y6⟩ := i'.contentWidth
    obtain ⟨x7, hx7, y7⟩ := i.contentHeight
    obtain ⟨x8, hx8, y8⟩ := i'.contentHeight
    refine ⟨i'.left.trans i.left.symm, by rw [i'.top, i.top]; rfl, ⟨x1, x2, hx1, hx2, y2.trans y1.symm⟩, ⟨x3, x4, hx3, hx4, ?_⟩,
      i'.contentLeft.trans i.contentLeft.symm, by rw [i'.contentTop, i.contentTop]; rfl, ⟨x5, x6, hx5, hx6, y6.trans y5.symm⟩,
      ⟨x7, x8, hx7, hx8, y8.trans y7.symm⟩⟩
    rw [y3, y4]
    simp only [Region.down]
    ring

theorem group_style (g : List Node → Node) (i k : Nat) (m : Node) : (Node.group g i k m).style = m.style := by
  cases m
  rfl

theorem addChild_style (c : Node) (i : Nat) (m : Node) : (Node.addChild i c m).style = m.style := by
  cases m
  rfl

theorem headEdge_append {fp : FP} {d : Display} {a : List Node} (b : List Node) (h : a ≠ []) : headEdge fp d (a ++ b) = headEdge fp d a := by
  cases a with
  | nil => exact absurd rfl h
  | cons c a => rfl

theorem last_taken {fp : FP} {d : Display} {cs : List Node} {i : Nat} {c : Node} (hc : cs[i]? = some c) : lastBottom fp d (cs.take (i + 1)) = c.edgeBottom fp d := by
  have h1 : i < cs.length := (List.getElem?_eq_some_iff.1 hc).1
  rw [lastBottom_getLast, List.getLast?_eq_getElem?, List.length_take, Nat.min_eq_left (by omega), List.getElem?_take_of_lt (by omega), Nat.add_sub_cancel, hc]
  rfl

/-- How far the children from the `i + 1`-th on are moved by a block around some of them. -/
theorem group_displaces {fp fp' : FP} (L : fp'.Laws) {d : Display} {html5 : Bool} {n m c c' : Node} {q : List Nat} {s : CSS} {z : Intrinsic}
    {l : Option Box} {i k : Nat} (hn : n.Meets fp fp' d html5) (hn' : (n.atPath (Node.group (.mk s z l) (i + 1) k) q).Meets fp fp' d html5)
    (hm : n.find q = some m) (hu : (Node.mk s z l []).Undecorated) (hk : 0 < k)
    (hi : i + 1 + k ≤ m.children.length) (hc : m.children[i]? = some c) (hc' : m.children[i + 1]? = some c') :
    ∃ n1 n2, layout fp d html5 none n = .ok n1 ∧ layout fp d html5 none (n.atPath (Node.group (.mk s z l) (i + 1) k) q) = .ok n2 ∧
      ∀ j r, Option.Rel (Box.Down fp (if j ≤ i then 0 else -max 0 (c'.marginTop fp' d - c.edgeBottom fp' d))) (n1.boxAt (q ++ j :: r))
        (n2.boxAt (q ++ groupPath (i + 1) k (j :: r))) := by
  obtain ⟨n1, e1, k1⟩ := hn
  obtain ⟨n2, e2, k2⟩ := hn'
  refine ⟨n1, n2, e1, e2, fun j r => fills_down (k1 _) (k2 _) ?_⟩
  obtain ⟨s', z', l', cs⟩ := m
  simp only [Node.children] at hi hc hc'
  have e : cs = cs.take (i + 1) ++ ((cs.drop (i + 1)).take k ++ cs.drop (i + 1 + k)) := by
    have := List.take_append_drop k (cs.drop (i + 1))
    rw [List.drop_drop] at this
    rw [this, List.take_append_drop]
  have l1 : (cs.take (i + 1)).length = i + 1 := by rw [List.length_take]; omega
  have l2 : ((cs.drop (i + 1)).take k).length = k := by rw [List.length_take, List.length_drop]; omega
  have hpre : cs.take (i + 1) ≠ [] := by
    intro e
    rw [e] at l1
    cases l1
  have hrun : (cs.drop (i + 1)).take k ≠ [] := by
    intro e
    rw [e] at l2
    simp only [List.length_nil] at l2
    omega
  have hu' := undecorated_children ((cs.drop (i + 1)).take k) hu
  have edge : (Node.group (.mk s z l) (i + 1) k (.mk s' z' l' cs)).edgeTop fp' d = (Node.mk s' z' l' cs).edgeTop fp' d := by
    show (Node.mk s' z' l' (cs.take (i + 1) ++ _)).edgeTop fp' d = _
    rw [edgeTop_mk, edgeTop_mk, headEdge_append _ hpre]
    conv_rhs => rw [e, headEdge_append _ hpre]
  obtain ⟨W, x, y, h⟩ := reference_below (html5 := html5) (group_style (.mk s z l) (i + 1) k) hm edge
  have e3 : headTop fp' d ((cs.drop (i + 1)).take k) = c'.marginTop fp' d := by
    rw [List.drop_eq_getElem_cons (by omega)]
    obtain ⟨k, rfl⟩ : ∃ j, k = j + 1 := ⟨k - 1, by omega⟩
    rw [List.take_succ_cons, headTop, (List.getElem?_eq_some_iff.1 hc').2]
  have := group_moves (d := d) L hu' (cs.drop (i + 1 + k)) hpre hrun s' z' l' W x y j r
  rw [← e, l1, l2, e3, last_taken hc, ← (h j r).1] at this
  have e4 : ∃ j' r', groupPath (i + 1) k (j :: r) = j' :: r' := by
    rw [groupPath]
    split
    · exact ⟨_, _, rfl⟩
    · split <;> exact ⟨_, _, rfl⟩
  obtain ⟨j', r', e4⟩ := e4
  rw [e4] at this ⊢
  rw [(h j' r').2]
  simp only [Nat.lt_succ_iff] at this
  exact this

/-- How far the children from the `i + 1`-th on are moved by an empty block before them. -/
theorem insert_displaces {fp fp' : FP} (L : fp'.Laws) {d : Display} {html5 : Bool} {n m c c' : Node} {q : List Nat} {s : CSS} {z : Intrinsic}
    {l : Option Box} {i : Nat} (hn : n.Meets fp fp' d html5) (hn' : (n.atPath (Node.addChild (i + 1) (.mk s z l [])) q).Meets fp fp' d html5)
    (hm : n.find q = some m) (hu : (Node.mk s z l []).Undecorated) (hc : m.children[i]? = some c) (hc' : m.children[i + 1]? = some c') :
    ∃ n1 n2, layout fp d html5 none n = .ok n1 ∧ layout fp d html5 none (n.atPath (Node.addChild (i + 1) (.mk s z l [])) q) = .ok n2 ∧
      ∀ j r, Option.Rel (Box.Down fp (if j ≤ i then 0 else min (c.edgeBottom fp' d : Rat) (max 0 (c'.marginTop fp' d)))) (n1.boxAt (q ++ j :: r))
        (n2.boxAt (q ++ insertPath (i + 1) (j :: r))) := by
  obtain ⟨n1, e1, k1⟩ := hn
  obtain ⟨n2, e2, k2⟩ := hn'
  refine ⟨n1, n2, e1, e2, fun j r => fills_down (k1 _) (k2 _) ?_⟩
  obtain ⟨s', z', l', cs⟩ := m
  simp only [Node.children] at hc hc'
  have hl : i + 1 < cs.length := (List.getElem?_eq_some_iff.1 hc').1
  have l1 : (cs.take (i + 1)).length = i + 1 := by rw [List.length_take]; omega
  have hpre : cs.take (i + 1) ≠ [] := by
    intro e
    rw [e] at l1
    cases l1
  have e : cs = cs.take (i + 1) ++ cs.drop (i + 1) := (List.take_append_drop _ _).symm
  have edge : (Node.addChild (i + 1) (.mk s z l []) (.mk s' z' l' cs)).edgeTop fp' d = (Node.mk s' z' l' cs).edgeTop fp' d := by
    show (Node.mk s' z' l' (cs.take (i + 1) ++ _)).edgeTop fp' d = _
    rw [edgeTop_mk, edgeTop_mk, headEdge_append _ hpre]
    conv_rhs => rw [e, headEdge_append _ hpre]
  obtain ⟨W, x, y, h⟩ := reference_below (html5 := html5) (addChild_style (.mk s z l []) (i + 1)) hm edge
  have e3 : headTop fp' d (cs.drop (i + 1)) = c'.marginTop fp' d := by
    rw [List.drop_eq_getElem_cons hl, headTop, (List.getElem?_eq_some_iff.1 hc').2]
  have := insert_moves (d := d) L hu (post := cs.drop (i + 1)) hpre s' z' l' W x y j r
  rw [← e, l1, e3, last_taken hc, ← (h j r).1] at this
  have e4 : ∃ j' r', insertPath (i + 1) (j :: r) = j' :: r' := by
    rw [insertPath]
    split <;> exact ⟨_, _, rfl⟩
  obtain ⟨j', r', e4⟩ := e4
  rw [e4] at this ⊢
  rw [(h j' r').2]
  simp only [Nat.lt_succ_iff] at this
  exact this

/-- C94 without the proviso on margins. Of the children of `m`, `k` from the one after `c` on are put into a block without decoration; `c'` is the first of
them. The children of `m` up to `c` stay where they are, with all that is in them; those from `c'` on, with all that is in them, move up by the amount by
which the top margin of `c'` is larger than the margin that `c` leaves. -/
theorem C94_displacement (fp : FP) (L : fp.Laws) (d : Display) (M M' : Nat) (html5 : Bool) (n m c c' : Node) (q : List Nat) (s : CSS) (z : Intrinsic)
    (l : Option Box) (i k : Nat) (hn : n.Moderate fp d M) (hn' : (n.atPath (Node.group (.mk s z l) (i + 1) k) q).Moderate fp d M')
    (hr : ∀ m, Sub m n → m.Regular fp d) (hm : n.find q = some m) (hu : (Node.mk s z l []).Undecorated) (hk : 0 < k)
    (hi : i + 1 + k ≤ m.children.length) (hc : m.children[i]? = some c) (hc' : m.children[i + 1]? = some c') :
    ∃ n1 n2, layout fp d html5 none n = .ok n1 ∧ layout fp d html5 none (n.atPath (Node.group (.mk s z l) (i + 1) k) q) = .ok n2 ∧
      ∀ j r, Option.Rel (Box.Down fp (if j ≤ i then 0 else -max 0 (c'.marginTop fp d - c.edgeBottom fp d))) (n1.boxAt (q ++ j :: r))
        (n2.boxAt (q ++ groupPath (i + 1) k (j :: r))) :=
  group_displaces L (moderate_meets L html5 hn hr) (moderate_meets L html5 hn' (group_regular L hr hm hu)) hm hu hk hi hc hc'

/-- C95 without the proviso on margins. An empty block without decoration is inserted between the children `c` and `c'` of `m`. The children of `m` up to `c`
stay where they are, with all that is in them; those from `c'` on, with all that is in them, move down by the smaller one of the margins between `c` and
`c'`, which no longer collapse. -/
theorem C95_displacement (fp : FP) (L : fp.Laws) (d : Display) (M M' : Nat) (html5 : Bool) (n m c c' : Node) (q : List Nat) (s : CSS) (z : Intrinsic)
    (l : Option Box) (i : Nat) (hn : n.Moderate fp d M) (hn' : (n.atPath (Node.addChild (i + 1) (.mk s z l [])) q).Moderate fp d M')
    (hr : ∀ m, Sub m n → m.Regular fp d) (hm : n.find q = some m) (hu : (Node.mk s z l []).Undecorated)
    (hc : m.children[i]? = some c) (hc' : m.children[i + 1]? = some c') :
    ∃ n1 n2, layout fp d html5 none n = .ok n1 ∧ layout fp d html5 none (n.atPath (Node.addChild (i + 1) (.mk s z l [])) q) = .ok n2 ∧
      ∀ j r, Option.Rel (Box.Down fp (if j ≤ i then 0 else min (c.edgeBottom fp d : Rat) (max 0 (c'.marginTop fp d)))) (n1.boxAt (q ++ j :: r))
        (n2.boxAt (q ++ insertPath (i + 1) (j :: r))) :=
  insert_displaces L (moderate_meets L html5 hn hr) (moderate_meets L html5 hn' (insert_regular L hr hm hu)) hm hu hc hc'

/-- `C94_displacement` for documents of any size, where arithmetic is exact or the document is in whole pixels. -/
theorem C94_untroubled_displacement (fp : FP) (d : Display) (html5 : Bool) (n m c c' : Node) (q : List Nat) (s : CSS) (z : Intrinsic)
    (l : Option Box) (i k : Nat) (hn : Untroubled fp d n) (hr : ∀ m, Sub m n → m.Regular .exact d) (hm : n.find q = some m)
    (hu : (Node.mk s z l []).Undecorated) (hz : z.Integral) (hk : 0 < k)
    (hi : i + 1 + k ≤ m.children.length) (hc : m.children[i]? = some c) (hc' : m.children[i + 1]? = some c') :
    ∃ n1 n2, layout fp d html5 none n = .ok n1 ∧ layout fp d html5 none (n.atPath (Node.group (.mk s z l) (i + 1) k) q) = .ok n2 ∧
      ∀ j r, Option.Rel (Box.Down fp (if j ≤ i then 0 else -max 0 (c'.marginTop .exact d - c.edgeBottom .exact d))) (n1.boxAt (q ++ j :: r))
        (n2.boxAt (q ++ groupPath (i + 1) k (j :: r))) :=
  group_displaces exact_laws (untroubled_meets html5 hn hr)
    (untroubled_meets html5 (untroubled_change hn hr hu hz fun _ h1 h2 => pervades_group h1 (i + 1) k h2) (group_regular exact_laws hr hm hu)) hm hu hk hi hc hc'

/-- `C95_displacement` for documents of any size, where arithmetic is exact or the document is in whole pixels. -/
theorem C95_untroubled_displacement (fp : FP) (d : Display) (html5 : Bool) (n m c c' : Node) (q : List Nat) (s : CSS) (z : Intrinsic)
    (l : Option Box) (i : Nat) (hn : Untroubled fp d n) (hr : ∀ m, Sub m n → m.Regular .exact d) (hm : n.find q = some m)
    (hu : (Node.mk s z l []).Undecorated) (hz : z.Integral) (hc : m.children[i]? = some c) (hc' : m.children[i + 1]? = some c') :
    ∃ n1 n2, layout fp d html5 none n = .ok n1 ∧ layout fp d html5 none (n.atPath (Node.addChild (i + 1) (.mk s z l [])) q) = .ok n2 ∧
      ∀ j r, Option.Rel (Box.Down fp (if j ≤ i then 0 else min (c.edgeBottom .exact d : Rat) (max 0 (c'.marginTop .exact d)))) (n1.boxAt (q ++ j :: r))
        (n2.boxAt (q ++ insertPath (i + 1) (j :: r))) :=
  insert_displaces exact_laws (untroubled_meets html5 hn hr)
    (untroubled_meets html5 (untroubled_change hn hr hu hz fun _ h1 h2 => pervades_insert h1 (i + 1) h2) (insert_regular exact_laws hr hm hu)) hm hu hc hc'

/-! ## The provisos are necessary -/

theorem find_append : ∀ (q r : List Nat) (n : Node), n.find (q ++ r) = (n.find q).bind (·.find r)
  | [], r, n => by rw [List.nil_append, Node.find, Option.bind_some]
  | i :: q, r, n => by
    rw [List.cons_append, Node.find, Node.find]
    cases n.children[i]? with
    | none => rfl
    | some c => exact find_append q r c

theorem reference_some {fp : FP} {d : Display} {html5 : Bool} : ∀ {q : List Nat} {n m : Node}, n.find q = some m → (n.reference fp d html5 q).isSome := by
  have at_some : ∀ {q : List Nat} {n m : Node} (W x y : Rat), n.find q = some m → (n.regionAt fp d W x y q).isSome := by
    intro q
    induction q with
    | nil => exact fun W x y h => by rw [Node.regionAt]; rfl
    | cons i q ih =>
      intro n m W x y h
      rw [Node.find] at h
      obtain ⟨c, hc, hm⟩ := Option.bind_eq_some_iff.1 h
      rw [Node.regionAt, hc]
      exact ih _ _ _ hm
  intro q n m h
  unfold Node.reference
  rw [Option.isSome_map]
  exact at_some _ _ _ h

theorem moved_nowhere {fp : FP} {t : Rat} {o o' : Option Box} (h : Option.Rel (Box.Down fp t) o o') (h' : Option.Rel (Box.Coincides fp) o o') (hs : o.isSome) : t = 0 := by
  cases h with
  | none => cases hs
  | some h =>
    cases h' with
    | some h' =>
      have := h.top
      rw [h'.top] at this
      linarith

theorem filled_some {fp : FP} {o : Option Box} {f : Option Region} (h : Option.Rel (fun b f => b.Fills fp f) o f) (hf : f.isSome) : o.isSome := by
  cases h with
  | none => cases hf
  | some => rfl

/-- C94: the proviso of `C94_group_partial` is necessary. When every element has the same boxes with the new block and without it, either there was nothing
above the children that were put into it, or the top margin of the first of them is not larger than the margin that the block before it leaves. -/
theorem C94_necessary (fp : FP) (L : fp.Laws) (d : Display) (M M' : Nat) (html5 : Bool) (n m n1 n2 : Node) (q : List Nat) (s : CSS) (z : Intrinsic)
    (l : Option Box) (i k : Nat) (hn : n.Moderate fp d M) (hn' : (n.atPath (Node.group (.mk s z l) i k) q).Moderate fp d M')
    (hr : ∀ m, Sub m n → m.Regular fp d) (hm : n.find q = some m) (hu : (Node.mk s z l []).Undecorated) (hk : 0 < k)
    (hi : i + k ≤ m.children.length) (h1 : layout fp d html5 none n = .ok n1)
    (h2 : layout fp d html5 none (n.atPath (Node.group (.mk s z l) i k) q) = .ok n2)
    (h : ∀ r, Option.Rel (Box.Coincides fp) (n1.boxAt (q ++ r)) (n2.boxAt (q ++ groupPath i k r))) : m.RunsOn fp d i := by
  cases i with
  | zero => exact .inl rfl
  | succ i =>
    refine .inr fun c c' hc hc' => ?_
    rw [Nat.add_sub_cancel] at hc
    obtain ⟨a, b, ha, hb, k1⟩ := C94_displacement fp L d M M' html5 n m c c' q s z l i k hn hn' hr hm hu hk hi hc hc'
    cases h1.symm.trans ha
    cases h2.symm.trans hb
    obtain ⟨a, ha, hs⟩ := moderate_meets L html5 hn hr
    cases h1.symm.trans ha
    have hf : n.find (q ++ [i + 1]) = some c' := by
      rw [find_append, hm]
      simp [Node.find, hc']
    have := moved_nowhere (k1 (i + 1) []) (h [i + 1]) (filled_some (hs _) (reference_some hf))
    rw [if_neg (by omega), neg_eq_zero] at this
    have := le_max_right 0 (c'.marginTop fp d - c.edgeBottom fp d)
    linarith

/-- C95: between two children the proviso of `C95_insert_partial` is necessary. When every element has the same boxes with the empty block and without it,
one of the margins above and below it is 0, or the one below is negative. -/
theorem C95_necessary (fp : FP) (L : fp.Laws) (d : Display) (M M' : Nat) (html5 : Bool) (n m c c' n1 n2 : Node) (q : List Nat) (s : CSS) (z : Intrinsic)
    (l : Option Box) (i : Nat) (hn : n.Moderate fp d M) (hn' : (n.atPath (Node.addChild (i + 1) (.mk s z l [])) q).Moderate fp d M')
    (hr : ∀ m, Sub m n → m.Regular fp d) (hm : n.find q = some m) (hu : (Node.mk s z l []).Undecorated)
    (hc : m.children[i]? = some c) (hc' : m.children[i + 1]? = some c') (h1 : layout fp d html5 none n = .ok n1)
    (h2 : layout fp d html5 none (n.atPath (Node.addChild (i + 1) (.mk s z l [])) q) = .ok n2)
    (h : ∀ r, Option.Rel (Box.Coincides fp) (n1.boxAt (q ++ r)) (n2.boxAt (q ++ insertPath (i + 1) r))) :
    c.edgeBottom fp d = 0 ∨ c'.marginTop fp d ≤ 0 := by
  obtain ⟨a, b, ha, hb, k1⟩ := C95_displacement fp L d M M' html5 n m c c' q s z l i hn hn' hr hm hu hc hc'
  cases h1.symm.trans ha
  cases h2.symm.trans hb
  obtain ⟨a, ha, hs⟩ := moderate_meets L html5 hn hr
  cases h1.symm.trans ha
  have hf : n.find (q ++ [i + 1]) = some c' := by
    rw [find_append, hm]
    simp [Node.find, hc']
  have := moved_nowhere (k1 (i + 1) []) (h [i + 1]) (filled_some (hs _) (reference_some hf))
  rw [if_neg (by omega)] at this
  by_contra hn
  rw [not_or, not_le] at hn
  have h0 : (0 : Rat) < c.edgeBottom fp d := by
    have := edgeBottom_nonneg (fp := fp) (d := d) c
    exact_mod_cast lt_of_le_of_ne this (Ne.symm hn.1)
  have := lt_min h0 (lt_max_of_lt_right (b := 0) hn.2)
  linarith

/-! ## Examples -/

/-- The margin of 20 pixels no longer counts when the second block is put into another one: it moves up by that much. -/
example : ∃ n1 n2, layout .b64 screen true none (pair 20 0) = .ok n1 ∧ layout .b64 screen true none ((pair 20 0).atPath (Node.group plainly 1 1) []) = .ok n2 ∧
    Option.Rel (Box.Down .b64 (-20)) (n1.boxAt [1]) (n2.boxAt [1, 0]) := by
  obtain ⟨n1, n2, e1, e2, h⟩ := C94_displacement .b64 b64_laws screen 1000 1000 true (pair 20 0) (pair 20 0) _ _ [] _ _ _ 0 1
    (moderate_test (k := 3) (by decide +kernel) (by decide +kernel) (by norm_num))
    (moderate_test (n := (pair 20 0).atPath (Node.group plainly 1 1) []) (k := 4) (by decide +kernel) (by decide +kernel) (by norm_num))
    (regularTest_sound (by decide +kernel)) rfl (plainly_bare []) (by norm_num) (by decide +kernel) rfl rfl
  have := h 1 []
  rw [if_neg (by decide), show (-max 0 _ : Rat) = -20 by decide +kernel] at this
  exact ⟨n1, n2, e1, e2, this⟩

/-- Margins of 10 and 7 pixels are no longer merged when there is an empty block between them: the second block moves down by 7 pixels. -/
example : ∃ n1 n2, layout .b64 screen true none (pair 7 10) = .ok n1 ∧
    layout .b64 screen true none ((pair 7 10).atPath (Node.addChild 1 (plainly [])) []) = .ok n2 ∧
    Option.Rel (Box.Down .b64 7) (n1.boxAt [1]) (n2.boxAt [2]) := by
  obtain ⟨n1, n2, e1, e2, h⟩ := C95_displacement .b64 b64_laws screen 1000 1000 true (pair 7 10) (pair 7 10) _ _ [] _ _ _ 0
    (moderate_test (k := 3) (by decide +kernel) (by decide +kernel) (by norm_num))
    (moderate_test (n := (pair 7 10).atPath (Node.addChild 1 (plainly [])) []) (k := 4) (by decide +kernel) (by decide +kernel) (by norm_num))
    (regularTest_sound (by decide +kernel)) rfl (plainly_bare []) rfl rfl
  have := h 1 []
  rw [if_neg (by decide), show (min _ _ : Rat) = 7 by decide +kernel] at this
  exact ⟨n1, n2, e1, e2, this⟩

/-- In a document whose sums need more than 53 bits. -/
example := C94_untroubled_displacement .b64 screen true (Huge.heap "ltr" .left .right 0) (Huge.heap "ltr" .left .right 0) _ _ [] _ _ _ 1 1
  (Huge.untroubled (by decide +kernel)) (regularTest_sound (by decide +kernel)) rfl (plainly_bare []) Whole.initial_integral (by norm_num) (by decide +kernel) rfl rfl

/-- Likewise. -/
example := C95_untroubled_displacement .b64 screen true (Huge.heap "ltr" .left .right 0) (Huge.heap "ltr" .left .right 0) _ _ [] _ _ _ 1
  (Huge.untroubled (by decide +kernel)) (regularTest_sound (by decide +kernel)) rfl (plainly_bare []) Whole.initial_integral rfl rfl

/-- What is necessary is met where nothing moved. -/
example : (pair 7 10).RunsOn .b64 screen 1 := by
  have hn : (pair 7 10).Moderate .b64 screen 1000 := moderate_test (k := 3) (by decide +kernel) (by decide +kernel) (by norm_num)
  have hn' : ((pair 7 10).atPath (Node.group plainly 1 1) []).Moderate .b64 screen 1000 :=
    moderate_test (k := 4) (by decide +kernel) (by decide +kernel) (by norm_num)
  have hr : ∀ m, Sub m (pair 7 10) → m.Regular .b64 screen := regularTest_sound (by decide +kernel)
  obtain ⟨n1, n2, e1, e2, h, _⟩ := C94_group_partial .b64 b64_laws screen 1000 1000 true (pair 7 10) (pair 7 10) [] _ _ _ 1 1 hn hn' hr rfl (plainly_bare [])
    (by norm_num) (by decide +kernel) (.inr fun c c' hc hc' => by cases hc; cases hc'; decide +kernel)
  exact C94_necessary .b64 b64_laws screen 1000 1000 true _ _ n1 n2 [] _ _ _ 1 1 hn hn' hr rfl (plainly_bare []) (by norm_num) (by decide +kernel) e1 e2 h

/-- Likewise: there is no margin below an empty block that moved nothing. -/
example (n1 n2 : Node) (h1 : layout .b64 screen true none (pair 0 10) = .ok n1)
    (h2 : layout .b64 screen true none ((pair 0 10).atPath (Node.addChild 1 (plainly [])) []) = .ok n2)
    (h : ∀ r, Option.Rel (Box.Coincides .b64) (n1.boxAt ([] ++ r)) (n2.boxAt ([] ++ insertPath 1 r))) :=
  C95_necessary .b64 b64_laws screen 1000 1000 true (pair 0 10) (pair 0 10) _ _ n1 n2 [] _ _ _ 0
    (moderate_test (k := 3) (by decide +kernel) (by decide +kernel) (by norm_num))
    (moderate_test (n := (pair 0 10).atPath (Node.addChild 1 (plainly [])) []) (k := 4) (by decide +kernel) (by decide +kernel) (by norm_num))
    (regularTest_sound (by decide +kernel)) rfl (plainly_bare []) rfl rfl h1 h2 h

end Colosseum
