import Verif.Lemmas.Erase
import Verif.Lemmas.Stack
import Verif.Lemmas.Alike
import Verif.Spec.Causal

/-!
# What precedes a node determines its box

Two documents that agree up to a node lay it out in the same way.
-/

namespace Colosseum

/-! ## Documents that agree up to a node -/

theorem before_inv {s s' : CSS} {z z' : Intrinsic} {l l' : Option Box} {cs ks : List Node} {r : List Nat}
    (h : UpTo (.mk s z l cs) (.mk s' z' l' ks) r) : s = s' ∧ z = z' ∧ l = l' ∧ ∃ xs c k cs1 ks1 q, r = xs.length :: q ∧ cs = xs ++ c :: cs1 ∧
      ks = xs ++ k :: ks1 ∧ (c = k ∨ UpTo c k q) := by
  cases h with
  | @here _ _ _ xs cs ks i q hi =>
    refine ⟨rfl, rfl, rfl, xs.take i, xs[i], xs[i], xs.drop (i + 1) ++ cs, xs.drop (i + 1) ++ ks, q, ?_, ?_, ?_, Or.inl rfl⟩
    · rw [List.length_take, Nat.min_eq_left (Nat.le_of_lt hi)]
    · rw [← List.cons_append, ← List.append_assoc, ← List.drop_eq_getElem_cons hi, List.take_append_drop]
    · rw [← List.cons_append, ← List.append_assoc, ← List.drop_eq_getElem_cons hi, List.take_append_drop]
  | deep h => exact ⟨rfl, rfl, rfl, _, _, _, _, _, _, rfl, rfl, rfl, Or.inr h⟩

theorem before_mk {s : CSS} {z : Intrinsic} {l : Option Box} {xs : List Node} {c k : Node} {cs ks : List Node} {q : List Nat} (h : c = k ∨ UpTo c k q) :
    UpTo (.mk s z l (xs ++ c :: cs)) (.mk s z l (xs ++ k :: ks)) (xs.length :: q) := by
  rcases h with rfl | h
  · have := UpTo.here (s := s) (z := z) (l := l) (xs := xs ++ [c]) (cs := cs) (ks := ks) (i := xs.length) (q := q) (by simp)
    simpa using this
  · exact .deep h

/-- The same node but for origins, or nodes that agree up to `q`. -/
def Linked (q : List Nat) (c k : Node) : Prop := c.noOrigin = k.noOrigin ∨ UpTo c.noOrigin k.noOrigin q

/-- The lists agree up to and including a child, which is linked. -/
structure Split (r : List Nat) (cs ks : List Node) (us : List Node) (c : Node) (cs1 : List Node) (vs : List Node) (k : Node) (ks1 : List Node) (q : List Nat) : Prop where
  path : r = us.length :: q
  left : cs = us ++ c :: cs1
  right : ks = vs ++ k :: ks1
  same : us.map Node.noOrigin = vs.map Node.noOrigin
  link : Linked q c k

theorem map_split {α β : Type} {f : α → β} {l : List α} {ys : List β} {y : β} {zs : List β} (h : l.map f = ys ++ y :: zs) :
    ∃ us c cs, l = us ++ c :: cs ∧ us.map f = ys ∧ f c = y ∧ cs.map f = zs := by
  obtain ⟨us, r, rfl, h1, h2⟩ := List.map_eq_append_iff.1 h
  obtain ⟨c, cs, rfl, h3, h4⟩ := List.map_eq_cons_iff.1 h2
  exact ⟨us, c, cs, rfl, h1, h3, h4⟩

theorem before_split {s s' : CSS} {z z' : Intrinsic} {l l' : Option Box} {cs ks : List Node} {r : List Nat}
    (h : UpTo (Node.mk s z l cs).noOrigin (Node.mk s' z' l' ks).noOrigin r) : s = s' ∧ z = z' ∧ l.map Box.noOrigin = l'.map Box.noOrigin ∧
      ∃ us c cs1 vs k ks1 q, Split r cs ks us c cs1 vs k ks1 q := by
  rw [noOrigin_mk, noOrigin_mk] at h
  obtain ⟨rfl, rfl, hl, xs, c, k, cs1, ks1, q, rfl, h1, h2, h3⟩ := before_inv h
  obtain ⟨us, c', cs', rfl, rfl, rfl, rfl⟩ := map_split h1
  obtain ⟨vs, k', ks', rfl, e, rfl, rfl⟩ := map_split h2
  exact ⟨rfl, rfl, hl, us, c', cs', vs, k', ks', q, by simp, rfl, rfl, e.symm, h3⟩

theorem split_of_map {r : List Nat} {cs ks cs' ks' us : List Node} {c : Node} {cs1 vs : List Node} {k : Node} {ks1 : List Node} {q : List Nat}
    (h : Split r cs ks us c cs1 vs k ks1 q) (h1 : cs'.map Node.noOrigin = cs.map Node.noOrigin) (h2 : ks'.map Node.noOrigin = ks.map Node.noOrigin) :
    ∃ us' c' cs1' vs' k' ks1', Split r cs' ks' us' c' cs1' vs' k' ks1' q := by
  rw [h.left, List.map_append, List.map_cons] at h1
  rw [h.right, List.map_append, List.map_cons] at h2
  obtain ⟨us', c', cs1', e1, e2, e3, e4⟩ := map_split h1
  obtain ⟨vs', k', ks1', e5, e6, e7, e8⟩ := map_split h2
  refine ⟨us', c', cs1', vs', k', ks1', ?_, e1, e5, by rw [e2, e6, h.same], ?_⟩
  · rw [h.path]
    congr 1
    have := congrArg List.length e2
    simpa using this.symm
  · have := h.link
    unfold Linked at this ⊢
    rw [e3, e7]
    exact this

/-! ## Results that agree up to a node -/

/-- The box without its origins, its height and its collapsed bottom margin. -/
def Box.front (b : Box) : Box := { b.noOrigin with contentHeight := none, collapse := { b.collapse with bottom := 0 } }

theorem front_of_noOrigin {b b' : Box} (h : b.noOrigin = b'.noOrigin) : b.front = b'.front := by
  have : ∀ b : Box, b.front = b.noOrigin.front := fun _ => rfl
  rw [this, h, ← this]

/-- The results at and before the end of the path agree. -/
inductive Match : Node → Node → List Nat → Prop
  | here {n m c k : Node} {i : Nat} {q : List Nat} : n.layout.map Box.front = m.layout.map Box.front → n.children[i]? = some c →
      m.children[i]? = some k → c.noOrigin = k.noOrigin → Match n m (i :: q)
  | deep {n m c k : Node} {i : Nat} {q : List Nat} : n.layout.map Box.front = m.layout.map Box.front → n.children[i]? = some c →
      m.children[i]? = some k → Match c k q → Match n m (i :: q)

/-- The same result, or results that agree up to `q`. -/
def Concur (q : List Nat) (c k : Node) : Prop := c.noOrigin = k.noOrigin ∨ Match c k q

theorem match_mk {n m c k : Node} {i : Nat} {q : List Nat} (h1 : n.layout.map Box.front = m.layout.map Box.front) (h2 : n.children[i]? = some c)
    (h3 : m.children[i]? = some k) (h : Concur q c k) : Match n m (i :: q) := by
  rcases h with h | h
  · exact .here h1 h2 h3 h
  · exact .deep h1 h2 h3 h

theorem match_inv {n m : Node} {r : List Nat} (h : Match n m r) : n.layout.map Box.front = m.layout.map Box.front ∧ ∃ i q c k, r = i :: q ∧
    n.children[i]? = some c ∧ m.children[i]? = some k ∧ Concur q c k := by
  cases h with
  | here h1 h2 h3 h => exact ⟨h1, _, _, _, _, rfl, h2, h3, Or.inl h⟩
  | deep h1 h2 h3 h => exact ⟨h1, _, _, _, _, rfl, h2, h3, Or.inr h⟩

theorem front_layout {n m : Node} (h : n.noOrigin = m.noOrigin) : n.layout.map Box.front = m.layout.map Box.front := by
  have := noOrigin_box h
  revert this
  cases n.layout <;> cases m.layout <;> intro h
  · rfl
  · cases h
  · cases h
  · exact congrArg some (front_of_noOrigin (Option.some.inj h))

theorem map_getElem {cs cs' : List Node} (h : cs'.map Node.noOrigin = cs.map Node.noOrigin) {i : Nat} {c : Node} (hc : cs[i]? = some c) :
    ∃ c', cs'[i]? = some c' ∧ c'.noOrigin = c.noOrigin := by
  have : (cs'.map Node.noOrigin)[i]? = (cs.map Node.noOrigin)[i]? := by rw [h]
  rw [List.getElem?_map, List.getElem?_map, hc] at this
  cases h' : cs'[i]? with
  | none => rw [h'] at this; cases this
  | some c' => rw [h'] at this; exact ⟨c', rfl, Option.some.inj this⟩

theorem match_congr {n m : Node} {q : List Nat} (h : Match n m q) : ∀ {n' m' : Node}, n'.noOrigin = n.noOrigin → m'.noOrigin = m.noOrigin → Match n' m' q := by
  induction h with
  | @here n m c k i q h1 h2 h3 h =>
    intro n' m' e1 e2
    obtain ⟨c', g1, g2⟩ := map_getElem (noOrigin_kids e1) h2
    obtain ⟨k', g3, g4⟩ := map_getElem (noOrigin_kids e2) h3
    exact .here (by rw [front_layout e1, front_layout e2, h1]) g1 g3 (by rw [g2, g4, h])
  | @deep n m c k i q h1 h2 h3 h ih =>
    intro n' m' e1 e2
    obtain ⟨c', g1, g2⟩ := map_getElem (noOrigin_kids e1) h2
    obtain ⟨k', g3, g4⟩ := map_getElem (noOrigin_kids e2) h3
    exact .deep (by rw [front_layout e1, front_layout e2, h1]) g1 g3 (ih g2 g4)

theorem Concur.congr {c k c' k' : Node} {q : List Nat} (h : Concur q c k) (h1 : c'.noOrigin = c.noOrigin) (h2 : k'.noOrigin = k.noOrigin) : Concur q c' k' := by
  rcases h with h | h
  · exact Or.inl (by rw [h1, h2, h])
  · exact Or.inr (match_congr h h1 h2)

theorem before_match {n m : Node} {r : List Nat} (h : UpTo n m r) : Match n m r := by
  induction h with
  | @here s z l xs cs ks i q hi =>
    exact .here rfl (show (xs ++ cs)[i]? = some xs[i] by simp [List.getElem?_append_left hi]) (show (xs ++ ks)[i]? = some xs[i] by simp [List.getElem?_append_left hi]) rfl
  | @deep s z l xs cs ks c k q _ ih =>
    exact .deep rfl (show (xs ++ c :: cs)[xs.length]? = some c by simp) (show (xs ++ k :: ks)[xs.length]? = some k by simp) ih

theorem linked_out {q : List Nat} {c k : Node} (h : Linked q c k) : Concur q c k := by
  rcases h with h | h
  · exact Or.inl h
  · exact Or.inr (match_congr (before_match h) (node_noOrigin_twice c).symm (node_noOrigin_twice k).symm)

theorem linked_style {q : List Nat} {c k : Node} (h : Linked q c k) : c.style = k.style ∧ c.intrinsic = k.intrinsic := by
  rcases h with h | h
  · exact ⟨by rw [← noOrigin_style, h, noOrigin_style], by rw [← noOrigin_intrinsic, h, noOrigin_intrinsic]⟩
  · obtain ⟨s, z, l, cs⟩ := c
    obtain ⟨s', z', l', ks⟩ := k
    obtain ⟨rfl, rfl, _⟩ := before_split h
    exact ⟨rfl, rfl⟩

/-! ## Phases and fronts -/

theorem front_setContent (fp : FP) (a : Axis) (v : Num) {b b' : Box} (cs ks : List Node) (h : b.front = b'.front) :
    (setContent fp a v b cs).1.front = (setContent fp a v b' ks).1.front := by
  have e : ∀ b : Box, (b.pos a).content = (b.front.pos a).content := by intro b; cases a <;> rfl
  have key : ∀ (b : Box) (cs : List Node), (setContent fp a v b cs).1.front =
      if v.pyEq (b.front.pos a).content then b.front else b.front.setPos a ⟨.int 0, v⟩ := by
    intro b cs
    unfold setContent
    rw [e]
    split
    · rfl
    · cases a <;> rfl
  rw [key, key, h]

theorem front_margin {b b' : Box} (h : b.front = b'.front) : b.margin = b'.margin := by have := congrArg Box.margin h; exact this
theorem front_border {b b' : Box} (h : b.front = b'.front) : b.border = b'.border := by have := congrArg Box.border h; exact this
theorem front_padding {b b' : Box} (h : b.front = b'.front) : b.padding = b'.padding := by have := congrArg Box.padding h; exact this
theorem front_width {b b' : Box} (h : b.front = b'.front) : b.contentWidth = b'.contentWidth := by have := congrArg Box.contentWidth h; exact this
theorem front_dirty {b b' : Box} (h : b.front = b'.front) : b.dirty = b'.dirty := by have := congrArg Box.dirty h; exact this
theorem front_content {b b' : Box} (h : b.front = b'.front) (a : Axis) : (b.pos a).content = (b'.pos a).content := by
  cases a
  · have := congrArg (fun b => b.v.content) h; exact this
  · have := congrArg (fun b => b.h.content) h; exact this
theorem front_top {b b' : Box} (h : b.front = b'.front) : b.v.content = b'.v.content := front_content h .v
theorem front_left {b b' : Box} (h : b.front = b'.front) : b.h.content = b'.h.content := front_content h .h
theorem front_collapse {b b' : Box} (h : b.front = b'.front) : b.collapse.top = b'.collapse.top := by
  have := congrArg (fun b => b.collapse.top) h; exact this

theorem front_height (b : Box) (w : Option Num) : ({ b with contentHeight := w } : Box).front = b.front := rfl

theorem front_setBottom (b : Box) (x : MVal) : (b.setCollapse .bottom x).front = b.front := by
  unfold Box.setCollapse
  split
  · split <;> rfl
  · rfl

theorem front_autoMargin {b b' : Box} (t : Side) (h : b.noOrigin = b'.noOrigin) : (autoMarginToZero b t).noOrigin = (autoMarginToZero b' t).noOrigin := by
  rw [autoMargin_erase, autoMargin_erase, h]

theorem placeTop_front {fp : FP} {b b' b1 b1' : Box} {cs ks cs1 ks1 : List Node} (hb : b.front = b'.front)
    (h : placeTopInline fp b cs = .ok (b1, cs1)) (h' : placeTopInline fp b' ks = .ok (b1', ks1)) : b1.front = b1'.front := by
  unfold placeTopInline at h h'
  rw [front_margin hb] at h
  obtain ⟨mt, g, h⟩ := bind_eq_ok.1 h
  obtain ⟨mt', g', h'⟩ := bind_eq_ok.1 h'
  rw [g] at g'
  cases g'
  rw [front_top hb, front_border hb, front_padding hb] at h
  have e1 := congrArg Prod.fst (Except.ok.inj h)
  have e2 := congrArg Prod.fst (Except.ok.inj h')
  simp only at e1 e2
  rw [← e1, ← e2]
  exact front_setContent _ _ _ _ _ hb

theorem contentHeight_front {fp : FP} {s : CSS} {p : Option CSS} {c : PxCtx} {b b1 : Box} {cs : List Node} {h : Num}
    (hh : blockContentHeight fp s p c b cs = .ok (h, b1)) : b1.front = b.front := by
  unfold blockContentHeight at hh
  split at hh
  · split at hh
    · split at hh
      · cases hh
      · obtain ⟨x, _, hh⟩ := bind_eq_ok.1 hh
        cases hh
        exact front_setBottom ..
    · split at hh
      · cases hh; rfl
      · obtain ⟨x, _, hh⟩ := bind_eq_ok.1 hh
        cases hh; rfl
  · obtain ⟨x, _, hh⟩ := bind_eq_ok.1 hh
    cases hh; rfl

theorem height_front {fp : FP} {s : CSS} {z : Intrinsic} {p : Option CSS} {c : PxCtx} {b b' b1 b1' : Box} {cs ks cs1 ks1 : List Node}
    (hb : b.noOrigin = b'.noOrigin) (h : heightAndMargins fp s z p c b cs = .ok (b1, cs1)) (h' : heightAndMargins fp s z p c b' ks = .ok (b1', ks1)) :
    b1.front = b1'.front := by
  have ha := front_of_noOrigin (front_autoMargin .bottom (front_autoMargin .top hb))
  unfold heightAndMargins at h h'
  split at h
  · cases h
  split at h
  · cases h
  split at h
  · simp only [*] at h'
    split at h
    · simp only [*] at h'
      obtain ⟨x, _, h⟩ := bind_eq_ok.1 h
      obtain ⟨x', _, h'⟩ := bind_eq_ok.1 h'
      exact placeTop_front (b := { (autoMarginToZero (autoMarginToZero b .top) .bottom) with contentHeight := some x })
        (b' := { (autoMarginToZero (autoMarginToZero b' .top) .bottom) with contentHeight := some x' }) ha h h'
    · simp only [*] at h'
      exact placeTop_front (b := { b with contentHeight := z.height }) (b' := { b' with contentHeight := z.height })
        (show b.front = b'.front from front_of_noOrigin hb) h h'
  split at h
  · simp only [*] at h'
    split at h
    · cases h
    · simp only [*] at h'
      obtain ⟨⟨x, b2⟩, g, h⟩ := bind_eq_ok.1 h
      obtain ⟨⟨x', b2'⟩, g', h'⟩ := bind_eq_ok.1 h'
      have e : b2.front = b2'.front := by rw [contentHeight_front g, contentHeight_front g', ha]
      have e1 := congrArg Prod.fst (Except.ok.inj h)
      have e2 := congrArg Prod.fst (Except.ok.inj h')
      simp only at e1 e2
      have hv : b2.v.content.add fp (b2.border.top.add fp b2.padding.top) = b2'.v.content.add fp (b2'.border.top.add fp b2'.padding.top) := by
        rw [front_top e, front_border e, front_padding e]
      rw [← e1, ← e2, hv]
      exact front_setContent _ _ _ _ _ (show b2.front = b2'.front from e)
  split at h <;> cases h

theorem relative_front {fp : FP} {s : CSS} {cb cb' : CB} {hz vt : PxCtx} {b b' b1 b1' : Box} {cs ks cs1 ks1 : List Node} (hcb : cb.Agree cb')
    (hb : b.front = b'.front) (h : applyRelative fp s cb hz vt b cs = .ok (b1, cs1)) (h' : applyRelative fp s cb' hz vt b' ks = .ok (b1', ks1)) :
    b1.front = b1'.front := by
  unfold applyRelative at h h'
  split at h
  · simp only [*] at h'
    rw [hcb.offset fp] at h
    obtain ⟨dx, g, h⟩ := bind_eq_ok.1 h
    obtain ⟨dx', g', h'⟩ := bind_eq_ok.1 h'
    rw [g] at g'
    cases g'
    simp only at h h'
    rw [hcb.offset fp] at h
    obtain ⟨dy, g, h⟩ := bind_eq_ok.1 h
    obtain ⟨dy', g', h'⟩ := bind_eq_ok.1 h'
    rw [g] at g'
    cases g'
    have e1 := congrArg Prod.fst (Except.ok.inj h)
    have e2 := congrArg Prod.fst (Except.ok.inj h')
    simp only at e1 e2
    rw [front_left hb] at e1
    have e := front_setContent fp .h (b'.h.content.add fp dx) cs ks hb
    rw [front_top e] at e1
    rw [← e1, ← e2]
    exact front_setContent _ _ _ _ _ e
  · simp only [*] at h'
    cases h; cases h'
    exact hb

/-! ## The children -/

theorem stacked_inv {fp : FP} {lay : Box → Node → Res Node} {b b2 : Box} {off : Num} {bm : Option Int} {c : Node} {cs L : List Node}
    (h : Stacked fp lay b off bm (c :: cs) b2 L) : ∃ c1 b1 c' off1 bm1 L', lay b c = .ok c1 ∧ stackChild fp b off bm c1 = .ok (b1, c', off1, some bm1) ∧
      Stacked fp lay b1 off1 (some bm1) cs b2 L' ∧ L = c' :: L' := by
  cases h with
  | cons h1 h2 h3 h4 =>
    have e : ∀ (v : Num) (b : Box) (cs : List Node), (setContent fp .v v b cs).1.collapse = b.collapse := by
      intro v b cs; unfold setContent; split <;> rfl
    rw [← e] at h4
    refine ⟨_, _, _, _, _, _, h1, ?_, h4, rfl⟩
    simp only [stackChild, bind_of_ok h2]
    rw [h3]
    rfl

theorem stacked_box {fp : FP} {lay : Box → Node → Res Node} {b b' : Box} {off : Num} {bm : Option Int} {cs L : List Node}
    (h : Stacked fp lay b off bm cs b' L) : bm ≠ none → b' = b := by
  induction h with
  | nil => intro _; rfl
  | cons _ h2 _ _ ih =>
    intro hn
    rw [ih (by simp)]
    unfold collapseAbove at h2
    split at h2
    · exact absurd rfl hn
    · obtain ⟨_, _, h2⟩ := bind_eq_ok.1 h2
      cases h2; rfl

theorem stack_out {fp : FP} {q : List Nat} {b b' b1 b1' : Box} {off o1 o1' : Num} {bm m1 m1' : Option Int} {c k c' k' : Node} (h : Concur q c k)
    (hb : b.noOrigin = b'.noOrigin) (h1 : stackChild fp b off bm c = .ok (b1, c', o1, m1)) (h2 : stackChild fp b' off bm k = .ok (b1', k', o1', m1')) :
    b1.noOrigin = b1'.noOrigin ∧ Concur q c' k' := by
  rcases h with h | h
  · obtain ⟨x, g, e⟩ := (stack_erase fp off bm hb h).ok h1
    rw [h2] at g
    cases g
    simp only [eraseStack, Prod.mk.injEq] at e
    exact ⟨e.1, Or.inl e.2.1⟩
  · obtain ⟨s, z, cb, cs, of1, hh, rfl, g1, g2, rfl, rfl, rfl⟩ := stackChild_inv h1
    obtain ⟨s', z', cb', ks, of2, hh', rfl, g1', g2', rfl, rfl, rfl⟩ := stackChild_inv h2
    obtain ⟨hf, i, q, c1, k1, rfl, e1, e2, ho⟩ := match_inv h
    have hf : cb.front = cb'.front := Option.some.inj hf
    have key : b1.noOrigin = b1'.noOrigin ∧ of1 = of2 := by
      unfold collapseAbove at g1 g1'
      cases bm with
      | none =>
        cases g1; cases g1'
        exact ⟨by rw [setCollapse_erase, setCollapse_erase, hb, front_collapse hf], rfl⟩
      | some m =>
        obtain ⟨mt, g3, g1⟩ := bind_eq_ok.1 g1
        obtain ⟨mt', g3', g1'⟩ := bind_eq_ok.1 g1'
        rw [front_margin hf, g3'] at g3
        cases g3
        cases g1; cases g1'
        exact ⟨hb, rfl⟩
    obtain ⟨hb1, rfl⟩ := key
    refine ⟨hb1, Or.inr ?_⟩
    obtain ⟨c2, g3, g4⟩ := map_getElem (setContent_noOrigin fp .v (cb.v.content.add fp of1) cb cs) e1
    obtain ⟨k2, g5, g6⟩ := map_getElem (setContent_noOrigin fp .v (cb'.v.content.add fp of1) cb' ks) e2
    refine match_mk ?_ g3 g5 (ho.congr g4 g6)
    rw [front_top hf]
    exact congrArg some (front_setContent _ _ _ _ _ hf)

theorem stacked_causal {fp : FP} {lay lay' : Box → Node → Res Node} {q : List Nat} (hl : Erases lay lay') {c k : Node}
    (hm : ∀ b b' c' k', b.noOrigin = b'.noOrigin → lay b c = .ok c' → lay' b' k = .ok k' → Concur q c' k') :
    ∀ {us vs cs1 ks1 L L' : List Node} {b b' b2 b2' : Box} {off : Num} {bm : Option Int}, us.map Node.noOrigin = vs.map Node.noOrigin → b.noOrigin = b'.noOrigin →
      Stacked fp lay b off bm (us ++ c :: cs1) b2 L → Stacked fp lay' b' off bm (vs ++ k :: ks1) b2' L' →
      b2.noOrigin = b2'.noOrigin ∧ ∃ c2 k2, L[us.length]? = some c2 ∧ L'[us.length]? = some k2 ∧ Concur q c2 k2 := by
  intro us
  induction us with
  | nil =>
    intro vs cs1 ks1 L L' b b' b2 b2' off bm hu hb h h'
    cases vs with
    | cons _ _ => cases hu
    | nil =>
      obtain ⟨c1, b1, c', o1, m1, L1, g1, g2, g3, rfl⟩ := stacked_inv h
      obtain ⟨k1, b1', k', o1', m1', L1', g1', g2', g3', rfl⟩ := stacked_inv h'
      obtain ⟨e1, e2⟩ := stack_out (hm _ _ _ _ hb g1 g1') hb g2 g2'
      rw [stacked_box g3 (by simp), stacked_box g3' (by simp)]
      exact ⟨e1, c', k', rfl, rfl, e2⟩
  | cons u us ih =>
    intro vs cs1 ks1 L L' b b' b2 b2' off bm hu hb h h'
    cases vs with
    | nil => cases hu
    | cons v vs =>
      injection hu with hu1 hu2
      obtain ⟨c1, b1, c', o1, m1, L1, g1, g2, g3, rfl⟩ := stacked_inv h
      obtain ⟨k1, b1', k', o1', m1', L1', g1', g2', g3', rfl⟩ := stacked_inv h'
      obtain ⟨x, e0, e1⟩ := (hl _ _ _ _ hb hu1).ok g1
      rw [g1'] at e0
      cases e0
      obtain ⟨x, e0, e2⟩ := (stack_erase fp off bm hb e1).ok g2
      rw [g2'] at e0
      cases e0
      simp only [eraseStack, Prod.mk.injEq, Option.some.injEq] at e2
      obtain ⟨e2, _, rfl, rfl⟩ := e2
      obtain ⟨r1, c2, k2, r2, r3, r4⟩ := ih hu2 e2 g3 g3'
      exact ⟨r1, c2, k2, r2, r3, r4⟩

theorem stacked_same {fp : FP} {lay lay' : Box → Node → Res Node} (hl : Erases lay lay') :
    ∀ {us vs L L' : List Node} {b b' b2 b2' : Box} {off : Num} {bm : Option Int}, us.map Node.noOrigin = vs.map Node.noOrigin → b.noOrigin = b'.noOrigin →
      Stacked fp lay b off bm us b2 L → Stacked fp lay' b' off bm vs b2' L' → b2.noOrigin = b2'.noOrigin := by
  intro us
  induction us with
  | nil =>
    intro vs L L' b b' b2 b2' off bm hu hb h h'
    cases vs with
    | cons _ _ => cases hu
    | nil => cases h; cases h'; exact hb
  | cons u us ih =>
    intro vs L L' b b' b2 b2' off bm hu hb h h'
    cases vs with
    | nil => cases hu
    | cons v vs =>
      injection hu with hu1 hu2
      obtain ⟨c1, b1, c', o1, m1, L1, g1, g2, g3, rfl⟩ := stacked_inv h
      obtain ⟨k1, b1', k', o1', m1', L1', g1', g2', g3', rfl⟩ := stacked_inv h'
      obtain ⟨x, e0, e1⟩ := (hl _ _ _ _ hb hu1).ok g1
      rw [g1'] at e0
      cases e0
      obtain ⟨x, e0, e2⟩ := (stack_erase fp off bm hb e1).ok g2
      rw [g2'] at e0
      cases e0
      simp only [eraseStack, Prod.mk.injEq, Option.some.injEq] at e2
      obtain ⟨e2, _, rfl, rfl⟩ := e2
      exact ih hu2 e2 g3 g3'

theorem forall₂_nth {α β : Type} {R : α → β → Prop} : ∀ {us : List α} {c : α} {cs : List α} {L : List β}, List.Forall₂ R (us ++ c :: cs) L →
    ∃ c', L[us.length]? = some c' ∧ R c c' := by
  intro us
  induction us with
  | nil =>
    intro c cs L h
    cases h with
    | cons h _ => exact ⟨_, rfl, h⟩
  | cons u us ih =>
    intro c cs L h
    cases h with
    | cons _ h => exact ih h

/-- A block-level child is among the ones that are stacked, another one is not. -/
theorem pre_block {pre post us cs1 : List Node} {c : Node} (e : pre ++ post = us ++ c :: cs1) (hpost : ∀ x ∈ post, isBlockLevel x.style = false)
    (hc : isBlockLevel c.style = true) : ∃ p2, pre = us ++ c :: p2 := by
  rcases List.append_eq_append_iff.1 e with ⟨w, h1, h2⟩ | ⟨w, h1, h2⟩
  · have : c ∈ post := by rw [h2]; simp
    rw [hpost c this] at hc
    cases hc
  · cases w with
    | nil =>
      have : c ∈ post := by rw [← List.nil_append post, ← h2]; simp
      rw [hpost c this] at hc
      cases hc
    | cons x w =>
      injection h2 with h2 _
      subst h2
      exact ⟨w, h1⟩

theorem pre_other {pre post us cs1 : List Node} {c : Node} (e : pre ++ post = us ++ c :: cs1) (hpre : ∀ x ∈ pre, isBlockLevel x.style = true)
    (hpost : ∀ x ∈ post, isBlockLevel x.style = false) (hc : isBlockLevel c.style = false) :
    pre = us.filter (fun n => isBlockLevel n.style) ∧ ∀ {laid : List Node}, laid.length = pre.length → (laid ++ post)[us.length]? = some c := by
  have hf : ∀ (w : List Node), (∀ x ∈ w, isBlockLevel x.style = false) → w.filter (fun n => isBlockLevel n.style) = [] := by
    intro w hw
    rw [List.filter_eq_nil_iff]
    intro x hx
    simp [hw x hx]
  have hp : pre.filter (fun n => isBlockLevel n.style) = pre := List.filter_eq_self.2 hpre
  rcases List.append_eq_append_iff.1 e with ⟨w, h1, h2⟩ | ⟨w, h1, h2⟩
  · refine ⟨?_, fun {laid} hl => ?_⟩
    · rw [h1, List.filter_append, hp, hf w fun x hx => hpost x (by rw [h2]; simp [hx]), List.append_nil]
    · rw [h2, h1, ← List.append_assoc, List.getElem?_append_right (by simp [hl])]
      simp [hl]
  · cases w with
    | nil =>
      refine ⟨?_, fun {laid} hl => ?_⟩
      · rw [← hp, h1, List.append_nil]
      · rw [List.getElem?_append_right (by rw [hl, h1]; simp), hl, h1]
        have h2 : c :: cs1 = post := h2
        rw [← h2]
        simp
    | cons x w =>
      injection h2 with h2 _
      subst h2
      rw [hpre c (by rw [h1]; simp)] at hc
      cases hc

theorem children_causal {fp : FP} {lay lay' : Box → Node → Res Node} {s : CSS} {z : Intrinsic} {b b' b2 b2' : Box} {r : List Nat} {cs ks cs2 ks2 us : List Node}
    {c : Node} {cs1 vs : List Node} {k : Node} {ks1 : List Node} {q : List Nat} (hl : Erases lay lay') (hs : Split r cs ks us c cs1 vs k ks1 q)
    (hm : ∀ b b' c' k', b.noOrigin = b'.noOrigin → lay b c = .ok c' → lay' b' k = .ok k' → Concur q c' k') (hb : b.noOrigin = b'.noOrigin)
    (h : layoutChildren fp lay s z b cs = .ok (b2, cs2)) (h' : layoutChildren fp lay' s z b' ks = .ok (b2', ks2)) :
    b2.noOrigin = b2'.noOrigin ∧ ∃ c2 k2, cs2[us.length]? = some c2 ∧ ks2[us.length]? = some k2 ∧ Concur q c2 k2 := by
  have hst := linked_style hs.link
  have hlen : us.length = vs.length := by have := congrArg List.length hs.same; simpa using this
  have hsty : us.map Node.style = vs.map Node.style := by
    have := congrArg (List.map Node.style) hs.same
    simpa [Function.comp_def, noOrigin_style] using this
  -- the first child decides between the contexts
  have first : ∀ {lay : Box → Node → Res Node} {b b2 : Box} {cs L us : List Node} {c : Node} {cs1 pre post laid : List Node},
      establishesInline s z cs = false → cs = us ++ c :: cs1 → cs = pre ++ post → Stacked fp lay b (.int 0) none pre b2 laid →
      (∀ c ∈ pre, isBlockLevel c.style = true) → (∀ c ∈ post, isBlockLevel c.style = false) → isBlockContainer s z = true ∧
        ∃ x, (us.map Node.style ++ [c.style]).head? = some x ∧ isBlockLevel x = true := by
    intro lay b b2 cs L us c cs1 pre post laid hi e1 e2 _ hpre hpost
    unfold establishesInline at hi
    split at hi
    · rename_i hbc
      refine ⟨hbc, ?_⟩
      cases pre with
      | nil =>
        have : (cs.any fun c => isBlockLevel c.style) = true := by simpa using hi
        obtain ⟨x, hx, hy⟩ := List.any_eq_true.1 this
        rw [e2, List.nil_append] at hx
        rw [hpost x hx] at hy
        cases hy
      | cons x pre =>
        have hx := hpre x List.mem_cons_self
        rw [e1] at e2
        cases us with
        | nil =>
          injection e2 with e2 _
          exact ⟨c.style, rfl, by rw [e2]; exact hx⟩
        | cons u us =>
          injection e2 with e2 _
          exact ⟨u.style, rfl, by rw [e2]; exact hx⟩
    · cases hi
  have any : ∀ {us : List Node} {c : Node} {cs1 : List Node} {x : CSS}, (us.map Node.style ++ [c.style]).head? = some x → isBlockLevel x = true →
      ((us ++ c :: cs1).any fun c => isBlockLevel c.style) = true := by
    intro us c cs1 x hx hy
    cases us with
    | nil =>
      have : c.style = x := Option.some.inj hx
      simp [this, hy]
    | cons u us =>
      have : u.style = x := Option.some.inj hx
      simp [this, hy]
  rcases children_stacked h with ⟨hi, rfl, hf⟩ | ⟨hi, pre, post, laid, e1, rfl, hf, hpre, hpost⟩ <;>
    rcases children_stacked h' with ⟨hi', rfl, hf'⟩ | ⟨hi', pre', post', laid', e1', rfl, hf', hpre', hpost'⟩
  · rw [hs.left] at hf
    rw [hs.right] at hf'
    obtain ⟨c2, g1, g2⟩ := forall₂_nth hf
    obtain ⟨k2, g1', g2'⟩ := forall₂_nth hf'
    exact ⟨hb, c2, k2, g1, by rw [hlen]; exact g1', hm _ _ _ _ hb g2 g2'⟩
  · obtain ⟨hbc, x, hx, hy⟩ := first (L := []) hi' hs.right e1' hf' hpre' hpost'
    rw [← hsty, ← hst.1] at hx
    have := any (cs1 := cs1) hx hy
    rw [← hs.left] at this
    simp [establishesInline, hbc, this] at hi
  · obtain ⟨hbc, x, hx, hy⟩ := first (L := []) hi hs.left e1 hf hpre hpost
    rw [hsty, hst.1] at hx
    have := any (cs1 := ks1) hx hy
    rw [← hs.right] at this
    simp [establishesInline, hbc, this] at hi'
  · have e2 := e1.symm.trans hs.left
    have e2' := e1'.symm.trans hs.right
    cases hc : isBlockLevel c.style with
    | true =>
      obtain ⟨p2, rfl⟩ := pre_block e2 hpost hc
      obtain ⟨p2', rfl⟩ := pre_block e2' hpost' (by rw [← hst.1]; exact hc)
      obtain ⟨r1, c2, k2, r2, r3, r4⟩ := stacked_causal hl hm hs.same hb hf hf'
      have get : ∀ {l l' : List Node} {i : Nat} {x : Node}, l[i]? = some x → (l ++ l')[i]? = some x := by
        intro l l' i x hx
        obtain ⟨hi, _⟩ := List.getElem?_eq_some_iff.1 hx
        rw [List.getElem?_append_left hi, hx]
      exact ⟨r1, c2, k2, get r2, get r3, r4⟩
    | false =>
      obtain ⟨p1, p2⟩ := pre_other e2 hpre hpost hc
      obtain ⟨p1', p2'⟩ := pre_other e2' hpre' hpost' (by rw [← hst.1]; exact hc)
      refine ⟨stacked_same hl ?_ hb hf hf', c, k, p2 hf.length.symm, by rw [hlen]; exact p2' hf'.length.symm, linked_out hs.link⟩
      rw [p1, p1']
      have key : ∀ l : List Node, (l.filter fun n => isBlockLevel n.style).map Node.noOrigin = (l.map Node.noOrigin).filter fun n => isBlockLevel n.style := by
        intro l
        rw [List.filter_map]
        simp [Function.comp_def, noOrigin_style]
      rw [key, key, hs.same]

/-! ## One node -/

theorem width_same {fp : FP} {s : CSS} {z : Intrinsic} {c : PxCtx} {b b' b2 b2' : Box} {cs ks cs2 ks2 : List Node} (hb : b.noOrigin = b'.noOrigin)
    (h : widthAndMargins fp s z c b cs = .ok (b2, cs2)) (h' : widthAndMargins fp s z c b' ks = .ok (b2', ks2)) : b2.noOrigin = b2'.noOrigin := by
  rcases uniform_width fp (fun _ => True) s z c b with ⟨e, hu⟩ | ⟨b3, ps, hu⟩
  · rw [hu cs trivial] at h; cases h
  · have h1 := hu cs trivial
    rw [h] at h1
    cases h1
    obtain ⟨x, e0, e1⟩ := (width_erase fp s z c hb (cs := ks) (cs' := ks) rfl).ok (hu ks trivial)
    rw [h'] at e0
    cases e0
    exact congrArg Prod.fst e1

theorem relativeHeight_same {fp : FP} {s : CSS} {z : Intrinsic} {p : Option CSS} {c : PxCtx} {b b' b2 b2' : Box} {cs ks cs2 ks2 : List Node}
    (hb : b.noOrigin = b'.noOrigin) (hn : cs ≠ []) (hn' : ks ≠ []) (hf : ∀ c ∈ cs, ∀ x, c.layout = some x → x.noOrigin = Box.fresh)
    (hf' : ∀ c ∈ ks, ∀ x, c.layout = some x → x.noOrigin = Box.fresh) (h : relativeHeight fp s z p c b cs = .ok (b2, cs2))
    (h' : relativeHeight fp s z p c b' ks = .ok (b2', ks2)) : b2.noOrigin = b2'.noOrigin := by
  unfold relativeHeight at h h'
  split at h
  · rename_i hr
    rw [if_pos hr] at h'
    cases hl : readsLast s with
    | false =>
      have hS : ∀ ks, SameLast s none ks := fun ks h => by rw [hl] at h; cases h
      rcases uniform_height fp s z p c b none with ⟨e, hu⟩ | ⟨b3, ps, hu⟩
      · rw [hu cs (hS _)] at h; cases h
      · have h1 := hu cs (hS _)
        rw [h] at h1
        cases h1
        obtain ⟨x, e0, e1⟩ := (height_erase fp s z p c hb (cs := ks) (cs' := ks) rfl).ok (hu ks (hS _))
        rw [h'] at e0
        cases e0
        exact congrArg Prod.fst e1
    | true =>
      have last : ∀ {b b2 : Box} {cs cs2 : List Node}, cs ≠ [] → (∀ c ∈ cs, ∀ x, c.layout = some x → x.noOrigin = Box.fresh) →
          heightAndMargins fp s z p c b cs = .ok (b2, cs2) → ∃ lb ks2, lb.noOrigin = Box.fresh ∧
            heightAndMargins fp s z p c b [.mk CSS.empty Intrinsic.initial (some lb) []] = .ok (b2, ks2) := by
        intro b b2 cs cs2 hn hf h
        rcases List.eq_nil_or_concat cs with rfl | ⟨pre, x, rfl⟩
        · exact absurd rfl hn
        rw [List.concat_eq_append] at h hf
        cases hx : x.layout with
        | none =>
          have e := uniform_height fp s z p c b (some none)
          rcases e with ⟨e, hu⟩ | ⟨b3, ps, hu⟩
          · rw [hu _ (fun _ => by simp [hx])] at h; cases h
          · exfalso
            have h1 := hu [.mk CSS.empty Intrinsic.initial none []] (fun _ => by simp [Node.layout])
            have h2 : heightAndMargins fp s z p c b [.mk CSS.empty Intrinsic.initial none []] = .error .attribute ∨
                ∃ e, heightAndMargins fp s z p c b [.mk CSS.empty Intrinsic.initial none []] = .error e := by
              right
              unfold readsLast at hl
              simp only [Bool.and_eq_true, Bool.not_eq_true'] at hl
              unfold heightAndMargins blockHeight blockContentHeight
              simp only [hl.1, hl.2, if_true, Bool.false_eq_true, if_false]
              split
              · exact ⟨_, rfl⟩
              split
              · exact ⟨_, rfl⟩
              split
              · split
                · exact ⟨_, rfl⟩
                · exact ⟨_, rfl⟩
              split <;> exact ⟨_, rfl⟩
            rcases h2 with h2 | ⟨_, h2⟩ <;> (rw [h2] at h1; cases h1)
        | some lb =>
          rcases uniform_height fp s z p c b (some (some lb)) with ⟨e, hu⟩ | ⟨b3, ps, hu⟩
          · rw [hu _ (fun _ => by simp [hx])] at h; cases h
          · have h1 := hu _ (fun _ => by simp [hx] : SameLast s (some (some lb)) (pre ++ [x]))
            rw [h] at h1
            cases h1
            exact ⟨lb, _, hf x (by simp) lb hx, hu [.mk CSS.empty Intrinsic.initial (some lb) []] (fun _ => by simp [Node.layout])⟩
      obtain ⟨lb, L, g1, g2⟩ := last hn hf h
      obtain ⟨lb', L', g1', g2'⟩ := last hn' hf' h'
      obtain ⟨x, e0, e1⟩ := (height_erase fp s z p c hb (cs := [.mk CSS.empty Intrinsic.initial (some lb) []])
        (cs' := [.mk CSS.empty Intrinsic.initial (some lb') []]) (by simp [noOrigin_mk, g1, g1'])).ok g2
      rw [g2'] at e0
      cases e0
      exact congrArg Prod.fst e1
  · rename_i hr
    rw [if_neg hr] at h'
    cases h; cases h'
    exact hb

theorem pristine_kids {s : CSS} {z : Intrinsic} {b : Box} {cs : List Node} (h : Pristine (.mk s z (some b) cs)) :
    ∀ c ∈ cs, ∀ x, c.layout = some x → x.noOrigin = Box.fresh :=
  fun _ hc x hx => h.2 _ x (.step rfl hc (.here hx))

theorem fresh_kids {cs cs' : List Node} (h : cs'.map Node.noOrigin = cs.map Node.noOrigin) (hf : ∀ c ∈ cs, ∀ x, c.layout = some x → x.noOrigin = Box.fresh) :
    ∀ c ∈ cs', ∀ x, c.layout = some x → x.noOrigin = Box.fresh := by
  intro c hc x hx
  obtain ⟨c', hc', e⟩ := noOrigin_mem h hc
  obtain ⟨x', hx', e'⟩ := noOrigin_boxOf e hx
  rw [e']
  exact hf c' hc' x' hx'

theorem layoutBox_causal (fp : FP) (d : Display) (f : Nat) : ∀ (p : Option CSS) (cb cb' : CB) (n m : Node) (r : List Nat) (n' m' : Node), cb.Agree cb' →
    Pristine n → Pristine m → UpTo n.noOrigin m.noOrigin r → layoutBox fp d f p cb n = .ok n' → layoutBox fp d f p cb' m = .ok m' → Match n' m' r := by
  induction f with
  | zero => intro p cb cb' n m r n' m' _ _ _ _ h; cases h
  | succ f ih =>
    rintro p cb cb' ⟨s, z, l, cs⟩ ⟨s', z', l', ks⟩ r n' m' hcb hp hp' hbef h h'
    obtain ⟨rfl, rfl, hll, us, c, cs1, vs, k, ks1, q, hs⟩ := before_split hbef
    have hlen : us.length = vs.length := by have := congrArg List.length hs.same; simpa using this
    rcases layoutBox_ok h with ⟨hd, rfl⟩ | ⟨hd, b, cs0, b5, cs5, hl, hbody, rfl⟩
    · rcases layoutBox_ok h' with ⟨_, rfl⟩ | ⟨hd', _⟩
      · rw [hs.path]
        refine match_mk rfl (show cs[us.length]? = some c by rw [hs.left]; simp) (show ks[us.length]? = some k by rw [hs.right, hlen]; simp) (linked_out hs.link)
      · exact absurd hd hd'
    · rcases layoutBox_ok h' with ⟨hd', _⟩ | ⟨_, b', ks0, b5', ks5, hl', hbody', rfl⟩
      · exact absurd hd' hd
      obtain ⟨x, rfl, hx⟩ := pristine_box hp hd
      obtain ⟨x', rfl, hx'⟩ := pristine_box hp' hd
      rcases hl with ⟨hl, rfl⟩ | ⟨hl, _⟩
      case inr => cases hl
      rcases hl' with ⟨hl', rfl⟩ | ⟨hl', _⟩
      case inr => cases hl'
      cases hl; cases hl'
      obtain ⟨b1, b2, cs2, b3, cs3, b4, cs4, b6, cs6, h1, h2, h3, _, _, h4, h5, h6⟩ := body_phases hbody
      obtain ⟨b1', b2', ks2, b3', ks3, b4', ks4, b6', ks6, h1', h2', h3', _, _, h4', h5', h6'⟩ := body_phases hbody'
      rw [← hcb.width, ← hcb.height] at h1' h6'
      rw [← hcb.width] at h2'
      rw [← hcb.height] at h3' h5'
      have e1 : b1.noOrigin = b1'.noOrigin := by
        obtain ⟨y, g, e⟩ := (copyEdges_erase fp s _ _ (hx.trans hx'.symm)).ok h1
        rw [h1'] at g
        cases g
        exact e
      have e2 := width_same e1 h2 h2'
      have c2 := (width_steps h2).noOrigin
      have c2' := (width_steps h2').noOrigin
      have ne : ∀ {cs cs' : List Node}, cs'.map Node.noOrigin = cs.map Node.noOrigin → cs ≠ [] → cs' ≠ [] := by
        rintro cs cs' h hc rfl
        exact hc (List.map_eq_nil_iff.1 h.symm)
      have e3 : b3.noOrigin = b3'.noOrigin := relativeHeight_same e2 (ne c2 (by rw [hs.left]; simp)) (ne c2' (by rw [hs.right]; simp))
        (fresh_kids c2 (pristine_kids hp)) (fresh_kids c2' (pristine_kids hp')) h3 h3'
      have c3 := (relativeHeight_steps h3).noOrigin.trans c2
      have c3' := (relativeHeight_steps h3').noOrigin.trans c2'
      obtain ⟨us3, c3n, cs13, vs3, k3, ks13, hs3⟩ := split_of_map hs c3 c3'
      have hpc : Pristine c3n := by
        obtain ⟨c0, hc0, e⟩ := noOrigin_mem c3 (show c3n ∈ cs3 by rw [hs3.left]; simp)
        exact pristine_passes.kid hd hp hc0 e.symm
      have hpk : Pristine k3 := by
        obtain ⟨c0, hc0, e⟩ := noOrigin_mem c3' (show k3 ∈ ks3 by rw [hs3.right]; simp)
        exact pristine_passes.kid hd hp' hc0 e.symm
      have her : Erases (fun b n => layoutBox fp d f (some s) (.box b) n) (fun b n => layoutBox fp d f (some s) (.box b) n) :=
        fun b b' c c' h1 h2 => layoutBox_erase fp d f _ _ _ _ _ h1 h2
      obtain ⟨e4, ca, ka, g1, g2, g3⟩ := children_causal her hs3 (by
        intro b b' c' k' hb hc hk
        rcases hs3.link with hlk | hlk
        · obtain ⟨y, g, e⟩ := (her b b' _ _ hb hlk).ok hc
          have g := hk.symm.trans g
          cases g
          exact Or.inl e
        · exact Or.inr (ih _ _ _ _ _ _ _ _ (show CB.Agree (.box b) (.box b') from hb) hpc hpk hlk hc hk)) e3 h4 h4'
      have e6 := relative_front hcb (height_front e4 h5 h5') h6 h6'
      obtain ⟨cz, g4, g5⟩ := map_getElem ((relative_steps h6).noOrigin.trans (height_steps h5).noOrigin) g1
      obtain ⟨kz, g6, g7⟩ := map_getElem ((relative_steps h6').noOrigin.trans (height_steps h5').noOrigin) g2
      rw [hs3.path]
      exact match_mk (congrArg some e6) g4 g6 (g3.congr g5 g7)

/-! ## Documents -/

theorem resetFuel_erase (fp : FP) (f : Nat) : ∀ (g : Nat) (n n' : Node), n.depth ≤ f → n'.depth ≤ g → n.noOrigin = n'.noOrigin →
    (n.resetFuel fp f).noOrigin = (n'.resetFuel fp g).noOrigin := by
  induction f with
  | zero => intro g n n' h; have := depth_pos n; omega
  | succ f ih =>
    rintro g ⟨s, z, l, cs⟩ ⟨s', z', l', cs'⟩ hf hg h
    cases g with
    | zero => have := depth_pos (.mk s' z' l' cs'); omega
    | succ g =>
      rw [noOrigin_mk, noOrigin_mk] at h
      injection h with e1 e2 e3 e4
      subst e1 e2
      cases l with
      | none =>
        cases l' with
        | some _ => cases e3
        | none => simp only [Node.resetFuel, noOrigin_mk, e4]
      | some b =>
        cases l' with
        | none => cases e3
        | some b' =>
          simp only [Node.resetFuel, noOrigin_mk]
          have k1 : (resetOne fp cs).2.map Node.noOrigin = cs.map Node.noOrigin := by simp only [resetOne, setOrigins_noOrigin]
          have k2 : (resetOne fp cs').2.map Node.noOrigin = cs'.map Node.noOrigin := by simp only [resetOne, setOrigins_noOrigin]
          have hd : ∀ c ∈ (resetOne fp cs).2, c.depth ≤ f := by
            intro c hc
            obtain ⟨c0, h0, e⟩ := noOrigin_mem k1 hc
            rw [depth_same (strip_of_noOrigin e)]
            have := depth_child (s := s) (z := z) (l := some b) h0
            omega
          have hd' : ∀ c ∈ (resetOne fp cs').2, c.depth ≤ g := by
            intro c hc
            obtain ⟨c0, h0, e⟩ := noOrigin_mem k2 hc
            rw [depth_same (strip_of_noOrigin e)]
            have := depth_child (s := s) (z := z) (l := some b') h0
            omega
          have hff := forall₂_of_map (k1.trans (e4.trans k2.symm))
          have : (resetOne fp cs).1 = (resetOne fp cs').1 := rfl
          rw [this]
          congr 1
          generalize (resetOne fp cs).2 = A at hd hff
          generalize (resetOne fp cs').2 = B at hd' hff
          clear k1 k2 e4 this hf hg
          induction hff with
          | nil => rfl
          | @cons c c' cs cs' he _ ih2 =>
            simp only [List.map_cons]
            rw [ih g c c' (hd _ List.mem_cons_self) (hd' _ List.mem_cons_self) he,
              ih2 (fun x hx => hd x (List.mem_cons_of_mem _ hx)) (fun x hx => hd' x (List.mem_cons_of_mem _ hx))]

theorem resetOne_kid {fp : FP} {cs : List Node} : (resetOne fp cs).2.map Node.noOrigin = cs.map Node.noOrigin := by simp only [resetOne, setOrigins_noOrigin]

/-- Resetting the children of a node. -/
theorem reset_kids (fp : FP) (f : Nat) {cs : List Node} (hd : ∀ c ∈ cs, c.depth ≤ f) :
    ((resetOne fp cs).2.map (Node.resetFuel fp f)).map Node.noOrigin = cs.map fun c => (c.reset fp).noOrigin := by
  have hff := forall₂_of_map (resetOne_kid (fp := fp) (cs := cs))
  generalize (resetOne fp cs).2 = A at hff
  induction hff with
  | nil => rfl
  | @cons c c' cs cs' he _ ih =>
    simp only [List.map_cons]
    rw [ih fun x hx => hd x (List.mem_cons_of_mem _ hx)]
    congr 1
    refine resetFuel_erase fp f _ _ _ ?_ (Nat.le_refl _) he
    rw [depth_same (strip_of_noOrigin he)]
    exact hd _ List.mem_cons_self

theorem reset_noOrigin (fp : FP) (s : CSS) (z : Intrinsic) (l : Option Box) (cs : List Node) :
    ((Node.mk s z l cs).reset fp).noOrigin = .mk s z (l.map fun _ => Box.fresh) (if l.isSome then cs.map fun c => (c.reset fp).noOrigin else cs.map Node.noOrigin) := by
  unfold Node.reset
  cases hf : (Node.mk s z l cs).depth with
  | zero => have := depth_pos (.mk s z l cs); omega
  | succ f =>
    cases l with
    | none => simp [Node.resetFuel, noOrigin_mk]
    | some b =>
      simp only [Node.resetFuel, noOrigin_mk]
      rw [reset_kids fp f fun c hc => by have := depth_child (s := s) (z := z) (l := some b) hc; omega]
      rfl

theorem before_noOrigin {n m : Node} {q : List Nat} (h : UpTo n m q) : UpTo n.noOrigin m.noOrigin q := by
  induction h with
  | here hi =>
    simp only [noOrigin_mk, List.map_append]
    exact .here (by simpa using hi)
  | @deep s z l xs cs ks c k q _ ih =>
    simp only [noOrigin_mk, List.map_append, List.map_cons]
    have := UpTo.deep (s := s) (z := z) (l := l.map Box.noOrigin) (xs := xs.map Node.noOrigin) (cs := cs.map Node.noOrigin) (ks := ks.map Node.noOrigin) ih
    simpa using this

theorem before_reset (fp : FP) {n m : Node} {q : List Nat} (h : UpTo n m q) : UpTo (n.reset fp).noOrigin (m.reset fp).noOrigin q := by
  induction h with
  | @here s z l xs cs ks i q hi =>
    rw [reset_noOrigin, reset_noOrigin]
    split
    · simp only [List.map_append]
      exact .here (by simpa using hi)
    · simp only [List.map_append]
      exact .here (by simpa using hi)
  | @deep s z l xs cs ks c k q hb ih =>
    rw [reset_noOrigin, reset_noOrigin]
    split
    · simp only [List.map_append, List.map_cons]
      have := UpTo.deep (s := s) (z := z) (l := l.map fun _ => Box.fresh) (xs := xs.map fun c => (c.reset fp).noOrigin) (cs := cs.map fun c => (c.reset fp).noOrigin)
        (ks := ks.map fun c => (c.reset fp).noOrigin) ih
      simpa using this
    · simp only [List.map_append, List.map_cons]
      have := UpTo.deep (s := s) (z := z) (l := l.map fun _ => Box.fresh) (xs := xs.map Node.noOrigin) (cs := cs.map Node.noOrigin)
        (ks := ks.map Node.noOrigin) (before_noOrigin hb)
      simpa using this

theorem finishRoot_front {fp : FP} {d : Display} {html5 : Bool} {n m n' m' : Node} {q : List Nat} (h : Match n m q) (h1 : finishRoot fp d html5 n = .ok n')
    (h2 : finishRoot fp d html5 m = .ok m') : Match n' m' q := by
  obtain ⟨s, z, b, cs, b1, rfl, rfl, rfl⟩ := finishRoot_ok h1
  obtain ⟨s', z', b', ks, b1', rfl, rfl, rfl⟩ := finishRoot_ok h2
  obtain ⟨hf, i, q, c, k, rfl, e1, e2, ho⟩ := match_inv h
  have hf : b.front = b'.front := Option.some.inj hf
  obtain ⟨c2, g3, g4⟩ := map_getElem (setContent_noOrigin fp .v (b.v.content.add fp (.int b.collapse.top)) b cs) e1
  obtain ⟨k2, g5, g6⟩ := map_getElem (setContent_noOrigin fp .v (b'.v.content.add fp (.int b'.collapse.top)) b' ks) e2
  refine match_mk ?_ g3 g5 (ho.congr g4 g6)
  have e : ∀ {x : Bool} {b : Box} {y : Option Num}, (if x then ({ b with contentHeight := y } : Box) else b).front = b.front := by
    intro x b y; cases x <;> rfl
  have ev : b.v.content.add fp (.int b.collapse.top) = b'.v.content.add fp (.int b'.collapse.top) := by rw [front_top hf, front_collapse hf]
  refine congrArg some ?_
  rw [e, e, ev]
  exact front_setContent _ _ _ _ _ hf

theorem layout_causal {fp : FP} {d : Display} {html5 : Bool} {p : Option CSS} {n m n' m' : Node} {q : List Nat} (hn : AllBoxed n) (hm : AllBoxed m)
    (hb : UpTo n m q) (h : layout fp d html5 p n = .ok n') (h' : layout fp d html5 p m = .ok m') : Match n' m' q := by
  obtain ⟨n1, h1, h2, _⟩ := layout_ok h
  obtain ⟨m1, h1', h2', _⟩ := layout_ok h'
  have dn : (n.reset fp).depth = n.depth := depth_same (strip_reset fp n)
  have dm : (m.reset fp).depth = m.depth := depth_same (strip_reset fp m)
  rw [layoutBox_fuel fp d _ (max n.depth m.depth) _ _ _ (by omega) (by omega)] at h1
  rw [layoutBox_fuel fp d _ (max n.depth m.depth) _ _ _ (by omega) (by omega)] at h1'
  exact finishRoot_front (layoutBox_causal fp d _ _ _ _ _ _ _ _ _ (show CB.Agree (.viewport d) (.viewport d) from rfl) (pristine_reset fp hn)
    (pristine_reset fp hm) (before_reset fp hb) h1 h1') h2 h2'

/-! ## Paths -/

theorem boxAt_noOrigin : ∀ (q : List Nat) {n m : Node}, n.noOrigin = m.noOrigin → (n.boxAt q).map Box.noOrigin = (m.boxAt q).map Box.noOrigin := by
  intro q
  induction q with
  | nil => intro n m h; exact noOrigin_box h
  | cons i q ih =>
    intro n m h
    have hl := noOrigin_box h
    have hk := noOrigin_kids h
    simp only [Node.boxAt]
    have e : n.layout.isSome = m.layout.isSome := by
      revert hl
      cases n.layout <;> cases m.layout <;> simp
    rw [e]
    split
    · cases hc : n.children[i]? with
      | none =>
        cases hm : m.children[i]? with
        | none => rfl
        | some k =>
          obtain ⟨c, h1, _⟩ := map_getElem hk hm
          rw [hc] at h1; cases h1
      | some c =>
        obtain ⟨k, h1, h2⟩ := map_getElem hk.symm hc
        rw [h1]
        exact ih h2.symm
    · rfl

theorem match_boxAt {n m : Node} {q : List Nat} (h : Match n m q) : (n.boxAt q).map Box.noOrigin = (m.boxAt q).map Box.noOrigin := by
  have some_iff : ∀ {x y : Option Box}, x.map Box.front = y.map Box.front → x.isSome = y.isSome := by
    intro x y; cases x <;> cases y <;> simp
  induction h with
  | here h1 h2 h3 h =>
    simp only [Node.boxAt, h2, h3, some_iff h1]
    split
    · exact boxAt_noOrigin _ h
    · rfl
  | deep h1 h2 h3 _ ih =>
    simp only [Node.boxAt, h2, h3, some_iff h1]
    split
    · exact ih
    · rfl

theorem match_prefix {n m : Node} {q : List Nat} (h : Match n m q) : ∀ r, r <+: q → (n.boxAt r).map Box.front = (m.boxAt r).map Box.front := by
  have some_iff : ∀ {x y : Option Box}, x.map Box.front = y.map Box.front → x.isSome = y.isSome := by
    intro x y; cases x <;> cases y <;> simp
  have fr : ∀ {x y : Option Box}, x.map Box.noOrigin = y.map Box.noOrigin → x.map Box.front = y.map Box.front := by
    intro x y h
    have e : ∀ x : Option Box, x.map Box.front = (x.map Box.noOrigin).map Box.front := by intro x; cases x <;> rfl
    rw [e, h, ← e]
  induction h with
  | here h1 h2 h3 h =>
    intro r hr
    cases r with
    | nil => exact h1
    | cons j r =>
      obtain ⟨rfl, _⟩ := List.cons_prefix_cons.1 hr
      simp only [Node.boxAt, h2, h3, some_iff h1]
      split
      · exact fr (boxAt_noOrigin _ h)
      · rfl
  | deep h1 h2 h3 _ ih =>
    intro r hr
    cases r with
    | nil => exact h1
    | cons j r =>
      obtain ⟨rfl, hr'⟩ := List.cons_prefix_cons.1 hr
      simp only [Node.boxAt, h2, h3, some_iff h1]
      split
      · exact ih r hr'
      · rfl

/-- The boxes on the way to a box. -/
theorem boxAt_shown : ∀ (q : List Nat) {n : Node} {b : Box}, n.boxAt q = some b → ∃ bs, Shown n bs b ∧ bs.length = q.length ∧
    ∀ i < q.length, bs[i]? = n.boxAt (q.take i) := by
  intro q
  induction q with
  | nil => intro n b h; exact ⟨[], .here h, rfl, by simp⟩
  | cons j q ih =>
    intro n b h
    simp only [Node.boxAt] at h
    split at h
    · rename_i hl
      obtain ⟨x, hx⟩ := Option.isSome_iff_exists.1 hl
      obtain ⟨c, hc, h⟩ := Option.bind_eq_some_iff.1 h
      obtain ⟨bs, h1, h2, h3⟩ := ih h
      refine ⟨x :: bs, .step hx (List.mem_of_getElem? hc) h1, by simp [h2], ?_⟩
      intro i hi
      cases i with
      | zero => exact hx.symm
      | succ i =>
        have := h3 i (by simpa using hi)
        rw [List.getElem?_cons_succ, this, List.take_succ_cons]
        simp [Node.boxAt, hx, hc]
    · cases h

end Colosseum
