import Verif.Lemmas.Trace
import Verif.Props.Style

/-!
# C37–C41: boxes, dirty flags, positions, collapsed margins
-/

namespace Colosseum

/-! ## What each operation keeps -/

/-- An operation on the node a path leads to. -/
def Node.doAt (E : Env) (p : List Nat) (o : NodeOp) (n : Node) : Node := n.atPath (fun m => (m.apply E o).1) p

theorem onStyle_cases (E : Env) (o : Op) (ho : ∀ l, o ≠ .bind l) (at_ : List Nat) (n : Node) :
    ∃ s', (n.onStyle fun d => d.step E at_ o).1 = .mk s' n.intrinsic n.layout n.children ∨
      (n.onStyle fun d => d.step E at_ o).1 = (Node.mk s' n.intrinsic n.layout n.children).setDirty (some true) := by
  cases n with
  | mk s z l cs =>
    cases l with
    | none =>
      refine ⟨(Decl.step E at_ ⟨s, .noBox⟩ o).1.css, Or.inl ?_⟩
      simp only [Node.onStyle]
      rfl
    | some b =>
      refine ⟨(Decl.step E at_ ⟨s, .box b.dirty⟩ o).1.css, ?_⟩
      have hl := C36_changes_mark E at_ ⟨s, .box b.dirty⟩ b.dirty rfl o ho
      simp only [Node.onStyle]
      generalize Decl.step E at_ ⟨s, .box b.dirty⟩ o = r at hl
      obtain ⟨⟨css, link⟩, e⟩ := r
      rcases hl with hl | hl
      · cases hl
        refine Or.inl ?_
        simp only [Node.setDirty, if_pos]
        rfl
      · simp only at hl
        subst hl
        exact Or.inr rfl

theorem apply_style_cases (E : Env) (o : NodeOp) (n : Node) (h : (∃ at_ a v, o = .setStyle at_ a v) ∨ ∃ a, o = .delStyle a) :
    ∃ s', (n.apply E o).1 = .mk s' n.intrinsic n.layout n.children ∨
      (n.apply E o).1 = (Node.mk s' n.intrinsic n.layout n.children).setDirty (some true) := by
  rcases h with ⟨at_, a, v, rfl⟩ | ⟨a, rfl⟩
  · exact onStyle_cases E (.setAttr a v) (by simp) at_ n
  · exact onStyle_cases E (.delAttr a) (by simp) [] n

theorem apply_size_cases (n : Node) (x : SizeAttr) :
    ∃ z', (n.setSize x).1 = .mk n.style z' n.layout n.children ∨
      (n.setSize x).1 = (Node.mk n.style z' n.layout n.children).setDirty (some true) := by
  cases n with
  | mk s z l cs =>
    simp only [Node.setSize]
    cases h : z.assign x with
    | none => exact ⟨z, Or.inl rfl⟩
    | some z' =>
      cases l with
      | none => exact ⟨z', Or.inl rfl⟩
      | some b => exact ⟨z', Or.inr rfl⟩

/-! ## C37 -/

theorem dirtyDown_same {s s' : CSS} {z z' : Intrinsic} {l l' : Option Box} {cs : List Node}
    (e : l'.map Box.dirty = l.map Box.dirty) (h : DirtyDown (.mk s z l cs)) : DirtyDown (.mk s' z' l' cs) := by
  rw [dirtyDown_mk] at h ⊢
  refine ⟨fun hl => h.1 ?_, h.2⟩
  intro b hb
  subst hb
  cases l' with
  | none => cases e
  | some b' =>
    simp only [Option.map_some, Option.some.injEq] at e
    unfold Box.Dirty
    rw [← e]
    exact hl b' rfl

theorem setContent_down (fp : FP) (a : Axis) (v : Num) (s : CSS) (z : Intrinsic) (b : Box) (cs : List Node)
    (h : DirtyDown (.mk s z (some b) cs)) :
    DirtyDown (.mk s z (some (setContent fp a v b cs).1) (setContent fp a v b cs).2) ∧
    (setContent fp a v b cs).1.dirty = b.dirty := by
  unfold setContent
  split
  · exact ⟨h, rfl⟩
  · refine ⟨?_, dirty_setPos ..⟩
    rw [dirtyDown_mk] at h
    simp only [setOrigins_map]
    rw [dirtyDown_mk]
    refine ⟨?_, ?_⟩
    · intro hb c hc cb hcb
      obtain ⟨c0, hc0, rfl⟩ := List.mem_map.1 hc
      have e := (setOrigin_dirty fp a c0 (Box.absContent fp (b.setPos a { b.pos a with content := v }) a)).2
      rw [hcb, Option.map_some] at e
      cases hl : c0.layout with
      | none => rw [hl] at e; cases e
      | some b0 =>
        rw [hl, Option.map_some, Option.some.injEq] at e
        unfold Box.Dirty
        rw [e]
        refine h.1 ?_ c0 hc0 b0 hl
        intro b' hb'
        cases hb'
        have := hb _ rfl
        unfold Box.Dirty at this ⊢
        rwa [dirty_setPos] at this
    · intro c hc
      obtain ⟨c0, hc0, rfl⟩ := List.mem_map.1 hc
      exact (setOrigin_dirty fp a c0 _).1 (h.2 c0 hc0)

theorem setMargin_dirty (b : Box) (t : Side) (x : MVal) : (b.setMargin t x).dirty = b.dirty := by
  unfold Box.setMargin Box.setCollapse
  split
  · rfl
  · split
    · split <;> rfl
    · rfl

theorem setCollapse_dirty (b : Box) (t : Side) (x : MVal) : (b.setCollapse t x).dirty = b.dirty := by
  unfold Box.setCollapse
  split
  · split <;> rfl
  · rfl

theorem apply_down (E : Env) (o : NodeOp) : KeepsDown fun m => (m.apply E o).1 := by
  rintro ⟨s, z, l, cs⟩ h
  cases o with
  | move a v =>
    cases l with
    | none => exact h
    | some b => exact (setContent_down E.fp a v s z b cs h).1
  | margin t v =>
    cases l with
    | none => exact h
    | some b => exact dirtyDown_same (by simp [setMargin_dirty]) h
  | collapse t v =>
    cases l with
    | none => exact h
    | some b => exact dirtyDown_same (by simp [setCollapse_dirty]) h
  | dirty v => exact setDirty_down v _ h
  | reset => exact dirtyDown_of_all (reset_dirty h)
  | size x =>
    obtain ⟨z', e | e⟩ := apply_size_cases (.mk s z l cs) x
    · show DirtyDown ((Node.mk s z l cs).setSize x).1
      rw [e]; exact dirtyDown_same rfl h
    · show DirtyDown ((Node.mk s z l cs).setSize x).1
      rw [e]; exact setDirty_down _ _ (dirtyDown_same rfl h)
  | setStyle at_ a v =>
    obtain ⟨s', e | e⟩ := apply_style_cases E (.setStyle at_ a v) (.mk s z l cs) (Or.inl ⟨_, _, _, rfl⟩)
    · simp only [e]; exact dirtyDown_same rfl h
    · simp only [e]; exact setDirty_down _ _ (dirtyDown_same rfl h)
  | delStyle a =>
    obtain ⟨s', e | e⟩ := apply_style_cases E (.delStyle a) (.mk s z l cs) (Or.inr ⟨_, rfl⟩)
    · simp only [e]; exact dirtyDown_same rfl h
    · simp only [e]; exact setDirty_down _ _ (dirtyDown_same rfl h)

theorem resetFuel_layout (fp : FP) (f : Nat) (n : Node) (b : Box) (h : (n.resetFuel fp f).layout = some b) :
    n.layout = some b ∨ b = Box.fresh := by
  cases f with
  | zero => exact Or.inl h
  | succ f =>
    cases n with
    | mk s z l cs =>
      cases l with
      | none => exact Or.inl h
      | some b0 =>
        simp only [Node.resetFuel, resetOne, Node.layout, Option.some.injEq] at h
        exact Or.inr h.symm

theorem apply_noClean (E : Env) (o : NodeOp) (ho : ∀ v, o = .dirty v → v = some true) :
    NoClean fun m => (m.apply E o).1 := by
  rintro ⟨s, z, l, cs⟩ h b hb
  cases o with
  | move a v =>
    cases l with
    | none => cases hb
    | some b0 =>
      simp only [Node.apply, Node.move, Node.layout, Option.some.injEq] at hb
      subst hb
      unfold Box.Dirty
      have : (setContent E.fp a v b0 cs).1.dirty = b0.dirty := by
        unfold setContent
        split
        · rfl
        · exact dirty_setPos ..
      rw [this]
      exact h b0 rfl
  | margin t v =>
    cases l with
    | none => cases hb
    | some b0 =>
      simp only [Node.apply, Node.setMargin, Node.layout, Option.some.injEq] at hb
      subst hb
      unfold Box.Dirty
      rw [setMargin_dirty]
      exact h b0 rfl
  | collapse t v =>
    cases l with
    | none => cases hb
    | some b0 =>
      simp only [Node.apply, Node.setCollapse, Node.layout, Option.some.injEq] at hb
      subst hb
      unfold Box.Dirty
      rw [setCollapse_dirty]
      exact h b0 rfl
  | dirty v =>
    obtain rfl := ho v rfl
    exact (setDirty_layout (some true) _).2 b hb
  | reset =>
    rcases resetFuel_layout _ _ _ _ hb with hb | rfl
    · exact h b hb
    · rfl
  | size x =>
    obtain ⟨z', e | e⟩ := apply_size_cases (.mk s z l cs) x
    · have hb : ((Node.mk s z l cs).setSize x).1.layout = some b := hb
      rw [e] at hb; exact h b hb
    · have hb : ((Node.mk s z l cs).setSize x).1.layout = some b := hb
      rw [e] at hb; exact (setDirty_layout (some true) _).2 b hb
  | setStyle at_ a v =>
    obtain ⟨s', e | e⟩ := apply_style_cases E (.setStyle at_ a v) (.mk s z l cs) (Or.inl ⟨_, _, _, rfl⟩)
    · simp only [e] at hb; exact h b hb
    · simp only [e] at hb; exact (setDirty_layout (some true) _).2 b hb
  | delStyle a =>
    obtain ⟨s', e | e⟩ := apply_style_cases E (.delStyle a) (.mk s z l cs) (Or.inr ⟨_, rfl⟩)
    · simp only [e] at hb; exact h b hb
    · simp only [e] at hb; exact (setDirty_layout (some true) _).2 b hb

/-- The documents that arise from a newly built one, in which every box is dirty, by any operations and
layouts, whether they return or raise, of the whole or from any node on, in any order, except that a box is only declared clean while the box of its parent is clean. Nodes whose boxes are all dirty, as new ones are, may be inserted and any nodes removed. -/
inductive Marked (E : Env) : Node → Prop
  | start (n : Node) : EveryBox Box.Dirty n → Marked E n
  | op {n : Node} (p : List Nat) (o : NodeOp) : Marked E n → (∀ v, o = .dirty v → v = some true) → Marked E (n.doAt E p o)
  | clean {n : Node} (p : List Nat) (v : Option Bool) : Marked E n → CleanParent n p → Marked E (n.doAt E p (.dirty v))
  | insert {n : Node} (q : List Nat) (i : Nat) (c : Node) : Marked E n → EveryBox Box.Dirty c → Marked E (n.atPath (Node.addChild i c) q)
  | remove {n : Node} (q : List Nat) (i : Nat) : Marked E n → Marked E (n.atPath (Node.dropChild i) q)
  | laid {n : Node} (q : List Nat) (d : Display) (html5 : Bool) (p : Option CSS) : Marked E n →
      Marked E (n.atPath (fun m => (runLayout E.fp d html5 p m).1) q)

theorem marked_down {E : Env} {n : Node} (h : Marked E n) : DirtyDown n := by
  induction h with
  | start n h => exact dirtyDown_of_all h
  | op p o _ ho ih => exact atPath_down (apply_down E o) p _ ih (Or.inl (apply_noClean E o ho))
  | clean p v _ hp ih => exact atPath_down (apply_down E (.dirty v)) p _ ih (Or.inr hp)
  | insert q i c _ hc ih => exact atPath_down (addChild_down i hc) q _ ih (Or.inl (by rintro ⟨s, z, l, cs⟩ h; exact h))
  | remove q i _ ih => exact atPath_down (dropChild_down i) q _ ih (Or.inl (by rintro ⟨s, z, l, cs⟩ h; exact h))
  | laid q d html5 p _ ih => exact atPath_down (runLayout_down E.fp d html5 p) q _ ih (Or.inl (runLayout_noClean E.fp d html5 p))

/-- C37. In every such document, marking the node at any path dirty leaves it and every box below it
dirty. -/
theorem C37_spreads_partial (E : Env) (n m : Node) (p : List Nat) (h : Marked E n) (hm : n.find p = some m) :
    ∃ m', (n.doAt E p (.dirty (some true))).find p = some m' ∧ EveryBox Box.Dirty m' ∧
      (m'.layout = none ↔ m.layout = none) := by
  refine ⟨m.setDirty (some true), find_atPath hm, ?_, (setDirty_layout _ _).1⟩
  refine dirty_all (setDirty_down _ _ ?_) (setDirty_layout _ _).2
  have hd := marked_down h
  clear h
  induction p generalizing n with
  | nil => simp only [Node.find, Option.some.injEq] at hm; subst hm; exact hd
  | cons i p ih =>
    cases n with
    | mk s z l cs =>
      simp only [Node.find, Node.children] at hm
      cases hc : cs[i]? with
      | none => rw [hc] at hm; cases hm
      | some c =>
        rw [hc, Option.bind_some] at hm
        exact ih c hm ((dirtyDown_mk.1 hd).2 c (List.mem_of_getElem? hc))

/-- A node with a box with the given flag. -/
def flagged (v : Option Bool) (cs : List Node) : Node := .mk CSS.empty .initial (some { Box.fresh with dirty := v }) cs

/-- Marking the middle of three: the leaf below it is marked too, although nothing else marks it. -/
example (E : Env) : Marked E ((flagged (some true) [flagged (some true) [flagged (some true) []]]).doAt E [] (.dirty (some false))) ∧
    ((((flagged (some true) [flagged (some true) [flagged (some true) []]]).doAt E [] (.dirty (some false))).doAt E [0]
      (.dirty (some true))).find [0, 0]).bind Node.layout = some Box.fresh :=
  ⟨.clean [] _ (.start _ (by
    intro m hm b hb
    rcases hm.cases' with rfl | ⟨c, hc, hm⟩
    · cases hb; rfl
    · simp only [List.mem_singleton] at hc; subst hc
      rcases hm.cases' with rfl | ⟨c, hc, hm⟩
      · cases hb; rfl
      · simp only [List.mem_singleton] at hc; subst hc
        rcases hm.cases' with rfl | ⟨c, hc, hm⟩
        · cases hb; rfl
        · cases hc)) (fun q i h => by simp at h), rfl⟩

/-- C37 is false when a box is declared clean below a dirty one: marking the parent dirty stops at the
parent, which is dirty already. -/
theorem C37_false_cleaned_below (E : Env) : ∃ n, EveryBox Box.Dirty n ∧
    ∃ b, ((((n.doAt E [0] (.dirty (some false))).doAt E [] (.dirty (some true))).find [0]).bind Node.layout) = some b ∧
      ¬ b.Dirty := by
  refine ⟨flagged (some true) [flagged (some true) []], ?_, { Box.fresh with dirty := some false }, rfl, by simp [Box.Dirty]⟩
  intro m hm b hb
  rcases hm.cases' with rfl | ⟨c, hc, hm⟩
  · cases hb; rfl
  · simp only [List.mem_singleton] at hc; subst hc
    rcases hm.cases' with rfl | ⟨c, hc, hm⟩
    · cases hb; rfl
    · cases hc

/-! ## C38 -/

theorem optNumEq_iff (a b : Option Num) : optNumEq a b = true ↔ SameNum a b := by
  cases a <;> cases b <;> simp [optNumEq, SameNum, Num.pyEq]

theorem sameNum_refl (a : Option Num) : SameNum a a := by cases a <;> simp [SameNum]

theorem assign_cases (z : Intrinsic) (x : SizeAttr) :
    (z.Has x ∧ z.assign x = none) ∨ (¬ z.Has x ∧ ∃ z', z.assign x = some z' ∧ Wrote z x z' ∧ z'.Has x) := by
  cases x <;> simp only [Intrinsic.Has, Intrinsic.assign, ← optNumEq_iff] <;> split
  all_goals first
    | (rename_i h; exact Or.inl ⟨h, rfl⟩)
    | (rename_i h
       refine Or.inr ⟨h, _, rfl, by constructor, ?_⟩
       first | rfl | (rw [optNumEq_iff]; exact sameNum_refl _))

/-- C38. Setting an attribute of `node.intrinsic`: an equal value changes nothing; another value is
stored, no other attribute, style or child structure changes, and the layout is dirty. When the node has
no box the value is stored and `AttributeError` is raised. -/
theorem C38_size (n : Node) (x : SizeAttr) :
    (n.intrinsic.Has x → n.setSize x = (n, none)) ∧
    (¬ n.intrinsic.Has x → Wrote n.intrinsic x (n.setSize x).1.intrinsic ∧ (n.setSize x).1.intrinsic.Has x ∧
      (n.setSize x).1.style = n.style ∧
      (∀ b, (n.setSize x).1.layout = some b → b.Dirty) ∧
      ((n.setSize x).1.layout = none ↔ n.layout = none) ∧
      ((n.setSize x).2 = if n.layout = none then some .attribute else none)) := by
  cases n with
  | mk s z l cs =>
    rcases assign_cases z x with ⟨h, e⟩ | ⟨h, z', e, hw, hx⟩
    · refine ⟨fun _ => ?_, fun h' => absurd h h'⟩
      simp only [Node.setSize, e]
    · refine ⟨fun h' => absurd h' h, fun _ => ?_⟩
      cases l with
      | none =>
        simp only [Node.setSize, e]
        exact ⟨hw, hx, rfl, fun b hb => (by cases hb), Iff.rfl, rfl⟩
      | some b =>
        simp only [Node.setSize, e]
        have key : ((Node.mk s z' (some b) cs).setDirty (some true)).intrinsic = z' ∧
            ((Node.mk s z' (some b) cs).setDirty (some true)).style = s := by
          simp only [Node.setDirty]
          split <;> exact ⟨rfl, rfl⟩
        rw [key.1, key.2]
        exact ⟨hw, hx, rfl, (setDirty_layout _ _).2, (setDirty_layout _ _).1, rfl⟩

/-- The box itself only changes its flag, and the whole subtree becomes dirty in documents as in C37. -/
theorem C38_box (E : Env) (n : Node) (x : SizeAttr) (h : Marked E n) (hx : ¬ n.intrinsic.Has x) :
    EveryBox Box.Dirty (n.setSize x).1 ∧
    ∀ b, n.layout = some b → (n.setSize x).1.layout = some { b with dirty := some true } := by
  refine ⟨dirty_all (apply_down E (.size x) n (marked_down h)) ((C38_size n x).2 hx).2.2.2.1, ?_⟩
  intro b hb
  cases n with
  | mk s z l cs =>
    cases hb
    rcases assign_cases z x with ⟨h', _⟩ | ⟨_, z', e, _⟩
    · exact absurd h' hx
    · simp only [Node.setSize, e, Node.setDirty]
      split
      · rename_i hd
        simp only [Node.layout]
        rw [hd]
      · rfl

example : ¬ (Intrinsic.initial.Has (.width (some (.int 5)))) := by simp [Intrinsic.Has, Intrinsic.initial, SameNum]

/-- C38, new sizes: width, height and ratio are `None`, the sizes are exact and the element is not replaced; assigning these values to a new size, and no others, does nothing. -/
theorem C38_new (s : CSS) (l : Option Box) (cs : List Node) (x : SizeAttr) :
    (Node.mk s .initial l cs).setSize x = (.mk s .initial l cs, none) ↔
      x ∈ [SizeAttr.width none, .height none, .exactWidth true, .exactHeight true, .ratio none, .isReplaced false] := by
  have h : Intrinsic.initial.Has x ↔ x ∈ [SizeAttr.width none, .height none, .exactWidth true, .exactHeight true, .ratio none, .isReplaced false] := by
    cases x with
    | width v => cases v <;> simp [Intrinsic.Has, Intrinsic.initial, SameNum]
    | height v => cases v <;> simp [Intrinsic.Has, Intrinsic.initial, SameNum]
    | ratio v => cases v <;> simp [Intrinsic.Has, Intrinsic.initial, SameNum]
    | exactWidth v => cases v <;> simp [Intrinsic.Has, Intrinsic.initial]
    | exactHeight v => cases v <;> simp [Intrinsic.Has, Intrinsic.initial]
    | isReplaced v => cases v <;> simp [Intrinsic.Has, Intrinsic.initial]
  rw [← h]
  obtain ⟨h1, h2⟩ := C38_size (.mk s .initial l cs) x
  refine ⟨fun e => ?_, h1⟩
  by_contra hn
  have := (h2 hn).2.1
  rw [e] at this
  exact hn this

/-! ## C39 -/

theorem exact_toFloat {fp : FP} (E : fp.Exact) (a : Num) : a.toFloat fp = a.val := by
  cases a with
  | int i => exact E _
  | flt q => rfl

theorem exact_add {fp : FP} (E : fp.Exact) (a b : Num) : (a.add fp b).val = a.val + b.val := by
  cases a <;> cases b <;> simp [Num.add, exact_toFloat E, E _]

theorem exact_sub {fp : FP} (E : fp.Exact) (a b : Num) : (a.sub fp b).val = a.val - b.val := by
  cases a <;> cases b <;> simp [Num.sub, exact_toFloat E, E _]

theorem grid_toFloat {fp : FP} (L : fp.Laws) {a : Num} {n : Int} (h : a.val = (n : Rat) / 64) (hn : n.natAbs ≤ 2 ^ 53) :
    a.toFloat fp = (n : Rat) / 64 := by
  cases a with
  | int i =>
    rw [Num.val_int] at h
    show fp.rnd (i : Rat) = _
    rw [h, L.grid n hn]
  | flt q => exact h

theorem Fits.add {fp : FP} {a b : Num} {m k : Nat} (ha : Fits fp m a) (hb : Fits fp k b) (h : m + k ≤ 2 ^ 53) :
    (a.add fp b).val = a.val + b.val ∧ Fits fp (m + k) (a.add fp b) := by
  rcases ha with E | ⟨L, n, hn, hm⟩
  · exact ⟨exact_add E a b, Or.inl E⟩
  · rcases hb with E | ⟨_, j, hj, hk⟩
    · exact ⟨exact_add E a b, Or.inl E⟩
    · have hs : (n + j).natAbs ≤ m + k := by omega
      have key : (a.add fp b).val = a.val + b.val := by
        rw [hn, hj]
        have e : (n : Rat) / 64 + (j : Rat) / 64 = ((n + j : Int) : Rat) / 64 := by push_cast; ring
        have hab : ∀ r, r = fp.rnd (a.toFloat fp + b.toFloat fp) → r = (n : Rat) / 64 + (j : Rat) / 64 := by
          rintro r rfl
          rw [grid_toFloat L hn (by omega), grid_toFloat L hj (by omega), e]
          exact L.grid _ (by omega)
        cases a with
        | int i =>
          cases b with
          | int i' =>
            rw [Num.val_int] at hn hj
            rw [← hn, ← hj]
            simp [Num.add]
          | flt q => exact hab _ rfl
        | flt q => exact hab _ rfl
      refine ⟨key, Or.inr ⟨L, n + j, ?_, hs⟩⟩
      rw [key, hn, hj]; push_cast; ring

theorem Fits.sub {fp : FP} {a b : Num} {m k : Nat} (ha : Fits fp m a) (hb : Fits fp k b) (h : m + k ≤ 2 ^ 53) :
    (a.sub fp b).val = a.val - b.val ∧ Fits fp (m + k) (a.sub fp b) := by
  rcases ha with E | ⟨L, n, hn, hm⟩
  · exact ⟨exact_sub E a b, Or.inl E⟩
  · rcases hb with E | ⟨_, j, hj, hk⟩
    · exact ⟨exact_sub E a b, Or.inl E⟩
    · have hs : (n - j).natAbs ≤ m + k := by omega
      have key : (a.sub fp b).val = a.val - b.val := by
        rw [hn, hj]
        have e : (n : Rat) / 64 - (j : Rat) / 64 = ((n - j : Int) : Rat) / 64 := by push_cast; ring
        have hab : ∀ r, r = fp.rnd (a.toFloat fp - b.toFloat fp) → r = (n : Rat) / 64 - (j : Rat) / 64 := by
          rintro r rfl
          rw [grid_toFloat L hn (by omega), grid_toFloat L hj (by omega), e]
          exact L.grid _ (by omega)
        cases a with
        | int i =>
          cases b with
          | int i' =>
            rw [Num.val_int] at hn hj
            rw [← hn, ← hj]
            simp [Num.sub]
          | flt q => exact hab _ rfl
        | flt q => exact hab _ rfl
      refine ⟨key, Or.inr ⟨L, n - j, ?_, hs⟩⟩
      rw [key, hn, hj]; push_cast; ring

/-- What the numbers of a box are, as rationals: CSS 2.1 section 8.1. -/
structure Frame where
  start : Rat
  size : Rat
  padBefore : Rat
  padAfter : Rat
  bordBefore : Rat
  bordAfter : Rat
  origin : Rat

/-- The numbers of one axis of a box. -/
def Box.frame (b : Box) (a : Axis) (size : Num) : Frame :=
  match a with
  | .h => ⟨b.h.content.val, size.val, b.padding.left.val, b.padding.right.val, b.border.left.val, b.border.right.val, b.h.origin.val⟩
  | .v => ⟨b.v.content.val, size.val, b.padding.top.val, b.padding.bottom.val, b.border.top.val, b.border.bottom.val, b.v.origin.val⟩

theorem add2 {fp : FP} {x y z : Num} {m : Nat} (hm : 8 * m ≤ 2 ^ 53) (hx : Fits fp m x) (hy : Fits fp m y)
    (hz : Fits fp m z) : ((x.add fp y).add fp z).val = x.val + y.val + z.val := by
  have h1 := hx.add hy (by omega)
  have h2 := h1.2.add hz (by omega)
  rw [h2.1, h1.1]

theorem add3 {fp : FP} {x y z w : Num} {m : Nat} (hm : 8 * m ≤ 2 ^ 53) (hx : Fits fp m x) (hy : Fits fp m y)
    (hz : Fits fp m z) (hw : Fits fp m w) : (((x.add fp y).add fp z).add fp w).val = x.val + y.val + z.val + w.val := by
  have h1 := hx.add hy (by omega)
  have h2 := h1.2.add hz (by omega)
  have h3 := h2.2.add hw (by omega)
  rw [h3.1, h2.1, h1.1]

theorem add4 {fp : FP} {x y z w u : Num} {m : Nat} (hm : 8 * m ≤ 2 ^ 53) (hx : Fits fp m x) (hy : Fits fp m y)
    (hz : Fits fp m z) (hw : Fits fp m w) (hu : Fits fp m u) :
    ((((x.add fp y).add fp z).add fp w).add fp u).val = x.val + y.val + z.val + w.val + u.val := by
  have h1 := hx.add hy (by omega)
  have h2 := h1.2.add hz (by omega)
  have h3 := h2.2.add hw (by omega)
  have h4 := h3.2.add hu (by omega)
  rw [h4.1, h3.1, h2.1, h1.1]

theorem sub2 {fp : FP} {x y z : Num} {m : Nat} (hm : 8 * m ≤ 2 ^ 53) (hx : Fits fp m x) (hy : Fits fp m y)
    (hz : Fits fp m z) : ((x.sub fp y).sub fp z).val = x.val - y.val - z.val := by
  have h1 := hx.sub hy (by omega)
  have h2 := h1.2.sub hz (by omega)
  rw [h2.1, h1.1]

theorem addsub {fp : FP} {x y z : Num} {m : Nat} (hm : 8 * m ≤ 2 ^ 53) (hx : Fits fp m x) (hy : Fits fp m y)
    (hz : Fits fp m z) : ((x.add fp y).sub fp z).val = x.val + y.val - z.val := by
  have h1 := hx.add hy (by omega)
  have h2 := h1.2.sub hz (by omega)
  rw [h2.1, h1.1]

theorem addsub2 {fp : FP} {x y z w : Num} {m : Nat} (hm : 8 * m ≤ 2 ^ 53) (hx : Fits fp m x) (hy : Fits fp m y)
    (hz : Fits fp m z) (hw : Fits fp m w) : (((x.add fp y).sub fp z).sub fp w).val = x.val + y.val - z.val - w.val := by
  have h1 := hx.add hy (by omega)
  have h2 := h1.2.sub hz (by omega)
  have h3 := h2.2.sub hw (by omega)
  rw [h3.1, h2.1, h1.1]

/-- C39. The horizontal edges and widths of the content, padding and border boxes, relative and absolute:
each box encloses the next inner one by the padding and border widths. -/
theorem C39_horizontal (fp : FP) (b : Box) (w : Num) (hw : b.contentWidth = some w) (hb : b.Fits fp (2 ^ 50)) :
    ∃ cr acr pr pw apr br bw abr,
      b.contentRight fp = some cr ∧ b.absContentRight fp = some acr ∧ b.paddingBoxRight fp = some pr ∧
      b.paddingBoxWidth fp = some pw ∧ b.absPaddingBoxRight fp = some apr ∧ b.borderBoxRight fp = some br ∧
      b.borderBoxWidth fp = some bw ∧ b.absBorderBoxRight fp = some abr ∧
      (let f := b.frame .h w
      cr.val = f.start + f.size ∧
      (b.paddingBoxLeft fp).val = f.start - f.padBefore ∧ pr.val = cr.val + f.padAfter ∧ pw.val = pr.val - (b.paddingBoxLeft fp).val ∧
      (b.borderBoxLeft fp).val = (b.paddingBoxLeft fp).val - f.bordBefore ∧ br.val = pr.val + f.bordAfter ∧
      bw.val = br.val - (b.borderBoxLeft fp).val ∧
      (b.absContent fp .h).val = f.origin + f.start ∧ acr.val = f.origin + cr.val ∧
      (b.absPaddingBoxLeft fp).val = f.origin + (b.paddingBoxLeft fp).val ∧ apr.val = f.origin + pr.val ∧
      (b.absBorderBoxLeft fp).val = f.origin + (b.borderBoxLeft fp).val ∧ abr.val = f.origin + br.val) := by
  have hm : 8 * 2 ^ 50 ≤ 2 ^ 53 := by norm_num
  obtain ⟨o, c⟩ := hb.pos .h
  have hw' := hb.width w hw
  have pl := hb.padding .left
  have pr := hb.padding .right
  have bl := hb.border .left
  have br := hb.border .right
  simp only [Box.contentRight, Box.absContentRight, Box.paddingBoxRight, Box.paddingBoxWidth, Box.absPaddingBoxRight,
    Box.borderBoxRight, Box.borderBoxWidth, Box.absBorderBoxRight, hw, Option.map_some]
  refine ⟨_, _, _, _, _, _, _, _, rfl, rfl, rfl, rfl, rfl, rfl, rfl, rfl, ?_⟩
  have e1 := (c.add hw' (by norm_num)).1
  have e2 := (c.sub pl (by norm_num)).1
  have e3 := add2 hm c hw' pr
  have e4 := add2 hm pl hw' pr
  have e5 := sub2 hm c pl bl
  have e6 := add3 hm c hw' pr br
  have e7 := add4 hm bl pl hw' pr br
  have e8 := (o.add c (by norm_num)).1
  have e9 := add2 hm o c hw'
  have e10 := addsub hm o c pl
  have e11 := add3 hm o c hw' pr
  have e12 := addsub2 hm o c pl bl
  have e13 := add4 hm o c hw' pr br
  simp only [Edge.get, Box.pos] at e1 e2 e3 e4 e5 e6 e7 e8 e9 e10 e11 e12 e13
  simp only [Box.frame, Box.paddingBoxLeft, Box.borderBoxLeft, Box.absContent, Box.absPaddingBoxLeft, Box.absBorderBoxLeft,
    Box.pos, e1, e2, e3, e4, e5, e6, e7, e8, e9, e10, e11, e12, e13]
  refine ⟨?_, ?_, ?_, ?_, ?_, ?_, ?_, ?_, ?_, ?_, ?_, ?_, ?_⟩ <;> first | trivial | ring

/-- C39. The same for the vertical edges and heights. -/
theorem C39_vertical (fp : FP) (b : Box) (h : Num) (hh : b.contentHeight = some h) (hb : b.Fits fp (2 ^ 50)) :
    ∃ cr acr pr pw apr br bw abr,
      b.contentBottom fp = some cr ∧ b.absContentBottom fp = some acr ∧ b.paddingBoxBottom fp = some pr ∧
      b.paddingBoxHeight fp = some pw ∧ b.absPaddingBoxBottom fp = some apr ∧ b.borderBoxBottom fp = some br ∧
      b.borderBoxHeight fp = some bw ∧ b.absBorderBoxBottom fp = some abr ∧
      (let f := b.frame .v h
      cr.val = f.start + f.size ∧
      (b.paddingBoxTop fp).val = f.start - f.padBefore ∧ pr.val = cr.val + f.padAfter ∧ pw.val = pr.val - (b.paddingBoxTop fp).val ∧
      (b.borderBoxTop fp).val = (b.paddingBoxTop fp).val - f.bordBefore ∧ br.val = pr.val + f.bordAfter ∧
      bw.val = br.val - (b.borderBoxTop fp).val ∧
      (b.absContent fp .v).val = f.origin + f.start ∧ acr.val = f.origin + cr.val ∧
      (b.absPaddingBoxTop fp).val = f.origin + (b.paddingBoxTop fp).val ∧ apr.val = f.origin + pr.val ∧
      (b.absBorderBoxTop fp).val = f.origin + (b.borderBoxTop fp).val ∧ abr.val = f.origin + br.val) := by
  have hm : 8 * 2 ^ 50 ≤ 2 ^ 53 := by norm_num
  obtain ⟨o, c⟩ := hb.pos .v
  have hw' := hb.height h hh
  have pl := hb.padding .top
  have pr := hb.padding .bottom
  have bl := hb.border .top
  have br := hb.border .bottom
  simp only [Box.contentBottom, Box.absContentBottom, Box.paddingBoxBottom, Box.paddingBoxHeight, Box.absPaddingBoxBottom,
    Box.borderBoxBottom, Box.borderBoxHeight, Box.absBorderBoxBottom, hh, Option.map_some]
  refine ⟨_, _, _, _, _, _, _, _, rfl, rfl, rfl, rfl, rfl, rfl, rfl, rfl, ?_⟩
  have e1 := (c.add hw' (by norm_num)).1
  have e2 := (c.sub pl (by norm_num)).1
  have e3 := add2 hm c hw' pr
  have e4 := add2 hm pl hw' pr
  have e5 := sub2 hm c pl bl
  have e6 := add3 hm c hw' pr br
  have e7 := add4 hm bl pl hw' pr br
  have e8 := (o.add c (by norm_num)).1
  have e9 := add2 hm o c hw'
  have e10 := addsub hm o c pl
  have e11 := add3 hm o c hw' pr
  have e12 := addsub2 hm o c pl bl
  have e13 := add4 hm o c hw' pr br
  simp only [Edge.get, Box.pos] at e1 e2 e3 e4 e5 e6 e7 e8 e9 e10 e11 e12 e13
  simp only [Box.frame, Box.paddingBoxTop, Box.borderBoxTop, Box.absContent, Box.absPaddingBoxTop, Box.absBorderBoxTop,
    Box.pos, e1, e2, e3, e4, e5, e6, e7, e8, e9, e10, e11, e12, e13]
  refine ⟨?_, ?_, ?_, ?_, ?_, ?_, ?_, ?_, ?_, ?_, ?_, ?_, ?_⟩ <;> first | trivial | ring

/-- Without a content size the edges after the content are not defined (`TypeError`). -/
theorem C39_undefined (fp : FP) (b : Box) :
    (b.contentWidth = none → b.contentRight fp = none ∧ b.paddingBoxWidth fp = none ∧ b.borderBoxWidth fp = none) ∧
    (b.contentHeight = none → b.contentBottom fp = none ∧ b.paddingBoxHeight fp = none ∧ b.borderBoxHeight fp = none) := by
  refine ⟨fun h => ?_, fun h => ?_⟩
  · simp [Box.contentRight, Box.paddingBoxWidth, Box.borderBoxWidth, h]
  · simp [Box.contentBottom, Box.paddingBoxHeight, Box.borderBoxHeight, h]

/-- A box with a fractional padding in binary floating point. -/
example : ({ Box.fresh with padding := .all (.flt (3 / 2)), contentWidth := some (.int 10) } : Box).Fits .b64 (2 ^ 50) := by
  have h0 : Fits .b64 (2 ^ 50) (.int 0) := Or.inr ⟨b64_laws, 0, by simp, by simp⟩
  have h1 : Fits .b64 (2 ^ 50) (.flt (3 / 2)) := Or.inr ⟨b64_laws, 96, by simp only [Num.val_flt]; norm_num, by norm_num⟩
  have h2 : Fits .b64 (2 ^ 50) (.int 10) := Or.inr ⟨b64_laws, 640, by simp only [Num.val_int]; norm_num, by norm_num⟩
  refine ⟨fun a => ?_, fun w h => ?_, fun w h => ?_, fun t => ?_, fun t => ?_⟩
  · cases a <;> exact ⟨h0, h0⟩
  · cases h; exact h2
  · cases h; exact h0
  · cases t <;> exact h0
  · cases t <;> exact h1

/-- Outside the grid the identities fail: with a position of 2^53 and a padding of 1 the padding box is
as wide as it should be but its edges are not that far apart. -/
theorem C39_false_huge : ∃ b : Box, ∃ pr pw, b.paddingBoxRight .b64 = some pr ∧ b.paddingBoxWidth .b64 = some pw ∧
    pw.val ≠ pr.val - (b.paddingBoxLeft .b64).val := by
  refine ⟨{ Box.fresh with h := ⟨.int 0, .flt 9007199254740992⟩, padding := .all (.flt 1) }, _, _, rfl, rfl, ?_⟩
  decide +kernel

/-! ## C40 -/

theorem apply_pos (E : Env) (a : Axis) (o : NodeOp) (ho : o ≠ .reset) : KeepsPos E.fp a fun m => (m.apply E o).1 := by
  have hd : ∀ (s : CSS) (z : Intrinsic) (l : Option Box) (cs : List Node) (v : Option Bool), Coh E.fp a (.mk s z l cs) →
      Coh E.fp a ((Node.mk s z l cs).setDirty v) ∧ ∀ b, ((Node.mk s z l cs).setDirty v).layout = some b →
        ∃ b0, l = some b0 ∧ (b.pos a).origin = (b0.pos a).origin := by
    intro s z l cs v h
    refine ⟨(setDirty_coh E.fp a v _).1 h, fun b hb => ?_⟩
    obtain ⟨b0, h0, e⟩ := (setDirty_coh E.fp a v _).2 b hb
    exact ⟨b0, h0, by rw [e.pos]⟩
  have hs : ∀ (s s' : CSS) (z z' : Intrinsic) (l : Option Box) (cs : List Node), Coh E.fp a (.mk s z l cs) →
      Coh E.fp a (.mk s' z' l cs) := by
    intro s s' z z' l cs h
    cases l with
    | none => exact .none ..
    | some b => exact coh_same ⟨rfl, rfl⟩ h
  rintro ⟨s, z, l, cs⟩ h
  cases o with
  | move x v =>
    cases l with
    | none => exact ⟨h, fun b hb => (by cases hb)⟩
    | some b =>
      refine ⟨setContent_coh E.fp x v s z b cs a h, fun b' hb => ⟨b, rfl, ?_⟩⟩
      simp only [Node.apply, Node.move, Node.layout, Option.some.injEq] at hb
      subst hb
      exact setContent_origin ..
  | margin t v =>
    cases l with
    | none => exact ⟨h, fun b hb => (by cases hb)⟩
    | some b =>
      refine ⟨coh_same (setMargin_pos b t v) h, fun b' hb => ⟨b, rfl, ?_⟩⟩
      simp only [Node.apply, Node.setMargin, Node.layout, Option.some.injEq] at hb
      subst hb
      rw [← (setMargin_pos b t v).pos]
  | collapse t v =>
    cases l with
    | none => exact ⟨h, fun b hb => (by cases hb)⟩
    | some b =>
      refine ⟨coh_same (setCollapse_pos b t v) h, fun b' hb => ⟨b, rfl, ?_⟩⟩
      simp only [Node.apply, Node.setCollapse, Node.layout, Option.some.injEq] at hb
      subst hb
      rw [← (setCollapse_pos b t v).pos]
  | dirty v => exact hd s z l cs v h
  | reset => exact absurd rfl ho
  | size x =>
    obtain ⟨z', e | e⟩ := apply_size_cases (.mk s z l cs) x
    · show Coh E.fp a ((Node.mk s z l cs).setSize x).1 ∧ ∀ b, ((Node.mk s z l cs).setSize x).1.layout = some b → _
      rw [e]; exact ⟨hs _ _ _ _ _ _ h, fun b hb => ⟨b, hb, rfl⟩⟩
    · show Coh E.fp a ((Node.mk s z l cs).setSize x).1 ∧ ∀ b, ((Node.mk s z l cs).setSize x).1.layout = some b → _
      rw [e]; exact hd _ _ _ _ _ (hs _ _ _ _ _ _ h)
  | setStyle at_ x v =>
    obtain ⟨s', e | e⟩ := apply_style_cases E (.setStyle at_ x v) (.mk s z l cs) (Or.inl ⟨_, _, _, rfl⟩)
    · simp only [e]; exact ⟨hs _ _ _ _ _ _ h, fun b hb => ⟨b, hb, rfl⟩⟩
    · simp only [e]; exact hd _ _ _ _ _ (hs _ _ _ _ _ _ h)
  | delStyle x =>
    obtain ⟨s', e | e⟩ := apply_style_cases E (.delStyle x) (.mk s z l cs) (Or.inr ⟨_, rfl⟩)
    · simp only [e]; exact ⟨hs _ _ _ _ _ _ h, fun b hb => ⟨b, hb, rfl⟩⟩
    · simp only [e]; exact hd _ _ _ _ _ (hs _ _ _ _ _ _ h)

/-- C40. Any sequence of moves and other writes, to any nodes of the document, keeps the positions
coherent. A `reset` is only allowed on the root. -/
theorem C40_kept (E : Env) (a : Axis) (ops : List (List Nat × NodeOp)) (hr : ∀ x ∈ ops, x.2 = .reset → x.1 = []) (n : Node)
    (h : Coherent E.fp a n) : Coherent E.fp a (ops.foldl (fun n x => n.doAt E x.1 x.2) n) := by
  induction ops generalizing n with
  | nil => exact h
  | cons x ops ih =>
    rw [List.foldl_cons]
    refine ih (fun y hy => hr y (List.mem_cons_of_mem _ hy)) _ ?_
    obtain ⟨p, o⟩ := x
    by_cases ho : o = .reset
    · subst ho
      obtain rfl : p = [] := hr _ List.mem_cons_self rfl
      exact reset_coherent E.fp a n
    · exact coh_iff.1 ((atPath_coh (apply_pos E a o ho) p) n (coh_iff.2 h)).1

/-- Sum of the relative positions along a path. -/
def sumOffsets (a : Axis) (bs : List Box) : Rat := (bs.map fun b => b.offset a).sum

/-- C40. In a coherent document the absolute position of every displayed node is the origin of the root
plus the relative positions on the way. -/
theorem C40_sum (fp : FP) (a : Axis) (n : Node) (m : Nat) (h : Coherent fp a n) : ∀ (bs : List Box) (b r : Box),
    n.layout = some r → Shown n bs b →
    (∀ x ∈ b :: bs, Fits fp m (x.pos a).content) → Fits fp m (r.pos a).origin → (bs.length + 2) * m ≤ 2 ^ 53 →
    (b.absContent fp a).val = (r.pos a).origin.val + sumOffsets a (bs ++ [b]) := by
  suffices H : ∀ (bs : List Box) (b r : Box), Shown n bs b → n.layout = some r →
      (∀ x ∈ b :: bs, Fits fp m (x.pos a).content) → Fits fp m (r.pos a).origin → (bs.length + 2) * m ≤ 2 ^ 53 →
      (b.pos a).origin.val = (r.pos a).origin.val + sumOffsets a bs ∧
      (Fits fp ((bs.length + 1) * m) (b.pos a).origin) by
    intro bs b r hr hs hf ho hm
    obtain ⟨h1, h2⟩ := H bs b r hs hr hf ho hm
    have := h2.add (hf b List.mem_cons_self) (by
      have : (bs.length + 1) * m + m = (bs.length + 2) * m := by ring
      omega)
    rw [Box.absContent, this.1, h1]
    simp [sumOffsets, Box.offset]
    ring
  intro bs
  induction bs using List.reverseRecOn with
  | nil =>
    intro b r hs hr hf ho hm
    cases hs with
    | here hb =>
      rw [hr] at hb; cases hb
      simp only [sumOffsets, List.map_nil, List.sum_nil, add_zero, List.length_nil, zero_add, one_mul]
      exact ⟨trivial, ho⟩
  | append_singleton bs q ih =>
    intro b r hs hr hf ho hm
    have hlen : (bs ++ [q]).length = bs.length + 1 := by simp
    rw [hlen] at hm ⊢
    have hq := shown_init hs
    have hm' : (bs.length + 2) * m ≤ 2 ^ 53 := by
      have : (bs.length + 1 + 2) * m = (bs.length + 2) * m + m := by ring
      omega
    obtain ⟨h1, h2⟩ := ih q r hq hr (by
      intro x hx
      refine hf x ?_
      rcases List.mem_cons.1 hx with rfl | hx
      · simp
      · simp [hx]) ho hm'
    have e := h bs q b hs
    have hadd := h2.add (hf q (by simp)) (by
      have : (bs.length + 1) * m + m = (bs.length + 2) * m := by ring
      omega)
    rw [Box.absContent] at e
    refine ⟨?_, ?_⟩
    · rw [e, hadd.1, h1]
      simp [sumOffsets, Box.offset]
      ring
    · have e2 : (bs.length + 1) * m + m = (bs.length + 1 + 1) * m := by ring
      rw [e2] at hadd
      rcases hadd.2 with E | ⟨L, k, hk, hb⟩
      · exact Or.inl E
      · exact Or.inr ⟨L, k, by rw [e]; exact hk, hb⟩

/-- Moving the middle of three nodes after the root: all origins below follow. -/
example (E : Env) : ∃ b, Shown ((((flagged none [flagged none [flagged none []]]).doAt E [] (.move .v (.int 7))).doAt E [0]
      (.move .v (.int 5)))) [{ Box.fresh with v := ⟨.int 0, .int 7⟩, dirty := none }, { Box.fresh with v := ⟨.int 7, .int 5⟩, dirty := none }] b ∧
    b.v = ⟨.int 12, .int 0⟩ :=
  ⟨_, .step rfl (List.mem_singleton.2 rfl) (.step rfl (List.mem_singleton.2 rfl) (.here rfl)), rfl⟩

/-- Newly built boxes are coherent, so C40 applies to every document from its construction on. -/
theorem C40_new (fp : FP) (a : Axis) (n : Node) (h : EveryBox (· = Box.fresh) n) : Coherent fp a n := by
  have key : ∀ {n : Node} {bs : List Box} {b : Box}, EveryBox (· = Box.fresh) n → Shown n bs b → b = Box.fresh := by
    intro n bs b h hs
    induction hs with
    | here hb => exact h _ (.refl _) _ hb
    | step hb hc _ ih => exact ih fun m hm => h m (.child hc hm)
  intro bs p b hs
  rw [key h hs, key h (shown_init hs)]
  cases a <;> rfl

/-- C40 is false for `reset` of a node that is not the root: its origin becomes 0. -/
theorem C40_false_inner_reset (E : Env) : ∃ n, Coherent E.fp .v n ∧ ¬ Coherent E.fp .v (n.doAt E [0] .reset) := by
  refine ⟨(flagged none [flagged none []]).doAt E [] (.move .v (.int 7)), ?_, ?_⟩
  · refine C40_kept E .v [([], .move .v (.int 7))] (by simp) _ ?_
    intro bs p b hs
    cases bs with
    | nil =>
      cases hs with
      | step hb hc hs =>
        cases hb
        simp only [flagged, Node.children, List.mem_singleton] at hc
        subst hc
        cases hs with
        | here hb => cases hb; rfl
    | cons q bs =>
      cases hs with
      | step hb hc hs =>
        cases hb
        simp only [flagged, Node.children, List.mem_singleton] at hc
        subst hc
        cases bs with
        | nil => cases hs with
          | step hb hc hs => simp [Node.children] at hc
        | cons q bs => cases hs with
          | step hb hc hs => simp [Node.children] at hc
  · intro h
    have := h [] _ Box.fresh (.step rfl (List.mem_singleton.2 rfl) (.here rfl))
    simp [Box.absContent, Box.pos, Box.setPos, Box.fresh, Num.add] at this

/-! ## C41 -/

/-- The assignments, in order. -/
def Box.assign (b : Box) : List Assign → Box
  | [] => b
  | .margin t v :: r => (b.setMargin t v).assign r
  | .collapse t v :: r => (b.setCollapse t v).assign r

theorem get_set {α : Type} (e : Edge α) (s t : Side) (x : α) : (e.set s x).get t = if s = t then x else e.get t := by
  cases s <;> cases t <;> rfl

theorem setCollapse_get (b : Box) (s t : Side) (v : MVal) :
    ((b.setCollapse s v).margin = b.margin) ∧ (b.setCollapse s v).collapse.get t =
      match v with
      | .num (.int i) => if s = t then max (b.collapse.get t) i else b.collapse.get t
      | _ => b.collapse.get t := by
  unfold Box.setCollapse
  split
  · rename_i i
    split
    · refine ⟨rfl, ?_⟩
      simp only [get_set]
      split
      · rename_i h e; subst e; omega
      · rfl
    · refine ⟨rfl, ?_⟩
      simp only
      split
      · rename_i h e; subst e; omega
      · rfl
  · rename_i h
    refine ⟨rfl, ?_⟩
    split
    · rename_i i; exact absurd rfl (h i)
    · rfl

/-- C41. From any box, after any assignments, the collapsed margin of a side is the largest of its first
value and the integers that count: it is a running maximum. -/
theorem C41_running_max (t : Side) (ops : List Assign) : ∀ b : Box,
    (b.assign ops).collapse.get t = (counted t (b.margin.get t) ops).foldl max (b.collapse.get t) := by
  induction ops with
  | nil => intro b; rfl
  | cons o ops ih =>
    intro b
    cases o with
    | collapse s v =>
      simp only [Box.assign, counted]
      rw [ih, (setCollapse_get b s t v).1, (setCollapse_get b s t v).2]
      cases v with
      | auto => rfl
      | num x =>
        cases x with
        | flt q => rfl
        | int i =>
          simp only
          split <;> rfl
    | margin s v =>
      simp only [Box.assign, counted]
      rw [ih]
      by_cases he : v.pyEq (b.margin.get s) = true
      · have hb : b.setMargin s v = b := by unfold Box.setMargin; rw [if_pos he]
        rw [hb]
        have : ¬ (s = t ∧ v.pyEq (b.margin.get t) = false) := by
          rintro ⟨rfl, h⟩; rw [he] at h; cases h
        rw [if_neg this]
      · have hb : b.setMargin s v = ({ b with margin := b.margin.set s v } : Box).setCollapse s v := by
          unfold Box.setMargin; rw [if_neg he]
        rw [hb, (setCollapse_get _ s t v).1, (setCollapse_get _ s t v).2]
        simp only [get_set]
        by_cases hs : s = t
        · subst hs
          have hc : s = s ∧ v.pyEq (b.margin.get s) = false := ⟨rfl, by simpa using he⟩
          rw [if_pos hc, if_pos rfl]
          cases v with
          | auto => rfl
          | num x =>
            cases x with
            | flt q => rfl
            | int i => simp only [if_pos, List.foldl_cons]
        · have : ¬ (s = t ∧ v.pyEq (b.margin.get t) = false) := fun h => hs h.1
          rw [if_neg this, if_neg hs]
          split <;> simp [hs]

theorem foldl_max_le (l : List Int) : ∀ x : Int, x ≤ l.foldl max x ∧ (∀ y ∈ l, y ≤ l.foldl max x) ∧
    (l.foldl max x = x ∨ l.foldl max x ∈ l) := by
  induction l with
  | nil => intro x; exact ⟨le_rfl, by simp, Or.inl rfl⟩
  | cons a l ih =>
    intro x
    obtain ⟨h1, h2, h3⟩ := ih (max x a)
    rw [List.foldl_cons]
    refine ⟨le_trans (le_max_left _ _) h1, ?_, ?_⟩
    · intro y hy
      rcases List.mem_cons.1 hy with rfl | hy
      · exact le_trans (le_max_right _ _) h1
      · exact h2 y hy
    · rcases h3 with h3 | h3
      · rw [h3]
        rcases max_choice x a with e | e
        · exact Or.inl e
        · exact Or.inr (by rw [e]; simp)
      · exact Or.inr (by simp [h3])

/-- C41. It never decreases. -/
theorem C41_monotone (t : Side) (ops : List Assign) (b : Box) : b.collapse.get t ≤ (b.assign ops).collapse.get t := by
  rw [C41_running_max]; exact (foldl_max_le _ _).1

/-- C41. In a new box it is never negative, and if not 0 it is an integer that was assigned. -/
theorem C41_new (t : Side) (ops : List Assign) :
    0 ≤ (Box.fresh.assign ops).collapse.get t ∧
    ((Box.fresh.assign ops).collapse.get t = 0 ∨
      (Box.fresh.assign ops).collapse.get t ∈ counted t (.num (.int 0)) ops) ∧
    ∀ i ∈ counted t (.num (.int 0)) ops, i ≤ (Box.fresh.assign ops).collapse.get t := by
  have h : (Box.fresh.assign ops).collapse.get t = (counted t (.num (.int 0)) ops).foldl max 0 := by
    rw [C41_running_max]
    cases t <;> rfl
  rw [h]
  obtain ⟨h1, h2, h3⟩ := foldl_max_le (counted t (.num (.int 0)) ops) 0
  exact ⟨h1, h3, h2⟩

/-- Every integer assigned to `collapse_<side>` counts, and every integer assigned to `margin_<side>` if
the margins assigned are all integers or `auto`. -/
theorem C41_all_integers (t : Side) (ops : List Assign) (hi : ∀ v, Assign.margin t v ∈ ops → ∀ q, v ≠ .num (.flt q)) (i : Int)
    (h : Assign.margin t (.num (.int i)) ∈ ops ∨ Assign.collapse t (.num (.int i)) ∈ ops) :
    i ≤ (Box.fresh.assign ops).collapse.get t := by
  have key : ∀ (ops : List Assign) (m : MVal) (lo : Int), (∀ v, Assign.margin t v ∈ ops → ∀ q, v ≠ .num (.flt q)) →
      (∀ q, m ≠ .num (.flt q)) → (∀ j, m = .num (.int j) → j ≤ lo) →
      (Assign.margin t (.num (.int i)) ∈ ops ∨ Assign.collapse t (.num (.int i)) ∈ ops) →
      i ≤ (counted t m ops).foldl max lo := by
    intro ops
    induction ops with
    | nil => rintro m lo _ _ _ (h | h) <;> cases h
    | cons o ops ih =>
      intro m lo hi hm hlo h
      have hi' : ∀ v, Assign.margin t v ∈ ops → ∀ q, v ≠ .num (.flt q) := fun v hv => hi v (List.mem_cons_of_mem _ hv)
      cases o with
      | margin s v =>
        simp only [counted]
        by_cases hc : s = t ∧ v.pyEq m = false
        · rw [if_pos hc]
          obtain ⟨rfl, hv⟩ := hc
          have hq := hi v List.mem_cons_self
          cases v with
          | auto =>
            simp only
            refine ih _ _ hi' (by simp) (by simp) ?_
            rcases h with h | h
            · rcases List.mem_cons.1 h with h | h
              · cases h
              · exact Or.inl h
            · rcases List.mem_cons.1 h with h | h
              · cases h
              · exact Or.inr h
          | num x =>
            cases x with
            | flt q => exact absurd rfl (hq q)
            | int j =>
              simp only [List.foldl_cons]
              by_cases hij : i = j
              · subst hij
                exact le_trans (le_max_right _ _) (foldl_max_le _ _).1
              · refine ih _ _ hi' (by simp) (fun k hk => by cases hk; exact le_max_right _ _) ?_
                rcases h with h | h
                · rcases List.mem_cons.1 h with h | h
                  · cases h; exact absurd rfl hij
                  · exact Or.inl h
                · rcases List.mem_cons.1 h with h | h
                  · cases h
                  · exact Or.inr h
        · rw [if_neg hc]
          rcases h with h | h
          · rcases List.mem_cons.1 h with h | h
            · cases h
              have hv : MVal.pyEq (.num (.int i)) m = true := by
                by_contra h
                exact hc ⟨rfl, by simpa using h⟩
              cases m with
              | auto => cases hv
              | num x =>
                cases x with
                | flt q => exact absurd rfl (hm q)
                | int j =>
                  simp only [MVal.pyEq, Num.pyEq, beq_iff_eq, Num.val_int] at hv
                  have : i = j := by exact_mod_cast hv
                  subst this
                  exact le_trans (hlo i rfl) (foldl_max_le _ _).1
            · exact ih _ _ hi' hm hlo (Or.inl h)
          · rcases List.mem_cons.1 h with h | h
            · cases h
            · exact ih _ _ hi' hm hlo (Or.inr h)
      | collapse s v =>
        have rest : ∀ lo', lo ≤ lo' → (Assign.margin t (.num (.int i)) ∈ ops ∨ Assign.collapse t (.num (.int i)) ∈ ops) →
            i ≤ (counted t m ops).foldl max lo' :=
          fun lo' hl h => ih _ _ hi' hm (fun j hj => le_trans (hlo j hj) hl) h
        simp only [counted]
        by_cases hv : s = t ∧ v = .num (.int i)
        · obtain ⟨rfl, rfl⟩ := hv
          simp only [if_pos, List.foldl_cons]
          exact le_trans (le_max_right _ _) (foldl_max_le _ _).1
        · have h' : Assign.margin t (.num (.int i)) ∈ ops ∨ Assign.collapse t (.num (.int i)) ∈ ops := by
            rcases h with h | h
            · rcases List.mem_cons.1 h with h | h
              · cases h
              · exact Or.inl h
            · rcases List.mem_cons.1 h with h | h
              · cases h; exact absurd ⟨rfl, rfl⟩ hv
              · exact Or.inr h
          split
          · split
            · exact rest _ (le_max_left _ _) h'
            · exact rest _ le_rfl h'
          · exact rest _ le_rfl h'
  have hk := key ops (.num (.int 0)) 0 hi (by simp) (by intro j hj; cases hj; exact le_rfl) h
  have e : (Box.fresh.assign ops).collapse.get t = (counted t (.num (.int 0)) ops).foldl max 0 := by
    rw [C41_running_max]
    cases t <;> rfl
  rw [e]; exact hk

/-- `margin_top = 3`, `margin_top = 7`, `margin_top = auto`, `collapse_top = 5`: the collapsed margin is 7. -/
example : (Box.fresh.assign [.margin .top (.num (.int 3)), .margin .top (.num (.int 7)), .margin .top .auto,
    .collapse .top (.num (.int 5))]).collapse.top = 7 := by decide

/-- Fractional margins do not count at all, and an integer equal to a float margin does not count. -/
theorem C41_false_fraction :
    (Box.fresh.assign [.margin .top (.num (.flt (5 / 2)))]).collapse.top = 0 ∧
    (Box.fresh.assign [.margin .top (.num (.flt 5)), .margin .top (.num (.int 5))]).collapse.top = 0 := by decide +kernel

end Colosseum
