import Verif.Lemmas.Tree

/-!
# `reset`, and what operations at a path preserve
-/

namespace Colosseum

theorem depth_pos (n : Node) : 0 < n.depth := by cases n; simp [Node.depth]

theorem depths_mem {cs : List Node} {c : Node} (h : c ∈ cs) : c.depth ≤ Node.depth.depths cs := by
  induction cs with
  | nil => cases h
  | cons x cs ih =>
    simp only [Node.depth.depths]
    rcases List.mem_cons.1 h with rfl | h
    · omega
    · have := ih h; omega

theorem depth_child {s : CSS} {z : Intrinsic} {l : Option Box} {cs : List Node} {c : Node} (h : c ∈ cs) :
    c.depth < (Node.mk s z l cs).depth := by
  have := depths_mem h
  simp only [Node.depth]
  omega

theorem depths_map {cs : List Node} {f : Node → Node} (h : ∀ c ∈ cs, (f c).depth = c.depth) :
    Node.depth.depths (cs.map f) = Node.depth.depths cs := by
  induction cs with
  | nil => rfl
  | cons c cs ih =>
    simp only [List.map_cons, Node.depth.depths]
    rw [h c (by simp), ih fun x hx => h x (by simp [hx])]

theorem depth_setOrigin (fp : FP) (a : Axis) (n : Node) : ∀ v, (n.setOrigin fp a v).depth = n.depth := by
  induction n using Node.ind with
  | h s z l cs ih =>
    intro v
    cases l with
    | none => simp only [Node.setOrigin]
    | some b =>
      simp only [Node.setOrigin]
      split
      · rfl
      · simp only [setOrigins_map, Node.depth]
        rw [depths_map fun c hc => ih c hc _]

/-- Setting an origin keeps what dirty flags there are. -/
theorem setOrigin_dirty (fp : FP) (a : Axis) (n : Node) : ∀ v, (DirtyDown n → DirtyDown (n.setOrigin fp a v)) ∧
    (n.setOrigin fp a v).layout.map Box.dirty = n.layout.map Box.dirty := by
  induction n using Node.ind with
  | h s z l cs ih =>
    intro v
    cases l with
    | none => simp only [Node.setOrigin]; exact ⟨fun h => h, trivial⟩
    | some b =>
      simp only [Node.setOrigin]
      split
      · exact ⟨fun h => h, rfl⟩
      · refine ⟨fun h => ?_, ?_⟩
        · rw [dirtyDown_mk] at h
          rw [setOrigins_map, dirtyDown_mk]
          refine ⟨?_, ?_⟩
          · intro hb c hc cb hcb
            obtain ⟨c0, hc0, rfl⟩ := List.mem_map.1 hc
            have e := (ih c0 hc0 (Box.absContent fp (b.setPos a { b.pos a with origin := v }) a)).2
            rw [hcb, Option.map_some] at e
            cases hl : c0.layout with
            | none => rw [hl] at e; cases e
            | some b0 =>
              rw [hl, Option.map_some, Option.some.injEq] at e
              unfold Box.Dirty
              rw [e]
              refine h.1 ?_ c0 hc0 b0 hl
              intro b' hb'
              cases hb'
              have := hb _ rfl
              unfold Box.Dirty at this ⊢
              rwa [dirty_setPos] at this
          · intro c hc
            obtain ⟨c0, hc0, rfl⟩ := List.mem_map.1 hc
            exact (ih c0 hc0 _).1 (h.2 c0 hc0)
        · simp only [Node.layout, Option.map_some, dirty_setPos]

theorem resetFuel_shown (fp : FP) (f : Nat) : ∀ (n : Node) (bs : List Box) (b : Box), n.depth ≤ f →
    Shown (n.resetFuel fp f) bs b → b = Box.fresh := by
  induction f with
  | zero => intro n bs b h; have := depth_pos n; omega
  | succ f ih =>
    intro n bs b hd hs
    cases n with
    | mk s z l cs =>
      cases l with
      | none =>
        simp only [Node.resetFuel] at hs
        cases hs with
        | here h => cases h
        | step h _ _ => cases h
      | some b0 =>
        simp only [Node.resetFuel, resetOne] at hs
        cases hs with
        | here h => cases h; rfl
        | step h hc hs =>
          simp only [Node.children, List.mem_map, setOrigins_map] at hc
          obtain ⟨c1, ⟨c2, ⟨c3, hc3, rfl⟩, rfl⟩, rfl⟩ := hc
          refine ih _ _ _ ?_ hs
          rw [depth_setOrigin, depth_setOrigin]
          have := depth_child (s := s) (z := z) (l := some b0) hc3
          omega

/-- After a reset every displayed box is as new. -/
theorem reset_shown {fp : FP} {n : Node} {bs : List Box} {b : Box} (h : Shown (n.reset fp) bs b) : b = Box.fresh :=
  resetFuel_shown fp _ n bs b le_rfl h

theorem shown_last {n : Node} {bs : List Box} {p b : Box} (h : Shown n (bs ++ [p]) b) : ∃ bs', Shown n bs' p := by
  induction bs generalizing n with
  | nil =>
    cases h with
    | step hb _ _ => exact ⟨[], .here hb⟩
  | cons q bs ih =>
    cases h with
    | step hb hc hs =>
      obtain ⟨bs', h'⟩ := ih hs
      exact ⟨_, .step hb hc h'⟩

/-- The parent of a displayed node. -/
theorem shown_init {n : Node} {bs : List Box} {p b : Box} (h : Shown n (bs ++ [p]) b) : Shown n bs p := by
  induction bs generalizing n with
  | nil =>
    cases h with
    | step hb _ _ => exact .here hb
  | cons q bs ih =>
    cases h with
    | step hb hc hs => exact .step hb hc (ih hs)

theorem reset_coherent (fp : FP) (a : Axis) (n : Node) : Coherent fp a (n.reset fp) := by
  intro bs p b hs
  obtain ⟨bs', hp⟩ := shown_last hs
  rw [reset_shown hs, reset_shown hp]
  cases a <;> rfl

theorem resetFuel_dirty (fp : FP) (f : Nat) : ∀ (n : Node), n.depth ≤ f → DirtyDown n →
    EveryBox Box.Dirty (n.resetFuel fp f) := by
  induction f with
  | zero => intro n h; have := depth_pos n; omega
  | succ f ih =>
    intro n hd h
    cases n with
    | mk s z l cs =>
      cases l with
      | none =>
        simp only [Node.resetFuel]
        exact dirty_all h (fun b hb => by cases hb)
      | some b0 =>
        simp only [Node.resetFuel, resetOne]
        rw [dirtyDown_mk] at h
        rw [everyBox_mk]
        refine ⟨fun b hb => by cases hb; rfl, ?_⟩
        intro c hc
        simp only [List.mem_map, setOrigins_map] at hc
        obtain ⟨c1, ⟨c2, ⟨c3, hc3, rfl⟩, rfl⟩, rfl⟩ := hc
        refine ih _ ?_ ?_
        · rw [depth_setOrigin, depth_setOrigin]
          have := depth_child (s := s) (z := z) (l := some b0) hc3
          omega
        · exact (setOrigin_dirty fp _ _ _).1 ((setOrigin_dirty fp _ _ _).1 (h.2 c3 hc3))

/-- After a reset every box is dirty. -/
theorem reset_dirty {fp : FP} {n : Node} (h : DirtyDown n) : EveryBox Box.Dirty (n.reset fp) :=
  resetFuel_dirty fp _ n le_rfl h

/-! ## At a path -/

/-- An operation that keeps positions coherent and origins where they are. -/
def KeepsPos (fp : FP) (a : Axis) (f : Node → Node) : Prop := ∀ m, Coh fp a m →
  Coh fp a (f m) ∧ ∀ b, (f m).layout = some b → ∃ b0, m.layout = some b0 ∧ (b.pos a).origin = (b0.pos a).origin

theorem atPath_coh {fp : FP} {a : Axis} {f : Node → Node} (hf : KeepsPos fp a f) (p : List Nat) :
    KeepsPos fp a (Node.atPath f p) := by
  induction p with
  | nil => exact hf
  | cons i p ih =>
    rintro ⟨s, z, l, cs⟩ h
    refine ⟨?_, fun b hb => ⟨b, hb, rfl⟩⟩
    simp only [Node.atPath]
    cases h with
    | none => exact .none ..
    | box _ _ b _ h1 h2 =>
      refine .box _ _ _ _ ?_ ?_
      · intro c hc cb hcb
        rcases mem_modify hc with hc | ⟨c0, hc0, rfl⟩
        · exact h1 c hc cb hcb
        · have hm := List.mem_of_getElem? hc0
          obtain ⟨b0, hb0, e⟩ := (ih c0 (h2 c0 hm)).2 cb hcb
          rw [e]; exact h1 c0 hm b0 hb0
      · intro c hc
        rcases mem_modify hc with hc | ⟨c0, hc0, rfl⟩
        · exact h2 c hc
        · exact (ih c0 (h2 c0 (List.mem_of_getElem? hc0))).1

/-- An operation that keeps dirty flags going down. -/
def KeepsDown (f : Node → Node) : Prop := ∀ m, DirtyDown m → DirtyDown (f m)

/-- An operation that does not clean a box. -/
def NoClean (f : Node → Node) : Prop := ∀ m, (∀ b, m.layout = some b → b.Dirty) → ∀ b, (f m).layout = some b → b.Dirty

/-- The parent of the node at the path has a clean box. -/
def CleanParent (n : Node) (p : List Nat) : Prop :=
  ∀ q i, p = q ++ [i] → ∃ m b, n.find q = some m ∧ m.layout = some b ∧ ¬ b.Dirty

theorem atPath_down {f : Node → Node} (hf : KeepsDown f) (p : List Nat) :
    ∀ n, DirtyDown n → NoClean f ∨ CleanParent n p → DirtyDown (n.atPath f p) := by
  induction p with
  | nil => intro n h _; exact hf n h
  | cons i p ih =>
    rintro ⟨s, z, l, cs⟩ h hc
    rw [dirtyDown_mk] at h
    simp only [Node.atPath, dirtyDown_mk]
    refine ⟨?_, ?_⟩
    · intro hl c hcm cb hcb
      rcases mem_modify hcm with hcm | ⟨c0, hc0, rfl⟩
      · exact h.1 hl c hcm cb hcb
      · have hm := List.mem_of_getElem? hc0
        cases p with
        | nil =>
          rcases hc with hc | hc
          · exact hc c0 (h.1 hl c0 hm) cb hcb
          · obtain ⟨m, b, hm', hb, hd⟩ := hc [] i rfl
            simp only [Node.find, Option.some.injEq] at hm'
            subst hm'
            exact absurd (hl b hb) hd
        | cons j p =>
          rw [atPath_layout (by simp)] at hcb
          exact h.1 hl c0 hm cb hcb
    · intro c hcm
      rcases mem_modify hcm with hcm | ⟨c0, hc0, rfl⟩
      · exact h.2 c hcm
      · refine ih c0 (h.2 c0 (List.mem_of_getElem? hc0)) ?_
        rcases hc with hc | hc
        · exact Or.inl hc
        · refine Or.inr fun q j hq => ?_
          obtain ⟨m, b, hm, hb⟩ := hc (i :: q) j (by rw [hq]; rfl)
          simp only [Node.find, Node.children, hc0, Option.bind_some] at hm
          exact ⟨m, b, hm, hb⟩

theorem addChild_down (i : Nat) {c : Node} (hc : EveryBox Box.Dirty c) : KeepsDown (Node.addChild i c) := by
  rintro ⟨s, z, l, cs⟩ h
  rw [dirtyDown_mk] at h
  have mem : ∀ x ∈ cs.take i ++ c :: cs.drop i, x = c ∨ x ∈ cs := by
    intro x hx
    rcases List.mem_append.1 hx with hx | hx
    · exact Or.inr (List.mem_of_mem_take hx)
    · rcases List.mem_cons.1 hx with hx | hx
      · exact Or.inl hx
      · exact Or.inr (List.mem_of_mem_drop hx)
  simp only [Node.addChild, dirtyDown_mk]
  refine ⟨fun hl x hx cb hcb => ?_, fun x hx => ?_⟩
  · rcases mem x hx with rfl | hx
    · exact hc _ (.refl _) cb hcb
    · exact h.1 hl x hx cb hcb
  · rcases mem x hx with rfl | hx
    · exact dirtyDown_of_all hc
    · exact h.2 x hx

theorem dropChild_down (i : Nat) : KeepsDown (Node.dropChild i) := by
  rintro ⟨s, z, l, cs⟩ h
  rw [dirtyDown_mk] at h
  simp only [Node.dropChild, dirtyDown_mk]
  exact ⟨fun hl x hx => h.1 hl x (List.mem_of_mem_eraseIdx hx), fun x hx => h.2 x (List.mem_of_mem_eraseIdx hx)⟩

end Colosseum
