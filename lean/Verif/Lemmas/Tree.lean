import Verif.Spec.Tree
import Verif.Lemmas.Pixels
import Verif.Lemmas.Decl
import Mathlib.Data.List.Basic

/-!
# Induction on documents, positions and dirty flags
-/

namespace Colosseum

theorem Node.ind {P : Node → Prop} (h : ∀ s z l cs, (∀ c ∈ cs, P c) → P (.mk s z l cs)) : ∀ n, P n := by
  intro n
  refine Node.rec (motive_1 := P) (motive_2 := fun cs => ∀ c ∈ cs, P c) ?_ ?_ ?_ n
  · intro s z l cs ih; exact h s z l cs ih
  · intro c hc; cases hc
  · intro c cs hc hcs x hx
    rcases List.mem_cons.1 hx with rfl | hx
    · exact hc
    · exact hcs x hx

theorem setOrigins_map (fp : FP) (a : Axis) (v : Num) (cs : List Node) :
    setOrigins fp a v cs = cs.map (Node.setOrigin fp a v) := by
  induction cs with
  | nil => rfl
  | cons c cs ih => simp [setOrigins, ih]

theorem setDirties_map (v : Option Bool) (cs : List Node) : setDirties v cs = cs.map (Node.setDirty v) := by
  induction cs with
  | nil => rfl
  | cons c cs ih => simp [setDirties, ih]

/-! ## Positions -/

theorem pos_setPos (b : Box) (a a' : Axis) (p : AxisPos) :
    (b.setPos a p).pos a' = if a = a' then p else b.pos a' := by
  cases a <;> cases a' <;> rfl

theorem pos_setPos_same (b : Box) (a : Axis) (p : AxisPos) : (b.setPos a p).pos a = p := by
  rw [pos_setPos, if_pos rfl]

theorem dirty_setPos (b : Box) (a : Axis) (p : AxisPos) : (b.setPos a p).dirty = b.dirty := by
  cases a <;> rfl

/-- The structural form of coherence. -/
inductive Coh (fp : FP) (a : Axis) : Node → Prop
  | none (s : CSS) (z : Intrinsic) (cs : List Node) : Coh fp a (.mk s z none cs)
  | box (s : CSS) (z : Intrinsic) (b : Box) (cs : List Node) :
      (∀ c ∈ cs, ∀ cb, c.layout = some cb → (cb.pos a).origin.val = (b.absContent fp a).val) →
      (∀ c ∈ cs, Coh fp a c) → Coh fp a (.mk s z (some b) cs)

theorem coherent_child {fp : FP} {a : Axis} {n c : Node} {b : Box} (h : Coherent fp a n) (hb : n.layout = some b)
    (hc : c ∈ n.children) : Coherent fp a c ∧ ∀ cb, c.layout = some cb → (cb.pos a).origin.val = (b.absContent fp a).val :=
  ⟨fun bs p b' hs => h (b :: bs) p b' (.step hb hc hs), fun cb hcb => h [] b cb (.step hb hc (.here hcb))⟩

theorem coh_iff {fp : FP} {a : Axis} {n : Node} : Coh fp a n ↔ Coherent fp a n := by
  constructor
  · intro h bs p b hs
    induction bs generalizing n with
    | nil =>
      cases hs with
      | step hb hc hs =>
        cases hs with
        | here hl =>
          cases h with
          | none => cases hb
          | box s z b cs h1 _ => cases hb; exact h1 _ hc _ hl
    | cons q bs ih =>
      cases hs with
      | step hb hc hs =>
        cases h with
        | none => cases hb
        | box s z b cs _ h2 => exact ih (h2 _ hc) hs
  · induction n using Node.ind with
    | h s z l cs ih =>
      intro h
      cases l with
      | none => exact .none s z cs
      | some b =>
        refine .box s z b cs ?_ ?_
        · intro c hc; exact (coherent_child h rfl hc).2
        · intro c hc; exact ih c hc (coherent_child h rfl hc).1

theorem setOrigin_layout (fp : FP) (a : Axis) (v : Num) (n : Node) {b : Box} (h : (n.setOrigin fp a v).layout = some b) :
    (b.pos a).origin.val = v.val := by
  cases n with
  | mk s z l cs =>
    cases l with
    | none => simp [Node.setOrigin, Node.layout] at h
    | some b0 =>
      simp only [Node.setOrigin] at h
      split at h
      · rename_i hv
        simp only [Node.layout, Option.some.injEq] at h
        subst h
        exact (beq_iff_eq.1 hv).symm
      · simp only [Node.layout, Option.some.injEq] at h
        subst h
        rw [pos_setPos_same]

theorem setOrigin_coh (fp : FP) (a : Axis) (n : Node) : ∀ v, Coh fp a n → Coh fp a (n.setOrigin fp a v) := by
  induction n using Node.ind with
  | h s z l cs ih =>
    intro v h
    cases l with
    | none => simp only [Node.setOrigin]; exact .none ..
    | some b =>
      simp only [Node.setOrigin]
      split
      · exact h
      · rw [setOrigins_map]
        refine .box _ _ _ _ ?_ ?_
        · intro c hc cb hcb
          obtain ⟨c0, _, rfl⟩ := List.mem_map.1 hc
          exact setOrigin_layout _ _ _ _ hcb
        · intro c hc
          obtain ⟨c0, hc0, rfl⟩ := List.mem_map.1 hc
          cases h with
          | box _ _ _ _ _ h2 => exact ih c0 hc0 _ (h2 c0 hc0)

/-- Moving one axis leaves the other alone. -/
theorem setOrigin_other (fp : FP) {a a' : Axis} (ne : a ≠ a') (n : Node) :
    ∀ v, (Coh fp a' n → Coh fp a' (n.setOrigin fp a v)) ∧
      ∀ b, (n.setOrigin fp a v).layout = some b → ∃ b0, n.layout = some b0 ∧ b.pos a' = b0.pos a' := by
  induction n using Node.ind with
  | h s z l cs ih =>
    intro v
    cases l with
    | none =>
      simp only [Node.setOrigin]
      exact ⟨fun h => h, fun b hb => by cases hb⟩
    | some b =>
      simp only [Node.setOrigin]
      split
      · exact ⟨fun h => h, fun b hb => ⟨b, hb, rfl⟩⟩
      · rw [setOrigins_map]
        refine ⟨fun h => ?_, fun b' hb => ?_⟩
        · cases h with
          | box _ _ _ _ h1 h2 =>
            refine .box _ _ _ _ ?_ ?_
            · intro c hc cb hcb
              obtain ⟨c0, hc0, rfl⟩ := List.mem_map.1 hc
              obtain ⟨b0, hb0, e⟩ := (ih c0 hc0 _).2 cb hcb
              rw [e, h1 c0 hc0 b0 hb0]
              simp only [Box.absContent, pos_setPos, if_neg ne]
            · intro c hc
              obtain ⟨c0, hc0, rfl⟩ := List.mem_map.1 hc
              exact (ih c0 hc0 _).1 (h2 c0 hc0)
        · simp only [Node.layout, Option.some.injEq] at hb
          subst hb
          exact ⟨b, rfl, by rw [pos_setPos, if_neg ne]⟩

/-- Two boxes at the same position. -/
def SamePos (b b' : Box) : Prop := b.v = b'.v ∧ b.h = b'.h

theorem SamePos.pos {b b' : Box} (h : SamePos b b') (a : Axis) : b.pos a = b'.pos a := by
  cases a
  · exact h.1
  · exact h.2

theorem setContent_coh (fp : FP) (a : Axis) (v : Num) (s : CSS) (z : Intrinsic) (b : Box) (cs : List Node) (a' : Axis)
    (h : Coh fp a' (.mk s z (some b) cs)) :
    Coh fp a' (.mk s z (some (setContent fp a v b cs).1) (setContent fp a v b cs).2) := by
  unfold setContent
  split
  · exact h
  · cases h with
    | box _ _ _ _ h1 h2 =>
      simp only [setOrigins_map]
      refine .box _ _ _ _ ?_ ?_
      · intro c hc cb hcb
        obtain ⟨c0, hc0, rfl⟩ := List.mem_map.1 hc
        by_cases e : a = a'
        · subst e; exact setOrigin_layout _ _ _ _ hcb
        · obtain ⟨b0, hb0, e'⟩ := (setOrigin_other fp e c0 _).2 cb hcb
          rw [e', h1 c0 hc0 b0 hb0]
          simp only [Box.absContent, pos_setPos, if_neg e]
      · intro c hc
        obtain ⟨c0, hc0, rfl⟩ := List.mem_map.1 hc
        by_cases e : a = a'
        · subst e; exact setOrigin_coh _ _ _ _ (h2 c0 hc0)
        · exact (setOrigin_other fp e c0 _).1 (h2 c0 hc0)

theorem setContent_origin (fp : FP) (a : Axis) (v : Num) (b : Box) (cs : List Node) (a' : Axis) :
    ((setContent fp a v b cs).1.pos a').origin = (b.pos a').origin := by
  unfold setContent
  split
  · rfl
  · simp only [pos_setPos]
    split
    · rename_i e; subst e; rfl
    · rfl

/-- Replacing a box by one at the same position. -/
theorem coh_same {fp : FP} {a : Axis} {s s' : CSS} {z z' : Intrinsic} {b b' : Box} {cs : List Node} (hp : SamePos b b')
    (h : Coh fp a (.mk s z (some b) cs)) : Coh fp a (.mk s' z' (some b') cs) := by
  cases h with
  | box _ _ _ _ h1 h2 =>
    refine .box _ _ _ _ ?_ h2
    intro c hc cb hcb
    rw [h1 c hc cb hcb, Box.absContent, Box.absContent, hp.pos]

theorem setMargin_pos (b : Box) (t : Side) (x : MVal) : SamePos b (b.setMargin t x) := by
  unfold Box.setMargin Box.setCollapse
  split
  · exact ⟨rfl, rfl⟩
  · split
    · split <;> exact ⟨rfl, rfl⟩
    · exact ⟨rfl, rfl⟩

theorem setCollapse_pos (b : Box) (t : Side) (x : MVal) : SamePos b (b.setCollapse t x) := by
  unfold Box.setCollapse
  split
  · split <;> exact ⟨rfl, rfl⟩
  · exact ⟨rfl, rfl⟩

/-! ## Dirty flags -/

theorem setDirty_coh (fp : FP) (a : Axis) (v : Option Bool) (n : Node) :
    (Coh fp a n → Coh fp a (n.setDirty v)) ∧
    ∀ b, (n.setDirty v).layout = some b → ∃ b0, n.layout = some b0 ∧ SamePos b0 b := by
  induction n using Node.ind with
  | h s z l cs ih =>
    cases l with
    | none =>
      simp only [Node.setDirty]
      exact ⟨fun h => h, fun b hb => by cases hb⟩
    | some b =>
      simp only [Node.setDirty]
      split
      · exact ⟨fun h => h, fun b hb => ⟨b, hb, rfl, rfl⟩⟩
      · rw [setDirties_map]
        refine ⟨fun h => ?_, fun b' hb => ?_⟩
        · cases h with
          | box _ _ _ _ h1 h2 =>
            refine .box _ _ _ _ ?_ ?_
            · intro c hc cb hcb
              obtain ⟨c0, hc0, rfl⟩ := List.mem_map.1 hc
              obtain ⟨b0, hb0, e⟩ := (ih c0 hc0).2 cb hcb
              rw [← e.pos, h1 c0 hc0 b0 hb0]
              rfl
            · intro c hc
              obtain ⟨c0, hc0, rfl⟩ := List.mem_map.1 hc
              exact (ih c0 hc0).1 (h2 c0 hc0)
        · simp only [Node.layout, Option.some.injEq] at hb
          subst hb
          exact ⟨b, rfl, rfl, rfl⟩

/-! ## Occurrence -/

theorem Sub.cases' {m : Node} {s : CSS} {z : Intrinsic} {l : Option Box} {cs : List Node} (h : Sub m (.mk s z l cs)) :
    m = .mk s z l cs ∨ ∃ c ∈ cs, Sub m c := by
  cases h with
  | refl => exact Or.inl rfl
  | child hc hs => exact Or.inr ⟨_, hc, hs⟩

theorem everyBox_mk {P : Box → Prop} {s : CSS} {z : Intrinsic} {l : Option Box} {cs : List Node} :
    EveryBox P (.mk s z l cs) ↔ (∀ b, l = some b → P b) ∧ ∀ c ∈ cs, EveryBox P c := by
  constructor
  · intro h
    refine ⟨fun b hb => h _ (.refl _) b hb, fun c hc m hm b hb => h m (.child hc hm) b hb⟩
  · rintro ⟨h1, h2⟩ m hm b hb
    rcases hm.cases' with rfl | ⟨c, hc, hm⟩
    · exact h1 b hb
    · exact h2 c hc m hm b hb

theorem dirtyDown_mk {s : CSS} {z : Intrinsic} {l : Option Box} {cs : List Node} :
    DirtyDown (.mk s z l cs) ↔
      ((∀ b, l = some b → b.Dirty) → ∀ c ∈ cs, ∀ cb, c.layout = some cb → cb.Dirty) ∧ ∀ c ∈ cs, DirtyDown c := by
  constructor
  · intro h
    exact ⟨fun hl => h _ (.refl _) hl, fun c hc m hm hd => h m (.child hc hm) hd⟩
  · rintro ⟨h1, h2⟩ m hm hd
    rcases hm.cases' with rfl | ⟨c, hc, hm⟩
    · exact h1 hd
    · exact h2 c hc m hm hd

/-- Below a node that is dirty or has no box, everything is dirty. -/
theorem dirty_all {n : Node} (h : DirtyDown n) (hn : ∀ b, n.layout = some b → b.Dirty) : EveryBox Box.Dirty n := by
  revert h hn
  induction n using Node.ind with
  | h s z l cs ih =>
    intro h hn
    rw [dirtyDown_mk] at h
    rw [everyBox_mk]
    exact ⟨hn, fun c hc => ih c hc (h.2 c hc) (h.1 hn c hc)⟩

theorem dirtyDown_of_all {n : Node} (h : EveryBox Box.Dirty n) : DirtyDown n := by
  revert h
  induction n using Node.ind with
  | h s z l cs ih =>
    intro h
    rw [everyBox_mk] at h
    rw [dirtyDown_mk]
    refine ⟨fun _ c hc cb hcb => h.2 c hc c (.refl c) cb hcb, fun c hc => ih c hc (h.2 c hc)⟩

/-- The flags a `dirty` assignment leaves at the top. -/
theorem setDirty_layout (v : Option Bool) (n : Node) :
    ((n.setDirty v).layout = none ↔ n.layout = none) ∧ ∀ b, (n.setDirty v).layout = some b → b.dirty = v := by
  cases n with
  | mk s z l cs =>
    cases l with
    | none => simp [Node.setDirty, Node.layout]
    | some b =>
      simp only [Node.setDirty]
      split
      · rename_i h
        refine ⟨by simp [Node.layout], fun b' hb => ?_⟩
        simp only [Node.layout, Option.some.injEq] at hb
        subst hb; exact h.symm
      · refine ⟨by simp [Node.layout], fun b' hb => ?_⟩
        simp only [Node.layout, Option.some.injEq] at hb
        subst hb; rfl

theorem setDirty_down (v : Option Bool) (n : Node) (h : DirtyDown n) : DirtyDown (n.setDirty v) := by
  revert h
  induction n using Node.ind with
  | h s z l cs ih =>
    intro h
    cases l with
    | none => simpa only [Node.setDirty] using h
    | some b =>
      simp only [Node.setDirty]
      split
      · exact h
      · rw [dirtyDown_mk] at h
        rw [setDirties_map, dirtyDown_mk]
        refine ⟨?_, ?_⟩
        · intro hb c hc cb hcb
          obtain ⟨c0, hc0, rfl⟩ := List.mem_map.1 hc
          have := hb _ rfl
          unfold Box.Dirty at this ⊢
          rw [(setDirty_layout v c0).2 cb hcb]
          exact this
        · intro c hc
          obtain ⟨c0, hc0, rfl⟩ := List.mem_map.1 hc
          exact ih c0 hc0 (h.2 c0 hc0)

/-! ## Operations at a path -/

theorem find_atPath {f : Node → Node} {n m : Node} : ∀ {p : List Nat}, n.find p = some m → (n.atPath f p).find p = some (f m) := by
  intro p
  induction p generalizing n with
  | nil => intro h; simp only [Node.find, Option.some.injEq] at h; subst h; rfl
  | cons i p ih =>
    intro h
    cases n with
    | mk s z l cs =>
      simp only [Node.find, Node.children, Node.atPath] at h ⊢
      cases hc : cs[i]? with
      | none => rw [hc] at h; cases h
      | some c =>
        rw [hc] at h
        rw [List.getElem?_modify, hc]
        simp only [Option.bind_some] at h
        simp only [if_pos, Option.map_eq_map, Option.map_some, Option.bind_some]
        exact ih h

theorem mem_modify {cs : List Node} {g : Node → Node} {i : Nat} {c : Node} (h : c ∈ cs.modify i g) :
    c ∈ cs ∨ ∃ c0, cs[i]? = some c0 ∧ c = g c0 := by
  obtain ⟨j, hj⟩ := List.mem_iff_getElem?.1 h
  rw [List.getElem?_modify] at hj
  cases hc : cs[j]? with
  | none => rw [hc] at hj; cases hj
  | some c0 =>
    rw [hc] at hj
    by_cases e : i = j
    · subst e
      simp only [if_pos, Option.map_eq_map, Option.map_some, Option.some.injEq] at hj
      exact Or.inr ⟨c0, hc, hj.symm⟩
    · simp only [if_neg e, Option.map_eq_map, Option.map_some, Option.some.injEq] at hj
      exact Or.inl (List.mem_iff_getElem?.2 ⟨j, by rw [hc, ← hj]⟩)

theorem atPath_layout {f : Node → Node} {n : Node} {p : List Nat} (hp : p ≠ []) : (n.atPath f p).layout = n.layout := by
  cases p with
  | nil => exact absurd rfl hp
  | cons i p => cases n; rfl

end Colosseum
