import Verif.Lemmas.Engine

/-!
# Invariants of `layout_box`
-/

namespace Colosseum

/-! ## Sequences of steps -/

theorem Steps.strips {fp : FP} {b b' : Box} {cs cs' : List Node} (h : Steps fp b cs b' cs') :
    cs'.map Node.strip = cs.map Node.strip := by
  induction h with
  | refl => rfl
  | write _ _ ih => exact ih
  | move a v _ ih => exact ih.trans (strips_setContent ..)

theorem dirty_setContent (fp : FP) (a : Axis) (v : Num) (b : Box) (cs : List Node) :
    (setContent fp a v b cs).1.dirty = b.dirty := by
  unfold setContent
  split
  · rfl
  · exact dirty_setPos ..

theorem everyDirty_setOrigin (fp : FP) (a : Axis) (v : Num) {n : Node} (h : EveryBox Box.Dirty n) :
    EveryBox Box.Dirty (n.setOrigin fp a v) := by
  obtain ⟨h1, h2⟩ := setOrigin_dirty fp a n v
  refine dirty_all (h1 (dirtyDown_of_all h)) ?_
  intro b hb
  rw [hb] at h2
  cases hl : n.layout with
  | none => rw [hl] at h2; cases h2
  | some b0 =>
    rw [hl] at h2
    have := h n (.refl n) b0 hl
    have h2 : b.dirty = b0.dirty := Option.some.inj h2
    exact h2.trans this

theorem Steps.dirty {fp : FP} {b b' : Box} {cs cs' : List Node} (h : Steps fp b cs b' cs') :
    b'.dirty = b.dirty ∧ ((∀ c ∈ cs, EveryBox Box.Dirty c) → ∀ c ∈ cs', EveryBox Box.Dirty c) := by
  induction h with
  | refl => exact ⟨rfl, fun h => h⟩
  | write hc _ ih => exact ⟨ih.1.trans hc.2.2.symm, ih.2⟩
  | @move b _ cs _ a v _ ih =>
    refine ⟨ih.1.trans (dirty_setContent ..), fun h => ih.2 ?_⟩
    unfold setContent
    split
    · exact h
    · simp only [setOrigins_map, List.mem_map]
      rintro c ⟨c0, hc0, rfl⟩
      exact everyDirty_setOrigin _ _ _ (h c0 hc0)

theorem Steps.coh {fp : FP} {a : Axis} {s : CSS} {z : Intrinsic} {b b' : Box} {cs cs' : List Node} (h : Steps fp b cs b' cs') :
    (b'.pos a).origin = (b.pos a).origin ∧ (Coh fp a (.mk s z (some b) cs) → Coh fp a (.mk s z (some b') cs')) := by
  induction h with
  | refl => exact ⟨rfl, fun h => h⟩
  | write hc _ ih => exact ⟨by rw [ih.1, hc.pos.pos], fun h => ih.2 (coh_same hc.pos h)⟩
  | move ax v _ ih => exact ⟨by rw [ih.1, setContent_origin], fun h => ih.2 (setContent_coh _ _ _ _ _ _ _ _ h)⟩

/-! ## Every visible node has a box -/

theorem hidden_iff (s : CSS) : (s.get .display).isNone = true ↔ s.get .display = .none := by
  cases h : s.get .display <;> simp [Val.isNone]

theorem allBoxed_mk {s : CSS} {z : Intrinsic} {l : Option Box} {cs : List Node} :
    AllBoxed (.mk s z l cs) ↔ (s.get .display ≠ .none → l ≠ none ∧ ∀ c ∈ cs, AllBoxed c) := by
  constructor
  · intro h hs
    exact ⟨h _ (.here hs), fun c hc m hm => h m (.step hs hc hm)⟩
  · intro h m hm
    cases hm with
    | here hs => exact (h hs).1
    | step hs hc hm => exact (h hs).2 _ hc m hm

theorem allBoxed_setOrigin (fp : FP) (a : Axis) (n : Node) : ∀ v, AllBoxed n → AllBoxed (n.setOrigin fp a v) := by
  induction n using Node.ind with
  | h s z l cs ih =>
    intro v h
    cases l with
    | none => exact h
    | some b =>
      simp only [Node.setOrigin]
      split
      · exact h
      · simp only [setOrigins_map]
        rw [allBoxed_mk] at h ⊢
        intro hs
        refine ⟨by simp, ?_⟩
        intro c hc
        obtain ⟨c0, hc0, rfl⟩ := List.mem_map.1 hc
        exact ih c0 hc0 _ ((h hs).2 c0 hc0)

theorem allBoxed_setOrigins (fp : FP) (a : Axis) (v : Num) {cs : List Node} (h : ∀ c ∈ cs, AllBoxed c) :
    ∀ c ∈ setOrigins fp a v cs, AllBoxed c := by
  intro c hc
  rw [setOrigins_map] at hc
  obtain ⟨c0, hc0, rfl⟩ := List.mem_map.1 hc
  exact allBoxed_setOrigin _ _ _ _ (h c0 hc0)

theorem Steps.boxed {fp : FP} {b b' : Box} {cs cs' : List Node} (h : Steps fp b cs b' cs') :
    (∀ c ∈ cs, AllBoxed c) → ∀ c ∈ cs', AllBoxed c := by
  induction h with
  | refl => exact fun h => h
  | write _ _ ih => exact ih
  | move a v _ ih =>
    intro h
    refine ih ?_
    unfold setContent
    split
    · exact h
    · exact allBoxed_setOrigins _ _ _ h

theorem allBoxed_resetFuel (fp : FP) (f : Nat) : ∀ n, AllBoxed n → AllBoxed (n.resetFuel fp f) := by
  induction f with
  | zero => intro n h; exact h
  | succ f ih =>
    rintro ⟨s, z, l, cs⟩ h
    cases l with
    | none => exact h
    | some b =>
      simp only [Node.resetFuel, resetOne]
      rw [allBoxed_mk] at h ⊢
      intro hs
      refine ⟨by simp, ?_⟩
      intro c hc
      obtain ⟨c0, hc0, rfl⟩ := List.mem_map.1 hc
      exact ih c0 (allBoxed_setOrigins _ _ _ (allBoxed_setOrigins _ _ _ (h hs).2) c0 hc0)

theorem allBoxed_reset (fp : FP) {n : Node} (h : AllBoxed n) : AllBoxed (n.reset fp) := allBoxed_resetFuel fp _ n h

/-! ## Inversion -/

theorem layoutBox_zero (fp : FP) (d : Display) (p : Option CSS) (cb : CB) (n : Node) : layoutBox fp d 0 p cb n = .error .recursion := rfl

theorem layoutBox_hidden {fp : FP} {d : Display} {f : Nat} {p : Option CSS} {cb : CB} {s : CSS} {z : Intrinsic} {l : Option Box}
    {cs : List Node} (h : (s.get .display).isNone = true) :
    layoutBox fp d (f + 1) p cb (.mk s z l cs) = .ok (.mk s z none cs) := by
  simp only [layoutBox, h, if_true]

theorem layoutBox_boxed {fp : FP} {d : Display} {f : Nat} {p : Option CSS} {cb : CB} {s : CSS} {z : Intrinsic} {b : Box}
    {cs : List Node} {n' : Node} (h : (s.get .display).isNone = false) :
    layoutBox fp d (f + 1) p cb (.mk s z (some b) cs) = .ok n' ↔
      ∃ b' cs', layoutBody fp d (fun b n => layoutBox fp d f (some s) (.box b) n) p cb s z b cs = .ok (b', cs') ∧
        n' = .mk s z (some b') cs' := by
  simp only [layoutBox, h]
  cases hb : layoutBody fp d (fun b n => layoutBox fp d f (some s) (.box b) n) p cb s z b cs with
  | error e => simp
  | ok r => obtain ⟨b', cs'⟩ := r; simp [eq_comm]

theorem layoutBox_unboxed {fp : FP} {d : Display} {f : Nat} {p : Option CSS} {cb : CB} {s : CSS} {z : Intrinsic}
    {cs : List Node} (h : (s.get .display).isNone = false) :
    layoutBox fp d (f + 1) p cb (.mk s z none cs) =
      layoutBox fp d (f + 1) p cb (.mk s z (some Box.fresh) (resetOne fp cs).2) := by
  simp only [layoutBox, h]
  rfl

/-- A successful `layout_box`: the node was hidden, or the body ran, on a new box if there was none. -/
theorem layoutBox_ok {fp : FP} {d : Display} {f : Nat} {p : Option CSS} {cb : CB} {s : CSS} {z : Intrinsic} {l : Option Box}
    {cs : List Node} {n' : Node} (h : layoutBox fp d (f + 1) p cb (.mk s z l cs) = .ok n') :
    (s.get .display = .none ∧ n' = .mk s z none cs) ∨
    (s.get .display ≠ .none ∧ ∃ b cs0 b' cs', (l = some b ∧ cs0 = cs ∨ l = none ∧ b = Box.fresh ∧ cs0 = (resetOne fp cs).2) ∧
      layoutBody fp d (fun b n => layoutBox fp d f (some s) (.box b) n) p cb s z b cs0 = .ok (b', cs') ∧
        n' = .mk s z (some b') cs') := by
  by_cases hn : (s.get .display).isNone = true
  · rw [layoutBox_hidden hn] at h
    cases h
    exact Or.inl ⟨(hidden_iff s).1 hn, rfl⟩
  · have hn' : (s.get .display).isNone = false := by simpa using hn
    refine Or.inr ⟨fun e => hn ((hidden_iff s).2 e), ?_⟩
    cases l with
    | some b =>
      obtain ⟨b', cs', h1, h2⟩ := (layoutBox_boxed hn').1 h
      exact ⟨b, cs, b', cs', Or.inl ⟨rfl, rfl⟩, h1, h2⟩
    | none =>
      rw [layoutBox_unboxed hn'] at h
      obtain ⟨b', cs', h1, h2⟩ := (layoutBox_boxed hn').1 h
      exact ⟨_, _, b', cs', Or.inr ⟨rfl, rfl, rfl⟩, h1, h2⟩

/-! ## The document is kept -/

theorem layoutBox_strip (fp : FP) (d : Display) (f : Nat) : ∀ (p : Option CSS) (cb : CB) (n n' : Node),
    layoutBox fp d f p cb n = .ok n' → n'.strip = n.strip := by
  induction f with
  | zero => intro p cb n n' h; cases h
  | succ f ih =>
    rintro p cb ⟨s, z, l, cs⟩ n' h
    rcases layoutBox_ok h with ⟨_, rfl⟩ | ⟨_, b, cs0, b', cs', hl, hb, rfl⟩
    · simp only [strip_mk]
    · have hc : cs0.map Node.strip = cs.map Node.strip := by
        rcases hl with ⟨_, rfl⟩ | ⟨_, _, rfl⟩
        · rfl
        · exact strips_resetOne ..
      obtain ⟨b3, cs3, b4, cs4, h1, _, h2, h3⟩ := body_steps hb
      simp only [strip_mk]
      rw [h3.strips, ← hc, ← h1.strips]
      congr 1
      clear h1 h3
      induction h2 with
      | nil => rfl
      | @cons c c' cs cs' hcc _ ih' =>
        simp only [List.map_cons, ih']
        congr 1
        rcases hcc with rfl | hcc
        · rfl
        · cases hcc with
          | same h => exact ih _ _ _ _ h
          | moved v h =>
            have := ih _ _ _ _ h
            rw [← this]
            simp only [strip_mk, strips_setContent]

/-! ## Fuel -/

theorem depth_strip (n : Node) : n.strip.depth = n.depth := by
  induction n using Node.ind with
  | h s z l cs ih =>
    rw [strip_mk]
    simp only [Node.depth]
    rw [depths_map ih]

theorem depth_same {n m : Node} (h : n.strip = m.strip) : n.depth = m.depth := by
  rw [← depth_strip n, h, depth_strip]

theorem depth_strips {cs cs' : List Node} {k : Nat} (h : cs'.map Node.strip = cs.map Node.strip) (hk : ∀ c ∈ cs, c.depth ≤ k) :
    ∀ c ∈ cs', c.depth ≤ k := by
  intro c hc
  have : c.strip ∈ cs'.map Node.strip := List.mem_map.2 ⟨c, hc, rfl⟩
  rw [h] at this
  obtain ⟨c0, hc0, he⟩ := List.mem_map.1 this
  rw [← depth_same he]
  exact hk c0 hc0

theorem inlineLoop_congr {lay lay' : Node → Res Node} {cs : List Node} (h : ∀ c ∈ cs, lay c = lay' c) :
    inlineLoop lay cs = inlineLoop lay' cs := by
  induction cs with
  | nil => rfl
  | cons c cs ih =>
    simp only [inlineLoop]
    rw [h c List.mem_cons_self, ih fun x hx => h x (List.mem_cons_of_mem _ hx)]

theorem anonymize_mem {cs : List Node} {n : Node} : ∀ {p : Option (List Node)}, Container.node n ∈ anonymizeLoop p cs → n ∈ cs := by
  induction cs with
  | nil => intro p h; cases h
  | cons c cs ih =>
    intro p h
    simp only [anonymizeLoop] at h
    split at h
    · cases p with
      | none =>
        rcases List.mem_cons.1 h with h | h
        · cases h; exact List.mem_cons_self
        · exact List.mem_cons_of_mem _ (ih h)
      | some xs =>
        rcases List.mem_cons.1 h with h | h
        · cases h
        rcases List.mem_cons.1 h with h | h
        · cases h; exact List.mem_cons_self
        · exact List.mem_cons_of_mem _ (ih h)
    · cases p with
      | none => exact List.mem_cons_of_mem _ (ih h)
      | some xs => exact List.mem_cons_of_mem _ (ih h)

theorem blockLoop_congr {fp : FP} {lay lay' : Box → Node → Res Node} {ks : List Container}
    (h : ∀ c, Container.node c ∈ ks → ∀ b, lay b c = lay' b c) : ∀ (b : Box) (off : Num) (bm : Option Int),
    blockLoop fp lay b off bm ks = blockLoop fp lay' b off bm ks := by
  induction ks with
  | nil => intros; rfl
  | cons k ks ih =>
    intro b off bm
    cases k with
    | anon xs => rfl
    | node c =>
      simp only [blockLoop]
      rw [h c List.mem_cons_self]
      cases lay' b c with
      | error e => rfl
      | ok c' =>
        simp only
        cases stackChild fp b off bm c' with
        | error e => rfl
        | ok r =>
          obtain ⟨b1, c1, o1, m1⟩ := r
          simp only
          rw [ih fun x hx => h x (List.mem_cons_of_mem _ hx)]

theorem children_congr {fp : FP} {lay lay' : Box → Node → Res Node} {s : CSS} {z : Intrinsic} {b : Box} {cs : List Node}
    (h : ∀ c ∈ cs, ∀ b, lay b c = lay' b c) : layoutChildren fp lay s z b cs = layoutChildren fp lay' s z b cs := by
  unfold layoutChildren
  have h2 : blockLoop fp lay b (.int 0) none (anonymize cs) = blockLoop fp lay' b (.int 0) none (anonymize cs) :=
    blockLoop_congr (fun c hc => h c (anonymize_mem hc)) _ _ _
  rw [inlineLoop_congr fun c hc => h c hc b, h2]

theorem body_congr {fp : FP} {d : Display} {lay lay' : Box → Node → Res Node} {p : Option CSS} {cb : CB} {s : CSS} {z : Intrinsic}
    {b : Box} {cs : List Node} {k : Nat} (hk : ∀ c ∈ cs, c.depth ≤ k) (h : ∀ c, c.depth ≤ k → ∀ b, lay b c = lay' b c) :
    layoutBody fp d lay p cb s z b cs = layoutBody fp d lay' p cb s z b cs := by
  unfold layoutBody
  simp only
  cases copyEdges fp s ⟨d, dummyFont fp, cb.width⟩ ⟨d, dummyFont fp, cb.height⟩ b with
  | error e => rfl
  | ok b1 =>
    show (widthAndMargins _ _ _ _ _ _ >>= _) = (widthAndMargins _ _ _ _ _ _ >>= _)
    cases hw : widthAndMargins fp s z ⟨d, dummyFont fp, cb.width⟩ b1 cs with
    | error e => rfl
    | ok r =>
      obtain ⟨b2, cs2⟩ := r
      show (relativeHeight _ _ _ _ _ _ _ >>= _) = (relativeHeight _ _ _ _ _ _ _ >>= _)
      cases hr : relativeHeight fp s z p ⟨d, dummyFont fp, cb.height⟩ b2 cs2 with
      | error e => rfl
      | ok r =>
        obtain ⟨b3, cs3⟩ := r
        have h23 : cs3.map Node.strip = cs2.map Node.strip := by
          unfold relativeHeight at hr
          split at hr
          · exact (height_steps hr).strips
          · cases hr; rfl
        have hd : ∀ c ∈ cs3, c.depth ≤ k := depth_strips h23 (depth_strips (width_steps hw).strips hk)
        have : layoutChildren fp lay s z b3 cs3 = layoutChildren fp lay' s z b3 cs3 := children_congr fun c hc => h c (hd c hc)
        show (if _ then _ else if _ then _ else _) = (if _ then _ else if _ then _ else _)
        simp only [this]

/-- As many levels of recursion as the document is deep are enough. -/
theorem layoutBox_fuel (fp : FP) (d : Display) (f : Nat) : ∀ (g : Nat) (p : Option CSS) (cb : CB) (n : Node),
    n.depth ≤ f → n.depth ≤ g → layoutBox fp d f p cb n = layoutBox fp d g p cb n := by
  induction f with
  | zero => intro g p cb n h; have := depth_pos n; omega
  | succ f ih =>
    rintro g p cb ⟨s, z, l, cs⟩ hf hg
    cases g with
    | zero => have := depth_pos (Node.mk s z l cs); omega
    | succ g =>
      simp only [Node.depth] at hf hg
      have key : ∀ (b : Box) (cs' : List Node), cs'.map Node.strip = cs.map Node.strip →
          layoutBody fp d (fun b n => layoutBox fp d f (some s) (.box b) n) p cb s z b cs' =
          layoutBody fp d (fun b n => layoutBox fp d g (some s) (.box b) n) p cb s z b cs' := by
        intro b cs' hcs
        refine body_congr (k := min f g) (depth_strips hcs fun c hc => ?_) fun c hc b => ih g _ _ c (by omega) (by omega)
        have := depths_mem hc
        omega
      cases l with
      | some b =>
        simp only [layoutBox]
        rw [key b cs rfl]
      | none =>
        simp only [layoutBox]
        rw [key _ _ (strips_resetOne fp cs)]

/-! ## Dirty boxes -/

theorem everyDirty_moved {fp : FP} {s : CSS} {z : Intrinsic} {a : Axis} {v : Num} {b : Box} {cs : List Node}
    (h : EveryBox Box.Dirty (.mk s z (some b) cs)) :
    EveryBox Box.Dirty (.mk s z (some (setContent fp a v b cs).1) (setContent fp a v b cs).2) := by
  rw [everyBox_mk] at h ⊢
  obtain ⟨h1, h2⟩ := (Steps.moved fp a v b cs).dirty
  refine ⟨fun x hx => ?_, h2 h.2⟩
  cases hx
  exact h1.trans (h.1 b rfl)

theorem layoutBox_dirty (fp : FP) (d : Display) (f : Nat) : ∀ (p : Option CSS) (cb : CB) (n n' : Node),
    layoutBox fp d f p cb n = .ok n' → EveryBox Box.Dirty n → EveryBox Box.Dirty n' := by
  induction f with
  | zero => intro p cb n n' h; cases h
  | succ f ih =>
    rintro p cb ⟨s, z, l, cs⟩ n' h hd
    rw [everyBox_mk] at hd
    rcases layoutBox_ok h with ⟨_, rfl⟩ | ⟨_, b, cs0, b', cs', hl, hb, rfl⟩
    · rw [everyBox_mk]
      exact ⟨fun b hb => (by cases hb), hd.2⟩
    · have hc : b.Dirty ∧ ∀ c ∈ cs0, EveryBox Box.Dirty c := by
        rcases hl with ⟨rfl, rfl⟩ | ⟨_, rfl, rfl⟩
        · exact ⟨hd.1 b rfl, hd.2⟩
        · refine ⟨rfl, ?_⟩
          simp only [resetOne, setOrigins_map, List.mem_map]
          rintro c ⟨c1, ⟨c2, hc2, rfl⟩, rfl⟩
          exact everyDirty_setOrigin _ _ _ (everyDirty_setOrigin _ _ _ (hd.2 c2 hc2))
      obtain ⟨b3, cs3, b4, cs4, h1, h2, h3, h4⟩ := body_steps hb
      rw [everyBox_mk]
      refine ⟨?_, h4.dirty.2 ?_⟩
      · intro x hx
        cases hx
        exact h4.dirty.1.trans (h2.2.2.symm.trans (h1.dirty.1.trans hc.1))
      · have hc3 := h1.dirty.2 hc.2
        clear h1 h4
        induction h3 with
        | nil => intro c hc; cases hc
        | @cons c c' cs cs' hcc _ ih' =>
          intro x hx
          rcases List.mem_cons.1 hx with rfl | hx
          · have hcd := hc3 c List.mem_cons_self
            rcases hcc with rfl | hcc
            · exact hcd
            · cases hcc with
              | same h => exact ih _ _ _ _ h hcd
              | moved v h => exact everyDirty_moved (ih _ _ _ _ h hcd)
          · exact ih' (fun y hy => hc3 y (List.mem_cons_of_mem _ hy)) x hx

theorem finishRoot_ok {fp : FP} {d : Display} {html5 : Bool} {n n' : Node} (h : finishRoot fp d html5 n = .ok n') :
    ∃ s z b cs b', n = .mk s z (some b) cs ∧ n' = .mk s z (some b') (setContent fp .v (b.v.content.add fp (.int b.collapse.top)) b cs).2 ∧
      b' = if html5 then
          { (setContent fp .v (b.v.content.add fp (.int b.collapse.top)) b cs).1 with
            contentHeight := some (subAll fp d.contentHeight [.int b.collapse.top, .int b.collapse.bottom]) }
        else (setContent fp .v (b.v.content.add fp (.int b.collapse.top)) b cs).1 := by
  obtain ⟨s, z, l, cs⟩ := n
  cases l with
  | none => cases h
  | some b =>
    refine ⟨s, z, b, cs, _, rfl, ?_, rfl⟩
    have hc : (setContent fp .v (b.v.content.add fp (.int b.collapse.top)) b cs).1.collapse = b.collapse := by
      unfold setContent; split <;> rfl
    simp only [finishRoot] at h
    have h := Except.ok.inj h
    rw [← h]
    cases html5
    · rfl
    · simp only [if_true, hc]

theorem finishRoot_steps {fp : FP} {d : Display} {html5 : Bool} {n n' : Node} (h : finishRoot fp d html5 n = .ok n') :
    ∃ s z b cs b' cs', n = .mk s z (some b) cs ∧ n' = .mk s z (some b') cs' ∧ Steps fp b cs b' cs' := by
  obtain ⟨s, z, b, cs, b', rfl, rfl, rfl⟩ := finishRoot_ok h
  refine ⟨s, z, b, cs, _, _, rfl, rfl, .move .v (b.v.content.add fp (.int b.collapse.top)) (.one ?_)⟩
  split <;> exact ⟨rfl, rfl, rfl⟩

/-- A successful `layout`. -/
theorem layout_ok {fp : FP} {d : Display} {html5 : Bool} {p : Option CSS} {n n' : Node} (h : layout fp d html5 p n = .ok n') :
    ∃ m, layoutBox fp d n.depth p (.viewport d) (n.reset fp) = .ok m ∧ finishRoot fp d html5 m = .ok n' ∧ n.layout ≠ none := by
  unfold layout at h
  split at h
  · cases h
  · rename_i hl
    split at h
    · cases h
    · rename_i m hm
      exact ⟨m, hm, h, by rw [hl]; simp⟩

theorem layout_dirty {fp : FP} {d : Display} {html5 : Bool} {p : Option CSS} {n n' : Node} (h : layout fp d html5 p n = .ok n')
    (hd : DirtyDown n) : EveryBox Box.Dirty n' := by
  obtain ⟨m, h1, h2, _⟩ := layout_ok h
  have := layoutBox_dirty fp d _ _ _ _ _ h1 (reset_dirty hd)
  obtain ⟨s, z, b, cs, b', cs', rfl, rfl, hs⟩ := finishRoot_steps h2
  rw [everyBox_mk] at this ⊢
  refine ⟨fun x hx => ?_, hs.dirty.2 this.2⟩
  cases hx
  exact hs.dirty.1.trans (this.1 b rfl)

theorem layout_strip {fp : FP} {d : Display} {html5 : Bool} {p : Option CSS} {n n' : Node} (h : layout fp d html5 p n = .ok n') :
    n'.strip = n.strip := by
  obtain ⟨m, h1, h2, _⟩ := layout_ok h
  have := layoutBox_strip fp d _ _ _ _ _ h1
  rw [strip_reset] at this
  obtain ⟨s, z, b, cs, b', cs', rfl, rfl, hs⟩ := finishRoot_steps h2
  rw [← this, strip_mk, strip_mk, hs.strips]

/-! ## Absolute positions -/

theorem layoutBox_coh (fp : FP) (d : Display) (a : Axis) (f : Nat) : ∀ (p : Option CSS) (cb : CB) (n n' : Node),
    layoutBox fp d f p cb n = .ok n' → AllBoxed n → Coh fp a n →
      Coh fp a n' ∧ ∀ b', n'.layout = some b' → ∃ b, n.layout = some b ∧ (b'.pos a).origin = (b.pos a).origin := by
  induction f with
  | zero => intro p cb n n' h; cases h
  | succ f ih =>
    rintro p cb ⟨s, z, l, cs⟩ n' h hbx hco
    rcases layoutBox_ok h with ⟨_, rfl⟩ | ⟨hs, b, cs0, b', cs', hl, hb, rfl⟩
    · exact ⟨.none .., fun b hb => (by cases hb)⟩
    · obtain ⟨hl0, hkids⟩ := allBoxed_mk.1 hbx hs
      rcases hl with ⟨rfl, rfl⟩ | ⟨rfl, _⟩
      swap
      · exact absurd rfl hl0
      obtain ⟨b3, cs3, b4, cs4, h1, h2, h3, h4⟩ := body_steps hb
      have c3 := (h1.coh (a := a) (s := s) (z := z)).2 hco
      have c4 : Coh fp a (.mk s z (some b4) cs4) := by
        refine coh_same h2.pos (b := b3) (s := s) (z := z) ?_
        have bx3 := h1.boxed hkids
        cases c3 with
        | box _ _ _ _ o3 k3 =>
          have : ∀ c ∈ cs4, (∀ cb, c.layout = some cb → (cb.pos a).origin.val = (b3.absContent fp a).val) ∧ Coh fp a c := by
            clear h1 h4 hb hco
            induction h3 with
            | nil => intro c hc; cases hc
            | @cons c c' cs cs' hcc _ ih' =>
              intro x hx
              rcases List.mem_cons.1 hx with rfl | hx
              · have e1 := o3 c List.mem_cons_self
                have e2 := k3 c List.mem_cons_self
                have e3 := bx3 c List.mem_cons_self
                rcases hcc with rfl | hcc
                · exact ⟨e1, e2⟩
                · cases hcc with
                  | same h =>
                    obtain ⟨q1, q2⟩ := ih _ _ _ _ h e3 e2
                    refine ⟨fun cb hcb => ?_, q1⟩
                    obtain ⟨b0, hb0, he⟩ := q2 cb hcb
                    rw [he]; exact e1 b0 hb0
                  | moved v h =>
                    obtain ⟨q1, q2⟩ := ih _ _ _ _ h e3 e2
                    refine ⟨fun cb hcb => ?_, setContent_coh _ _ _ _ _ _ _ _ q1⟩
                    cases hcb
                    obtain ⟨b0, hb0, he⟩ := q2 _ rfl
                    rw [setContent_origin, he]; exact e1 b0 hb0
              · exact ih' (fun y hy => bx3 y (List.mem_cons_of_mem _ hy)) (fun y hy => k3 y (List.mem_cons_of_mem _ hy))
                  (fun y hy => o3 y (List.mem_cons_of_mem _ hy)) x hx
          exact .box _ _ _ _ (fun c hc => (this c hc).1) fun c hc => (this c hc).2
      refine ⟨(h4.coh).2 c4, ?_⟩
      intro x hx
      cases hx
      refine ⟨b, rfl, ?_⟩
      rw [(h4.coh (a := a) (s := s) (z := z)).1, ← h2.pos.pos a, (h1.coh (a := a) (s := s) (z := z)).1]

theorem reset_root {fp : FP} {n : Node} (h : n.layout ≠ none) : (n.reset fp).layout = some Box.fresh := by
  obtain ⟨s, z, l, cs⟩ := n
  cases l with
  | none => exact absurd rfl h
  | some b =>
    obtain ⟨k, hk⟩ : ∃ k, (Node.mk s z (some b) cs).depth = k + 1 := ⟨_, rfl⟩
    unfold Node.reset
    rw [hk]
    rfl

theorem layout_coherent {fp : FP} {d : Display} {html5 : Bool} {p : Option CSS} {n n' : Node} (h : layout fp d html5 p n = .ok n')
    (hb : AllBoxed n) (a : Axis) : Coherent fp a n' ∧ ∃ b, n'.layout = some b ∧ (b.pos a).origin = .int 0 := by
  obtain ⟨m, h1, h2, hl⟩ := layout_ok h
  obtain ⟨c1, c2⟩ := layoutBox_coh fp d a _ _ _ _ _ h1 (allBoxed_reset fp hb) (coh_iff.2 (reset_coherent fp a n))
  obtain ⟨s, z, b, cs, b', cs', rfl, rfl, hs⟩ := finishRoot_steps h2
  refine ⟨coh_iff.1 (hs.coh.2 c1), b', rfl, ?_⟩
  obtain ⟨b0, hb0, he⟩ := c2 b rfl
  rw [reset_root hl] at hb0
  cases hb0
  rw [(hs.coh (a := a) (s := s) (z := z)).1, he]
  cases a <;> rfl

/-- The box of the root is dirty after a layout. -/
theorem layout_root_dirty {fp : FP} {d : Display} {html5 : Bool} {p : Option CSS} {n n' : Node} (h : layout fp d html5 p n = .ok n')
    {b : Box} (hb : n'.layout = some b) : b.Dirty := by
  obtain ⟨m, h1, h2, hl⟩ := layout_ok h
  obtain ⟨s, z, b1, cs, b', cs', rfl, rfl, hs⟩ := finishRoot_steps h2
  cases hb
  have hr := reset_root (fp := fp) hl
  obtain ⟨k, hk⟩ : ∃ k, n.depth = k + 1 := ⟨n.depth - 1, by have := depth_pos n; omega⟩
  generalize n.reset fp = r at h1 hr
  obtain ⟨s0, z0, l0, cs0⟩ := r
  cases hr
  rw [hk] at h1
  rcases layoutBox_ok h1 with ⟨_, h1⟩ | ⟨_, b0, cs1, b2, cs2, hl0, hb, h1⟩
  · cases h1
  · cases h1
    rcases hl0 with ⟨h0, rfl⟩ | ⟨h0, _⟩
    · cases h0
      obtain ⟨b3, cs3, b4, cs4, s1, s2, _, s3⟩ := body_steps hb
      show b.dirty = some true
      rw [hs.dirty.1, s3.dirty.1, ← s2.2.2, s1.dirty.1]
      rfl
    · cases h0

end Colosseum
