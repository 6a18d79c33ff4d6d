import Verif.Spec.Document
import Verif.Lemmas.Reset
import Mathlib.Data.List.Forall2

/-!
# What the phases of `layout_box` do to a box and its children
-/

namespace Colosseum

theorem bind_eq_ok {α β : Type} {x : Res α} {f : α → Res β} {b : β} : (x >>= f) = .ok b ↔ ∃ a, x = .ok a ∧ f a = .ok b := by
  cases x with
  | error e => exact ⟨fun h => (by cases h), fun ⟨a, h, _⟩ => (by cases h)⟩
  | ok a => exact ⟨fun h => ⟨a, rfl, h⟩, fun ⟨a', h, h'⟩ => by cases h; exact h'⟩

/-! ## The document without boxes -/

theorem stripAll_map (cs : List Node) : stripAll cs = cs.map Node.strip := by
  induction cs with
  | nil => rfl
  | cons c cs ih => simp [stripAll, ih]

theorem strip_mk (s : CSS) (z : Intrinsic) (l : Option Box) (cs : List Node) :
    (Node.mk s z l cs).strip = .mk s z none (cs.map Node.strip) := by
  simp only [Node.strip, stripAll_map]

theorem strip_style (n : Node) : n.strip.style = n.style := by cases n; rfl

theorem strip_setOrigin (fp : FP) (a : Axis) (n : Node) : ∀ v, (n.setOrigin fp a v).strip = n.strip := by
  induction n using Node.ind with
  | h s z l cs ih =>
    intro v
    cases l with
    | none => simp only [Node.setOrigin]
    | some b =>
      simp only [Node.setOrigin]
      split
      · rfl
      · simp only [setOrigins_map, strip_mk, List.map_map]
        congr 1
        exact List.map_congr_left fun c hc => ih c hc _

theorem strips_setOrigins (fp : FP) (a : Axis) (v : Num) (cs : List Node) :
    (setOrigins fp a v cs).map Node.strip = cs.map Node.strip := by
  rw [setOrigins_map, List.map_map]
  exact List.map_congr_left fun c _ => strip_setOrigin fp a c v

theorem strips_setContent (fp : FP) (a : Axis) (v : Num) (b : Box) (cs : List Node) :
    (setContent fp a v b cs).2.map Node.strip = cs.map Node.strip := by
  unfold setContent
  split
  · rfl
  · exact strips_setOrigins ..

theorem strips_resetOne (fp : FP) (cs : List Node) : (resetOne fp cs).2.map Node.strip = cs.map Node.strip := by
  simp only [resetOne, strips_setOrigins]

theorem strip_resetFuel (fp : FP) (f : Nat) : ∀ n : Node, (n.resetFuel fp f).strip = n.strip := by
  induction f with
  | zero => intro n; rfl
  | succ f ih =>
    rintro ⟨s, z, l, cs⟩
    cases l with
    | none => rfl
    | some b =>
      simp only [Node.resetFuel, strip_mk]
      congr 1
      rw [List.map_map, ← strips_resetOne fp cs]
      refine List.map_congr_left fun c _ => ?_
      exact ih c

theorem strip_reset (fp : FP) (n : Node) : (n.reset fp).strip = n.strip := strip_resetFuel fp _ n

theorem styles_of_strips {cs cs' : List Node} (h : cs.map Node.strip = cs'.map Node.strip) :
    cs.map Node.style = cs'.map Node.style := by
  have : ∀ l : List Node, l.map Node.style = (l.map Node.strip).map Node.style := by
    intro l
    rw [List.map_map]
    exact List.map_congr_left fun c _ => (strip_style c).symm
  rw [this cs, this cs', h]

theorem inline_of_styles {s : CSS} {z : Intrinsic} {cs cs' : List Node} (h : cs.map Node.style = cs'.map Node.style) :
    establishesInline s z cs = establishesInline s z cs' := by
  unfold establishesInline
  have : ∀ l : List Node, (l.any fun c => isBlockLevel c.style) = (l.map Node.style).any isBlockLevel := by
    intro l; rw [List.any_map]; rfl
  rw [this cs, this cs', h]

/-! ## Steps -/

/-- Boxes with the same position and flag. -/
def SameCore (b b' : Box) : Prop := b.v = b'.v ∧ b.h = b'.h ∧ b.dirty = b'.dirty

theorem SameCore.rfl {b : Box} : SameCore b b := ⟨Eq.refl _, Eq.refl _, Eq.refl _⟩
theorem SameCore.trans {b c d : Box} (h : SameCore b c) (h' : SameCore c d) : SameCore b d :=
  ⟨h.1.trans h'.1, h.2.1.trans h'.2.1, h.2.2.trans h'.2.2⟩
theorem SameCore.pos {b b' : Box} (h : SameCore b b') : SamePos b b' := ⟨h.1, h.2.1⟩

/-- A sequence of writes to a box and moves of it. -/
inductive Steps (fp : FP) : Box → List Node → Box → List Node → Prop
  | refl (b : Box) (cs : List Node) : Steps fp b cs b cs
  | write {b b1 b2 : Box} {cs cs2 : List Node} : SameCore b b1 → Steps fp b1 cs b2 cs2 → Steps fp b cs b2 cs2
  | move {b b2 : Box} {cs cs2 : List Node} (a : Axis) (v : Num) :
      Steps fp (setContent fp a v b cs).1 (setContent fp a v b cs).2 b2 cs2 → Steps fp b cs b2 cs2

theorem Steps.trans {fp : FP} {b b1 b2 : Box} {cs cs1 cs2 : List Node} (h : Steps fp b cs b1 cs1)
    (h' : Steps fp b1 cs1 b2 cs2) : Steps fp b cs b2 cs2 := by
  induction h with
  | refl => exact h'
  | write hc _ ih => exact .write hc (ih h')
  | move a v _ ih => exact .move a v (ih h')

theorem Steps.one {fp : FP} {b b' : Box} {cs : List Node} (h : SameCore b b') : Steps fp b cs b' cs :=
  .write h (.refl _ _)

theorem Steps.moved (fp : FP) (a : Axis) (v : Num) (b : Box) (cs : List Node) :
    Steps fp b cs (setContent fp a v b cs).1 (setContent fp a v b cs).2 := .move a v (.refl _ _)

theorem setCollapse_core (b : Box) (t : Side) (x : MVal) : SameCore b (b.setCollapse t x) := by
  unfold Box.setCollapse
  split
  · split <;> exact ⟨rfl, rfl, rfl⟩
  · exact .rfl

theorem setMargin_core (b : Box) (t : Side) (x : MVal) : SameCore b (b.setMargin t x) := by
  unfold Box.setMargin
  split
  · exact .rfl
  · exact SameCore.trans (c := { b with margin := b.margin.set t x }) ⟨rfl, rfl, rfl⟩ (setCollapse_core _ _ _)

theorem autoMargin_core (b : Box) (t : Side) : SameCore b (autoMarginToZero b t) := by
  unfold autoMarginToZero
  split
  · exact setMargin_core ..
  · exact .rfl

theorem autoMargin2_core (b : Box) (t u : Side) : SameCore b (autoMarginToZero (autoMarginToZero b t) u) :=
  (autoMargin_core b t).trans (autoMargin_core _ u)

theorem solveMargins_core (fp : FP) (s : CSS) (size w : Num) (b : Box) : SameCore b (solveMargins fp s size w b) := by
  unfold solveMargins
  extract_lets total b1
  have h1 : SameCore b b1 := by
    show SameCore b (if _ then _ else _)
    split
    · exact autoMargin2_core ..
    · exact .rfl
  refine h1.trans ?_
  split
  · split <;> exact setMargin_core ..
  · exact setMargin_core ..
  · exact setMargin_core ..
  · exact (setMargin_core ..).trans (setMargin_core ..)

theorem copyEdges_core {fp : FP} {s : CSS} {hz vt : PxCtx} {b b' : Box} (h : copyEdges fp s hz vt b = .ok b') :
    SameCore b b' := by
  unfold copyEdges at h
  simp only [bind_eq_ok] at h
  obtain ⟨m1, _, m2, _, m3, _, m4, _, _, _, _, _, _, _, _, _, _, _, _, _, _, _, _, _, h⟩ := h
  cases h
  exact ((setMargin_core ..).trans ((setMargin_core ..).trans ((setMargin_core ..).trans (setMargin_core ..)))).trans
    ⟨rfl, rfl, rfl⟩

theorem Steps.of_moved {fp : FP} {a : Axis} {v : Num} {b b' : Box} {cs cs' : List Node}
    (h : (Except.ok (setContent fp a v b cs) : Res (Box × List Node)) = .ok (b', cs')) : Steps fp b cs b' cs' := by
  have h := Except.ok.inj h
  have h1 := Steps.moved fp a v b cs
  rw [h] at h1
  exact h1

theorem placeLeft_steps {fp : FP} {b b' : Box} {cs cs' : List Node} (h : placeLeft fp b cs = .ok (b', cs')) :
    Steps fp b cs b' cs' := by
  unfold placeLeft at h
  obtain ⟨ml, _, h⟩ := bind_eq_ok.1 h
  exact .of_moved h

theorem width_steps {fp : FP} {s : CSS} {z : Intrinsic} {c : PxCtx} {b b' : Box} {cs cs' : List Node}
    (h : widthAndMargins fp s z c b cs = .ok (b', cs')) : Steps fp b cs b' cs' := by
  unfold widthAndMargins at h
  split at h
  · cases h
  split at h
  · cases h
  split at h
  · split at h
    · unfold inlineReplacedWidth at h
      obtain ⟨w, _, h⟩ := bind_eq_ok.1 h
      refine .write ?_ (placeLeft_steps h)
      exact (autoMargin2_core b .left .right).trans ⟨rfl, rfl, rfl⟩
    · cases h
      exact .one ((autoMargin2_core ..).trans ⟨rfl, rfl, rfl⟩)
  split at h
  · split at h
    · cases h
    · unfold blockWidth at h
      split at h
      · simp only [bind_eq_ok] at h
        obtain ⟨size, _, ml, _, mr, _, h⟩ := h
        refine .write ?_ (placeLeft_steps h)
        exact (autoMargin2_core b .left .right).trans ⟨rfl, rfl, rfl⟩
      · simp only [bind_eq_ok] at h
        obtain ⟨w, _, size, _, h⟩ := h
        refine .write ?_ (placeLeft_steps h)
        exact (solveMargins_core fp s size w b).trans ⟨rfl, rfl, rfl⟩
  split at h <;> cases h

theorem placeTop_steps {fp : FP} {b b' : Box} {cs cs' : List Node} (h : placeTopInline fp b cs = .ok (b', cs')) :
    Steps fp b cs b' cs' := by
  unfold placeTopInline at h
  obtain ⟨mt, _, h⟩ := bind_eq_ok.1 h
  exact .of_moved h

theorem contentHeight_core {fp : FP} {s : CSS} {parent : Option CSS} {c : PxCtx} {b b' : Box} {cs : List Node} {x : Num}
    (h : blockContentHeight fp s parent c b cs = .ok (x, b')) : SameCore b b' := by
  unfold blockContentHeight at h
  split at h
  · split at h
    · split at h
      · cases h
      · obtain ⟨x, _, h⟩ := bind_eq_ok.1 h
        cases h
        exact setCollapse_core ..
    · split at h
      · cases h; exact .rfl
      · obtain ⟨x, _, h⟩ := bind_eq_ok.1 h
        cases h; exact .rfl
  · obtain ⟨x, _, h⟩ := bind_eq_ok.1 h
    cases h; exact .rfl

theorem height_steps {fp : FP} {s : CSS} {z : Intrinsic} {parent : Option CSS} {c : PxCtx} {b b' : Box} {cs cs' : List Node}
    (h : heightAndMargins fp s z parent c b cs = .ok (b', cs')) : Steps fp b cs b' cs' := by
  unfold heightAndMargins at h
  split at h
  · cases h
  split at h
  · cases h
  split at h
  · split at h
    · unfold inlineReplacedHeight at h
      obtain ⟨w, _, h⟩ := bind_eq_ok.1 h
      refine .write ?_ (placeTop_steps h)
      exact (autoMargin2_core b .top .bottom).trans ⟨rfl, rfl, rfl⟩
    · unfold inlineHeight at h
      refine .write ?_ (placeTop_steps h)
      exact ⟨rfl, rfl, rfl⟩
  split at h
  · split at h
    · cases h
    · unfold blockHeight at h
      obtain ⟨⟨hh, b1⟩, h1, h⟩ := bind_eq_ok.1 h
      refine .write ?_ (.of_moved h)
      exact (autoMargin2_core b .top .bottom).trans ((contentHeight_core h1).trans ⟨rfl, rfl, rfl⟩)
  split at h <;> cases h

theorem relative_steps {fp : FP} {s : CSS} {cb : CB} {hz vt : PxCtx} {b b' : Box} {cs cs' : List Node}
    (h : applyRelative fp s cb hz vt b cs = .ok (b', cs')) : Steps fp b cs b' cs' := by
  unfold applyRelative at h
  split at h
  · obtain ⟨dx, _, h⟩ := bind_eq_ok.1 h
    simp only at h
    obtain ⟨dy, _, h⟩ := bind_eq_ok.1 h
    exact .move _ _ (.of_moved h)
  · cases h; exact .refl ..

/-! ## Children -/

/-- A child laid out below a node whose box is `b`, and then perhaps moved. -/
inductive Laid (fp : FP) (lay : Box → Node → Res Node) : Node → Node → Prop
  | same {b : Box} {c c' : Node} : lay b c = .ok c' → Laid fp lay c c'
  | moved {b cb : Box} {c : Node} {s : CSS} {z : Intrinsic} {cs : List Node} (v : Num) : lay b c = .ok (.mk s z (some cb) cs) →
      Laid fp lay c (.mk s z (some (setContent fp .v v cb cs).1) (setContent fp .v v cb cs).2)

theorem inlineLoop_laid {lay : Box → Node → Res Node} {b : Box} : ∀ {cs cs' : List Node},
    inlineLoop (lay b) cs = .ok cs' → List.Forall₂ (fun c c' => lay b c = .ok c') cs cs' := by
  intro cs
  induction cs with
  | nil => intro cs' h; cases h; exact .nil
  | cons c cs ih =>
    intro cs' h
    simp only [inlineLoop] at h
    split at h
    · cases h
    · rename_i c' hc
      split at h
      · cases h
      · rename_i cs1 hcs
        cases h
        exact .cons hc (ih hcs)

theorem stackChild_ok {fp : FP} {b b' : Box} {off off' : Num} {bm bm' : Option Int} {c c' : Node}
    (h : stackChild fp b off bm c = .ok (b', c', off', bm')) :
    ∃ s z cb cs v, c = .mk s z (some cb) cs ∧ SameCore b b' ∧
      c' = .mk s z (some (setContent fp .v v cb cs).1) (setContent fp .v v cb cs).2 := by
  cases c with
  | mk s z l cs =>
    cases l with
    | none => cases h
    | some cb =>
      simp only [stackChild] at h
      obtain ⟨⟨b1, o1⟩, h1, h⟩ := bind_eq_ok.1 h
      simp only at h
      obtain ⟨hh, _, h⟩ := bind_eq_ok.1 h
      cases h
      refine ⟨s, z, cb, cs, _, rfl, ?_, rfl⟩
      unfold collapseAbove at h1
      split at h1
      · cases h1; exact setCollapse_core ..
      · obtain ⟨mt, _, h1⟩ := bind_eq_ok.1 h1
        cases h1; exact .rfl

theorem anonymizeLoop_anon {xs : List Node} {cs : List Node} (l : List Container) (h : anonymizeLoop (some xs) cs = l) :
    l = [] ∨ ∃ ys r, l = .anon ys :: r := by
  subst h
  induction cs generalizing xs with
  | nil => exact Or.inl rfl
  | cons n cs ih =>
    simp only [anonymizeLoop]
    split
    · exact Or.inr ⟨_, _, rfl⟩
    · exact ih

/-- In a block formatting context the leading block-level children are laid out and stacked. -/
theorem blockLoop_laid {fp : FP} {lay : Box → Node → Res Node} : ∀ (cs : List Node) {b b' : Box} {off : Num} {bm : Option Int}
    {laid : List Node}, blockLoop fp lay b off bm (anonymize cs) = .ok (b', laid) →
    ∃ pre post, cs = pre ++ post ∧ List.Forall₂ (Laid fp lay) pre laid ∧ SameCore b b' ∧
      (∀ c ∈ pre, isBlockLevel c.style = true) ∧ (∀ c ∈ post, isBlockLevel c.style = false) := by
  intro cs
  induction cs with
  | nil =>
    intro b b' off bm laid h
    cases h
    exact ⟨[], [], rfl, .nil, .rfl, by simp, by simp⟩
  | cons c cs ih =>
    intro b b' off bm laid h
    simp only [anonymize, anonymizeLoop] at h
    split at h
    · rename_i hb
      simp only [blockLoop] at h
      split at h
      · cases h
      · rename_i c1 hc1
        split at h
        · cases h
        · rename_i b1 c2 off1 bm1 hst
          split at h
          · cases h
          · rename_i b2 cs2 hrest
            cases h
            obtain ⟨pre, post, rfl, hf, hcore, hpre, hpost⟩ := ih hrest
            obtain ⟨s, z, cb, ks, v, rfl, hcore', rfl⟩ := stackChild_ok hst
            refine ⟨c :: pre, post, rfl, .cons (.moved v hc1) hf, hcore'.trans hcore, ?_, hpost⟩
            intro x hx
            rcases List.mem_cons.1 hx with rfl | hx
            · exact hb
            · exact hpre x hx
    · rename_i hb
      rcases anonymizeLoop_anon _ rfl with h0 | ⟨ys, r, h0⟩
      · rw [h0] at h
        cases h
        refine ⟨[], c :: cs, rfl, .nil, .rfl, by simp, ?_⟩
        have key : ∀ (cs : List Node) (xs : List Node), anonymizeLoop (some xs) cs = [] → ∀ x ∈ cs, isBlockLevel x.style = false := by
          intro cs
          induction cs with
          | nil => intro _ _ x hx; cases hx
          | cons y cs ih =>
            intro xs h x hx
            simp only [anonymizeLoop] at h
            split at h
            · cases h
            · rename_i hy
              rcases List.mem_cons.1 hx with rfl | hx
              · simpa using hy
              · exact ih _ h x hx
        intro x hx
        rcases List.mem_cons.1 hx with rfl | hx
        · simpa using hb
        · exact key _ _ h0 x hx
      · rw [h0] at h
        cases h

theorem children_laid {fp : FP} {lay : Box → Node → Res Node} {s : CSS} {z : Intrinsic} {b b' : Box} {cs cs' : List Node}
    (h : layoutChildren fp lay s z b cs = .ok (b', cs')) :
    SameCore b b' ∧ ((establishesInline s z cs = true ∧ b' = b ∧ List.Forall₂ (fun c c' => lay b c = .ok c') cs cs') ∨
      (establishesInline s z cs = false ∧ ∃ pre post laid, cs = pre ++ post ∧ cs' = laid ++ post ∧
        List.Forall₂ (Laid fp lay) pre laid ∧ (∀ c ∈ pre, isBlockLevel c.style = true) ∧
        ∀ c ∈ post, isBlockLevel c.style = false)) := by
  unfold layoutChildren at h
  split at h
  · rename_i hi
    split at h
    · cases h
    · rename_i cs1 h1
      cases h
      exact ⟨.rfl, Or.inl ⟨hi, rfl, inlineLoop_laid h1⟩⟩
  · rename_i hi
    split at h
    · cases h
    · rename_i b1 laid h1
      cases h
      obtain ⟨pre, post, rfl, hf, hcore, hpre, hpost⟩ := blockLoop_laid cs h1
      refine ⟨hcore, Or.inr ⟨by simpa using hi, pre, post, laid, rfl, ?_, hf, hpre, hpost⟩⟩
      rw [← hf.length_eq, List.drop_left]

/-- Pointwise: every child is laid out, perhaps moved, or untouched. -/
theorem children_forall {fp : FP} {lay : Box → Node → Res Node} {s : CSS} {z : Intrinsic} {b b' : Box} {cs cs' : List Node}
    (h : layoutChildren fp lay s z b cs = .ok (b', cs')) :
    SameCore b b' ∧ List.Forall₂ (fun c c' => c' = c ∨ Laid fp lay c c') cs cs' := by
  obtain ⟨hc, ⟨_, _, hf⟩ | ⟨_, pre, post, laid, rfl, rfl, hf, _⟩⟩ := children_laid h
  · exact ⟨hc, hf.imp fun _ _ h => Or.inr (.same h)⟩
  · refine ⟨hc, List.rel_append (hf.imp fun _ _ h => Or.inr h) ?_⟩
    exact List.forall₂_same.2 fun c _ => Or.inl rfl

/-- The phases of `layout_box`. -/
theorem body_phases {fp : FP} {d : Display} {lay : Box → Node → Res Node} {parent : Option CSS} {cb : CB} {s : CSS}
    {z : Intrinsic} {b b' : Box} {cs cs' : List Node} (h : layoutBody fp d lay parent cb s z b cs = .ok (b', cs')) :
    ∃ b1 b2 cs2 b3 cs3 b4 cs4 b5 cs5,
      copyEdges fp s ⟨d, dummyFont fp, cb.width⟩ ⟨d, dummyFont fp, cb.height⟩ b = .ok b1 ∧
      widthAndMargins fp s z ⟨d, dummyFont fp, cb.width⟩ b1 cs = .ok (b2, cs2) ∧
      relativeHeight fp s z parent ⟨d, dummyFont fp, cb.height⟩ b2 cs2 = .ok (b3, cs3) ∧
      isAbsolute s = false ∧ isFloat s = false ∧
      layoutChildren fp lay s z b3 cs3 = .ok (b4, cs4) ∧
      heightAndMargins fp s z parent ⟨d, dummyFont fp, cb.height⟩ b4 cs4 = .ok (b5, cs5) ∧
      applyRelative fp s cb ⟨d, dummyFont fp, cb.width⟩ ⟨d, dummyFont fp, cb.height⟩ b5 cs5 = .ok (b', cs') := by
  unfold layoutBody at h
  simp only [bind_eq_ok] at h
  obtain ⟨b1, h1, ⟨b2, cs2⟩, h2, ⟨b3, cs3⟩, h3, h⟩ := h
  simp only at h h3
  split at h
  · cases h
  rename_i ha
  split at h
  · cases h
  rename_i hf
  simp only [bind_eq_ok] at h
  obtain ⟨⟨b4, cs4⟩, h4, ⟨b5, cs5⟩, h5, h⟩ := h
  exact ⟨b1, b2, cs2, b3, cs3, b4, cs4, b5, cs5, h1, h2, h3, by simpa using ha, by simpa using hf, h4, h5, h⟩

theorem body_steps {fp : FP} {d : Display} {lay : Box → Node → Res Node} {parent : Option CSS} {cb : CB} {s : CSS}
    {z : Intrinsic} {b b' : Box} {cs cs' : List Node} (h : layoutBody fp d lay parent cb s z b cs = .ok (b', cs')) :
    ∃ b3 cs3 b4 cs4, Steps fp b cs b3 cs3 ∧ SameCore b3 b4 ∧
      List.Forall₂ (fun c c' => c' = c ∨ Laid fp lay c c') cs3 cs4 ∧ Steps fp b4 cs4 b' cs' := by
  obtain ⟨b1, b2, cs2, b3, cs3, b4, cs4, b5, cs5, h1, h2, h3, _, _, h4, h5, h6⟩ := body_phases h
  have s3 : Steps fp b2 cs2 b3 cs3 := by
    unfold relativeHeight at h3
    split at h3
    · exact height_steps h3
    · cases h3; exact .refl ..
  obtain ⟨hc, hf⟩ := children_forall h4
  exact ⟨b3, cs3, b4, cs4, .write (copyEdges_core h1) ((width_steps h2).trans s3), hc, hf, (height_steps h5).trans (relative_steps h6)⟩

end Colosseum
