import Verif.Lemmas.Reach

/-!
# From a layout to the runs of `layout_box` for the single nodes

Every displayed node a layout comes to ends up as some run of `layoutBody` left it, except for its position
and the origins below it, which are changed when its ancestors are moved.
-/

namespace Colosseum

/-! ## Documents without origins -/

/-- The box without its origins. -/
def Box.noOrigin (b : Box) : Box := { b with v := ⟨.int 0, b.v.content⟩, h := ⟨.int 0, b.h.content⟩ }

mutual
/-- The document without the origins of its boxes. -/
def Node.noOrigin : Node → Node
  | .mk s z l cs => .mk s z (l.map Box.noOrigin) (noOrigins cs)
/-- The documents without the origins of their boxes. -/
def noOrigins : List Node → List Node
  | [] => []
  | c :: cs => c.noOrigin :: noOrigins cs
end

theorem noOrigins_map (cs : List Node) : noOrigins cs = cs.map Node.noOrigin := by
  induction cs with
  | nil => rfl
  | cons c cs ih => simp [noOrigins, ih]

theorem noOrigin_mk (s : CSS) (z : Intrinsic) (l : Option Box) (cs : List Node) :
    (Node.mk s z l cs).noOrigin = .mk s z (l.map Box.noOrigin) (cs.map Node.noOrigin) := by
  simp only [Node.noOrigin, noOrigins_map]

theorem noOrigin_style (n : Node) : n.noOrigin.style = n.style := by cases n; rfl
theorem noOrigin_intrinsic (n : Node) : n.noOrigin.intrinsic = n.intrinsic := by cases n; rfl
theorem noOrigin_layout (n : Node) : n.noOrigin.layout = n.layout.map Box.noOrigin := by cases n; rfl
theorem noOrigin_children (n : Node) : n.noOrigin.children = n.children.map Node.noOrigin := by
  cases n; simp [noOrigin_mk, Node.children]

theorem box_noOrigin_origin (b : Box) (a : Axis) (v : Num) : (b.setPos a { b.pos a with origin := v }).noOrigin = b.noOrigin := by
  cases a <;> rfl

theorem setOrigin_noOrigin (fp : FP) (a : Axis) (n : Node) : ∀ v, (n.setOrigin fp a v).noOrigin = n.noOrigin := by
  induction n using Node.ind with
  | h s z l cs ih =>
    intro v
    cases l with
    | none => simp only [Node.setOrigin]
    | some b =>
      simp only [Node.setOrigin]
      split
      · rfl
      · simp only [noOrigin_mk, setOrigins_map, List.map_map, Option.map_some, box_noOrigin_origin]
        congr 1
        exact List.map_congr_left fun c hc => ih c hc _

theorem setOrigins_noOrigin (fp : FP) (a : Axis) (v : Num) (cs : List Node) :
    (setOrigins fp a v cs).map Node.noOrigin = cs.map Node.noOrigin := by
  rw [setOrigins_map, List.map_map]
  exact List.map_congr_left fun c _ => setOrigin_noOrigin fp a c v

theorem setContent_noOrigin (fp : FP) (a : Axis) (v : Num) (b : Box) (cs : List Node) :
    (setContent fp a v b cs).2.map Node.noOrigin = cs.map Node.noOrigin := by
  unfold setContent
  split
  · rfl
  · exact setOrigins_noOrigin ..

theorem Steps.noOrigin {fp : FP} {b b' : Box} {cs cs' : List Node} (h : Steps fp b cs b' cs') :
    cs'.map Node.noOrigin = cs.map Node.noOrigin := by
  induction h with
  | refl => rfl
  | write _ _ ih => exact ih
  | move a v _ ih => exact ih.trans (setContent_noOrigin ..)

theorem strip_of_noOrigin {n : Node} : ∀ {m : Node}, n.noOrigin = m.noOrigin → n.strip = m.strip := by
  induction n using Node.ind with
  | h s z l cs ih =>
    rintro ⟨s', z', l', cs'⟩ h
    simp only [noOrigin_mk] at h
    injection h with e1 e2 _ e4
    subst e1 e2
    rw [strip_mk, strip_mk]
    congr 1
    refine forall₂_map_eq ?_
    have hf := forall₂_of_map e4
    clear e4
    induction hf with
    | nil => exact .nil
    | cons h _ ih' =>
      exact .cons (ih _ List.mem_cons_self h) (ih' fun c hc => ih c (List.mem_cons_of_mem _ hc))

/-- The box without its origins, its vertical position and, unless it counts, its height. -/
def Box.core (hgt : Bool) (b : Box) : Box :=
  { b with v := ⟨.int 0, .int 0⟩, h := ⟨.int 0, b.h.content⟩, contentHeight := if hgt then b.contentHeight else none }

theorem core_of_noOrigin {b b' : Box} (hgt : Bool) (h : b.noOrigin = b'.noOrigin) : b.core hgt = b'.core hgt := by
  have e : ∀ b : Box, b.core hgt = b.noOrigin.core hgt := fun b => rfl
  rw [e b, e b', h]

theorem core_width {b b' : Box} {hgt : Bool} (h : b.core hgt = b'.core hgt) : b.contentWidth = b'.contentWidth := by
  have e := congrArg Box.contentWidth h
  exact e

theorem core_weaken {b b' : Box} {hgt : Bool} (h : b.core true = b'.core true) : b.core hgt = b'.core hgt := by
  have e : ∀ b : Box, b.core hgt = (b.core true).core hgt := fun b => rfl
  rw [e b, e b', h]

theorem core_setContent (fp : FP) (v : Num) (b : Box) (cs : List Node) (hgt : Bool) :
    (setContent fp .v v b cs).1.core hgt = b.core hgt := by
  unfold setContent
  split <;> rfl

/-! ## Runs -/

/-- A condition on documents to be laid out that passes on to the children, whatever the origins are. -/
structure Passes (Q : Node → Prop) : Prop where
  kid : ∀ {s : CSS} {z : Intrinsic} {b : Box} {cs : List Node} {c c' : Node}, s.get .display ≠ .none → Q (.mk s z (some b) cs) → c ∈ cs →
    c.noOrigin = c'.noOrigin → Q c'
  unboxed : ∀ {fp : FP} {s : CSS} {z : Intrinsic} {cs : List Node}, s.get .display ≠ .none → Q (.mk s z none cs) →
    Q (.mk s z (some (resetOne fp cs).1) (resetOne fp cs).2)

theorem passes_true : Passes (fun _ => True) := ⟨fun _ _ _ _ => trivial, fun _ _ => trivial⟩

/-- The node is as a run of `layoutBody` left it, except for its vertical position, the origins and, unless it counts, its
own height. Before the run it met the condition `Q`. -/
def RanQ (Q : Node → Prop) (fp : FP) (d : Display) (hgt : Bool) (w : Option Num) (ps : Option CSS) (n : Node) : Prop :=
  ∃ b, n.layout = some b ∧ ∃ f cb b0 cs0 b1 cs1, cb.width = w ∧
    layoutBody fp d (fun b m => layoutBox fp d f (some n.style) (.box b) m) ps cb n.style n.intrinsic b0 cs0 = .ok (b1, cs1) ∧
    b1.core hgt = b.core hgt ∧ cs1.map Node.noOrigin = n.children.map Node.noOrigin ∧ Q (.mk n.style n.intrinsic (some b0) cs0)

/-- A run from any document. -/
abbrev Ran := RanQ fun _ => True

theorem RanQ.weaken {Q : Node → Prop} {fp : FP} {d : Display} {hgt : Bool} {w : Option Num} {ps : Option CSS} {n : Node} (h : RanQ Q fp d true w ps n) :
    RanQ Q fp d hgt w ps n := by
  obtain ⟨b, hb, f, cb, b0, cs0, b1, cs1, h1, h2, h3, h4⟩ := h
  exact ⟨b, hb, f, cb, b0, cs0, b1, cs1, h1, h2, core_weaken h3, h4⟩

theorem RanQ.moved {Q : Node → Prop} {fp : FP} {d : Display} {hgt : Bool} {w : Option Num} {ps : Option CSS} {s : CSS} {z : Intrinsic} {b b' : Box}
    {cs cs' : List Node} (h : RanQ Q fp d hgt w ps (.mk s z (some b) cs)) (hb : b.core hgt = b'.core hgt)
    (hc : cs.map Node.noOrigin = cs'.map Node.noOrigin) : RanQ Q fp d hgt w ps (.mk s z (some b') cs') := by
  obtain ⟨x, hx, f, cb, b0, cs0, b1, cs1, h1, h2, h3, h4, h5⟩ := h
  cases hx
  exact ⟨b', rfl, f, cb, b0, cs0, b1, cs1, h1, h2, h3.trans hb, h4.trans hc, h5⟩

/-- Every displayed node reached is the result of a run. -/
def AllRanQ (Q : Node → Prop) (fp : FP) (d : Display) (hgt : Bool) (w : Option Num) (ps : Option CSS) (n : Node) : Prop :=
  (¬ n.Hidden → RanQ Q fp d hgt w ps n) ∧
  ∀ c ∈ n.children, ∀ b, n.layout = some b → ¬ n.Hidden → (n.BlockContext → c.BlockLevel) → ∀ w' ps' m,
    Within b.contentWidth (some n.style) c w' ps' m → ¬ m.Hidden → RanQ Q fp d true w' ps' m

theorem allRan_of {Q : Node → Prop} {fp : FP} {d : Display} {w w' : Option Num} {ps ps' : Option CSS} {n m : Node} (h : AllRanQ Q fp d true w ps n)
    (hm : Within w ps n w' ps' m) (hh : ¬ m.Hidden) : RanQ Q fp d true w' ps' m := by
  cases hm with
  | here => exact h.1 hh
  | step hn hl hc hb hw => exact h.2 _ hc _ hl hn hb _ _ _ hw hh

theorem allRan_mk {Q : Node → Prop} {fp : FP} {d : Display} {hgt : Bool} {w : Option Num} {ps : Option CSS} {s : CSS} {z : Intrinsic} {b : Box}
    {cs : List Node} : AllRanQ Q fp d hgt w ps (.mk s z (some b) cs) ↔
      (s.get .display ≠ .none → RanQ Q fp d hgt w ps (.mk s z (some b) cs)) ∧
      ∀ c ∈ cs, s.get .display ≠ .none → visits s z cs c = true → AllRanQ Q fp d true b.contentWidth (some s) c := by
  constructor
  · rintro ⟨h1, h2⟩
    refine ⟨h1, fun c hc hs hv => ⟨fun hh => ?_, fun k hk cb hcb hch hcv w' ps' m hm hh => ?_⟩⟩
    · exact h2 c hc b rfl hs ((visits_iff (some b)).1 hv) _ _ _ (.here ..) hh
    · exact h2 c hc b rfl hs ((visits_iff (some b)).1 hv) _ _ _ (.step hch hcb hk hcv hm) hh
  · rintro ⟨h1, h2⟩
    refine ⟨h1, fun c hc b' hb' hs hv w' ps' m hm hh => ?_⟩
    cases hb'
    exact allRan_of (h2 c hc hs ((visits_iff (some b)).2 hv)) hm hh

theorem allRan_hidden {Q : Node → Prop} {fp : FP} {d : Display} {hgt : Bool} {w : Option Num} {ps : Option CSS} {n : Node} (h : n.Hidden) :
    AllRanQ Q fp d hgt w ps n := ⟨fun h' => absurd h h', fun _ _ _ _ h' => absurd h h'⟩

theorem allRan_unboxed {Q : Node → Prop} {fp : FP} {d : Display} {hgt : Bool} {w : Option Num} {ps : Option CSS} {n : Node} (h : n.layout = none) 
    (ha : AllRanQ Q fp d hgt w ps n) : n.Hidden := by
  by_contra hh
  obtain ⟨b, hb, _⟩ := ha.1 hh
  rw [h] at hb; cases hb

/-- Moving keeps the runs. -/
theorem allRan_noOrigin {Q : Node → Prop} {fp : FP} {d : Display} {n : Node} : ∀ {m : Node} {w : Option Num} {ps : Option CSS}, n.noOrigin = m.noOrigin →
    AllRanQ Q fp d true w ps n → AllRanQ Q fp d true w ps m := by
  induction n using Node.ind with
  | h s z l cs ih =>
    rintro ⟨s', z', l', cs'⟩ w ps h ha
    have hst := strip_of_noOrigin h
    simp only [noOrigin_mk] at h
    injection h with e1 e2 e3 e4
    subst e1 e2
    cases l with
    | none =>
      have := allRan_unboxed rfl ha
      exact allRan_hidden this
    | some b =>
      cases l' with
      | none => cases e3
      | some b' =>
        simp only [Option.map_some, Option.some.injEq] at e3
        rw [allRan_mk] at ha ⊢
        refine ⟨fun hs => (ha.1 hs).moved (core_of_noOrigin _ e3) e4, fun c' hc' hs hv => ?_⟩
        obtain ⟨c, hc, he⟩ := forall₂_left (forall₂_of_map e4).flip hc'
        rw [← core_width (core_of_noOrigin true e3)]
        refine ih c hc he (ha.2 c hc hs ?_)
        rw [← hv]
        refine visits_styles ?_ (by rw [← noOrigin_style, he, noOrigin_style])
        simp only [strip_mk] at hst
        injection hst

theorem allRan_moved {Q : Node → Prop} {fp : FP} {d : Display} {hgt : Bool} {w : Option Num} {ps : Option CSS} {s : CSS} {z : Intrinsic} {b b' : Box}
    {cs cs' : List Node} (h : AllRanQ Q fp d hgt w ps (.mk s z (some b) cs)) (hb : b.core hgt = b'.core hgt)
    (hc : cs.map Node.noOrigin = cs'.map Node.noOrigin) : AllRanQ Q fp d hgt w ps (.mk s z (some b') cs') := by
  rw [allRan_mk] at h ⊢
  refine ⟨fun hs => (h.1 hs).moved hb hc, fun c' hc' hs hv => ?_⟩
  obtain ⟨c, hcm, he⟩ := forall₂_left (forall₂_of_map hc).flip hc'
  rw [← core_width hb]
  refine allRan_noOrigin he (h.2 c hcm hs ?_)
  rw [← hv]
  refine visits_styles (forall₂_map_eq ((forall₂_of_map hc).imp fun _ _ h => strip_of_noOrigin h)) ?_
  rw [← noOrigin_style, he, noOrigin_style]

/-! ## The loop of a block formatting context -/

/-- The steps of the loop: `Stacked b off bm cs b' cs'`. -/
inductive Stacked (fp : FP) (lay : Box → Node → Res Node) : Box → Num → Option Int → List Node → Box → List Node → Prop
  | nil (b : Box) (off : Num) (bm : Option Int) : Stacked fp lay b off bm [] b []
  | cons {b b1 b2 cb : Box} {off off1 h : Num} {bm : Option Int} {c : Node} {s : CSS} {z : Intrinsic} {ks cs cs' : List Node} :
      lay b c = .ok (.mk s z (some cb) ks) → collapseAbove fp b off bm cb = .ok (b1, off1) →
      (setContent fp .v (cb.v.content.add fp off1) cb ks).1.borderBoxHeight fp = some h →
      Stacked fp lay b1 (off1.add fp h) (some cb.collapse.bottom) cs b2 cs' →
      Stacked fp lay b off bm (c :: cs) b2
        (.mk s z (some (setContent fp .v (cb.v.content.add fp off1) cb ks).1) (setContent fp .v (cb.v.content.add fp off1) cb ks).2 :: cs')

theorem need_ok {α : Type} {x : Option α} {a : α} (h : need x = .ok a) : x = some a := by
  cases x with
  | none => cases h
  | some b => cases h; rfl

theorem stackChild_inv {fp : FP} {b b' : Box} {off off' : Num} {bm bm' : Option Int} {c c' : Node}
    (h : stackChild fp b off bm c = .ok (b', c', off', bm')) :
    ∃ s z cb ks off1 hh, c = .mk s z (some cb) ks ∧ collapseAbove fp b off bm cb = .ok (b', off1) ∧
      (setContent fp .v (cb.v.content.add fp off1) cb ks).1.borderBoxHeight fp = some hh ∧ off' = off1.add fp hh ∧
      bm' = some cb.collapse.bottom ∧
      c' = .mk s z (some (setContent fp .v (cb.v.content.add fp off1) cb ks).1) (setContent fp .v (cb.v.content.add fp off1) cb ks).2 := by
  cases c with
  | mk s z l cs =>
    cases l with
    | none => cases h
    | some cb =>
      simp only [stackChild] at h
      obtain ⟨⟨b1, o1⟩, h1, h⟩ := bind_eq_ok.1 h
      simp only at h
      obtain ⟨hh, h2, h⟩ := bind_eq_ok.1 h
      cases h
      refine ⟨s, z, cb, cs, o1, hh, rfl, h1, need_ok h2, rfl, ?_, rfl⟩
      unfold setContent
      split <;> rfl

theorem blockLoop_stacked {fp : FP} {lay : Box → Node → Res Node} : ∀ (cs : List Node) {b b' : Box} {off : Num} {bm : Option Int}
    {laid : List Node}, blockLoop fp lay b off bm (anonymize cs) = .ok (b', laid) →
    ∃ pre post, cs = pre ++ post ∧ Stacked fp lay b off bm pre b' laid ∧
      (∀ c ∈ pre, isBlockLevel c.style = true) ∧ (∀ c ∈ post, isBlockLevel c.style = false) := by
  intro cs
  induction cs with
  | nil =>
    intro b b' off bm laid h
    cases h
    exact ⟨[], [], rfl, .nil .., by simp, by simp⟩
  | cons c cs ih =>
    intro b b' off bm laid h
    have h0 := h
    simp only [anonymize, anonymizeLoop] at h
    split at h
    · rename_i hb
      simp only [blockLoop] at h
      split at h
      · cases h
      · rename_i c1 hc1
        split at h
        · cases h
        · rename_i b1 c2 off1 bm1 hst
          split at h
          · cases h
          · rename_i b2 cs2 hrest
            cases h
            obtain ⟨pre, post, rfl, hf, hpre, hpost⟩ := ih hrest
            obtain ⟨s, z, cb, ks, o1, hh, rfl, g1, g2, rfl, rfl, rfl⟩ := stackChild_inv hst
            refine ⟨c :: pre, post, rfl, .cons hc1 g1 g2 hf, ?_, hpost⟩
            intro x hx
            rcases List.mem_cons.1 hx with rfl | hx
            · exact hb
            · exact hpre x hx
    · rename_i hb
      obtain ⟨pre, post, he, hf, _, hpre, hpost⟩ := blockLoop_laid (c :: cs) h0
      cases pre with
      | nil =>
        cases hf
        rcases anonymizeLoop_anon _ rfl with h0 | ⟨ys, r, h0⟩
        · rw [h0] at h
          cases h
          exact ⟨[], c :: cs, rfl, .nil .., by simp, by rw [he]; exact hpost⟩
        · rw [h0] at h; cases h
      | cons x xs =>
        injection he with e1 e2
        subst e1
        exact absurd (hpre c List.mem_cons_self) hb

theorem Stacked.length {fp : FP} {lay : Box → Node → Res Node} {b b' : Box} {off : Num} {bm : Option Int} {cs cs' : List Node}
    (h : Stacked fp lay b off bm cs b' cs') : cs.length = cs'.length := by
  induction h with
  | nil => rfl
  | cons _ _ _ _ ih => simp [ih]

/-- The children after the loop, in both kinds of context. -/
theorem children_stacked {fp : FP} {lay : Box → Node → Res Node} {s : CSS} {z : Intrinsic} {b b' : Box} {cs cs' : List Node}
    (h : layoutChildren fp lay s z b cs = .ok (b', cs')) :
    (establishesInline s z cs = true ∧ b' = b ∧ List.Forall₂ (fun c c' => lay b c = .ok c') cs cs') ∨
      (establishesInline s z cs = false ∧ ∃ pre post laid, cs = pre ++ post ∧ cs' = laid ++ post ∧
        Stacked fp lay b (.int 0) none pre b' laid ∧ (∀ c ∈ pre, isBlockLevel c.style = true) ∧
        ∀ c ∈ post, isBlockLevel c.style = false) := by
  unfold layoutChildren at h
  split at h
  · rename_i hi
    split at h
    · cases h
    · rename_i cs1 h1
      cases h
      exact Or.inl ⟨hi, rfl, inlineLoop_laid h1⟩
  · rename_i hi
    split at h
    · cases h
    · rename_i b1 laid h1
      cases h
      obtain ⟨pre, post, rfl, hf, hpre, hpost⟩ := blockLoop_stacked cs h1
      refine Or.inr ⟨by simpa using hi, pre, post, laid, rfl, ?_, hf, hpre, hpost⟩
      rw [← hf.length, List.drop_left]

/-! ## What the phases leave alone -/

/-- Everything but the collapsed margins is the same. -/
def SameButCollapse (b b' : Box) : Prop := { b with collapse := .all 0 } = { b' with collapse := .all 0 }

theorem SameButCollapse.rfl {b : Box} : SameButCollapse b b := Eq.refl _
theorem SameButCollapse.trans {b c e : Box} (h : SameButCollapse b c) (h' : SameButCollapse c e) : SameButCollapse b e := Eq.trans h h'

theorem setCollapse_same (b : Box) (t : Side) (x : MVal) : SameButCollapse b (b.setCollapse t x) := by
  unfold Box.setCollapse
  split
  · split <;> exact Eq.refl _
  · exact .rfl

theorem collapseAbove_same {fp : FP} {b b' cb : Box} {off off' : Num} {bm : Option Int}
    (h : collapseAbove fp b off bm cb = .ok (b', off')) : SameButCollapse b b' := by
  unfold collapseAbove at h
  split at h
  · cases h; exact setCollapse_same ..
  · obtain ⟨mt, _, h⟩ := bind_eq_ok.1 h
    cases h; exact .rfl

theorem Stacked.same {fp : FP} {lay : Box → Node → Res Node} {b b' : Box} {off : Num} {bm : Option Int} {cs cs' : List Node}
    (h : Stacked fp lay b off bm cs b' cs') : SameButCollapse b b' := by
  induction h with
  | nil => exact .rfl
  | cons _ h1 _ _ ih => exact (collapseAbove_same h1).trans ih

theorem SameButCollapse.width {b b' : Box} (h : SameButCollapse b b') : b.contentWidth = b'.contentWidth := by
  unfold SameButCollapse at h
  have e := congrArg Box.contentWidth h
  exact e

theorem setContent_width (fp : FP) (a : Axis) (v : Num) (b : Box) (cs : List Node) :
    (setContent fp a v b cs).1.contentWidth = b.contentWidth := by
  unfold setContent
  split
  · rfl
  · cases a <;> rfl

theorem setMargin_width (b : Box) (t : Side) (x : MVal) : (b.setMargin t x).contentWidth = b.contentWidth := by
  unfold Box.setMargin
  split
  · rfl
  · exact (setCollapse_same _ t x).width.symm

theorem autoMargin_width (b : Box) (t : Side) : (autoMarginToZero b t).contentWidth = b.contentWidth := by
  unfold autoMarginToZero
  split
  · exact setMargin_width ..
  · rfl

theorem ok_pair {b : Box} {cs : List Node} {x : Box × List Node} (h : (pure x : Res (Box × List Node)) = .ok (b, cs)) :
    b = x.1 ∧ cs = x.2 := by
  have := Except.ok.inj h
  rw [this]; exact ⟨rfl, rfl⟩

theorem height_width {fp : FP} {s : CSS} {z : Intrinsic} {parent : Option CSS} {c : PxCtx} {b b' : Box} {cs cs' : List Node}
    (h : heightAndMargins fp s z parent c b cs = .ok (b', cs')) : b'.contentWidth = b.contentWidth := by
  unfold heightAndMargins at h
  split at h
  · cases h
  split at h
  · cases h
  split at h
  · split at h
    · unfold inlineReplacedHeight at h
      simp only at h
      obtain ⟨x, _, h⟩ := bind_eq_ok.1 h
      unfold placeTopInline at h
      obtain ⟨mt, _, h⟩ := bind_eq_ok.1 h
      rw [(ok_pair h).1, setContent_width]
      show (autoMarginToZero (autoMarginToZero b .top) .bottom).contentWidth = _
      rw [autoMargin_width, autoMargin_width]
    · unfold inlineHeight placeTopInline at h
      obtain ⟨mt, _, h⟩ := bind_eq_ok.1 h
      rw [(ok_pair h).1, setContent_width]
  split at h
  · split at h
    · cases h
    · unfold blockHeight at h
      obtain ⟨⟨x, b1⟩, h1, h⟩ := bind_eq_ok.1 h
      simp only at h
      rw [(ok_pair h).1, setContent_width]
      show b1.contentWidth = _
      unfold blockContentHeight at h1
      have hw : (autoMarginToZero (autoMarginToZero b .top) .bottom).contentWidth = b.contentWidth := by
        rw [autoMargin_width, autoMargin_width]
      split at h1
      · split at h1
        · split at h1
          · cases h1
          · obtain ⟨y, _, h1⟩ := bind_eq_ok.1 h1
            cases h1
            rw [← (setCollapse_same _ _ _).width, hw]
        · split at h1
          · cases h1; exact hw
          · obtain ⟨y, _, h1⟩ := bind_eq_ok.1 h1
            cases h1; exact hw
      · obtain ⟨y, _, h1⟩ := bind_eq_ok.1 h1
        cases h1; exact hw
  · split at h <;> cases h

theorem relative_width {fp : FP} {s : CSS} {cb : CB} {hz vt : PxCtx} {b b' : Box} {cs cs' : List Node}
    (h : applyRelative fp s cb hz vt b cs = .ok (b', cs')) : b'.contentWidth = b.contentWidth := by
  unfold applyRelative at h
  split at h
  · obtain ⟨dx, _, h⟩ := bind_eq_ok.1 h
    simp only at h
    obtain ⟨dy, _, h⟩ := bind_eq_ok.1 h
    rw [(ok_pair h).1, setContent_width, setContent_width]
  · cases h; rfl

/-! ## Every reached node is the result of a run -/

theorem relativeHeight_steps {fp : FP} {s : CSS} {z : Intrinsic} {parent : Option CSS} {c : PxCtx} {b b' : Box} {cs cs' : List Node}
    (h : relativeHeight fp s z parent c b cs = .ok (b', cs')) : Steps fp b cs b' cs' := by
  unfold relativeHeight at h
  split at h
  · exact height_steps h
  · cases h; exact .refl _ _

theorem layoutBox_allRan {Q : Node → Prop} (hQ : Passes Q) (fp : FP) (d : Display) (f : Nat) : ∀ (ps : Option CSS) (cb : CB) (n n' : Node),
    Q n → layoutBox fp d f ps cb n = .ok n' → AllRanQ Q fp d true cb.width ps n' := by
  induction f with
  | zero => intro p cb n n' _ h; cases h
  | succ f ih =>
    rintro ps cb ⟨s, z, l, cs⟩ n' hq h
    rcases layoutBox_ok h with ⟨hs, rfl⟩ | ⟨hs, b, cs0, b', cs', hl, hb, rfl⟩
    · exact allRan_hidden hs
    · have q0 : Q (.mk s z (some b) cs0) := by
        rcases hl with ⟨rfl, rfl⟩ | ⟨rfl, e⟩
        · exact hq
        · have := hQ.unboxed (fp := fp) hs hq
          rw [← e.2] at this
          rw [e.1]
          exact this
      rw [allRan_mk]
      refine ⟨fun _ => ⟨b', rfl, f, cb, b, cs0, b', cs', rfl, hb, rfl, rfl, q0⟩, fun c' hc' _ hv => ?_⟩
      obtain ⟨b1, b2, cs2, b3, cs3, b4, cs4, b5, cs5, h1, h2, h3, ha, hf, h4, h5, h6⟩ := body_phases hb
      have q3 : ∀ c ∈ cs3, Q c := by
        intro c hc
        have e : cs0.map Node.noOrigin = cs3.map Node.noOrigin := by
          rw [(relativeHeight_steps h3).noOrigin, (width_steps h2).noOrigin]
        obtain ⟨c0, hc0, he⟩ := forall₂_left (forall₂_of_map e).flip hc
        exact hQ.kid hs q0 hc0 he
      have hno : cs4.map Node.noOrigin = cs'.map Node.noOrigin := by
        rw [(relative_steps h6).noOrigin, (height_steps h5).noOrigin]
      have hw : b'.contentWidth = b4.contentWidth := by rw [relative_width h6, height_width h5]
      obtain ⟨c4, hc4, he⟩ := forall₂_left (forall₂_of_map hno).flip hc'
      refine allRan_noOrigin he ?_
      rw [hw]
      have hv4 : visits s z cs4 c4 = true := by
        rw [← hv]
        refine visits_styles (forall₂_map_eq ((forall₂_of_map hno).imp fun _ _ h => strip_of_noOrigin h)) ?_
        rw [← noOrigin_style, he, noOrigin_style]
      rcases children_stacked h4 with ⟨_, rfl, hf⟩ | ⟨hi, pre, post, laid, rfl, rfl, hst, hpre, hpost⟩
      · obtain ⟨c, hcm, hl⟩ := forall₂_left hf.flip hc4
        exact ih _ _ _ _ (q3 c hcm) hl
      · have hsty : (laid ++ post).map Node.style = (pre ++ post).map Node.style := by
          have := (children_forall h4).2
          refine (forall₂_map_eq (this.imp fun c c' h => ?_)).symm
          have key : ∀ b c c', layoutBox fp d f (some s) (.box b) c = .ok c' → c'.style = c.style := fun b c c' h => by
            rw [← strip_style, layoutBox_strip _ _ _ _ _ _ _ h, strip_style]
          rcases h with rfl | h
          · rfl
          · cases h with
            | same h => exact (key _ _ _ h).symm
            | moved v h => exact (key _ _ _ h).symm
        rcases List.mem_append.1 hc4 with hm | hm
        · clear hsty hv4 h4 h5 h6 hno hc4
          rw [← hst.same.width]
          have : ∀ {b : Box} {off : Num} {bm : Option Int} {cs cs' : List Node} {b' : Box},
              Stacked fp (fun b m => layoutBox fp d f (some s) (.box b) m) b off bm cs b' cs' → (∀ c ∈ cs, Q c) → ∀ c ∈ cs',
              AllRanQ Q fp d true b.contentWidth (some s) c := by
            intro b off bm cs cs' b' h
            induction h with
            | nil => intro _ c hc; cases hc
            | @cons b b1 b2 cb off off1 h bm c s' z' ks cs cs' g1 g2 _ _ ih' =>
              intro hqs x hx
              rcases List.mem_cons.1 hx with rfl | hx
              · have := ih _ _ _ _ (hqs c List.mem_cons_self) g1
                refine allRan_moved this (core_setContent ..).symm (setContent_noOrigin ..).symm
              · rw [(collapseAbove_same g2).width]
                exact ih' (fun y hy => hqs y (List.mem_cons_of_mem _ hy)) x hx
          exact this hst (fun y hy => q3 y (List.mem_append_left _ hy)) c4 hm
        · exfalso
          simp only [visits, inline_of_styles hsty, hi, hpost c4 hm, Bool.or_self] at hv4
          cases hv4

/-- After a layout every displayed node it came to is the result of a run; for the root, the height need not be. -/
theorem layout_ranQ {Q : Node → Prop} (hQ : Passes Q) {fp : FP} {d : Display} {html5 : Bool} {p : Option CSS} {n n' : Node} (hn : Q (n.reset fp))
    (h : layout fp d html5 p n = .ok n') : AllRanQ Q fp d (!html5) (some d.contentWidth) p n' := by
  obtain ⟨m, h1, h2, _⟩ := layout_ok h
  have q := layoutBox_allRan hQ fp d _ _ _ _ _ hn h1
  obtain ⟨s, z, b, cs, b', rfl, rfl, rfl⟩ := finishRoot_ok h2
  have q' : AllRanQ Q fp d (!html5) (some d.contentWidth) p (.mk s z (some b) cs) := ⟨fun h => (q.1 h).weaken, q.2⟩
  refine allRan_moved q' ?_ (setContent_noOrigin ..).symm
  cases html5 with
  | false => exact (core_setContent ..).symm
  | true =>
    have := core_setContent fp (b.v.content.add fp (.int b.collapse.top)) b cs false
    exact this.symm

theorem layout_ran {fp : FP} {d : Display} {html5 : Bool} {p : Option CSS} {n n' : Node} (h : layout fp d html5 p n = .ok n') :
    AllRanQ (fun _ => True) fp d (!html5) (some d.contentWidth) p n' := layout_ranQ passes_true trivial h

theorem layout_ran_any {fp : FP} {d : Display} {html5 : Bool} {p ps : Option CSS} {n n' m : Node} {w : Option Num}
    (h : layout fp d html5 p n = .ok n') (hm : Within (some d.contentWidth) p n' w ps m) (hh : ¬ m.Hidden) : Ran fp d false w ps m := by
  have q := layout_ran h
  cases hm with
  | here =>
    cases html5 with
    | true => exact q.1 hh
    | false => exact (q.1 hh).weaken
  | step hn hl hc hb hw => exact (q.2 _ hc _ hl hn hb _ _ _ hw hh).weaken

end Colosseum
