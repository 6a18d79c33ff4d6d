import Verif.Lemmas.Layout
import Verif.Lemmas.Reach
import Verif.Lemmas.Sideways
import Verif.Spec.Aligned

/-!
# Layouts of documents that differ in the vertical direction only
-/

namespace Colosseum

namespace Aligned

/-- Where both succeed, the results are related. -/
def Joint {α β : Type} (R : α → β → Prop) (x : Res α) (y : Res β) : Prop := ∀ a b, x = .ok a → y = .ok b → R a b

theorem Joint.bind {α β γ δ : Type} {R : α → β → Prop} {S : γ → δ → Prop} {x : Res α} {y : Res β} {f : α → Res γ} {g : β → Res δ} (h : Joint R x y)
    (hf : ∀ a b, R a b → Joint S (f a) (g b)) : Joint S (x >>= f) (y >>= g) := by
  intro c d hc hd
  obtain ⟨a, ha, hc⟩ := bind_eq_ok.1 hc
  obtain ⟨b, hb, hd⟩ := bind_eq_ok.1 hd
  exact hf a b (h a b ha hb) c d hc hd

theorem Joint.ok {α β : Type} {R : α → β → Prop} {a : α} {b : β} (h : R a b) : Joint R (.ok a) (.ok b) := by
  intro c d hc hd; cases hc; cases hd; exact h

theorem Joint.left {α β : Type} {R : α → β → Prop} {e : Err} {y : Res β} : Joint R (.error e) y := fun _ _ h => nomatch h
theorem Joint.right {α β : Type} {R : α → β → Prop} {e : Err} {x : Res α} : Joint R x (.error e) := fun _ _ _ h => nomatch h

theorem Joint.any {α β : Type} {x : Res α} {y : Res β} : Joint (fun _ _ => True) x y := fun _ _ _ _ => trivial

theorem Joint.of_eq {α : Type} {x y : Res α} (h : x = y) : Joint (fun a b => a = b) x y := by
  rintro a b rfl hb; rw [hb] at h; cases h; rfl

theorem refl (b : Box) : b.Aligned b := ⟨rfl, rfl, rfl, rfl, rfl, rfl, rfl, rfl⟩

theorem all_iff {cs cs' : List Node} : AlignedAll cs cs' ↔ List.Forall₂ AlignedDocs cs cs' := by
  induction cs generalizing cs' with
  | nil =>
    cases cs' with
    | nil => simp [AlignedAll]
    | cons _ _ => simp [AlignedAll]
  | cons c cs ih =>
    cases cs' with
    | nil => simp [AlignedAll]
    | cons c' cs' => simp [AlignedAll, ih]

/-! ## Positions -/

theorem docs_v_left (fp : FP) (n : Node) : ∀ (m : Node) (v : Num), AlignedDocs n m → AlignedDocs (n.setOrigin fp .v v) m := by
  induction n using Node.ind with
  | h s z l cs ih =>
    rintro ⟨s', z', l', cs'⟩ v h
    cases l with
    | none => exact h
    | some b =>
      cases l' with
      | none => simp only [AlignedDocs] at h; exact h.2.1.elim
      | some c =>
        simp only [Node.setOrigin]
        split
        · exact h
        · simp only [AlignedDocs] at h ⊢
          have hb : b.Aligned c := h.2.1
          refine ⟨h.1, ⟨hb.width, hb.h, hb.marginLeft, hb.marginRight, hb.borderLeft, hb.borderRight, hb.paddingLeft, hb.paddingRight⟩, ?_⟩
          have h4 := h.2.2
          rw [all_iff] at h4 ⊢
          rw [setOrigins_map]
          generalize Box.absContent fp (b.setPos .v { b.pos .v with origin := v }) .v = w
          clear h
          induction h4 with
          | nil => exact .nil
          | @cons c c' cs cs' hc hcs ihc =>
            exact .cons (ih c (List.mem_cons_self ..) _ _ hc) (ihc (fun c hc => ih c (List.mem_cons_of_mem _ hc)))

theorem docs_v_right (fp : FP) (m : Node) : ∀ (n : Node) (v : Num), AlignedDocs n m → AlignedDocs n (m.setOrigin fp .v v) := by
  induction m using Node.ind with
  | h s' z' l' cs' ih =>
    rintro ⟨s, z, l, cs⟩ v h
    cases l' with
    | none => exact h
    | some c =>
      cases l with
      | none => simp only [AlignedDocs] at h; exact h.2.1.elim
      | some b =>
        simp only [Node.setOrigin]
        split
        · exact h
        · simp only [AlignedDocs] at h ⊢
          have hb : b.Aligned c := h.2.1
          refine ⟨h.1, ⟨hb.width, hb.h, hb.marginLeft, hb.marginRight, hb.borderLeft, hb.borderRight, hb.paddingLeft, hb.paddingRight⟩, ?_⟩
          have h4 := h.2.2
          rw [all_iff] at h4 ⊢
          rw [setOrigins_map]
          generalize Box.absContent fp (c.setPos .v { c.pos .v with origin := v }) .v = w
          clear h
          induction h4 with
          | nil => exact .nil
          | @cons c c' cs cs' hc hcs ihc =>
            exact .cons (ih c' (List.mem_cons_self ..) _ _ hc) (ihc (fun c hc => ih c (List.mem_cons_of_mem _ hc)))

theorem docs_h (fp : FP) (n : Node) : ∀ (m : Node) (v : Num), AlignedDocs n m → AlignedDocs (n.setOrigin fp .h v) (m.setOrigin fp .h v) := by
  induction n using Node.ind with
  | h s z l cs ih =>
    rintro ⟨s', z', l', cs'⟩ v h
    cases l with
    | none =>
      cases l' with
      | none => exact h
      | some c => simp only [AlignedDocs] at h; exact h.2.1.elim
    | some b =>
      cases l' with
      | none => simp only [AlignedDocs] at h; exact h.2.1.elim
      | some c =>
        have hb : b.Aligned c := by simp only [AlignedDocs] at h; exact h.2.1
        have ho : (c.pos .h).origin = (b.pos .h).origin := congrArg AxisPos.origin hb.h
        simp only [Node.setOrigin, ho]
        split
        · exact h
        · simp only [AlignedDocs] at h ⊢
          have e : c.setPos .h { c.pos .h with origin := v } = { c with h := { b.h with origin := v } } := by
            simp only [Box.setPos, Box.pos, hb.h]
          rw [e]
          refine ⟨h.1, ⟨hb.width, rfl, hb.marginLeft, hb.marginRight, hb.borderLeft, hb.borderRight, hb.paddingLeft, hb.paddingRight⟩, ?_⟩
          have h4 := h.2.2
          rw [all_iff] at h4 ⊢
          rw [setOrigins_map, setOrigins_map]
          have ew : Box.absContent fp { c with h := { b.h with origin := v } } .h = Box.absContent fp (b.setPos .h { b.pos .h with origin := v }) .h := rfl
          rw [ew]
          generalize Box.absContent fp (b.setPos .h { b.pos .h with origin := v }) .h = w
          clear h
          induction h4 with
          | nil => exact .nil
          | @cons c c' cs cs' hc hcs ihc =>
            exact .cons (ih c (List.mem_cons_self ..) _ _ hc) (ihc (fun c hc => ih c (List.mem_cons_of_mem _ hc)))

theorem all_v_left (fp : FP) (v : Num) {cs cs' : List Node} (h : AlignedAll cs cs') : AlignedAll (setOrigins fp .v v cs) cs' := by
  rw [all_iff] at h ⊢
  rw [setOrigins_map]
  induction h with
  | nil => exact .nil
  | cons hc _ ih => exact .cons (docs_v_left fp _ _ _ hc) ih

theorem all_v_right (fp : FP) (v : Num) {cs cs' : List Node} (h : AlignedAll cs cs') : AlignedAll cs (setOrigins fp .v v cs') := by
  rw [all_iff] at h ⊢
  rw [setOrigins_map]
  induction h with
  | nil => exact .nil
  | cons hc _ ih => exact .cons (docs_v_right fp _ _ _ hc) ih

theorem all_h (fp : FP) (v : Num) {cs cs' : List Node} (h : AlignedAll cs cs') : AlignedAll (setOrigins fp .h v cs) (setOrigins fp .h v cs') := by
  rw [all_iff] at h ⊢
  rw [setOrigins_map, setOrigins_map]
  induction h with
  | nil => exact .nil
  | cons hc _ ih => exact .cons (docs_h fp _ _ _ hc) ih

/-- Results of a phase. -/
def Pair (r r' : Box × List Node) : Prop := r.1.Aligned r'.1 ∧ AlignedAll r.2 r'.2

theorem setContent_h (fp : FP) (v : Num) {b c : Box} {cs cs' : List Node} (hb : b.Aligned c) (h : AlignedAll cs cs') :
    Pair (setContent fp .h v b cs) (setContent fp .h v c cs') := by
  unfold setContent
  have e1 : (c.pos .h).content = (b.pos .h).content := congrArg AxisPos.content hb.h
  rw [e1]
  by_cases h1 : v.pyEq (b.pos .h).content = true
  · rw [if_pos h1, if_pos h1]; exact ⟨hb, h⟩
  · rw [if_neg h1, if_neg h1]
    have e2 : c.setPos .h { c.pos .h with content := v } = { c with h := { b.h with content := v } } := by
      simp only [Box.setPos, Box.pos, hb.h]
    rw [e2]
    refine ⟨⟨hb.width, rfl, hb.marginLeft, hb.marginRight, hb.borderLeft, hb.borderRight, hb.paddingLeft, hb.paddingRight⟩, all_h fp _ h⟩

theorem setContent_v (fp : FP) (v v' : Num) {b c : Box} {cs cs' : List Node} (hb : b.Aligned c) (h : AlignedAll cs cs') :
    Pair (setContent fp .v v b cs) (setContent fp .v v' c cs') := by
  have key : ∀ (x y : AxisPos), Box.Aligned { b with v := x } { c with v := y } := fun x y =>
    ⟨hb.width, hb.h, hb.marginLeft, hb.marginRight, hb.borderLeft, hb.borderRight, hb.paddingLeft, hb.paddingRight⟩
  unfold setContent
  by_cases h1 : v.pyEq (b.pos .v).content = true <;> by_cases h2 : v'.pyEq (c.pos .v).content = true
  · rw [if_pos h1, if_pos h2]; exact ⟨hb, h⟩
  · rw [if_pos h1, if_neg h2]; exact ⟨key b.v _, all_v_right fp _ h⟩
  · rw [if_neg h1, if_pos h2]; exact ⟨key _ c.v, all_v_left fp _ h⟩
  · rw [if_neg h1, if_neg h2]; exact ⟨key _ _, all_v_left fp _ (all_v_right fp _ h)⟩

/-! ## Edges -/

theorem collapse_keeps (b : Box) (t : Side) (v : MVal) : b.Aligned (b.setCollapse t v) := by
  unfold Box.setCollapse
  split
  · split
    · exact ⟨rfl, rfl, rfl, rfl, rfl, rfl, rfl, rfl⟩
    · exact refl b
  · exact refl b

theorem trans {a b c : Box} (h : a.Aligned b) (g : b.Aligned c) : a.Aligned c :=
  ⟨g.width.trans h.width, g.h.trans h.h, g.marginLeft.trans h.marginLeft, g.marginRight.trans h.marginRight, g.borderLeft.trans h.borderLeft,
    g.borderRight.trans h.borderRight, g.paddingLeft.trans h.paddingLeft, g.paddingRight.trans h.paddingRight⟩

theorem symm {a b : Box} (h : a.Aligned b) : b.Aligned a :=
  ⟨h.width.symm, h.h.symm, h.marginLeft.symm, h.marginRight.symm, h.borderLeft.symm, h.borderRight.symm, h.paddingLeft.symm, h.paddingRight.symm⟩

/-- Changes that keep boxes aligned on both sides. -/
theorem sides {a b a' b' : Box} (h : a.Aligned b) (ha : a.Aligned a') (hb : b.Aligned b') : a'.Aligned b' := trans (symm ha) (trans h hb)

theorem margin_keeps (b : Box) {t : Side} (ht : t = .top ∨ t = .bottom) (v : MVal) : b.Aligned (b.setMargin t v) := by
  unfold Box.setMargin
  split
  · exact refl b
  · refine trans ?_ (collapse_keeps _ t v)
    rcases ht with rfl | rfl <;> exact ⟨rfl, rfl, rfl, rfl, rfl, rfl, rfl, rfl⟩

theorem margin_both {b c : Box} (h : b.Aligned c) {t : Side} (ht : t = .left ∨ t = .right) (v : MVal) : (b.setMargin t v).Aligned (c.setMargin t v) := by
  have e : c.margin.get t = b.margin.get t := by
    rcases ht with rfl | rfl
    · exact h.marginLeft
    · exact h.marginRight
  unfold Box.setMargin
  rw [e]
  split
  · exact h
  · refine sides ?_ (collapse_keeps _ t v) (collapse_keeps _ t v)
    rcases ht with rfl | rfl
    · exact ⟨h.width, h.h, rfl, h.marginRight, h.borderLeft, h.borderRight, h.paddingLeft, h.paddingRight⟩
    · exact ⟨h.width, h.h, h.marginLeft, rfl, h.borderLeft, h.borderRight, h.paddingLeft, h.paddingRight⟩

theorem auto_keeps (b : Box) {t : Side} (ht : t = .top ∨ t = .bottom) : b.Aligned (autoMarginToZero b t) := by
  unfold autoMarginToZero
  split
  · exact margin_keeps b ht _
  · exact refl b

theorem auto_both {b c : Box} (h : b.Aligned c) {t : Side} (ht : t = .left ∨ t = .right) : (autoMarginToZero b t).Aligned (autoMarginToZero c t) := by
  have e : c.margin.get t = b.margin.get t := by
    rcases ht with rfl | rfl
    · exact h.marginLeft
    · exact h.marginRight
  unfold autoMarginToZero
  rw [e]
  split
  · exact margin_both h ht _
  · exact h

theorem autos_both {b c : Box} (h : b.Aligned c) :
    (autoMarginToZero (autoMarginToZero b .left) .right).Aligned (autoMarginToZero (autoMarginToZero c .left) .right) :=
  auto_both (auto_both h (.inl rfl)) (.inr rfl)

theorem autos_keep (b : Box) : b.Aligned (autoMarginToZero (autoMarginToZero b .top) .bottom) :=
  trans (auto_keeps b (.inl rfl)) (auto_keeps _ (.inr rfl))

theorem size_free (fp : FP) (d : Display) (f : Font) {v : Val} (hv : ¬ v.Percentage) (x y : Option Num) :
    calculateEdge fp v ⟨d, f, x⟩ = calculateEdge fp v ⟨d, f, y⟩ := by
  have e : v.px fp ⟨d, f, x⟩ = v.px fp ⟨d, f, y⟩ := by
    unfold Val.px
    split
    · rename_i u
      unfold CUnit.px
      split
      · rename_i k hk
        unfold pxOf luOf
        cases k <;> try rfl
        exact absurd ⟨u.val, by cases u; simp only at hk; subst hk; rfl⟩ hv
      · rfl
    · rfl
  unfold calculateEdge calculateSize
  rw [e]

theorem copy_joint (fp : FP) (d : Display) (f : Font) {s s' : CSS} {z z' : Intrinsic} (hs : SameAcross s s' z z') (w : Option Num) (x y : Option Num)
    {b c : Box} (hb : b.Aligned c) : Joint Box.Aligned (copyEdges fp s ⟨d, f, w⟩ ⟨d, f, x⟩ b) (copyEdges fp s' ⟨d, f, w⟩ ⟨d, f, y⟩ c) := by
  unfold copyEdges
  dsimp only
  refine Joint.any.bind fun m1 m1' _ => ?_
  refine (Joint.of_eq (by rw [hs.same (.margin .right) (.inr rfl)])).bind fun m2 m2' e2 => ?_
  refine Joint.any.bind fun m3 m3' _ => ?_
  refine (Joint.of_eq (by rw [hs.same (.margin .left) (.inl rfl)])).bind fun m4 m4' e4 => ?_
  refine Joint.any.bind fun _ _ _ => ?_
  refine (Joint.of_eq (by rw [hs.same (.borderWidth .right) (.inr rfl)]; exact size_free fp d f (hs.fixed .right (.inr rfl)).2 x y)).bind fun br br' e5 => ?_
  refine Joint.any.bind fun _ _ _ => ?_
  refine (Joint.of_eq (by rw [hs.same (.borderWidth .left) (.inl rfl)]; exact size_free fp d f (hs.fixed .left (.inl rfl)).2 x y)).bind fun bl bl' e6 => ?_
  refine Joint.any.bind fun _ _ _ => ?_
  refine (Joint.of_eq (by rw [hs.same (.padding .right) (.inr rfl)]; exact size_free fp d f (hs.fixed .right (.inr rfl)).1 x y)).bind fun pr pr' e7 => ?_
  refine Joint.any.bind fun _ _ _ => ?_
  refine (Joint.of_eq (by rw [hs.same (.padding .left) (.inl rfl)]; exact size_free fp d f (hs.fixed .left (.inl rfl)).1 x y)).bind fun pl pl' e8 => ?_
  subst e2 e4 e5 e6 e7 e8
  refine Joint.ok ?_
  have h1 := sides hb (margin_keeps b (.inl rfl) m1) (margin_keeps c (.inl rfl) m1')
  have h2 := margin_both h1 (.inr rfl) m2
  have h3 := sides h2 (margin_keeps _ (.inr rfl) m3) (margin_keeps _ (.inr rfl) m3')
  have h4 := margin_both h3 (.inl rfl) m4
  exact ⟨h4.width, h4.h, h4.marginLeft, h4.marginRight, rfl, rfl, rfl, rfl⟩

/-! ## Widths -/

theorem width_write {b c : Box} (h : b.Aligned c) (w : Option Num) : Box.Aligned { b with contentWidth := w } { c with contentWidth := w } :=
  ⟨rfl, h.h, h.marginLeft, h.marginRight, h.borderLeft, h.borderRight, h.paddingLeft, h.paddingRight⟩

theorem height_write {b c : Box} (h : b.Aligned c) (w w' : Option Num) : Box.Aligned { b with contentHeight := w } { c with contentHeight := w' } :=
  ⟨h.width, h.h, h.marginLeft, h.marginRight, h.borderLeft, h.borderRight, h.paddingLeft, h.paddingRight⟩

theorem placeLeft_joint (fp : FP) {b c : Box} {cs cs' : List Node} (hb : b.Aligned c) (h : AlignedAll cs cs') :
    Joint Pair (placeLeft fp b cs) (placeLeft fp c cs') := by
  unfold placeLeft
  refine (Joint.of_eq (by rw [hb.marginLeft])).bind fun ml ml' e => ?_
  subst e
  rw [hb.borderLeft, hb.paddingLeft]
  exact Joint.ok (setContent_h fp _ hb h)

section
variable {s s' : CSS} {z z' : Intrinsic} (hs : SameAcross s s' z z')
include hs

theorem same_isBlockLevel : isBlockLevel s' = isBlockLevel s := by unfold isBlockLevel; rw [hs.same .display trivial]
theorem same_isBlockContainer : isBlockContainer s' z' = isBlockContainer s z := by
  unfold isBlockContainer; rw [hs.same .display trivial, hs.replaced]
theorem same_isInlineBlock : isInlineBlock s' = isInlineBlock s := by unfold isInlineBlock; rw [hs.same .display trivial]
theorem same_isInline : isInline s' = isInline s := by unfold isInline; rw [hs.same .display trivial]
theorem same_isFloat : isFloat s' = isFloat s := by unfold isFloat; rw [hs.same .float trivial]
theorem same_isAbsolute : isAbsolute s' = isAbsolute s := by unfold isAbsolute; rw [hs.same .position trivial]
theorem same_isRelative : isRelative s' = isRelative s := by unfold isRelative; rw [hs.same .position trivial]

theorem same_replacedWidth (fp : FP) (hz : z.isReplaced = true) (k : PxCtx) {b c : Box} (hb : b.Aligned c) :
    inlineReplacedContentWidth fp s' z' k c = inlineReplacedContentWidth fp s z k b := by
  obtain ⟨h1, h2, h3⟩ := hs.image hz
  have h3' : (s'.get .height).isKw "auto" = (s.get .height).isKw "auto" := by
    rw [Bool.eq_iff_iff, isKw_iff, isKw_iff]; exact h3
  unfold inlineReplacedContentWidth remainingWidth
  rw [hs.same .width trivial, h3', hs.width, h1, h2, hb.marginLeft, hb.marginRight, hb.borderLeft, hb.borderRight, hb.paddingLeft, hb.paddingRight]

theorem solve_joint (fp : FP) (size w : Num) {b c : Box} (hb : b.Aligned c) : (solveMargins fp s size w b).Aligned (solveMargins fp s' size w c) := by
  unfold solveMargins
  dsimp only
  rw [hb.marginLeft, hb.marginRight, hb.borderLeft, hb.borderRight, hb.paddingLeft, hb.paddingRight, hs.same .direction trivial]
  generalize addMargin fp (addMargin fp (addAll fp b.border.left [b.padding.left, w, b.padding.right, b.border.right]) b.margin.left) b.margin.right = total
  have key : ∀ {b c : Box}, b.Aligned c → Box.Aligned
      (match b.margin.left, b.margin.right with
        | .num ml, .num mr =>
          if (s.get .direction).isKw "ltr" then
            b.setMargin .right (.num (subAll fp size [ml, b.border.left, b.padding.left, w, b.padding.right, b.border.right]))
          else b.setMargin .left (.num (subAll fp size [b.border.left, b.padding.left, w, b.padding.right, b.border.right, mr]))
        | .auto, .num mr => b.setMargin .left (.num (subAll fp size [b.border.left, b.padding.left, w, b.padding.right, b.border.right, mr]))
        | .num ml, .auto => b.setMargin .right (.num (subAll fp size [ml, b.border.left, b.padding.left, w, b.padding.right, b.border.right]))
        | .auto, .auto =>
          (b.setMargin .left (.num ((subAll fp size [b.border.left, b.padding.left, w, b.padding.right, b.border.right]).floorDiv2 fp))).setMargin .right
            (.num ((subAll fp size [b.border.left, b.padding.left, w, b.padding.right, b.border.right]).floorDiv2 fp)))
      (match c.margin.left, c.margin.right with
        | .num ml, .num mr =>
          if (s.get .direction).isKw "ltr" then
            c.setMargin .right (.num (subAll fp size [ml, c.border.left, c.padding.left, w, c.padding.right, c.border.right]))
          else c.setMargin .left (.num (subAll fp size [c.border.left, c.padding.left, w, c.padding.right, c.border.right, mr]))
        | .auto, .num mr => c.setMargin .left (.num (subAll fp size [c.border.left, c.padding.left, w, c.padding.right, c.border.right, mr]))
        | .num ml, .auto => c.setMargin .right (.num (subAll fp size [ml, c.border.left, c.padding.left, w, c.padding.right, c.border.right]))
        | .auto, .auto =>
          (c.setMargin .left (.num ((subAll fp size [c.border.left, c.padding.left, w, c.padding.right, c.border.right]).floorDiv2 fp))).setMargin .right
            (.num ((subAll fp size [c.border.left, c.padding.left, w, c.padding.right, c.border.right]).floorDiv2 fp))) := by
    intro b c hb
    rw [hb.marginLeft, hb.marginRight, hb.borderLeft, hb.borderRight, hb.paddingLeft, hb.paddingRight]
    split
    · split
      · exact margin_both hb (.inr rfl) _
      · exact margin_both hb (.inl rfl) _
    · exact margin_both hb (.inl rfl) _
    · exact margin_both hb (.inr rfl) _
    · exact margin_both (margin_both hb (.inl rfl) _) (.inr rfl) _
  by_cases h : size.pyLt total = true
  · simp only [if_pos h]
    exact key (autos_both hb)
  · simp only [if_neg h]
    exact key hb

theorem block_joint (fp : FP) (k : PxCtx) {b c : Box} {cs cs' : List Node} (hb : b.Aligned c) (h : AlignedAll cs cs') :
    Joint Pair (blockWidth fp s k b cs) (blockWidth fp s' k c cs') := by
  unfold blockWidth
  rw [hs.same .width trivial]
  split
  · dsimp only
    have hb' := autos_both hb
    refine (Joint.of_eq rfl).bind fun size size' e => ?_
    subst e
    refine (Joint.of_eq (by rw [hb'.marginLeft])).bind fun ml ml' e => ?_
    subst e
    refine (Joint.of_eq (by rw [hb'.marginRight])).bind fun mr mr' e => ?_
    subst e
    have e : remainingWidth fp size ml mr (autoMarginToZero (autoMarginToZero c .left) .right) =
        remainingWidth fp size ml mr (autoMarginToZero (autoMarginToZero b .left) .right) := by
      unfold remainingWidth
      rw [hb'.borderLeft, hb'.borderRight, hb'.paddingLeft, hb'.paddingRight]
    rw [e]
    exact placeLeft_joint fp (width_write hb' _) h
  · refine (Joint.of_eq ?_).bind fun w w' e => ?_
    · unfold clampedWidth
      rw [hs.same .width trivial, hs.same .maxWidth trivial, hs.same .minWidth trivial]
    · subst e
      refine (Joint.of_eq rfl).bind fun size size' e => ?_
      subst e
      exact placeLeft_joint fp (width_write (solve_joint hs fp size w hb) _) h

theorem widths_joint (fp : FP) (k : PxCtx) {b c : Box} {cs cs' : List Node} (hb : b.Aligned c) (h : AlignedAll cs cs') :
    Joint Pair (widthAndMargins fp s z k b cs) (widthAndMargins fp s' z' k c cs') := by
  unfold widthAndMargins
  rw [same_isFloat hs, same_isAbsolute hs, same_isInline hs, same_isBlockLevel hs, same_isInlineBlock hs, hs.replaced]
  split
  · exact .left
  split
  · exact .left
  split
  · split
    · rename_i hz
      unfold inlineReplacedWidth
      dsimp only
      refine (Joint.of_eq (same_replacedWidth hs fp hz k (autos_both hb)).symm).bind fun w w' e => ?_
      subst e
      exact placeLeft_joint fp (width_write (autos_both hb) _) h
    · refine Joint.ok ⟨?_, h⟩
      unfold inlineWidth
      rw [hs.width]
      exact width_write (autos_both hb) _
  split
  · split
    · exact .left
    · exact block_joint hs fp k hb h
  split
  · exact .left
  · exact .left

/-! ## Heights -/

theorem heights_joint (fp : FP) (p p' : Option CSS) (k k' : PxCtx) {b c : Box} {cs cs' : List Node} (hb : b.Aligned c) (h : AlignedAll cs cs') :
    Joint Pair (heightAndMargins fp s z p k b cs) (heightAndMargins fp s' z' p' k' c cs') := by
  have place : ∀ {b c : Box}, b.Aligned c → Joint Pair (placeTopInline fp b cs) (placeTopInline fp c cs') := by
    intro b c hb
    unfold placeTopInline
    exact Joint.any.bind fun _ _ _ => Joint.ok (setContent_v fp _ _ hb h)
  unfold heightAndMargins
  rw [same_isFloat hs, same_isAbsolute hs, same_isInline hs, same_isBlockLevel hs, same_isInlineBlock hs, hs.replaced]
  split
  · exact .left
  split
  · exact .left
  split
  · split
    · unfold inlineReplacedHeight
      exact Joint.any.bind fun _ _ _ => place (height_write (sides hb (autos_keep b) (autos_keep c)) _ _)
    · exact place (height_write hb _ _)
  split
  · split
    · exact .left
    · unfold blockHeight
      have content : ∀ (s : CSS) (p : Option CSS) (k : PxCtx) (b : Box) (cs : List Node) (r : Num × Box), blockContentHeight fp s p k b cs = .ok r →
          b.Aligned r.2 := by
        intro s p k b cs r hr
        unfold blockContentHeight at hr
        split at hr
        · split at hr
          · split at hr
            · cases hr
            · obtain ⟨x, hx, hr⟩ := bind_eq_ok.1 hr
              cases hr
              exact collapse_keeps b .bottom (.num (.int _))
          · split at hr
            · cases hr; exact refl b
            · obtain ⟨x, hx, hr⟩ := bind_eq_ok.1 hr
              cases hr
              exact refl b
        · obtain ⟨x, hx, hr⟩ := bind_eq_ok.1 hr
          cases hr
          exact refl b
      refine Joint.bind (R := fun r r' => r.2.Aligned r'.2) ?_ ?_
      · intro r r' hr hr'
        exact sides (sides hb (autos_keep b) (autos_keep c)) (content _ _ _ _ _ _ hr) (content _ _ _ _ _ _ hr')
      · rintro ⟨x, b⟩ ⟨y, c⟩ hb
        exact Joint.ok (setContent_v fp _ _ (height_write hb _ _) h)
  split
  · exact .left
  · exact .left

theorem relativeHeight_joint (fp : FP) (p p' : Option CSS) (k k' : PxCtx) {b c : Box} {cs cs' : List Node} (hb : b.Aligned c) (h : AlignedAll cs cs') :
    Joint Pair (relativeHeight fp s z p k b cs) (relativeHeight fp s' z' p' k' c cs') := by
  unfold relativeHeight
  rw [same_isRelative hs]
  split
  · exact heights_joint hs fp p p' k k' hb h
  · exact Joint.ok ⟨hb, h⟩

end

/-! ## Offsets -/

/-- Containing blocks that agree about the horizontal direction. -/
def Holders : CB → CB → Prop
  | .viewport d, .viewport d' => d = d'
  | .box b, .box c => b.Aligned c
  | _, _ => False

theorem Holders.width {cb cb' : CB} (h : Holders cb cb') : cb'.width = cb.width := by
  cases cb <;> cases cb'
  · cases h; rfl
  · cases h
  · cases h
  · exact Box.Aligned.width h

theorem offset_h (fp : FP) {cb cb' : CB} (h : Holders cb cb') (a b : Val) (k : PxCtx) : relativeOffset fp cb' .h a b k = relativeOffset fp cb .h a b k := by
  have e1 : cb'.contentEnd fp .h = cb.contentEnd fp .h := by
    cases cb <;> cases cb'
    · rfl
    · cases h
    · cases h
    · have h : Box.Aligned _ _ := h
      simp only [CB.contentEnd, Box.contentRight, h.width, h.h]
  have e2 : cb'.contentStart .h = cb.contentStart .h := by
    cases cb <;> cases cb'
    · rfl
    · cases h
    · cases h
    · have h : Box.Aligned _ _ := h
      simp only [CB.contentStart, Box.pos, h.h]
  unfold relativeOffset
  rw [e1, e2]

theorem relative_joint (fp : FP) {s s' : CSS} {z z' : Intrinsic} (hs : SameAcross s s' z z') {cb cb' : CB} (hcb : Holders cb cb') (hz vt vt' : PxCtx)
    {b c : Box} {cs cs' : List Node} (hb : b.Aligned c) (h : AlignedAll cs cs') :
    Joint Pair (applyRelative fp s cb hz vt b cs) (applyRelative fp s' cb' hz vt' c cs') := by
  unfold applyRelative
  rw [same_isRelative hs]
  split
  · refine (Joint.of_eq (by rw [hs.same .left trivial, hs.same .right trivial]; exact (offset_h fp hcb _ _ _).symm)).bind fun dx dx' e => ?_
    subst e
    have e : c.h.content.add fp dx = b.h.content.add fp dx := by rw [hb.h]
    rw [e]
    have hp := setContent_h fp (b.h.content.add fp dx) hb h
    revert hp
    generalize setContent fp .h (b.h.content.add fp dx) b cs = r
    generalize setContent fp .h (b.h.content.add fp dx) c cs' = r'
    intro hp
    exact Joint.any.bind fun _ _ _ => Joint.ok (setContent_v fp _ _ hp.1 hp.2)
  · exact Joint.ok ⟨hb, h⟩

/-! ## Children -/

theorem docs_style {n m : Node} (h : AlignedDocs n m) : SameAcross n.style m.style n.intrinsic m.intrinsic := by
  obtain ⟨s, z, l, cs⟩ := n
  obtain ⟨s', z', l', cs'⟩ := m
  simp only [AlignedDocs] at h
  exact h.1

theorem inline_joint {lay lay' : Node → Res Node} (hl : ∀ n m, AlignedDocs n m → Joint AlignedDocs (lay n) (lay' m)) {cs cs' : List Node}
    (h : AlignedAll cs cs') : Joint AlignedAll (inlineLoop lay cs) (inlineLoop lay' cs') := by
  rw [all_iff] at h
  induction h with
  | nil => exact Joint.ok trivial
  | @cons c c' cs cs' hc hcs ih =>
    have e : ∀ (lay : Node → Res Node) (c : Node) (cs : List Node),
        inlineLoop lay (c :: cs) = lay c >>= fun c => inlineLoop lay cs >>= fun cs => pure (c :: cs) := by
      intro lay c cs
      simp only [inlineLoop]
      cases lay c with
      | error e => rfl
      | ok c =>
        show (match inlineLoop lay cs with | .error e => .error e | .ok cs' => .ok (c :: cs')) = inlineLoop lay cs >>= _
        cases inlineLoop lay cs <;> rfl
    rw [e, e]
    refine (hl _ _ hc).bind fun a b hab => ih.bind fun as bs habs => ?_
    exact Joint.ok (all_iff.2 (.cons hab (all_iff.1 habs)) : AlignedAll (a :: as) (b :: bs))

theorem stack_joint (fp : FP) {b c : Box} (hb : b.Aligned c) (o o' : Num) (bm bm' : Option Int) {n m : Node} (h : AlignedDocs n m) :
    Joint (fun r r' => r.1.Aligned r'.1 ∧ AlignedDocs r.2.1 r'.2.1) (stackChild fp b o bm n) (stackChild fp c o' bm' m) := by
  obtain ⟨s, z, l, cs⟩ := n
  obtain ⟨s', z', l', cs'⟩ := m
  simp only [AlignedDocs] at h
  obtain ⟨h1, h3, h4⟩ := h
  cases l with
  | none => exact .left
  | some k =>
    cases l' with
    | none => exact .right
    | some k' =>
      have hk : k.Aligned k' := h3
      have above : ∀ (b : Box) (o : Num) (bm : Option Int) (k : Box) (r : Box × Num), collapseAbove fp b o bm k = .ok r → b.Aligned r.1 := by
        intro b o bm k r hr
        unfold collapseAbove at hr
        split at hr
        · cases hr; exact collapse_keeps b .top (.num (.int _))
        · obtain ⟨x, hx, hr⟩ := bind_eq_ok.1 hr
          cases hr; exact refl b
      unfold stackChild
      refine Joint.bind (R := fun r r' => r.1.Aligned r'.1) ?_ ?_
      · intro r r' hr hr'
        exact sides hb (above _ _ _ _ _ hr) (above _ _ _ _ _ hr')
      · rintro ⟨b, o⟩ ⟨c, o'⟩ hb
        have hb : b.Aligned c := hb
        dsimp only
        have hp := setContent_v fp (k.v.content.add fp o) (k'.v.content.add fp o') hk h4
        revert hp
        generalize setContent fp .v (k.v.content.add fp o) k cs = r
        generalize setContent fp .v (k'.v.content.add fp o') k' cs' = r'
        intro hp
        refine Joint.any.bind fun _ _ _ => Joint.ok ⟨hb, ?_⟩
        show AlignedDocs (.mk s z (some r.1) r.2) (.mk s' z' (some r'.1) r'.2)
        simp only [AlignedDocs]
        exact ⟨h1, hp.1, hp.2⟩

/-- Containers of aligned nodes. -/
inductive Boxed : Container → Container → Prop
  | anon (xs ys : List Node) : Boxed (.anon xs) (.anon ys)
  | node {n m : Node} : AlignedDocs n m → Boxed (.node n) (.node m)

theorem anonymize_joint {cs cs' : List Node} (h : AlignedAll cs cs') : ∀ p p' : Option (List Node), p.isSome = p'.isSome →
    List.Forall₂ Boxed (anonymizeLoop p cs) (anonymizeLoop p' cs') := by
  rw [all_iff] at h
  induction h with
  | nil => intro p p' _; simp only [anonymizeLoop]; exact .nil
  | @cons c c' cs cs' hc hcs ih =>
    intro p p' hp
    simp only [anonymizeLoop, same_isBlockLevel (docs_style hc)]
    cases p with
    | none =>
      cases p' with
      | some _ => cases hp
      | none =>
        split
        · exact .cons (.node hc) (ih _ _ rfl)
        · exact ih _ _ rfl
    | some xs =>
      cases p' with
      | none => cases hp
      | some ys =>
        split
        · exact .cons (.anon ..) (.cons (.node hc) (ih _ _ rfl))
        · exact ih _ _ rfl

theorem blockLoop_joint (fp : FP) {lay lay' : Box → Node → Res Node}
    (hl : ∀ b c n m, b.Aligned c → AlignedDocs n m → Joint AlignedDocs (lay b n) (lay' c m)) {ks ks' : List Container}
    (h : List.Forall₂ Boxed ks ks') : ∀ (b c : Box) (o o' : Num) (bm bm' : Option Int), b.Aligned c →
      Joint Pair (blockLoop fp lay b o bm ks) (blockLoop fp lay' c o' bm' ks') := by
  induction h with
  | nil => intro b c o o' bm bm' hb; exact Joint.ok ⟨hb, trivial⟩
  | @cons k k' ks ks' hk hks ih =>
    intro b c o o' bm bm' hb
    cases hk with
    | anon xs ys => exact .left
    | node hn =>
      rw [Sideways.blockLoop_bind, Sideways.blockLoop_bind]
      refine (hl _ _ _ _ hb hn).bind fun n m hnm => (stack_joint fp hb o o' bm bm' hnm).bind ?_
      rintro ⟨b, n, o, bm⟩ ⟨c, m, o', bm'⟩ ⟨hb, hnm⟩
      have hb : b.Aligned c := hb
      have hnm : AlignedDocs n m := hnm
      refine (ih b c o o' bm bm' hb).bind ?_
      rintro ⟨b, cs⟩ ⟨c, cs'⟩ ⟨hb, hcs⟩
      refine Joint.ok ⟨hb, ?_⟩
      show AlignedAll (n :: cs) (m :: cs')
      exact all_iff.2 (.cons hnm (all_iff.1 hcs))

theorem children_joint (fp : FP) {lay lay' : Box → Node → Res Node}
    (hl : ∀ b c n m, b.Aligned c → AlignedDocs n m → Joint AlignedDocs (lay b n) (lay' c m)) {s s' : CSS} {z z' : Intrinsic} (hs : SameAcross s s' z z')
    {b c : Box} {cs cs' : List Node} (hb : b.Aligned c) (h : AlignedAll cs cs') :
    Joint Pair (layoutChildren fp lay s z b cs) (layoutChildren fp lay' s' z' c cs') := by
  have he : establishesInline s' z' cs' = establishesInline s z cs := by
    unfold establishesInline
    rw [same_isBlockContainer hs]
    have : (cs'.any fun c => isBlockLevel c.style) = cs.any fun c => isBlockLevel c.style := by
      rw [all_iff] at h
      induction h with
      | nil => rfl
      | cons hc _ ih => rw [List.any_cons, List.any_cons, ih, same_isBlockLevel (docs_style hc)]
    rw [this]
  unfold layoutChildren
  rw [he]
  split
  · have := inline_joint (fun n m hnm => hl b c n m hb hnm) h
    revert this
    generalize inlineLoop (lay b) cs = r
    generalize inlineLoop (lay' c) cs' = r'
    intro this
    cases r <;> cases r'
    · exact .left
    · exact .left
    · exact .right
    · exact Joint.ok ⟨hb, this _ _ rfl rfl⟩
  · have := blockLoop_joint fp hl (anonymize_joint h none none rfl) b c (.int 0) (.int 0) none none hb
    revert this
    unfold anonymize
    generalize blockLoop fp lay b (.int 0) none (anonymizeLoop none cs) = r
    generalize blockLoop fp lay' c (.int 0) none (anonymizeLoop none cs') = r'
    intro this
    cases r with
    | error e => exact .left
    | ok r =>
      cases r' with
      | error e => exact .right
      | ok r' =>
        obtain ⟨hb, hc⟩ := this _ _ rfl rfl
        obtain ⟨b, laid⟩ := r
        obtain ⟨c, laid'⟩ := r'
        refine Joint.ok ⟨hb, ?_⟩
        have hc := all_iff.1 (show AlignedAll laid laid' from hc)
        refine all_iff.2 (List.rel_append hc ?_)
        rw [hc.length_eq]
        exact List.forall₂_drop _ (all_iff.1 h)

/-! ## The whole -/

theorem body_joint (fp : FP) (d : Display) {lay lay' : Box → Node → Res Node}
    (hl : ∀ b c n m, b.Aligned c → AlignedDocs n m → Joint AlignedDocs (lay b n) (lay' c m)) (p p' : Option CSS) {cb cb' : CB}
    (hcb : Holders cb cb') {s s' : CSS} {z z' : Intrinsic} (hs : SameAcross s s' z z') {b c : Box} {cs cs' : List Node} (hb : b.Aligned c)
    (h : AlignedAll cs cs') : Joint Pair (layoutBody fp d lay p cb s z b cs) (layoutBody fp d lay' p' cb' s' z' c cs') := by
  unfold layoutBody
  dsimp only
  rw [hcb.width, same_isAbsolute hs, same_isFloat hs]
  refine (copy_joint fp d (dummyFont fp) hs cb.width cb.height cb'.height hb).bind fun b c hb => (widths_joint hs fp _ hb h).bind ?_
  rintro ⟨b, cs⟩ ⟨c, cs'⟩ ⟨hb, h⟩
  refine (relativeHeight_joint hs fp p p' _ _ hb h).bind ?_
  rintro ⟨b, cs⟩ ⟨c, cs'⟩ ⟨hb, h⟩
  dsimp only
  split
  · exact .left
  split
  · exact .left
  refine (children_joint fp hl hs hb h).bind ?_
  rintro ⟨b, cs⟩ ⟨c, cs'⟩ ⟨hb, h⟩
  refine (heights_joint hs fp p p' _ _ hb h).bind ?_
  rintro ⟨b, cs⟩ ⟨c, cs'⟩ ⟨hb, h⟩
  exact relative_joint fp hs hcb _ _ _ hb h

theorem box_joint (fp : FP) (d : Display) (f : Nat) : ∀ (f' : Nat) (p p' : Option CSS) (cb cb' : CB) (n m : Node), Holders cb cb' →
    AlignedDocs n m → Joint AlignedDocs (layoutBox fp d f p cb n) (layoutBox fp d f' p' cb' m) := by
  induction f with
  | zero => intros; exact .left
  | succ f ih =>
    intro f'
    cases f' with
    | zero => intros; exact .right
    | succ f' =>
    rintro p p' cb cb' ⟨s, z, l, cs⟩ ⟨s', z', l', cs'⟩ hcb h
    simp only [AlignedDocs] at h
    obtain ⟨hs, hl, hc⟩ := h
    simp only [layoutBox]
    rw [hs.same .display trivial]
    split
    · refine Joint.ok ?_
      simp only [AlignedDocs]
      exact ⟨hs, trivial, hc⟩
    · have key : ∀ (b c : Box) (cs cs' : List Node), b.Aligned c → AlignedAll cs cs' → Joint AlignedDocs
          (match layoutBody fp d (fun b n => layoutBox fp d f (some s) (.box b) n) p cb s z b cs with
            | .error e => .error e
            | .ok (b, cs) => .ok (.mk s z (some b) cs))
          (match layoutBody fp d (fun b n => layoutBox fp d f' (some s') (.box b) n) p' cb' s' z' c cs' with
            | .error e => .error e
            | .ok (b, cs) => .ok (.mk s' z' (some b) cs)) := by
        intro b c cs cs' hb h
        have := body_joint fp d (lay := fun b n => layoutBox fp d f (some s) (.box b) n) (lay' := fun b n => layoutBox fp d f' (some s') (.box b) n)
          (fun b c n m hb hn => ih f' (some s) (some s') (.box b) (.box c) n m hb hn) p p' hcb hs hb h
        revert this
        generalize layoutBody fp d (fun b n => layoutBox fp d f (some s) (.box b) n) p cb s z b cs = r
        generalize layoutBody fp d (fun b n => layoutBox fp d f' (some s') (.box b) n) p' cb' s' z' c cs' = r'
        intro this
        cases r with
        | error e => exact .left
        | ok r =>
          cases r' with
          | error e => exact .right
          | ok r' =>
            have := this _ _ rfl rfl
            obtain ⟨b, cs⟩ := r
            obtain ⟨c, cs'⟩ := r'
            refine Joint.ok ?_
            simp only [AlignedDocs]
            exact ⟨hs, this.1, this.2⟩
      cases l with
      | none =>
        cases l' with
        | none => exact key _ _ _ _ (refl _) (all_h fp _ (all_v_left fp _ (all_v_right fp _ hc)))
        | some _ => exact hl.elim
      | some b =>
        cases l' with
        | none => exact hl.elim
        | some c => exact key _ _ _ _ hl hc

theorem reset_joint (fp : FP) (f : Nat) : ∀ n m : Node, AlignedDocs n m → AlignedDocs (n.resetFuel fp f) (m.resetFuel fp f) := by
  induction f with
  | zero => intro n m h; exact h
  | succ f ih =>
    rintro ⟨s, z, l, cs⟩ ⟨s', z', l', cs'⟩ h
    cases l with
    | none =>
      cases l' with
      | none => exact h
      | some _ => simp only [AlignedDocs] at h; exact h.2.1.elim
    | some b =>
      cases l' with
      | none => simp only [AlignedDocs] at h; exact h.2.1.elim
      | some c =>
        simp only [AlignedDocs] at h
        simp only [Node.resetFuel, AlignedDocs]
        refine ⟨h.1, refl _, ?_⟩
        have h4 := all_iff.1 (all_h fp (Box.fresh.absContent fp .h) (all_v_left fp (Box.fresh.absContent fp .v)
          (all_v_right fp (Box.fresh.absContent fp .v) h.2.2)))
        refine all_iff.2 ?_
        show List.Forall₂ AlignedDocs (List.map _ _) (List.map _ _)
        rw [List.forall₂_map_left_iff, List.forall₂_map_right_iff]
        exact h4.imp fun _ _ h => ih _ _ h

theorem docs_depth (n : Node) : ∀ m : Node, AlignedDocs n m → n.depth = m.depth := by
  induction n using Node.ind with
  | h s z l cs ih =>
    rintro ⟨s', z', l', cs'⟩ h
    simp only [AlignedDocs] at h
    have h4 := all_iff.1 h.2.2
    simp only [Node.depth]
    congr 1
    clear h
    induction h4 with
    | nil => rfl
    | @cons c c' cs cs' hc hcs ihc =>
      simp only [Node.depth.depths]
      rw [ih c (List.mem_cons_self ..) _ hc, ihc (fun c hc => ih c (List.mem_cons_of_mem _ hc))]

theorem finish_joint (fp : FP) (d : Display) (html5 html5' : Bool) {n m : Node} (h : AlignedDocs n m) :
    Joint AlignedDocs (finishRoot fp d html5 n) (finishRoot fp d html5' m) := by
  obtain ⟨s, z, l, cs⟩ := n
  obtain ⟨s', z', l', cs'⟩ := m
  simp only [AlignedDocs] at h
  obtain ⟨hs, hl, hc⟩ := h
  cases l with
  | none => exact .left
  | some b =>
    cases l' with
    | none => exact .right
    | some c =>
      have hb : b.Aligned c := hl
      unfold finishRoot
      dsimp only
      have hp := setContent_v fp (b.v.content.add fp (.int b.collapse.top)) (c.v.content.add fp (.int c.collapse.top)) hb hc
      revert hp
      generalize setContent fp .v (b.v.content.add fp (.int b.collapse.top)) b cs = r
      generalize setContent fp .v (c.v.content.add fp (.int c.collapse.top)) c cs' = r'
      intro hp
      refine Joint.ok ?_
      simp only [AlignedDocs]
      refine ⟨hs, ?_, hp.2⟩
      have keeps : ∀ (b : Box) (w : Option Num) (x : Bool), b.Aligned (if x = true then { b with contentHeight := w } else b) := by
        intro b w x
        split
        · exact height_write (refl b) b.contentHeight w
        · exact refl b
      exact sides hp.1 (keeps ..) (keeps ..)

theorem layout_joint (fp : FP) (d : Display) (html5 html5' : Bool) (p p' : Option CSS) {n m : Node} (h : AlignedDocs n m) :
    Joint AlignedDocs (layout fp d html5 p n) (layout fp d html5' p' m) := by
  unfold layout
  cases n.layout with
  | none => exact .left
  | some _ =>
    cases m.layout with
    | none => exact .right
    | some _ =>
      dsimp only
      unfold Node.reset
      rw [← docs_depth _ _ h]
      have := box_joint fp d n.depth n.depth p p' (.viewport d) (.viewport d) _ _ rfl (reset_joint fp n.depth n m h)
      revert this
      generalize layoutBox fp d n.depth p (.viewport d) (n.resetFuel fp n.depth) = r
      generalize layoutBox fp d n.depth p' (.viewport d) (m.resetFuel fp n.depth) = r'
      intro this
      have h3 := this.bind (f := finishRoot fp d html5) (g := finishRoot fp d html5') fun a b hab => finish_joint fp d html5 html5' hab
      cases r with
      | error e => exact .left
      | ok r =>
        cases r' with
        | error e => exact .right
        | ok r' => exact h3

end Aligned

end Colosseum
