import Verif.Lemmas.Layout
import Verif.Spec.Reads

/-!
# What the phases read of a style
-/

namespace Colosseum

/-- Values that the engine cannot tell apart on a display. -/
structure Like (fp : FP) (d : Display) (v w : Val) : Prop where
  isKw : ∀ s, v.isKw s = w.isKw s
  isNone : v.isNone = w.isNone
  px : ∀ z, v.px fp ⟨d, dummyFont fp, z⟩ = w.px fp ⟨d, dummyFont fp, z⟩
  size : ∀ z, calculateSize fp v ⟨d, dummyFont fp, z⟩ = calculateSize fp w ⟨d, dummyFont fp, z⟩

theorem Like.refl (fp : FP) (d : Display) (v : Val) : Like fp d v v := ⟨fun _ => rfl, rfl, fun _ => rfl, fun _ => rfl⟩
theorem Like.of_eq (fp : FP) (d : Display) {v w : Val} (h : v = w) : Like fp d v w := h ▸ Like.refl fp d v
theorem Like.symm {fp : FP} {d : Display} {v w : Val} (h : Like fp d v w) : Like fp d w v :=
  ⟨fun s => (h.isKw s).symm, h.isNone.symm, fun z => (h.px z).symm, fun z => (h.size z).symm⟩
theorem Like.trans {fp : FP} {d : Display} {u v w : Val} (h : Like fp d u v) (g : Like fp d v w) : Like fp d u w :=
  ⟨fun s => (h.isKw s).trans (g.isKw s), h.isNone.trans g.isNone, fun z => (h.px z).trans (g.px z), fun z => (h.size z).trans (g.size z)⟩

theorem Like.edge {fp : FP} {d : Display} {v w : Val} (h : Like fp d v w) (z : Option Num) :
    calculateEdge fp v ⟨d, dummyFont fp, z⟩ = calculateEdge fp w ⟨d, dummyFont fp, z⟩ := by
  unfold calculateEdge; rw [h.size]

/-- Styles that agree where sizes are concerned. -/
def CSS.SameSizing (fp : FP) (d : Display) (s s' : CSS) : Prop := ∀ x : LH, x.Sizing → Like fp d (s.get x) (s'.get x)

section
variable {fp : FP} {d : Display} {s s' : CSS} (h : s.SameSizing fp d s')
include h

theorem reads_display (k : String) : (s.get .display).isKw k = (s'.get .display).isKw k := (h .display trivial).isKw k
theorem reads_hidden : (s.get .display).isNone = (s'.get .display).isNone := (h .display trivial).isNone

theorem reads_isBlockLevel : isBlockLevel s = isBlockLevel s' := by unfold isBlockLevel; simp only [reads_display h]
theorem reads_isBlockContainer (z : Intrinsic) : isBlockContainer s z = isBlockContainer s' z := by unfold isBlockContainer; simp only [reads_display h]
theorem reads_isInlineBlock : isInlineBlock s = isInlineBlock s' := by unfold isInlineBlock; rw [reads_display h]
theorem reads_isInline : isInline s = isInline s' := by unfold isInline; rw [reads_display h]
theorem reads_isFloat : isFloat s = isFloat s' := by unfold isFloat; rw [(h .float trivial).isNone]
theorem reads_isAbsolute : isAbsolute s = isAbsolute s' := by unfold isAbsolute; simp only [(h .position trivial).isKw]
theorem reads_isRelative : isRelative s = isRelative s' := by unfold isRelative; rw [(h .position trivial).isKw]
theorem reads_inline (z : Intrinsic) (cs : List Node) : establishesInline s z cs = establishesInline s' z cs := by
  unfold establishesInline; rw [reads_isBlockContainer h]

theorem reads_copyEdges (x y : Option Num) (b : Box) :
    copyEdges fp s ⟨d, dummyFont fp, x⟩ ⟨d, dummyFont fp, y⟩ b = copyEdges fp s' ⟨d, dummyFont fp, x⟩ ⟨d, dummyFont fp, y⟩ b := by
  unfold copyEdges
  simp only [(h (.margin _) trivial).size, (h (.borderWidth _) trivial).edge, (h (.padding _) trivial).edge]

theorem reads_solveMargins (size w : Num) (b : Box) : solveMargins fp s size w b = solveMargins fp s' size w b := by
  unfold solveMargins
  simp only [(h .direction trivial).isKw]

theorem reads_clampedWidth (x : Option Num) : clampedWidth fp s ⟨d, dummyFont fp, x⟩ = clampedWidth fp s' ⟨d, dummyFont fp, x⟩ := by
  unfold clampedWidth
  simp only [(h .width trivial).px, (h .maxWidth trivial).isNone, (h .maxWidth trivial).px, (h .minWidth trivial).isKw, (h .minWidth trivial).px]

theorem reads_blockWidth (x : Option Num) (b : Box) (cs : List Node) :
    blockWidth fp s ⟨d, dummyFont fp, x⟩ b cs = blockWidth fp s' ⟨d, dummyFont fp, x⟩ b cs := by
  unfold blockWidth
  simp only [(h .width trivial).isKw, reads_clampedWidth h, reads_solveMargins h]

theorem reads_width (z : Intrinsic) (x : Option Num) (b : Box) (cs : List Node) :
    widthAndMargins fp s z ⟨d, dummyFont fp, x⟩ b cs = widthAndMargins fp s' z ⟨d, dummyFont fp, x⟩ b cs := by
  unfold widthAndMargins inlineReplacedWidth inlineReplacedContentWidth
  simp only [reads_isFloat h, reads_isAbsolute h, reads_isInline h, reads_isBlockLevel h, reads_isInlineBlock h, reads_blockWidth h,
    (h .width trivial).isKw, (h .width trivial).px, (h .height trivial).isKw]

omit h in
/-- Parents' styles that agree about the height. -/
def SameParent (fp : FP) (d : Display) : Option CSS → Option CSS → Prop
  | none, none => True
  | some s, some s' => Like fp d (s.get .height) (s'.get .height)
  | _, _ => False

omit h in
theorem SameParent.refl (p : Option CSS) : SameParent fp d p p := by
  cases p with
  | none => trivial
  | some s => exact Like.refl ..

omit h in
theorem SameParent.of_eq {p p' : Option CSS} (h : p.map (fun s => s.get .height) = p'.map fun s => s.get .height) : SameParent fp d p p' := by
  cases p with
  | none => cases p' with
    | none => trivial
    | some _ => cases h
  | some s => cases p' with
    | none => cases h
    | some s' => exact Like.of_eq fp d (Option.some.inj h)

theorem reads_explicitHeight {p p' : Option CSS} (hp : SameParent fp d p p') (x : Option Num) :
    explicitHeight fp s p ⟨d, dummyFont fp, x⟩ = explicitHeight fp s' p' ⟨d, dummyFont fp, x⟩ := by
  unfold explicitHeight
  simp only [(h .height trivial).px, (h .maxHeight trivial).isNone, (h .maxHeight trivial).px]
  cases p with
  | none =>
    cases p' with
    | none => rfl
    | some _ => cases hp
  | some q =>
    cases p' with
    | none => cases hp
    | some q' =>
      have hp : Like fp d (q.get .height) (q'.get .height) := hp
      simp only [hp.isKw, hp.px]

theorem reads_heightAndMargins {p p' : Option CSS} (hp : SameParent fp d p p') (z : Intrinsic) (x : Option Num) (b : Box) (cs : List Node) :
    heightAndMargins fp s z p ⟨d, dummyFont fp, x⟩ b cs = heightAndMargins fp s' z p' ⟨d, dummyFont fp, x⟩ b cs := by
  unfold heightAndMargins inlineReplacedHeight inlineReplacedContentHeight blockHeight blockContentHeight
  simp only [reads_isFloat h, reads_isAbsolute h, reads_isInline h, reads_isBlockLevel h, reads_isInlineBlock h, reads_explicitHeight h hp,
    (h .width trivial).isKw, (h .height trivial).isKw, (h .height trivial).px, (h .minHeight trivial).isKw, (h .minHeight trivial).px]

theorem reads_relativeHeight {p p' : Option CSS} (hp : SameParent fp d p p') (z : Intrinsic) (x : Option Num) (b : Box) (cs : List Node) :
    relativeHeight fp s z p ⟨d, dummyFont fp, x⟩ b cs = relativeHeight fp s' z p' ⟨d, dummyFont fp, x⟩ b cs := by
  unfold relativeHeight
  rw [reads_isRelative h, reads_heightAndMargins h hp]

theorem reads_children (lay : Box → Node → Res Node) (z : Intrinsic) (b : Box) (cs : List Node) :
    layoutChildren fp lay s z b cs = layoutChildren fp lay s' z b cs := by
  unfold layoutChildren
  rw [reads_inline h]

theorem reads_parent : SameParent fp d (some s) (some s') := h .height trivial

end

theorem CSS.SameSizing.refl (fp : FP) (d : Display) (s : CSS) : s.SameSizing fp d s := fun _ _ => Like.refl ..

/-- A node reads nothing of its parent's style but the height. -/
theorem layoutBox_parent (fp : FP) (d : Display) (f : Nat) {p p' : Option CSS} (hp : SameParent fp d p p') (cb : CB) (n : Node) :
    layoutBox fp d f p cb n = layoutBox fp d f p' cb n := by
  cases f with
  | zero => rfl
  | succ f =>
    obtain ⟨s, z, l, cs⟩ := n
    have : ∀ b cs, layoutBody fp d (fun b n => layoutBox fp d f (some s) (.box b) n) p cb s z b cs =
        layoutBody fp d (fun b n => layoutBox fp d f (some s) (.box b) n) p' cb s z b cs := by
      intro b cs
      unfold layoutBody
      simp only [reads_relativeHeight (.refl fp d s) hp, reads_heightAndMargins (.refl fp d s) hp]
    simp only [layoutBox, this]

end Colosseum
