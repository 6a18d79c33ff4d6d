import Verif.Lemmas.Layout
import Verif.Lemmas.Stops
import Verif.Lemmas.Widths
import Verif.Spec.Sideways

/-!
# Layouts of documents that differ in the horizontal direction only
-/

namespace Colosseum

namespace Sideways

/-- The same outcome up to `R`; where the horizontal offsets differ (`t = false`), one of the two may fail. -/
def Agree {α : Type} (t : Bool) (R : α → α → Prop) : Res α → Res α → Prop
  | .ok a, .ok b => R a b
  | .error e, .error e' => t = true → e = e'
  | _, _ => t = false

theorem Agree.bind {α β : Type} {t : Bool} {R : α → α → Prop} {S : β → β → Prop} {x y : Res α} {f g : α → Res β} (h : Agree t R x y)
    (hf : ∀ a b, R a b → Agree t S (f a) (g b)) : Agree t S (x >>= f) (y >>= g) := by
  cases x with
  | ok a =>
    cases y with
    | ok b => exact hf a b h
    | error e =>
      have h : t = false := h
      show Agree t S (f a) (.error e)
      cases f a with
      | ok _ => exact h
      | error _ => intro ht; rw [h] at ht; cases ht
  | error e =>
    cases y with
    | ok b =>
      have h : t = false := h
      show Agree t S (.error e) (g b)
      cases g b with
      | ok _ => exact h
      | error _ => intro ht; rw [h] at ht; cases ht
    | error e' => exact h

theorem Agree.mono {α : Type} {t : Bool} {R S : α → α → Prop} (hRS : ∀ a b, R a b → S a b) {x y : Res α} (h : Agree t R x y) : Agree t S x y := by
  cases x with
  | ok a =>
    cases y with
    | ok b => exact hRS _ _ h
    | error e => exact h
  | error e =>
    cases y with
    | ok b => exact h
    | error e' => exact h

theorem Agree.of_eq {α : Type} {t : Bool} {R : α → α → Prop} (hR : ∀ a, R a a) {x y : Res α} (h : x = y) : Agree t R x y := by
  subst h
  cases x with
  | ok a => exact hR a
  | error e => exact fun _ => rfl

theorem Agree.map {α β : Type} {t : Bool} {R : α → α → Prop} {S : β → β → Prop} {f g : α → β} {x y : Res α} (h : Agree t R x y)
    (hf : ∀ a b, R a b → S (f a) (g b)) : Agree t S (x.map f) (y.map g) := by
  cases x with
  | ok a =>
    cases y with
    | ok b => exact hf _ _ h
    | error e => exact h
  | error e =>
    cases y with
    | ok b => exact h
    | error e' => exact h

/-- The box at another place, with other left and right margins. -/
def slide (b : Box) (x : AxisPos) (ml mr : MVal) (kl kr : Int) (y : Option Bool) : Box :=
  { b with h := x, margin := ⟨b.margin.top, mr, b.margin.bottom, ml⟩, collapse := ⟨b.collapse.top, kr, b.collapse.bottom, kl⟩, dirty := y }

/-- See `Box.Slid`. -/
def Slide (b c : Box) : Prop := ∃ x ml mr kl kr y, c = slide b x ml mr kl kr y

theorem Slide.slid {b c : Box} (h : Slide b c) : b.Slid c := by
  obtain ⟨x, ml, mr, kl, kr, y, rfl⟩ := h
  exact ⟨rfl, rfl, rfl, rfl, rfl, rfl, rfl, rfl, rfl⟩

theorem Slide.of_h (b : Box) (x : AxisPos) : Slide b { b with h := x } := ⟨x, b.margin.left, b.margin.right, b.collapse.left, b.collapse.right, b.dirty, rfl⟩

theorem Slide.refl (b : Box) : Slide b b := Slide.of_h b b.h

/-- Boxes with different horizontal origins. -/
def Shift (b c : Box) : Prop := ∃ o, c = { b with h := ⟨o, b.h.content⟩ }

/-- Relations between boxes that are kept when the origins change. -/
structure Tame (X : Box → Box → Prop) : Prop where
  slide : ∀ {b c}, X b c → Slide b c
  h : ∀ {b c} (o o' : Num), X b c → X { b with h := ⟨o, b.h.content⟩ } { c with h := ⟨o', c.h.content⟩ }
  v : ∀ {b c} (p : AxisPos), X b c → X { b with v := p } { c with v := p }

theorem tame_slide : Tame Slide := by
  refine ⟨fun h => h, ?_, ?_⟩
  · rintro b c o o' ⟨x, ml, mr, kl, kr, y, rfl⟩
    exact ⟨⟨o', x.content⟩, ml, mr, kl, kr, y, rfl⟩
  · rintro b c p ⟨x, ml, mr, kl, kr, y, rfl⟩
    exact ⟨x, ml, mr, kl, kr, y, rfl⟩

theorem tame_shift : Tame Shift := by
  refine ⟨?_, ?_, ?_⟩
  · rintro b c ⟨o, rfl⟩; exact Slide.of_h ..
  · rintro b c o o' ⟨x, rfl⟩; exact ⟨o', rfl⟩
  · rintro b c p ⟨o, rfl⟩; exact ⟨o, rfl⟩

theorem Tame.v_eq {X : Box → Box → Prop} (h : Tame X) {b c : Box} (hb : X b c) : c.v = b.v := (h.slide hb).slid.v

/-- Styles that agree but for the direction, and for the horizontal offsets unless `t`. -/
structure Styles (t : Bool) (s s' : CSS) : Prop where
  same : ∀ p : LH, p.Upright → s.get p = s'.get p
  left : t = true → s.get .left = s'.get .left
  right : t = true → s.get .right = s'.get .right

mutual
/-- Documents of the same structure, with related styles and boxes. -/
def Twin (t : Bool) (X : Box → Box → Prop) : Node → Node → Prop
  | .mk s z l cs, .mk s' z' l' cs' => Styles t s s' ∧ z = z' ∧
    (match l, l' with
      | some b, some c => X b c
      | none, none => True
      | _, _ => False) ∧ Twins t X cs cs'
/-- The same of lists. -/
def Twins (t : Bool) (X : Box → Box → Prop) : List Node → List Node → Prop
  | [], [] => True
  | c :: cs, c' :: cs' => Twin t X c c' ∧ Twins t X cs cs'
  | _, _ => False
end

section
variable {t : Bool} {X Y : Box → Box → Prop}

theorem twins_iff {cs cs' : List Node} : Twins t X cs cs' ↔ List.Forall₂ (Twin t X) cs cs' := by
  induction cs generalizing cs' with
  | nil =>
    cases cs' with
    | nil => simp [Twins]
    | cons _ _ => simp [Twins]
  | cons c cs ih =>
    cases cs' with
    | nil => simp [Twins]
    | cons c' cs' => simp [Twins, ih]

theorem twin_mono (hXY : ∀ b c, X b c → Y b c) (n : Node) : ∀ m, Twin t X n m → Twin t Y n m := by
  induction n using Node.ind with
  | h s z l cs ih =>
    rintro ⟨s', z', l', cs'⟩ h
    simp only [Twin] at h ⊢
    refine ⟨h.1, h.2.1, ?_, ?_⟩
    · cases l <;> cases l' <;> first | exact h.2.2.1 | exact hXY _ _ h.2.2.1
    · have h4 := h.2.2.2
      rw [twins_iff] at h4 ⊢
      induction h4 with
      | nil => exact .nil
      | @cons c c' cs cs' hc hcs ihc =>
        refine .cons (ih c (List.mem_cons_self ..) _ hc) (ihc (fun c hc => ih c (List.mem_cons_of_mem _ hc)) ⟨h.1, h.2.1, h.2.2.1, twins_iff.2 hcs⟩)

theorem twin_left (hX : Tame X) (fp : FP) (n : Node) : ∀ (m : Node) (v : Num), Twin t X n m → Twin t X (n.setOrigin fp .h v) m := by
  induction n using Node.ind with
  | h s z l cs ih =>
    rintro ⟨s', z', l', cs'⟩ v h
    cases l with
    | none => exact h
    | some b =>
      cases l' with
      | none => simp only [Twin] at h; exact h.2.2.1.elim
      | some c =>
        simp only [Node.setOrigin]
        split
        · exact h
        · simp only [Twin] at h ⊢
          refine ⟨h.1, h.2.1, hX.h v c.h.origin h.2.2.1, ?_⟩
          have h4 := h.2.2.2
          rw [twins_iff] at h4 ⊢
          rw [setOrigins_map]
          generalize Box.absContent fp (b.setPos .h { b.pos .h with origin := v }) .h = w
          clear h
          induction h4 with
          | nil => exact .nil
          | @cons c c' cs cs' hc hcs ihc =>
            exact .cons (ih c (List.mem_cons_self ..) _ _ hc) (ihc (fun c hc => ih c (List.mem_cons_of_mem _ hc)))

theorem twin_right (hX : Tame X) (fp : FP) (m : Node) : ∀ (n : Node) (v : Num), Twin t X n m → Twin t X n (m.setOrigin fp .h v) := by
  induction m using Node.ind with
  | h s' z' l' cs' ih =>
    rintro ⟨s, z, l, cs⟩ v h
    cases l' with
    | none => exact h
    | some c =>
      cases l with
      | none => simp only [Twin] at h; exact h.2.2.1.elim
      | some b =>
        simp only [Node.setOrigin]
        split
        · exact h
        · simp only [Twin] at h ⊢
          refine ⟨h.1, h.2.1, hX.h b.h.origin v h.2.2.1, ?_⟩
          have h4 := h.2.2.2
          rw [twins_iff] at h4 ⊢
          rw [setOrigins_map]
          generalize Box.absContent fp (c.setPos .h { c.pos .h with origin := v }) .h = w
          clear h
          induction h4 with
          | nil => exact .nil
          | @cons c c' cs cs' hc hcs ihc =>
            exact .cons (ih c' (List.mem_cons_self ..) _ _ hc) (ihc (fun c hc => ih c (List.mem_cons_of_mem _ hc)))

theorem twin_v (hX : Tame X) (fp : FP) (n : Node) : ∀ (m : Node) (v : Num), Twin t X n m → Twin t X (n.setOrigin fp .v v) (m.setOrigin fp .v v) := by
  induction n using Node.ind with
  | h s z l cs ih =>
    rintro ⟨s', z', l', cs'⟩ v h
    cases l with
    | none =>
      cases l' with
      | none => exact h
      | some c => simp only [Twin] at h; exact h.2.2.1.elim
    | some b =>
      cases l' with
      | none => simp only [Twin] at h; exact h.2.2.1.elim
      | some c =>
        have hv : c.v = b.v := by simp only [Twin] at h; exact hX.v_eq h.2.2.1
        have ho : (c.pos .v).origin = (b.pos .v).origin := congrArg AxisPos.origin hv
        simp only [Node.setOrigin, ho]
        split
        · exact h
        · simp only [Twin] at h ⊢
          have e : c.setPos .v { c.pos .v with origin := v } = { c with v := { b.v with origin := v } } := by
            simp only [Box.setPos, Box.pos, hv]
          rw [e]
          refine ⟨h.1, h.2.1, hX.v _ h.2.2.1, ?_⟩
          have h4 := h.2.2.2
          rw [twins_iff] at h4 ⊢
          rw [setOrigins_map, setOrigins_map]
          have ew : Box.absContent fp { c with v := { b.v with origin := v } } .v = Box.absContent fp (b.setPos .v { b.pos .v with origin := v }) .v := rfl
          rw [ew]
          generalize Box.absContent fp (b.setPos .v { b.pos .v with origin := v }) .v = w
          clear h
          induction h4 with
          | nil => exact .nil
          | @cons c c' cs cs' hc hcs ihc =>
            exact .cons (ih c (List.mem_cons_self ..) _ _ hc) (ihc (fun c hc => ih c (List.mem_cons_of_mem _ hc)))

theorem twins_left (hX : Tame X) (fp : FP) (v : Num) {cs cs' : List Node} (h : Twins t X cs cs') : Twins t X (setOrigins fp .h v cs) cs' := by
  rw [twins_iff] at h ⊢
  rw [setOrigins_map]
  induction h with
  | nil => exact .nil
  | cons hc _ ih => exact .cons (twin_left hX fp _ _ _ hc) ih

theorem twins_right (hX : Tame X) (fp : FP) (v : Num) {cs cs' : List Node} (h : Twins t X cs cs') : Twins t X cs (setOrigins fp .h v cs') := by
  rw [twins_iff] at h ⊢
  rw [setOrigins_map]
  induction h with
  | nil => exact .nil
  | cons hc _ ih => exact .cons (twin_right hX fp _ _ _ hc) ih

theorem twins_v (hX : Tame X) (fp : FP) (v : Num) {cs cs' : List Node} (h : Twins t X cs cs') :
    Twins t X (setOrigins fp .v v cs) (setOrigins fp .v v cs') := by
  rw [twins_iff] at h ⊢
  rw [setOrigins_map, setOrigins_map]
  induction h with
  | nil => exact .nil
  | cons hc _ ih => exact .cons (twin_v hX fp _ _ _ hc) ih

/-- Results of a phase: boxes that are slid, children that are related. -/
def Pair (t : Bool) (X : Box → Box → Prop) (r r' : Box × List Node) : Prop := Slide r.1 r'.1 ∧ Twins t X r.2 r'.2

theorem setContent_h (hX : Tame X) (fp : FP) (v v' : Num) {b c : Box} {cs cs' : List Node} (hb : Slide b c) (h : Twins t X cs cs') :
    Pair t X (setContent fp .h v b cs) (setContent fp .h v' c cs') := by
  have key : ∀ (v v' : Num) (b c : Box), Slide b c → Slide { b with h := ⟨b.h.origin, v⟩ } { c with h := ⟨c.h.origin, v'⟩ } := by
    rintro v v' b _ ⟨x, ml, mr, kl, kr, y, rfl⟩
    exact ⟨_, ml, mr, kl, kr, y, rfl⟩
  unfold setContent
  by_cases h1 : v.pyEq (b.pos .h).content = true <;> by_cases h2 : v'.pyEq (c.pos .h).content = true
  · rw [if_pos h1, if_pos h2]; exact ⟨hb, h⟩
  · rw [if_pos h1, if_neg h2]; exact ⟨key b.h.content v' b c hb, twins_right hX fp _ h⟩
  · rw [if_neg h1, if_pos h2]; exact ⟨key v c.h.content b c hb, twins_left hX fp _ h⟩
  · rw [if_neg h1, if_neg h2]; exact ⟨key v v' b c hb, twins_left hX fp _ (twins_right hX fp _ h)⟩

theorem setContent_v (hX : Tame X) (fp : FP) (v : Num) {b c : Box} {cs cs' : List Node} (hb : Slide b c) (h : Twins t X cs cs') :
    Pair t X (setContent fp .v v b cs) (setContent fp .v v c cs') := by
  obtain ⟨x, ml, mr, kl, kr, y, rfl⟩ := hb
  unfold setContent
  by_cases h1 : v.pyEq (b.pos .v).content = true
  · rw [if_pos h1, if_pos (show v.pyEq ((slide b x ml mr kl kr y).pos .v).content = true from h1)]
    exact ⟨⟨x, ml, mr, kl, kr, y, rfl⟩, h⟩
  · rw [if_neg h1, if_neg (show ¬ v.pyEq ((slide b x ml mr kl kr y).pos .v).content = true from h1)]
    exact ⟨⟨x, ml, mr, kl, kr, y, rfl⟩, twins_v hX fp _ h⟩

end

/-! ## What the phases read of a style -/

section
variable {t : Bool} {s s' : CSS} (h : Styles t s s')
include h

theorem reads_isBlockLevel : isBlockLevel s = isBlockLevel s' := by unfold isBlockLevel; rw [h.same .display trivial]
theorem reads_isBlockContainer (z : Intrinsic) : isBlockContainer s z = isBlockContainer s' z := by unfold isBlockContainer; rw [h.same .display trivial]
theorem reads_isInlineBlock : isInlineBlock s = isInlineBlock s' := by unfold isInlineBlock; rw [h.same .display trivial]
theorem reads_isInline : isInline s = isInline s' := by unfold isInline; rw [h.same .display trivial]
theorem reads_isFloat : isFloat s = isFloat s' := by unfold isFloat; rw [h.same .float trivial]
theorem reads_isAbsolute : isAbsolute s = isAbsolute s' := by unfold isAbsolute; rw [h.same .position trivial]
theorem reads_isRelative : isRelative s = isRelative s' := by unfold isRelative; rw [h.same .position trivial]

theorem reads_copyEdges (fp : FP) (hz vt : PxCtx) (b : Box) : copyEdges fp s hz vt b = copyEdges fp s' hz vt b := by
  unfold copyEdges
  simp only [h.same (.margin _) trivial, h.same (.borderWidth _) trivial, h.same (.padding _) trivial]

theorem reads_clampedWidth (fp : FP) (c : PxCtx) : clampedWidth fp s c = clampedWidth fp s' c := by
  unfold clampedWidth
  simp only [h.same .width trivial, h.same .maxWidth trivial, h.same .minWidth trivial]

theorem reads_replacedWidth (fp : FP) (z : Intrinsic) (c : PxCtx) (b : Box) :
    inlineReplacedContentWidth fp s z c b = inlineReplacedContentWidth fp s' z c b := by
  unfold inlineReplacedContentWidth
  simp only [h.same .width trivial, h.same .height trivial]

theorem reads_replacedHeight (fp : FP) (z : Intrinsic) (c : PxCtx) (b : Box) :
    inlineReplacedContentHeight fp s z c b = inlineReplacedContentHeight fp s' z c b := by
  unfold inlineReplacedContentHeight
  simp only [h.same .width trivial, h.same .height trivial]

omit h in
/-- Parents whose styles agree about the height. -/
def Parents : Option CSS → Option CSS → Prop
  | none, none => True
  | some s, some s' => s.get .height = s'.get .height
  | _, _ => False

theorem reads_explicitHeight (fp : FP) {p p' : Option CSS} (hp : Parents p p') (c : PxCtx) : explicitHeight fp s p c = explicitHeight fp s' p' c := by
  unfold explicitHeight
  simp only [h.same .height trivial, h.same .maxHeight trivial]
  cases p with
  | none =>
    cases p' with
    | none => rfl
    | some _ => cases hp
  | some q =>
    cases p' with
    | none => cases hp
    | some q' =>
      have hp : q.get .height = q'.get .height := hp
      simp only [hp]

end

/-! ## The phases -/

theorem setCollapse_at (b : Box) (x : AxisPos) (t : Side) (v : MVal) : ({ b with h := x } : Box).setCollapse t v = { b.setCollapse t v with h := x } := by
  unfold Box.setCollapse
  split
  · show (if b.collapse.get t < _ then _ else _) = _
    split <;> rfl
  · rfl

theorem setMargin_at (b : Box) (x : AxisPos) (t : Side) (v : MVal) : ({ b with h := x } : Box).setMargin t v = { b.setMargin t v with h := x } := by
  unfold Box.setMargin
  show (if v.pyEq (b.margin.get t) then _ else _) = _
  split
  · rfl
  · exact setCollapse_at { b with margin := b.margin.set t v } x t v

theorem autoMargin_at (b : Box) (x : AxisPos) (t : Side) : autoMarginToZero { b with h := x } t = { autoMarginToZero b t with h := x } := by
  unfold autoMarginToZero
  show (match b.margin.get t with | .auto => _ | .num _ => _) = _
  cases b.margin.get t with
  | auto => exact setMargin_at ..
  | num _ => rfl

theorem copyEdges_at (fp : FP) (s : CSS) (hz vt : PxCtx) (b : Box) (x : AxisPos) :
    copyEdges fp s hz vt { b with h := x } = (copyEdges fp s hz vt b).map fun r => { r with h := x } := by
  unfold copyEdges
  simp only [setMargin_at]
  cases calculateSize fp (s.get (.margin .top)) vt with
  | error e => rfl
  | ok a1 =>
  cases calculateSize fp (s.get (.margin .right)) hz with
  | error e => rfl
  | ok a2 =>
  cases calculateSize fp (s.get (.margin .bottom)) vt with
  | error e => rfl
  | ok a3 =>
  cases calculateSize fp (s.get (.margin .left)) hz with
  | error e => rfl
  | ok a4 =>
  cases calculateEdge fp (s.get (.borderWidth .top)) hz with
  | error e => rfl
  | ok a5 =>
  cases calculateEdge fp (s.get (.borderWidth .right)) vt with
  | error e => rfl
  | ok a6 =>
  cases calculateEdge fp (s.get (.borderWidth .bottom)) hz with
  | error e => rfl
  | ok a7 =>
  cases calculateEdge fp (s.get (.borderWidth .left)) vt with
  | error e => rfl
  | ok a8 =>
  cases calculateEdge fp (s.get (.padding .top)) hz with
  | error e => rfl
  | ok a9 =>
  cases calculateEdge fp (s.get (.padding .right)) vt with
  | error e => rfl
  | ok a10 =>
  cases calculateEdge fp (s.get (.padding .bottom)) hz with
  | error e => rfl
  | ok a11 =>
  cases calculateEdge fp (s.get (.padding .left)) vt with
  | error e => rfl
  | ok a12 => exact congrArg Except.ok (by simp only [setMargin_at])

/-- Boxes that differ in the horizontal position only. -/
def Placed (b c : Box) : Prop := ∃ x, c = { b with h := x }

section
variable {t : Bool} {X : Box → Box → Prop}

theorem slide_write {b c : Box} (h : Slide b c) (w : Option Num) : Slide { b with contentWidth := w } { c with contentWidth := w } := by
  obtain ⟨x, ml, mr, kl, kr, y, rfl⟩ := h
  exact ⟨x, ml, mr, kl, kr, y, rfl⟩

theorem slide_height {b c : Box} (h : Slide b c) (w : Option Num) : Slide { b with contentHeight := w } { c with contentHeight := w } := by
  obtain ⟨x, ml, mr, kl, kr, y, rfl⟩ := h
  exact ⟨x, ml, mr, kl, kr, y, rfl⟩

/-- The vertical part of a box does not notice what is written to the left and right margins. -/
theorem setMargin_slide (b : Box) {u : Side} (hu : u = .left ∨ u = .right) (v : MVal) : Slide b (b.setMargin u v) := by
  unfold Box.setMargin
  split
  · exact Slide.refl b
  · unfold Box.setCollapse
    split
    · split
      · rcases hu with rfl | rfl <;> exact ⟨_, _, _, _, _, _, rfl⟩
      · rcases hu with rfl | rfl <;> exact ⟨_, _, _, _, _, _, rfl⟩
    · rcases hu with rfl | rfl <;> exact ⟨_, _, _, _, _, _, rfl⟩

theorem Slide.trans {a b c : Box} (h : Slide a b) (g : Slide b c) : Slide a c := by
  obtain ⟨x, ml, mr, kl, kr, y, rfl⟩ := h
  obtain ⟨x, ml, mr, kl, kr, y, rfl⟩ := g
  exact ⟨x, ml, mr, kl, kr, y, rfl⟩

theorem Slide.symm {a b : Box} (h : Slide a b) : Slide b a := by
  obtain ⟨x, ml, mr, kl, kr, y, rfl⟩ := h
  exact ⟨a.h, a.margin.left, a.margin.right, a.collapse.left, a.collapse.right, a.dirty, rfl⟩

theorem autoMargin_slide (b : Box) {u : Side} (hu : u = .left ∨ u = .right) : Slide b (autoMarginToZero b u) := by
  unfold autoMarginToZero
  split
  · exact setMargin_slide b hu _
  · exact Slide.refl b

theorem autoMargins_slide (b : Box) : Slide b (autoMarginToZero (autoMarginToZero b .left) .right) :=
  (autoMargin_slide b (.inl rfl)).trans (autoMargin_slide _ (.inr rfl))

theorem solveMargins_slide (fp : FP) (s : CSS) (size w : Num) (b : Box) : Slide b (solveMargins fp s size w b) := by
  unfold solveMargins
  dsimp only
  have key : ∀ q : Prop, [Decidable q] → Slide b (if q then autoMarginToZero (autoMarginToZero b .left) .right else b) := by
    intro q _
    split
    · exact autoMargins_slide b
    · exact Slide.refl b
  have key := key (size.pyLt (addMargin fp (addMargin fp (addAll fp b.border.left [b.padding.left, w, b.padding.right, b.border.right]) b.margin.left)
    b.margin.right) = true)
  revert key
  generalize (if size.pyLt (addMargin fp (addMargin fp (addAll fp b.border.left [b.padding.left, w, b.padding.right, b.border.right]) b.margin.left)
    b.margin.right) = true then autoMarginToZero (autoMarginToZero b .left) .right else b) = c
  intro key
  refine key.trans ?_
  split
  · split
    · exact setMargin_slide _ (.inr rfl) _
    · exact setMargin_slide _ (.inl rfl) _
  · exact setMargin_slide _ (.inl rfl) _
  · exact setMargin_slide _ (.inr rfl) _
  · exact (setMargin_slide _ (.inl rfl) _).trans (setMargin_slide _ (.inr rfl) _)

theorem placeLeft_agree (hX : Tame X) (fp : FP) {b c : Box} {cs cs' : List Node} (hb : Slide b c) {x y : Num} (hx : b.margin.left = .num x)
    (hy : c.margin.left = .num y) (h : Twins t X cs cs') : Agree t (Pair t X) (placeLeft fp b cs) (placeLeft fp c cs') := by
  unfold placeLeft
  rw [hx, hy]
  exact setContent_h hX fp _ _ hb h

theorem inlineReplaced_agree (hX : Tame X) (fp : FP) {s s' : CSS} (hs : Styles t s s') (z : Intrinsic) (k : PxCtx) {b c : Box} {cs cs' : List Node}
    (hb : Placed b c) (h : Twins t X cs cs') : Agree t (Pair t X) (inlineReplacedWidth fp s z k b cs) (inlineReplacedWidth fp s' z k c cs') := by
  obtain ⟨x, rfl⟩ := hb
  unfold inlineReplacedWidth
  simp only [autoMargin_at, reads_replacedWidth hs]
  generalize autoMarginToZero (autoMarginToZero b .left) .right = b
  show Agree t (Pair t X) (inlineReplacedContentWidth fp s' z k b >>= _) (inlineReplacedContentWidth fp s' z k b >>= _)
  cases inlineReplacedContentWidth fp s' z k b with
  | error e => exact fun _ => rfl
  | ok w =>
    show Agree t (Pair t X) (placeLeft fp { b with contentWidth := some w } cs) (placeLeft fp { b with contentWidth := some w, h := x } cs')
    cases hm : b.margin.left with
    | auto =>
      unfold placeLeft
      simp only [hm]
      exact fun _ => rfl
    | num y => exact placeLeft_agree hX fp (Slide.of_h ..) hm hm h

theorem block_agree (hX : Tame X) (fp : FP) {s s' : CSS} (hs : Styles t s s') (k : PxCtx) {b c : Box} {cs cs' : List Node}
    (hb : Placed b c) (h : Twins t X cs cs') : Agree t (Pair t X) (blockWidth fp s k b cs) (blockWidth fp s' k c cs') := by
  obtain ⟨x, rfl⟩ := hb
  unfold blockWidth
  rw [hs.same .width trivial]
  split
  · simp only [autoMargin_at]
    generalize autoMarginToZero (autoMarginToZero b .left) .right = b
    cases need k.size with
    | error e => exact fun _ => rfl
    | ok size =>
      cases hl : b.margin.left with
      | auto => exact fun _ => rfl
      | num ml =>
        cases hr : b.margin.right with
        | auto => exact fun _ => rfl
        | num mr => exact placeLeft_agree hX fp (b := { b with contentWidth := some (remainingWidth fp size ml mr b) }) (Slide.of_h ..) hl hl h
  · rw [reads_clampedWidth hs]
    cases clampedWidth fp s' k with
    | error e => exact fun _ => rfl
    | ok w =>
      cases need k.size with
      | error e => exact fun _ => rfl
      | ok size =>
        obtain ⟨ml, mr, h1, -⟩ := solveMargins_fills fp s size w b
        obtain ⟨ml', mr', h1', -⟩ := solveMargins_fills fp s' size w { b with h := x }
        have e : Slide (solveMargins fp s size w b) (solveMargins fp s' size w { b with h := x }) :=
          (solveMargins_slide ..).symm.trans ((Slide.of_h b x).trans (solveMargins_slide ..))
        exact placeLeft_agree hX fp (slide_write e (some w)) h1 h1' h

theorem width_agree (hX : Tame X) (fp : FP) {s s' : CSS} (hs : Styles t s s') (z : Intrinsic) (k : PxCtx) {b c : Box} {cs cs' : List Node}
    (hb : Placed b c) (h : Twins t X cs cs') : Agree t (Pair t X) (widthAndMargins fp s z k b cs) (widthAndMargins fp s' z k c cs') := by
  unfold widthAndMargins
  rw [reads_isFloat hs, reads_isAbsolute hs, reads_isInline hs, reads_isBlockLevel hs, reads_isInlineBlock hs]
  split
  · exact fun _ => rfl
  split
  · exact fun _ => rfl
  split
  · split
    · exact inlineReplaced_agree hX fp hs z k hb h
    · obtain ⟨x, rfl⟩ := hb
      refine ⟨?_, h⟩
      unfold inlineWidth
      simp only [autoMargin_at]
      exact Slide.of_h { autoMarginToZero (autoMarginToZero b .left) .right with contentWidth := z.width } x
  split
  · split
    · exact fun _ => rfl
    · exact block_agree hX fp hs k hb h
  split
  · exact fun _ => rfl
  · exact fun _ => rfl

/-! Heights -/

theorem setCollapse_slide {b c : Box} (h : Slide b c) {u : Side} (hu : u = .top ∨ u = .bottom) (v : MVal) :
    Slide (b.setCollapse u v) (c.setCollapse u v) := by
  obtain ⟨x, ml, mr, kl, kr, y, rfl⟩ := h
  unfold Box.setCollapse
  split
  · rename_i i
    rcases hu with rfl | rfl
    · show Slide (if b.collapse.top < i then _ else _) (if b.collapse.top < i then _ else _)
      split <;> exact ⟨x, ml, mr, kl, kr, y, rfl⟩
    · show Slide (if b.collapse.bottom < i then _ else _) (if b.collapse.bottom < i then _ else _)
      split <;> exact ⟨x, ml, mr, kl, kr, y, rfl⟩
  · exact ⟨x, ml, mr, kl, kr, y, rfl⟩

theorem setMargin_upright {b c : Box} (h : Slide b c) {u : Side} (hu : u = .top ∨ u = .bottom) (v : MVal) :
    Slide (b.setMargin u v) (c.setMargin u v) := by
  have hm : c.margin.get u = b.margin.get u := by
    rcases hu with rfl | rfl
    · exact h.slid.top
    · exact h.slid.bottom
  unfold Box.setMargin
  rw [hm]
  split
  · exact h
  · refine setCollapse_slide ?_ hu v
    obtain ⟨x, ml, mr, kl, kr, y, rfl⟩ := h
    rcases hu with rfl | rfl <;> exact ⟨x, ml, mr, kl, kr, y, rfl⟩

theorem autoMargin_upright {b c : Box} (h : Slide b c) {u : Side} (hu : u = .top ∨ u = .bottom) :
    Slide (autoMarginToZero b u) (autoMarginToZero c u) := by
  have hm : c.margin.get u = b.margin.get u := by
    rcases hu with rfl | rfl
    · exact h.slid.top
    · exact h.slid.bottom
  unfold autoMarginToZero
  rw [hm]
  split
  · exact setMargin_upright h hu _
  · exact h

theorem autoMargins_upright {b c : Box} (h : Slide b c) :
    Slide (autoMarginToZero (autoMarginToZero b .top) .bottom) (autoMarginToZero (autoMarginToZero c .top) .bottom) :=
  autoMargin_upright (autoMargin_upright h (.inl rfl)) (.inr rfl)

theorem placeTop_agree (hX : Tame X) (fp : FP) {b c : Box} {cs cs' : List Node} (hb : Slide b c) (h : Twins t X cs cs') :
    Agree t (Pair t X) (placeTopInline fp b cs) (placeTopInline fp c cs') := by
  have e := hb.slid
  unfold placeTopInline
  rw [e.top, e.v, e.border, e.padding]
  cases b.margin.top with
  | auto => exact fun _ => rfl
  | num mt => exact setContent_v hX fp _ hb h

theorem twins_last {cs cs' : List Node} (h : Twins t X cs cs') :
    (cs.getLast? = none ∧ cs'.getLast? = none) ∨ ∃ n m, cs.getLast? = some n ∧ cs'.getLast? = some m ∧ Twin t X n m := by
  rw [twins_iff] at h
  induction h with
  | nil => exact .inl ⟨rfl, rfl⟩
  | @cons c c' cs cs' hc hcs ih =>
    right
    rcases ih with ⟨h1, h2⟩ | ⟨n, m, h1, h2, h3⟩
    · rw [List.getLast?_eq_none_iff] at h1 h2
      subst h1; subst h2
      exact ⟨c, c', rfl, rfl, hc⟩
    · refine ⟨n, m, ?_, ?_, h3⟩
      · rw [List.getLast?_cons, h1]; rfl
      · rw [List.getLast?_cons, h2]; rfl

theorem contentHeight_agree (hX : Tame X) (fp : FP) {s s' : CSS} (hs : Styles t s s') {p p' : Option CSS} (hp : Parents p p') (k : PxCtx) {b c : Box}
    {cs cs' : List Node} (hb : Slide b c) (h : Twins t X cs cs') :
    Agree t (fun r r' => r.1 = r'.1 ∧ Slide r.2 r'.2) (blockContentHeight fp s p k b cs) (blockContentHeight fp s' p' k c cs') := by
  unfold blockContentHeight
  rw [hs.same .height trivial, hs.same .minHeight trivial, reads_explicitHeight hs fp hp]
  split
  · rcases twins_last h with ⟨h1, h2⟩ | ⟨n, m, h1, h2, h3⟩
    · rw [h1, h2]
      dsimp only
      split
      · exact ⟨rfl, hb⟩
      · cases (s'.get .minHeight).px fp k with
        | error e => exact fun _ => rfl
        | ok a => exact ⟨rfl, hb⟩
    · rw [h1, h2]
      obtain ⟨s1, z1, l1, cs1⟩ := n
      obtain ⟨s2, z2, l2, cs2⟩ := m
      simp only [Twin] at h3
      cases l1 with
      | none =>
        cases l2 with
        | none => exact fun _ => rfl
        | some _ => exact h3.2.2.1.elim
      | some lb =>
        cases l2 with
        | none => exact h3.2.2.1.elim
        | some lc =>
          have e := (hX.slide h3.2.2.1).slid
          have e1 : lc.borderBoxBottom fp = lb.borderBoxBottom fp := by
            unfold Box.borderBoxBottom; rw [e.height, e.v, e.padding, e.border]
          simp only [Node.layout, e1, e.collapseBottom]
          cases need (lb.borderBoxBottom fp) with
          | error e => exact fun _ => rfl
          | ok a => exact ⟨rfl, setCollapse_slide hb (.inr rfl) (.num (.int lb.collapse.bottom))⟩
  · cases explicitHeight fp s' p' k with
    | error e => exact fun _ => rfl
    | ok a => exact ⟨rfl, hb⟩

theorem blockHeight_agree (hX : Tame X) (fp : FP) {s s' : CSS} (hs : Styles t s s') {p p' : Option CSS} (hp : Parents p p') (k : PxCtx) {b c : Box}
    {cs cs' : List Node} (hb : Slide b c) (h : Twins t X cs cs') :
    Agree t (Pair t X) (blockHeight fp s p k b cs) (blockHeight fp s' p' k c cs') := by
  unfold blockHeight
  refine (contentHeight_agree hX fp hs hp k (autoMargins_upright hb) h).bind ?_
  rintro ⟨a, b⟩ ⟨a', c⟩ ⟨ha, hb⟩
  have ha : a = a' := ha
  subst ha
  have hb : Slide b c := hb
  have e := hb.slid
  dsimp only
  have e1 : c.v.content.add fp (c.border.top.add fp c.padding.top) = b.v.content.add fp (b.border.top.add fp b.padding.top) := by
    rw [e.v, e.border, e.padding]
  rw [e1]
  exact setContent_v hX fp _ (slide_height hb _) h

theorem replacedHeight_agree (hX : Tame X) (fp : FP) {s s' : CSS} (hs : Styles t s s') (z : Intrinsic) (k : PxCtx) {b c : Box} {cs cs' : List Node}
    (hb : Slide b c) (h : Twins t X cs cs') : Agree t (Pair t X) (inlineReplacedHeight fp s z k b cs) (inlineReplacedHeight fp s' z k c cs') := by
  unfold inlineReplacedHeight
  have hb' := autoMargins_upright hb
  revert hb'
  generalize autoMarginToZero (autoMarginToZero b .top) .bottom = b1
  generalize autoMarginToZero (autoMarginToZero c .top) .bottom = c1
  intro hb'
  have e : inlineReplacedContentHeight fp s z k b1 = inlineReplacedContentHeight fp s' z k c1 := by
    rw [reads_replacedHeight hs]
    unfold inlineReplacedContentHeight
    rw [hb'.slid.width]
  dsimp only
  rw [e]
  cases inlineReplacedContentHeight fp s' z k c1 with
  | error e => exact fun _ => rfl
  | ok a => exact placeTop_agree hX fp (slide_height hb' _) h

theorem height_agree (hX : Tame X) (fp : FP) {s s' : CSS} (hs : Styles t s s') (z : Intrinsic) {p p' : Option CSS} (hp : Parents p p') (k : PxCtx)
    {b c : Box} {cs cs' : List Node} (hb : Slide b c) (h : Twins t X cs cs') :
    Agree t (Pair t X) (heightAndMargins fp s z p k b cs) (heightAndMargins fp s' z p' k c cs') := by
  unfold heightAndMargins
  rw [reads_isFloat hs, reads_isAbsolute hs, reads_isInline hs, reads_isBlockLevel hs, reads_isInlineBlock hs]
  split
  · exact fun _ => rfl
  split
  · exact fun _ => rfl
  split
  · split
    · exact replacedHeight_agree hX fp hs z k hb h
    · exact placeTop_agree hX fp (slide_height hb _) h
  split
  · split
    · exact fun _ => rfl
    · exact blockHeight_agree hX fp hs hp k hb h
  split
  · exact fun _ => rfl
  · exact fun _ => rfl

theorem relativeHeight_agree (hX : Tame X) (fp : FP) {s s' : CSS} (hs : Styles t s s') (z : Intrinsic) {p p' : Option CSS} (hp : Parents p p')
    (k : PxCtx) {b c : Box} {cs cs' : List Node} (hb : Slide b c) (h : Twins t X cs cs') :
    Agree t (Pair t X) (relativeHeight fp s z p k b cs) (relativeHeight fp s' z p' k c cs') := by
  unfold relativeHeight
  rw [reads_isRelative hs]
  split
  · exact height_agree hX fp hs z hp k hb h
  · exact ⟨hb, h⟩

/-- Containing blocks that are slid. -/
def Holders : CB → CB → Prop
  | .viewport d, .viewport d' => d = d'
  | .box b, .box c => Slide b c
  | _, _ => False

theorem Holders.width {cb cb' : CB} (h : Holders cb cb') : cb'.width = cb.width := by
  cases cb <;> cases cb'
  · have h : _ = _ := h; rw [h]
  · exact h.elim
  · exact h.elim
  · exact Slide.slid h |>.width

theorem Holders.height {cb cb' : CB} (h : Holders cb cb') : cb'.height = cb.height := by
  cases cb <;> cases cb'
  · have h : _ = _ := h; rw [h]
  · exact h.elim
  · exact h.elim
  · exact Slide.slid h |>.height

theorem offset_v (fp : FP) {cb cb' : CB} (h : Holders cb cb') (a b : Val) (k : PxCtx) :
    relativeOffset fp cb' .v a b k = relativeOffset fp cb .v a b k := by
  unfold relativeOffset
  have e1 : cb'.contentEnd fp .v = cb.contentEnd fp .v := by
    cases cb <;> cases cb'
    · rfl
    · exact h.elim
    · exact h.elim
    · have e := Slide.slid h
      show need (Box.contentBottom ..) = need (Box.contentBottom ..)
      unfold Box.contentBottom
      rw [e.height, e.v]
  have e2 : cb'.contentStart .v = cb.contentStart .v := by
    cases cb <;> cases cb'
    · rfl
    · exact h.elim
    · exact h.elim
    · have e := Slide.slid h
      exact congrArg (fun p : AxisPos => Except.ok p.content) e.v
  rw [e1, e2]

theorem offset_h (fp : FP) {cb cb' : CB} (h : Holders cb cb') (a b : Val) (k : PxCtx) :
    Agree true (fun _ _ => True) (relativeOffset fp cb .h a b k) (relativeOffset fp cb' .h a b k) := by
  unfold relativeOffset
  split
  · trivial
  split
  · split
    · refine Agree.map (R := fun _ _ => True) ?_ (fun _ _ _ => trivial)
      cases cb <;> cases cb'
      · exact fun _ => rfl
      · exact h.elim
      · exact h.elim
      · have e := Slide.slid h
        show Agree true _ (need (Box.contentRight ..)) (need (Box.contentRight ..))
        unfold Box.contentRight
        rw [e.width]
        rename_i b1 c1
        cases b1.contentWidth with
        | none => exact fun _ => rfl
        | some _ => trivial
    · exact Agree.of_eq (fun _ => trivial) rfl
  split
  · split
    · cases cb <;> cases cb'
      · exact fun _ => rfl
      · exact h.elim
      · exact h.elim
      · trivial
    · exact Agree.of_eq (fun _ => trivial) rfl
  · exact Agree.of_eq (fun _ => trivial) rfl

theorem offset_agree (fp : FP) {cb cb' : CB} (h : Holders cb cb') {s s' : CSS} (hs : Styles t s s') (k : PxCtx) :
    Agree t (fun _ _ => True) (relativeOffset fp cb .h (s.get .left) (s.get .right) k) (relativeOffset fp cb' .h (s'.get .left) (s'.get .right) k) := by
  cases t with
  | true => rw [hs.left rfl, hs.right rfl]; exact offset_h fp h _ _ k
  | false =>
    cases relativeOffset fp cb .h (s.get .left) (s.get .right) k <;> cases relativeOffset fp cb' .h (s'.get .left) (s'.get .right) k
    · intro h; cases h
    · rfl
    · rfl
    · trivial

theorem relative_agree (hX : Tame X) (fp : FP) {s s' : CSS} (hs : Styles t s s') {cb cb' : CB} (hcb : Holders cb cb') (hz vt : PxCtx) {b c : Box}
    {cs cs' : List Node} (hb : Slide b c) (h : Twins t X cs cs') :
    Agree t (Pair t X) (applyRelative fp s cb hz vt b cs) (applyRelative fp s' cb' hz vt c cs') := by
  unfold applyRelative
  rw [reads_isRelative hs]
  split
  · refine (offset_agree fp hcb hs hz).bind ?_
    intro dx dx' _
    dsimp only
    have h2 := setContent_h hX fp (b.h.content.add fp dx) (c.h.content.add fp dx') hb h
    revert h2
    generalize setContent fp .h (b.h.content.add fp dx) b cs = r
    generalize setContent fp .h (c.h.content.add fp dx') c cs' = r'
    intro h2
    rw [hs.same .top trivial, hs.same .bottom trivial, offset_v fp hcb]
    cases relativeOffset fp cb .v (s'.get .top) (s'.get .bottom) vt with
    | error e => exact fun _ => rfl
    | ok dy =>
      show Pair t X (setContent fp .v (r.1.v.content.add fp dy) r.1 r.2) (setContent fp .v (r'.1.v.content.add fp dy) r'.1 r'.2)
      rw [h2.1.slid.v]
      exact setContent_v hX fp _ h2.1 h2.2
  · exact ⟨hb, h⟩

/-! ## The children -/

theorem twin_style {n m : Node} (h : Twin t X n m) : Styles t n.style m.style := by
  obtain ⟨s, z, l, cs⟩ := n
  obtain ⟨s', z', l', cs'⟩ := m
  simp only [Twin] at h
  exact h.1

theorem inline_agree {lay lay' : Node → Res Node} (hl : ∀ n m, Twin t Shift n m → Agree t (Twin t Slide) (lay n) (lay' m)) {cs cs' : List Node}
    (h : Twins t Shift cs cs') : Agree t (Twins t Slide) (inlineLoop lay cs) (inlineLoop lay' cs') := by
  rw [twins_iff] at h
  induction h with
  | nil => trivial
  | @cons c c' cs cs' hc hcs ih =>
    have e : ∀ (lay : Node → Res Node) (c : Node) (cs : List Node),
        inlineLoop lay (c :: cs) = lay c >>= fun c => inlineLoop lay cs >>= fun cs => pure (c :: cs) := by
      intro lay c cs
      simp only [inlineLoop]
      cases lay c with
      | error e => rfl
      | ok c =>
        show (match inlineLoop lay cs with | .error e => .error e | .ok cs' => .ok (c :: cs')) = inlineLoop lay cs >>= _
        cases inlineLoop lay cs <;> rfl
    rw [e, e]
    refine (hl _ _ hc).bind fun a b hab => ih.bind fun as bs habs => ?_
    exact (twins_iff.2 (.cons hab (twins_iff.1 habs)) : Twins t Slide (a :: as) (b :: bs))

/-- The result of laying out one child in a block formatting context. -/
def Stacked (t : Bool) (r r' : Box × Node × Num × Option Int) : Prop := Slide r.1 r'.1 ∧ Twin t Slide r.2.1 r'.2.1 ∧ r.2.2 = r'.2.2

theorem stack_agree (fp : FP) {b c : Box} (hb : Slide b c) (o : Num) (bm : Option Int) {n m : Node} (h : Twin t Slide n m) :
    Agree t (Stacked t) (stackChild fp b o bm n) (stackChild fp c o bm m) := by
  obtain ⟨s, z, l, cs⟩ := n
  obtain ⟨s', z', l', cs'⟩ := m
  simp only [Twin] at h
  obtain ⟨h1, rfl, h3, h4⟩ := h
  cases l with
  | none =>
    cases l' with
    | none => exact fun _ => rfl
    | some _ => exact h3.elim
  | some k =>
    cases l' with
    | none => exact h3.elim
    | some k' =>
      have hk : Slide k k' := h3
      unfold stackChild
      refine Agree.bind (R := fun r r' => Slide r.1 r'.1 ∧ r.2 = r'.2) ?_ ?_
      · unfold collapseAbove
        rw [hk.slid.collapseTop, hk.slid.top]
        cases bm with
        | none => exact ⟨setCollapse_slide hb (.inl rfl) (.num (.int k.collapse.top)), rfl⟩
        | some i =>
          cases k.margin.top with
          | auto => exact fun _ => rfl
          | num mt => exact ⟨hb, rfl⟩
      · rintro ⟨b, o⟩ ⟨c, o'⟩ ⟨hb, ho⟩
        have ho : o = o' := ho
        subst ho
        have hb : Slide b c := hb
        dsimp only
        have e1 : k'.v.content.add fp o = k.v.content.add fp o := by rw [hk.slid.v]
        rw [e1]
        have hp := setContent_v tame_slide fp (k.v.content.add fp o) hk h4
        revert hp
        generalize setContent fp .v (k.v.content.add fp o) k cs = r
        generalize setContent fp .v (k.v.content.add fp o) k' cs' = r'
        intro hp
        have e := hp.1.slid
        have e2 : r'.1.borderBoxHeight fp = r.1.borderBoxHeight fp := by
          unfold Box.borderBoxHeight; rw [e.height, e.border, e.padding]
        rw [e2, e.collapseBottom]
        cases need (r.1.borderBoxHeight fp) with
        | error e => exact fun _ => rfl
        | ok x =>
          refine ⟨hb, ?_, rfl⟩
          show Twin t Slide (.mk s z (some r.1) r.2) (.mk s' z (some r'.1) r'.2)
          simp only [Twin]
          exact ⟨h1, trivial, hp.1, hp.2⟩

/-- Containers of related nodes. -/
inductive Boxed (t : Bool) : Container → Container → Prop
  | anon (xs ys : List Node) : Boxed t (.anon xs) (.anon ys)
  | node {n m : Node} : Twin t Shift n m → Boxed t (.node n) (.node m)

theorem anonymize_agree {cs cs' : List Node} (h : Twins t Shift cs cs') : ∀ p p' : Option (List Node), p.isSome = p'.isSome →
    List.Forall₂ (Boxed t) (anonymizeLoop p cs) (anonymizeLoop p' cs') := by
  rw [twins_iff] at h
  induction h with
  | nil => intro p p' _; simp only [anonymizeLoop]; exact .nil
  | @cons c c' cs cs' hc hcs ih =>
    intro p p' hp
    simp only [anonymizeLoop, reads_isBlockLevel (twin_style hc)]
    cases p with
    | none =>
      cases p' with
      | some _ => cases hp
      | none =>
        split
        · exact .cons (.node hc) (ih _ _ rfl)
        · exact ih _ _ rfl
    | some xs =>
      cases p' with
      | none => cases hp
      | some ys =>
        split
        · exact .cons (.anon ..) (.cons (.node hc) (ih _ _ rfl))
        · exact ih _ _ rfl

/-- Boxes and lists of related nodes. -/
def Stack (t : Bool) (r r' : Box × List Node) : Prop := Slide r.1 r'.1 ∧ Twins t Slide r.2 r'.2

theorem blockLoop_bind (fp : FP) (lay : Box → Node → Res Node) (b : Box) (o : Num) (bm : Option Int) (n : Node) (cs : List Container) :
    blockLoop fp lay b o bm (.node n :: cs) = lay b n >>= fun n => stackChild fp b o bm n >>= fun r =>
      blockLoop fp lay r.1 r.2.2.1 r.2.2.2 cs >>= fun k => pure (k.1, r.2.1 :: k.2) := by
  simp only [blockLoop]
  cases lay b n with
  | error e => rfl
  | ok n =>
    show (match stackChild fp b o bm n with | .error e => .error e | .ok (b, c, offset, bm) => _) = stackChild fp b o bm n >>= _
    cases stackChild fp b o bm n with
    | error e => rfl
    | ok r =>
      obtain ⟨b, c, o, bm⟩ := r
      show (match blockLoop fp lay b o bm cs with | .error e => .error e | .ok (b, cs) => .ok (b, c :: cs)) = blockLoop fp lay b o bm cs >>= _
      cases blockLoop fp lay b o bm cs <;> rfl

theorem blockLoop_agree (fp : FP) {lay lay' : Box → Node → Res Node}
    (hl : ∀ b c n m, Slide b c → Twin t Shift n m → Agree t (Twin t Slide) (lay b n) (lay' c m)) {ks ks' : List Container}
    (h : List.Forall₂ (Boxed t) ks ks') : ∀ (b c : Box) (o : Num) (bm : Option Int), Slide b c →
      Agree t (Stack t) (blockLoop fp lay b o bm ks) (blockLoop fp lay' c o bm ks') := by
  induction h with
  | nil => intro b c o bm hb; exact ⟨hb, trivial⟩
  | @cons k k' ks ks' hk hks ih =>
    intro b c o bm hb
    cases hk with
    | anon xs ys => exact fun _ => rfl
    | node hn =>
      rw [blockLoop_bind, blockLoop_bind]
      refine (hl _ _ _ _ hb hn).bind fun n m hnm => (stack_agree fp hb o bm hnm).bind ?_
      rintro ⟨b, n, o, bm⟩ ⟨c, m, o', bm'⟩ ⟨hb, hnm, ho⟩
      have ho : (o, bm) = (o', bm') := ho
      cases ho
      have hb : Slide b c := hb
      have hnm : Twin t Slide n m := hnm
      refine (ih b c o bm hb).bind ?_
      rintro ⟨b, cs⟩ ⟨c, cs'⟩ ⟨hb, hcs⟩
      refine ⟨hb, ?_⟩
      show Twins t Slide (n :: cs) (m :: cs')
      exact twins_iff.2 (.cons hnm (twins_iff.1 hcs))

theorem shift_slide {n m : Node} (h : Twin t Shift n m) : Twin t Slide n m := twin_mono (fun _ _ h => tame_shift.slide h) n m h

theorem children_agree (fp : FP) {lay lay' : Box → Node → Res Node}
    (hl : ∀ b c n m, Slide b c → Twin t Shift n m → Agree t (Twin t Slide) (lay b n) (lay' c m)) {s s' : CSS} (hs : Styles t s s') (z : Intrinsic)
    {b c : Box} {cs cs' : List Node} (hb : Slide b c) (h : Twins t Shift cs cs') :
    Agree t (Pair t Slide) (layoutChildren fp lay s z b cs) (layoutChildren fp lay' s' z c cs') := by
  have he : establishesInline s z cs = establishesInline s' z cs' := by
    unfold establishesInline
    rw [reads_isBlockContainer hs]
    have : (cs.any fun c => isBlockLevel c.style) = cs'.any fun c => isBlockLevel c.style := by
      rw [twins_iff] at h
      induction h with
      | nil => rfl
      | cons hc _ ih => rw [List.any_cons, List.any_cons, ih, reads_isBlockLevel (twin_style hc)]
    rw [this]
  unfold layoutChildren
  rw [he]
  split
  · have := inline_agree (fun n m hnm => hl b c n m hb hnm) h
    revert this
    generalize inlineLoop (lay b) cs = r
    generalize inlineLoop (lay' c) cs' = r'
    intro this
    cases r <;> cases r'
    · exact this
    · exact this
    · exact this
    · exact ⟨hb, this⟩
  · have := blockLoop_agree fp hl (anonymize_agree h none none rfl) b c (.int 0) none hb
    revert this
    unfold anonymize
    generalize blockLoop fp lay b (.int 0) none (anonymizeLoop none cs) = r
    generalize blockLoop fp lay' c (.int 0) none (anonymizeLoop none cs') = r'
    intro this
    cases r with
    | error e => cases r' <;> exact this
    | ok r =>
      cases r' with
      | error e => exact this
      | ok r' =>
        obtain ⟨b, laid⟩ := r
        obtain ⟨c, laid'⟩ := r'
        obtain ⟨hb, hc⟩ := this
        refine ⟨hb, ?_⟩
        have hc := twins_iff.1 (show Twins t Slide laid laid' from hc)
        have hlen := hc.length_eq
        refine twins_iff.2 (List.rel_append hc ?_)
        rw [hlen]
        have hd : List.Forall₂ (Twin t Slide) cs cs' := (twins_iff.1 h).imp fun _ _ h => shift_slide h
        exact List.forall₂_drop _ hd

/-! ## The whole -/

theorem body_agree (fp : FP) (d : Display) {lay lay' : Box → Node → Res Node}
    (hl : ∀ b c n m, Slide b c → Twin t Shift n m → Agree t (Twin t Slide) (lay b n) (lay' c m)) {p p' : Option CSS} (hp : Parents p p') {cb cb' : CB}
    (hcb : Holders cb cb') {s s' : CSS} (hs : Styles t s s') (z : Intrinsic) {b c : Box} {cs cs' : List Node} (hb : Placed b c)
    (h : Twins t Shift cs cs') : Agree t (Pair t Slide) (layoutBody fp d lay p cb s z b cs) (layoutBody fp d lay' p' cb' s' z c cs') := by
  unfold layoutBody
  dsimp only
  rw [hcb.width, hcb.height, reads_isAbsolute hs, reads_isFloat hs]
  refine Agree.bind (R := Placed) ?_ fun b c hb => (width_agree tame_shift fp hs z _ hb h).bind ?_
  · obtain ⟨x, rfl⟩ := hb
    rw [copyEdges_at fp s' _ _ b x, reads_copyEdges hs]
    cases copyEdges fp s' ⟨d, dummyFont fp, cb.width⟩ ⟨d, dummyFont fp, cb.height⟩ b with
    | error e => exact fun _ => rfl
    | ok r => exact ⟨x, rfl⟩
  rintro ⟨b, cs⟩ ⟨c, cs'⟩ ⟨hb, h⟩
  refine (relativeHeight_agree tame_shift fp hs z hp _ hb h).bind ?_
  rintro ⟨b, cs⟩ ⟨c, cs'⟩ ⟨hb, h⟩
  dsimp only
  split
  · exact fun _ => rfl
  split
  · exact fun _ => rfl
  refine (children_agree fp hl hs z hb h).bind ?_
  rintro ⟨b, cs⟩ ⟨c, cs'⟩ ⟨hb, h⟩
  refine (height_agree tame_slide fp hs z hp _ hb h).bind ?_
  rintro ⟨b, cs⟩ ⟨c, cs'⟩ ⟨hb, h⟩
  exact relative_agree tame_slide fp hs hcb _ _ hb h

theorem box_agree (fp : FP) (d : Display) (f : Nat) : ∀ (p p' : Option CSS) (cb cb' : CB) (n m : Node), Parents p p' → Holders cb cb' →
    Twin t Shift n m → Agree t (Twin t Slide) (layoutBox fp d f p cb n) (layoutBox fp d f p' cb' m) := by
  induction f with
  | zero => intros; exact fun _ => rfl
  | succ f ih =>
    rintro p p' cb cb' ⟨s, z, l, cs⟩ ⟨s', z', l', cs'⟩ hp hcb h
    simp only [Twin] at h
    obtain ⟨hs, rfl, hl, hc⟩ := h
    have hc' : Twins t Slide cs cs' := twins_iff.2 ((twins_iff.1 hc).imp fun _ _ h => shift_slide h)
    simp only [layoutBox]
    rw [hs.same .display trivial]
    split
    · show Twin t Slide _ _
      simp only [Twin]
      exact ⟨hs, trivial, trivial, hc'⟩
    · have key : ∀ (b c : Box) (cs cs' : List Node), Placed b c → Twins t Shift cs cs' → Agree t (Twin t Slide)
          (match layoutBody fp d (fun b n => layoutBox fp d f (some s) (.box b) n) p cb s z b cs with
            | .error e => .error e
            | .ok (b, cs) => .ok (.mk s z (some b) cs))
          (match layoutBody fp d (fun b n => layoutBox fp d f (some s') (.box b) n) p' cb' s' z c cs' with
            | .error e => .error e
            | .ok (b, cs) => .ok (.mk s' z (some b) cs)) := by
        intro b c cs cs' hb h
        have := body_agree fp d (lay := fun b n => layoutBox fp d f (some s) (.box b) n) (lay' := fun b n => layoutBox fp d f (some s') (.box b) n)
          (fun b c n m hb hn => ih (some s) (some s') (.box b) (.box c) n m (hs.same .height trivial) hb hn) hp hcb hs z hb h
        revert this
        generalize layoutBody fp d (fun b n => layoutBox fp d f (some s) (.box b) n) p cb s z b cs = r
        generalize layoutBody fp d (fun b n => layoutBox fp d f (some s') (.box b) n) p' cb' s' z c cs' = r'
        intro this
        cases r with
        | error e => cases r' <;> exact this
        | ok r =>
          cases r' with
          | error e => exact this
          | ok r' =>
            obtain ⟨b, cs⟩ := r
            obtain ⟨c, cs'⟩ := r'
            show Twin t Slide _ _
            simp only [Twin]
            exact ⟨hs, trivial, this.1, this.2⟩
      cases l with
      | none =>
        cases l' with
        | none =>
          refine key _ _ _ _ ⟨Box.fresh.h, rfl⟩ ?_
          exact twins_left tame_shift fp _ (twins_right tame_shift fp _ (twins_v tame_shift fp _ hc))
        | some _ => exact hl.elim
      | some b =>
        cases l' with
        | none => exact hl.elim
        | some c =>
          obtain ⟨o, rfl⟩ : Shift b c := hl
          exact key _ _ _ _ ⟨_, rfl⟩ hc

theorem reset_agree (fp : FP) (f : Nat) : ∀ n m : Node, Twin t Shift n m → Twin t Shift (n.resetFuel fp f) (m.resetFuel fp f) := by
  induction f with
  | zero => intro n m h; exact h
  | succ f ih =>
    rintro ⟨s, z, l, cs⟩ ⟨s', z', l', cs'⟩ h
    cases l with
    | none =>
      cases l' with
      | none => exact h
      | some _ => simp only [Twin] at h; exact h.2.2.1.elim
    | some b =>
      cases l' with
      | none => simp only [Twin] at h; exact h.2.2.1.elim
      | some c =>
        simp only [Twin] at h
        simp only [Node.resetFuel, Twin]
        refine ⟨h.1, h.2.1, ⟨Box.fresh.h.origin, rfl⟩, ?_⟩
        have h4 := twins_iff.1 (twins_left tame_shift fp (Box.fresh.absContent fp .h) (twins_right tame_shift fp (Box.fresh.absContent fp .h)
          (twins_v tame_shift fp (Box.fresh.absContent fp .v) h.2.2.2)))
        refine twins_iff.2 ?_
        show List.Forall₂ (Twin t Shift) (List.map _ _) (List.map _ _)
        rw [List.forall₂_map_left_iff, List.forall₂_map_right_iff]
        exact h4.imp fun _ _ h => ih _ _ h

theorem twin_depth (n : Node) : ∀ m : Node, Twin t X n m → n.depth = m.depth := by
  induction n using Node.ind with
  | h s z l cs ih =>
    rintro ⟨s', z', l', cs'⟩ h
    simp only [Twin] at h
    have h4 := twins_iff.1 h.2.2.2
    simp only [Node.depth]
    congr 1
    clear h
    induction h4 with
    | nil => rfl
    | @cons c c' cs cs' hc hcs ihc =>
      simp only [Node.depth.depths]
      rw [ih c (List.mem_cons_self ..) _ hc, ihc (fun c hc => ih c (List.mem_cons_of_mem _ hc))]

theorem finish_agree (fp : FP) (d : Display) (html5 : Bool) {n m : Node} (h : Twin t Slide n m) :
    Agree t (Twin t Slide) (finishRoot fp d html5 n) (finishRoot fp d html5 m) := by
  obtain ⟨s, z, l, cs⟩ := n
  obtain ⟨s', z', l', cs'⟩ := m
  simp only [Twin] at h
  obtain ⟨hs, rfl, hl, hc⟩ := h
  cases l with
  | none =>
    cases l' with
    | none => exact fun _ => rfl
    | some _ => exact hl.elim
  | some b =>
    cases l' with
    | none => exact hl.elim
    | some c =>
      have hb : Slide b c := hl
      unfold finishRoot
      dsimp only
      have e1 : c.v.content.add fp (.int c.collapse.top) = b.v.content.add fp (.int b.collapse.top) := by rw [hb.slid.v, hb.slid.collapseTop]
      rw [e1]
      have hp := setContent_v tame_slide fp (b.v.content.add fp (.int b.collapse.top)) hb hc
      revert hp
      generalize setContent fp .v (b.v.content.add fp (.int b.collapse.top)) b cs = r
      generalize setContent fp .v (b.v.content.add fp (.int b.collapse.top)) c cs' = r'
      intro hp
      show Twin t Slide _ _
      simp only [Twin]
      refine ⟨hs, trivial, ?_, hp.2⟩
      cases html5 with
      | false => exact hp.1
      | true =>
        have e := hp.1.slid
        have e2 : subAll fp d.contentHeight [.int r'.1.collapse.top, .int r'.1.collapse.bottom] =
            subAll fp d.contentHeight [.int r.1.collapse.top, .int r.1.collapse.bottom] := by rw [e.collapseTop, e.collapseBottom]
        show Slide { r.1 with contentHeight := _ } { r'.1 with contentHeight := _ }
        rw [e2]
        exact slide_height hp.1 _

theorem layout_agree (fp : FP) (d : Display) (html5 : Bool) {p p' : Option CSS} (hp : Parents p p') {n m : Node} (h : Twin t Shift n m) :
    Agree t (Twin t Slide) (layout fp d html5 p n) (layout fp d html5 p' m) := by
  unfold layout
  have hl : n.layout.isSome = m.layout.isSome := by
    obtain ⟨s, z, l, cs⟩ := n
    obtain ⟨s', z', l', cs'⟩ := m
    simp only [Twin] at h
    cases l <;> cases l'
    · rfl
    · exact h.2.2.1.elim
    · exact h.2.2.1.elim
    · rfl
  cases h1 : n.layout with
  | none =>
    cases h2 : m.layout with
    | none => exact fun _ => rfl
    | some _ => rw [h1, h2] at hl; cases hl
  | some _ =>
    cases h2 : m.layout with
    | none => rw [h1, h2] at hl; cases hl
    | some _ =>
      dsimp only
      unfold Node.reset
      rw [← twin_depth _ _ h]
      have := box_agree fp d n.depth p p' (.viewport d) (.viewport d) _ _ hp rfl (reset_agree fp n.depth n m h)
      revert this
      generalize layoutBox fp d n.depth p (.viewport d) (n.resetFuel fp n.depth) = r
      generalize layoutBox fp d n.depth p' (.viewport d) (m.resetFuel fp n.depth) = r'
      intro this
      have h3 := this.bind (f := finishRoot fp d html5) (g := finishRoot fp d html5) fun a b hab => finish_agree fp d html5 hab
      cases r <;> cases r' <;> exact h3

end

/-! ## From documents that differ in the styles only -/

theorem styles_upright {s s' : CSS} (h : s.upright = s'.upright) : Styles false s s' := by
  refine ⟨fun p hp => ?_, fun h => (Bool.false_ne_true h).elim, fun h => (Bool.false_ne_true h).elim⟩
  have := congrFun h p
  unfold CSS.upright at this
  rw [if_pos hp, if_pos hp] at this
  exact Option.some.inj this

theorem styles_undirected {s s' : CSS} (h : s.undirected = s'.undirected) : Styles true s s' := by
  have key : ∀ p : LH, p.Upright ∨ p.Offset → s.get p = s'.get p := by
    intro p hp
    have := congrFun h p
    unfold CSS.undirected at this
    rw [if_pos hp, if_pos hp] at this
    exact Option.some.inj this
  exact ⟨fun p hp => key p (.inl hp), fun _ => key .left (.inr trivial), fun _ => key .right (.inr trivial)⟩

theorem twin_of_restyle {t : Bool} {f : CSS → CSS} (hf : ∀ s s', f s = f s' → Styles t s s') (n : Node) : ∀ m : Node, n.restyle f = m.restyle f →
    Twin t Shift n m := by
  induction n using Node.ind with
  | h s z l cs ih =>
    rintro ⟨s', z', l', cs'⟩ h
    simp only [Node.restyle, Node.mk.injEq] at h
    obtain ⟨h1, rfl, rfl, h4⟩ := h
    simp only [Twin]
    refine ⟨hf _ _ h1, trivial, ?_, ?_⟩
    · cases l with
      | none => trivial
      | some b => exact ⟨b.h.origin, rfl⟩
    · clear h1
      induction cs generalizing cs' with
      | nil =>
        cases cs' with
        | nil => trivial
        | cons _ _ => simp only [restyleAll] at h4; cases h4
      | cons c cs ihc =>
        cases cs' with
        | nil => simp only [restyleAll] at h4; cases h4
        | cons c' cs' =>
          simp only [restyleAll, List.cons.injEq] at h4
          exact ⟨ih c (List.mem_cons_self ..) c' h4.1, ihc (fun c hc => ih c (List.mem_cons_of_mem _ hc)) cs' h4.2⟩

theorem twin_slidBoxes {t : Bool} : ∀ (r : List Nat) (n m : Node), Twin t Slide n m →
    match n.boxAt r, m.boxAt r with
    | some b, some c => b.Slid c
    | none, none => True
    | _, _ => False := by
  intro r
  induction r with
  | nil =>
    rintro ⟨s, z, l, cs⟩ ⟨s', z', l', cs'⟩ h
    simp only [Twin] at h
    simp only [Node.boxAt, Node.layout]
    cases l <;> cases l'
    · trivial
    · exact h.2.2.1
    · exact h.2.2.1
    · exact Slide.slid h.2.2.1
  | cons i r ih =>
    rintro ⟨s, z, l, cs⟩ ⟨s', z', l', cs'⟩ h
    simp only [Twin] at h
    have h4 := twins_iff.1 h.2.2.2
    simp only [Node.boxAt, Node.layout, Node.children]
    cases l <;> cases l'
    · trivial
    · exact h.2.2.1.elim
    · exact h.2.2.1.elim
    · simp only [Option.isSome_some, if_true]
      rcases Nat.lt_or_ge i cs.length with hi | hi
      · have hi' : i < cs'.length := h4.length_eq ▸ hi
        rw [List.getElem?_eq_getElem hi, List.getElem?_eq_getElem hi']
        exact ih _ _ (List.forall₂_iff_get.1 h4 |>.2 i hi hi')
      · have hi' : cs'.length ≤ i := h4.length_eq ▸ hi
        rw [List.getElem?_eq_none hi, List.getElem?_eq_none hi']
        trivial

end Sideways

end Colosseum
