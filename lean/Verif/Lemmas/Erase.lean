import Verif.Lemmas.Progress

/-!
# Layout does not look at origins

Apart from the origins, the result of `layout_box` is determined by its arguments without their origins.
-/

namespace Colosseum

/-- A box and children without origins. -/
def erase (x : Box × List Node) : Box × List Node := (x.1.noOrigin, x.2.map Node.noOrigin)

theorem noOrigin_twice (b : Box) : b.noOrigin.noOrigin = b.noOrigin := rfl

theorem node_noOrigin_twice (n : Node) : n.noOrigin.noOrigin = n.noOrigin := by
  induction n using Node.ind with
  | h s z l cs ih =>
    simp only [noOrigin_mk, List.map_map]
    congr 1
    · cases l <;> rfl
    · exact List.map_congr_left fun c hc => ih c hc

theorem noOrigins_twice (cs : List Node) : (cs.map Node.noOrigin).map Node.noOrigin = cs.map Node.noOrigin := by
  rw [List.map_map]; exact List.map_congr_left fun c _ => node_noOrigin_twice c

/-- Equal but for the origins. -/
def Agrees {α β : Type} (e : α → β) (x y : Res α) : Prop := x.map e = y.map e

theorem Agrees.refl {α β : Type} {e : α → β} (x : Res α) : Agrees e x x := Eq.refl _
theorem Agrees.symm {α β : Type} {e : α → β} {x y : Res α} (h : Agrees e x y) : Agrees e y x := Eq.symm h
theorem Agrees.trans {α β : Type} {e : α → β} {x y z : Res α} (h : Agrees e x y) (h' : Agrees e y z) : Agrees e x z := Eq.trans h h'

theorem agrees_ok {α β : Type} {e : α → β} {a b : α} (h : e a = e b) : Agrees e (.ok a) (.ok b) := congrArg Except.ok h

theorem Agrees.ok {α β : Type} {e : α → β} {x y : Res α} {a : α} (h : Agrees e x y) (hx : x = .ok a) : ∃ b, y = .ok b ∧ e a = e b := by
  subst hx
  cases y with
  | error _ => cases h
  | ok b => exact ⟨b, rfl, Except.ok.inj h⟩

theorem agrees_bind {α α' β β' : Type} {e : α → α'} {e' : β → β'} {x y : Res α} {f g : α → Res β} (h : Agrees e x y)
    (hf : ∀ a b, e a = e b → Agrees e' (f a) (g b)) : Agrees e' (x >>= f) (y >>= g) := by
  cases x with
  | error _ =>
    cases y with
    | error _ => cases h; exact .refl _
    | ok _ => cases h
  | ok a =>
    cases y with
    | error _ => cases h
    | ok b => exact hf a b (Except.ok.inj h)

theorem agrees_bind_same {α β β' : Type} {e' : β → β'} (x : Res α) {f g : α → Res β} (hf : ∀ a, Agrees e' (f a) (g a)) :
    Agrees e' (x >>= f) (x >>= g) := by
  cases x with
  | error _ => exact .refl _
  | ok a => exact hf a

theorem same_margin {b b' : Box} (h : b.noOrigin = b'.noOrigin) : b.margin = b'.margin := by
  have := congrArg Box.margin h; exact this
theorem same_border {b b' : Box} (h : b.noOrigin = b'.noOrigin) : b.border = b'.border := by
  have := congrArg Box.border h; exact this
theorem same_padding {b b' : Box} (h : b.noOrigin = b'.noOrigin) : b.padding = b'.padding := by
  have := congrArg Box.padding h; exact this
theorem same_collapse {b b' : Box} (h : b.noOrigin = b'.noOrigin) : b.collapse = b'.collapse := by
  have := congrArg Box.collapse h; exact this
theorem same_content {b b' : Box} (h : b.noOrigin = b'.noOrigin) (a : Axis) : (b.pos a).content = (b'.pos a).content := by
  have := congrArg (fun b => (b.pos a).content) h; cases a <;> exact this
theorem same_top {b b' : Box} (h : b.noOrigin = b'.noOrigin) : b.v.content = b'.v.content := same_content h .v
theorem same_left {b b' : Box} (h : b.noOrigin = b'.noOrigin) : b.h.content = b'.h.content := same_content h .h
theorem same_width {b b' : Box} (h : b.noOrigin = b'.noOrigin) : b.contentWidth = b'.contentWidth := by
  have := congrArg Box.contentWidth h; exact this
theorem same_height {b b' : Box} (h : b.noOrigin = b'.noOrigin) : b.contentHeight = b'.contentHeight := by
  have := congrArg Box.contentHeight h; exact this
theorem with_width {b b' : Box} (h : b.noOrigin = b'.noOrigin) (w : Option Num) :
    ({ b with contentWidth := w } : Box).noOrigin = ({ b' with contentWidth := w } : Box).noOrigin := by
  have := congrArg (fun b => ({ b with contentWidth := w } : Box)) h; exact this
theorem with_height {b b' : Box} (h : b.noOrigin = b'.noOrigin) (w : Option Num) :
    ({ b with contentHeight := w } : Box).noOrigin = ({ b' with contentHeight := w } : Box).noOrigin := by
  have := congrArg (fun b => ({ b with contentHeight := w } : Box)) h; exact this

theorem agrees_bind_eq {α β β' : Type} {e' : β → β'} {x y : Res α} (h : x = y) {f g : α → Res β} (hf : ∀ a, Agrees e' (f a) (g a)) :
    Agrees e' (x >>= f) (y >>= g) := by
  subst h; exact agrees_bind_same x hf

/-! ## The setters -/

theorem setCollapse_erase (b : Box) (t : Side) (x : MVal) : (b.setCollapse t x).noOrigin = b.noOrigin.setCollapse t x := by
  unfold Box.setCollapse
  split
  · show (if b.collapse.get t < _ then _ else b : Box).noOrigin = if b.collapse.get t < _ then _ else b.noOrigin
    split <;> rfl
  · rfl

theorem setMargin_erase (b : Box) (t : Side) (x : MVal) : (b.setMargin t x).noOrigin = b.noOrigin.setMargin t x := by
  unfold Box.setMargin
  show (if x.pyEq (b.margin.get t) = true then b else _ : Box).noOrigin = if x.pyEq (b.margin.get t) = true then b.noOrigin else _
  split
  · rfl
  · exact setCollapse_erase ..

theorem autoMargin_erase (b : Box) (t : Side) : (autoMarginToZero b t).noOrigin = autoMarginToZero b.noOrigin t := by
  unfold autoMarginToZero
  cases h : b.margin.get t with
  | auto =>
    have h' : b.noOrigin.margin.get t = .auto := h
    rw [h']
    exact setMargin_erase ..
  | num x =>
    have h' : b.noOrigin.margin.get t = .num x := h
    rw [h']

theorem setContent_erase (fp : FP) (a : Axis) (v : Num) {b b' : Box} {cs cs' : List Node} (hb : b.noOrigin = b'.noOrigin)
    (hc : cs.map Node.noOrigin = cs'.map Node.noOrigin) : erase (setContent fp a v b cs) = erase (setContent fp a v b' cs') := by
  have e : ∀ b : Box, (b.pos a).content = (b.noOrigin.pos a).content := by intro b; cases a <;> rfl
  have key : ∀ (b : Box) (cs : List Node), erase (setContent fp a v b cs) =
      (if v.pyEq (b.noOrigin.pos a).content then b.noOrigin else b.noOrigin.setPos a ⟨.int 0, v⟩, cs.map Node.noOrigin) := by
    intro b cs
    unfold erase
    rw [setContent_noOrigin]
    congr 1
    unfold setContent
    rw [e]
    split
    · rfl
    · cases a <;> rfl
  rw [key, key, hb, hc]

theorem copyEdges_erase (fp : FP) (s : CSS) (hz vt : PxCtx) {b b' : Box} (h : b.noOrigin = b'.noOrigin) :
    Agrees Box.noOrigin (copyEdges fp s hz vt b) (copyEdges fp s hz vt b') := by
  unfold copyEdges
  iterate 12 refine agrees_bind_same _ fun _ => ?_
  refine agrees_ok ?_
  have e : ∀ (b : Box) (p q : Edge Num), ({ b with border := p, padding := q } : Box).noOrigin = { b.noOrigin with border := p, padding := q } :=
    fun _ _ _ => rfl
  refine (e _ _ _).trans (Eq.trans ?_ (e _ _ _).symm)
  rw [setMargin_erase, setMargin_erase, setMargin_erase, setMargin_erase, h, ← setMargin_erase, ← setMargin_erase, ← setMargin_erase, ← setMargin_erase]

theorem placeLeft_erase (fp : FP) {b b' : Box} {cs cs' : List Node} (hb : b.noOrigin = b'.noOrigin)
    (hc : cs.map Node.noOrigin = cs'.map Node.noOrigin) : Agrees erase (placeLeft fp b cs) (placeLeft fp b' cs') := by
  unfold placeLeft
  rw [same_margin hb, same_border hb,
    same_padding hb]
  exact agrees_bind_same _ fun ml => agrees_ok (setContent_erase fp .h _ hb hc)

theorem width_erase_set (b : Box) (w : Option Num) : ({ b with contentWidth := w } : Box).noOrigin = { b.noOrigin with contentWidth := w } := rfl

theorem inlineWidth_erase (z : Intrinsic) (b : Box) : (inlineWidth z b).noOrigin = inlineWidth z b.noOrigin := by
  unfold inlineWidth
  rw [width_erase_set, autoMargin_erase, autoMargin_erase]

theorem solveMargins_erase (fp : FP) (s : CSS) (size w : Num) (b : Box) :
    (solveMargins fp s size w b).noOrigin = solveMargins fp s size w b.noOrigin := by
  have key : ∀ c c' : Box, c.noOrigin = c' → (match c.margin.left, c.margin.right with
      | .num ml, .num mr =>
        if (s.get .direction).isKw "ltr" then
          c.setMargin .right (.num (subAll fp size [ml, c.border.left, c.padding.left, w, c.padding.right, c.border.right]))
        else c.setMargin .left (.num (subAll fp size [c.border.left, c.padding.left, w, c.padding.right, c.border.right, mr]))
      | .auto, .num mr => c.setMargin .left (.num (subAll fp size [c.border.left, c.padding.left, w, c.padding.right, c.border.right, mr]))
      | .num ml, .auto => c.setMargin .right (.num (subAll fp size [ml, c.border.left, c.padding.left, w, c.padding.right, c.border.right]))
      | .auto, .auto =>
        let avail := subAll fp size [c.border.left, c.padding.left, w, c.padding.right, c.border.right]
        (c.setMargin .left (.num (avail.floorDiv2 fp))).setMargin .right (.num (avail.floorDiv2 fp)) : Box).noOrigin = (match c'.margin.left, c'.margin.right with
      | .num ml, .num mr =>
        if (s.get .direction).isKw "ltr" then
          c'.setMargin .right (.num (subAll fp size [ml, c'.border.left, c'.padding.left, w, c'.padding.right, c'.border.right]))
        else c'.setMargin .left (.num (subAll fp size [c'.border.left, c'.padding.left, w, c'.padding.right, c'.border.right, mr]))
      | .auto, .num mr => c'.setMargin .left (.num (subAll fp size [c'.border.left, c'.padding.left, w, c'.padding.right, c'.border.right, mr]))
      | .num ml, .auto => c'.setMargin .right (.num (subAll fp size [ml, c'.border.left, c'.padding.left, w, c'.padding.right, c'.border.right]))
      | .auto, .auto =>
        let avail := subAll fp size [c'.border.left, c'.padding.left, w, c'.padding.right, c'.border.right]
        (c'.setMargin .left (.num (avail.floorDiv2 fp))).setMargin .right (.num (avail.floorDiv2 fp)) : Box) := by
    rintro c _ rfl
    have h1 : c.noOrigin.margin = c.margin := rfl
    rw [h1]
    cases c.margin.left <;> cases c.margin.right <;> dsimp only
    · rw [setMargin_erase, setMargin_erase]; rfl
    · exact setMargin_erase ..
    · exact setMargin_erase ..
    · split <;> exact setMargin_erase ..
  unfold solveMargins
  refine key _ _ ?_
  have ki : ∀ q : Bool, (if q = true then autoMarginToZero (autoMarginToZero b .left) .right else b).noOrigin =
      if q = true then autoMarginToZero (autoMarginToZero b.noOrigin .left) .right else b.noOrigin := by
    intro q
    split
    · rw [autoMargin_erase, autoMargin_erase]
    · rfl
  exact ki _

theorem width_erase (fp : FP) (s : CSS) (z : Intrinsic) (c : PxCtx) {b b' : Box} {cs cs' : List Node} (hb : b.noOrigin = b'.noOrigin)
    (hc : cs.map Node.noOrigin = cs'.map Node.noOrigin) : Agrees erase (widthAndMargins fp s z c b cs) (widthAndMargins fp s z c b' cs') := by
  have ha : (autoMarginToZero (autoMarginToZero b .left) .right).noOrigin = (autoMarginToZero (autoMarginToZero b' .left) .right).noOrigin := by
    rw [autoMargin_erase, autoMargin_erase, autoMargin_erase, autoMargin_erase, hb]
  have hm := same_margin ha
  unfold widthAndMargins
  split
  · exact .refl _
  split
  · exact .refl _
  split
  · split
    · unfold inlineReplacedWidth
      have e : inlineReplacedContentWidth fp s z c (autoMarginToZero (autoMarginToZero b .left) .right) =
          inlineReplacedContentWidth fp s z c (autoMarginToZero (autoMarginToZero b' .left) .right) := by
        have k : ∀ b : Box, inlineReplacedContentWidth fp s z c b = inlineReplacedContentWidth fp s z c b.noOrigin := fun _ => rfl
        rw [k, ha, ← k]
      dsimp only
      rw [e]
      exact agrees_bind_same _ fun w => placeLeft_erase fp (with_width ha _) hc
    · refine agrees_ok ?_
      unfold erase
      simp only [inlineWidth_erase, hb, hc]
  split
  · split
    · exact .refl _
    · unfold blockWidth
      split
      · dsimp only
        refine agrees_bind_same _ fun size => ?_
        refine agrees_bind_eq (by rw [hm]) fun ml => agrees_bind_eq (by rw [hm]) fun mr => ?_
        have k : ∀ b : Box, remainingWidth fp size ml mr b = remainingWidth fp size ml mr b.noOrigin := fun _ => rfl
        rw [show remainingWidth fp size ml mr (autoMarginToZero (autoMarginToZero b .left) .right) =
          remainingWidth fp size ml mr (autoMarginToZero (autoMarginToZero b' .left) .right) by rw [k, ha, ← k]]
        exact placeLeft_erase fp (with_width ha _) hc
      · refine agrees_bind_same _ fun w => agrees_bind_same _ fun size => placeLeft_erase fp (with_width ?_ _) hc
        rw [solveMargins_erase, solveMargins_erase, hb]
  split <;> exact .refl _

theorem placeTop_erase (fp : FP) {b b' : Box} {cs cs' : List Node} (hb : b.noOrigin = b'.noOrigin)
    (hc : cs.map Node.noOrigin = cs'.map Node.noOrigin) : Agrees erase (placeTopInline fp b cs) (placeTopInline fp b' cs') := by
  unfold placeTopInline
  rw [same_margin hb, same_border hb,
    same_padding hb, same_top hb]
  exact agrees_bind_same _ fun ml => agrees_ok (setContent_erase fp .v _ hb hc)

theorem height_erase_set (b : Box) (w : Option Num) : ({ b with contentHeight := w } : Box).noOrigin = { b.noOrigin with contentHeight := w } := rfl

/-- A number and a box without origins. -/
def eraseSize (x : Num × Box) : Num × Box := (x.1, x.2.noOrigin)

theorem contentHeight_erase (fp : FP) (s : CSS) (p : Option CSS) (c : PxCtx) {b b' : Box} {cs cs' : List Node} (hb : b.noOrigin = b'.noOrigin)
    (hc : cs.map Node.noOrigin = cs'.map Node.noOrigin) : Agrees eraseSize (blockContentHeight fp s p c b cs) (blockContentHeight fp s p c b' cs') := by
  have hl : (cs.getLast?).map Node.noOrigin = (cs'.getLast?).map Node.noOrigin := by
    rw [← List.getLast?_map, ← List.getLast?_map, hc]
  unfold blockContentHeight
  split
  · cases h1 : cs.getLast? with
    | none =>
      cases h2 : cs'.getLast? with
      | some _ => rw [h1, h2] at hl; cases hl
      | none =>
        dsimp only
        split
        · exact agrees_ok (by simp only [eraseSize, hb])
        · exact agrees_bind_same _ fun _ => agrees_ok (by simp only [eraseSize, hb])
    | some x =>
      cases h2 : cs'.getLast? with
      | none => rw [h1, h2] at hl; cases hl
      | some y =>
        rw [h1, h2] at hl
        have hl : x.noOrigin = y.noOrigin := Option.some.inj hl
        have hl := congrArg Node.layout hl
        rw [noOrigin_layout, noOrigin_layout] at hl
        dsimp only
        cases h3 : x.layout with
        | none =>
          cases h4 : y.layout with
          | none => exact .refl _
          | some _ => rw [h3, h4] at hl; cases hl
        | some lb =>
          cases h4 : y.layout with
          | none => rw [h3, h4] at hl; cases hl
          | some lb' =>
            rw [h3, h4] at hl
            have hl : lb.noOrigin = lb'.noOrigin := Option.some.inj hl
            dsimp only
            have k : ∀ b : Box, b.borderBoxBottom fp = b.noOrigin.borderBoxBottom fp := fun _ => rfl
            rw [k, hl, ← k, same_collapse hl]
            refine agrees_bind_same _ fun _ => agrees_ok ?_
            simp only [eraseSize, setCollapse_erase, hb]
  · exact agrees_bind_same _ fun _ => agrees_ok (by simp only [eraseSize, hb])

theorem height_erase (fp : FP) (s : CSS) (z : Intrinsic) (p : Option CSS) (c : PxCtx) {b b' : Box} {cs cs' : List Node} (hb : b.noOrigin = b'.noOrigin)
    (hc : cs.map Node.noOrigin = cs'.map Node.noOrigin) : Agrees erase (heightAndMargins fp s z p c b cs) (heightAndMargins fp s z p c b' cs') := by
  have ha : (autoMarginToZero (autoMarginToZero b .top) .bottom).noOrigin = (autoMarginToZero (autoMarginToZero b' .top) .bottom).noOrigin := by
    rw [autoMargin_erase, autoMargin_erase, autoMargin_erase, autoMargin_erase, hb]
  unfold heightAndMargins
  split
  · exact .refl _
  split
  · exact .refl _
  split
  · split
    · unfold inlineReplacedHeight
      have e : inlineReplacedContentHeight fp s z c (autoMarginToZero (autoMarginToZero b .top) .bottom) =
          inlineReplacedContentHeight fp s z c (autoMarginToZero (autoMarginToZero b' .top) .bottom) := by
        have k : ∀ b : Box, inlineReplacedContentHeight fp s z c b = inlineReplacedContentHeight fp s z c b.noOrigin := fun _ => rfl
        rw [k, ha, ← k]
      dsimp only
      rw [e]
      exact agrees_bind_same _ fun w => placeTop_erase fp (with_height ha _) hc
    · exact placeTop_erase fp (with_height hb _) hc
  split
  · split
    · exact .refl _
    · unfold blockHeight
      refine agrees_bind (contentHeight_erase fp s p c ha hc) ?_
      rintro ⟨h1, b1⟩ ⟨h2, b2⟩ e
      obtain ⟨rfl, e⟩ := Prod.mk.inj e
      have e : b1.noOrigin = b2.noOrigin := e
      have ev : b1.v.content.add fp (b1.border.top.add fp b1.padding.top) = b2.v.content.add fp (b2.border.top.add fp b2.padding.top) := by
        rw [same_border e, same_padding e, same_top e]
      refine agrees_ok ?_
      show erase (setContent fp .v (b1.v.content.add fp (b1.border.top.add fp b1.padding.top)) _ _) = erase (setContent fp .v _ _ _)
      rw [ev]
      exact setContent_erase fp .v _ (with_height e _) hc
  split <;> exact .refl _

/-- Containing blocks that agree but for origins. -/
def CB.Agree : CB → CB → Prop
  | .viewport d, .viewport d' => d = d'
  | .box b, .box b' => b.noOrigin = b'.noOrigin
  | _, _ => False

theorem CB.Agree.width {cb cb' : CB} (h : cb.Agree cb') : cb.width = cb'.width := by
  cases cb <;> cases cb' <;> first | cases h; rfl | exact same_width h | cases h

theorem CB.Agree.height {cb cb' : CB} (h : cb.Agree cb') : cb.height = cb'.height := by
  cases cb <;> cases cb' <;> first | cases h; rfl | exact same_height h | cases h

theorem CB.Agree.offset (fp : FP) {cb cb' : CB} (h : cb.Agree cb') (a : Axis) (start stop : Val) (c : PxCtx) :
    relativeOffset fp cb a start stop c = relativeOffset fp cb' a start stop c := by
  have e1 : cb.contentEnd fp a = cb'.contentEnd fp a := by
    cases cb <;> cases cb' <;> first | (cases h; rfl) | (exact False.elim h) | skip
    have h : Box.noOrigin _ = Box.noOrigin _ := h
    have k : ∀ b : Box, (CB.box b).contentEnd fp a = (CB.box b.noOrigin).contentEnd fp a := fun _ => by cases a <;> rfl
    rw [k, h, ← k]
  have e2 : cb.contentStart a = cb'.contentStart a := by
    cases cb <;> cases cb' <;> first | (cases h; rfl) | (exact False.elim h) | skip
    have h : Box.noOrigin _ = Box.noOrigin _ := h
    have k : ∀ b : Box, (CB.box b).contentStart a = (CB.box b.noOrigin).contentStart a := fun _ => by cases a <;> rfl
    rw [k, h, ← k]
  unfold relativeOffset
  rw [e1, e2]

theorem relative_erase (fp : FP) (s : CSS) {cb cb' : CB} (hcb : cb.Agree cb') (hz vt : PxCtx) {b b' : Box} {cs cs' : List Node} (hb : b.noOrigin = b'.noOrigin)
    (hc : cs.map Node.noOrigin = cs'.map Node.noOrigin) : Agrees erase (applyRelative fp s cb hz vt b cs) (applyRelative fp s cb' hz vt b' cs') := by
  unfold applyRelative
  split
  · rw [hcb.offset fp]
    refine agrees_bind_same _ fun dx => ?_
    rw [hcb.offset fp, same_left hb]
    have e := setContent_erase fp .h (b'.h.content.add fp dx) hb hc
    obtain ⟨e1, e2⟩ := Prod.mk.inj e
    refine agrees_bind_same _ fun dy => ?_
    refine agrees_ok ?_
    show erase (setContent fp .v ((setContent fp .h (b'.h.content.add fp dx) b cs).1.v.content.add fp dy) _ _) = erase (setContent fp .v _ _ _)
    rw [same_top e1]
    exact setContent_erase fp .v _ e1 e2
  · exact agrees_ok (by simp only [erase, hb, hc])

/-! ## The children -/

/-- Laying out a child that agrees with another one. -/
def Erases (lay lay' : Box → Node → Res Node) : Prop := ∀ b b' c c', b.noOrigin = b'.noOrigin → c.noOrigin = c'.noOrigin →
  Agrees Node.noOrigin (lay b c) (lay' b' c')

theorem inline_erase {lay lay' : Node → Res Node} : ∀ {cs cs' : List Node},
    List.Forall₂ (fun c c' => Agrees Node.noOrigin (lay c) (lay' c')) cs cs' →
    Agrees (List.map Node.noOrigin) (inlineLoop lay cs) (inlineLoop lay' cs') := by
  intro cs cs' h
  induction h with
  | nil => exact .refl _
  | @cons c c' cs cs' h _ ih =>
    have e : ∀ (lay : Node → Res Node) (c : Node) (cs : List Node), inlineLoop lay (c :: cs) = lay c >>= fun c' => inlineLoop lay cs >>= fun cs' => .ok (c' :: cs') := by
      intro lay c cs
      simp only [inlineLoop]
      cases lay c with
      | error _ => rfl
      | ok c' => cases h : inlineLoop lay cs <;> simp [Bind.bind, Except.bind, h]
    rw [e, e]
    exact agrees_bind h fun a b hab => agrees_bind ih fun as bs habs => agrees_ok (by simp only [List.map_cons, hab, habs])

/-- The result of one step without origins. -/
def eraseStack (x : Box × Node × Num × Option Int) : Box × Node × Num × Option Int := (x.1.noOrigin, x.2.1.noOrigin, x.2.2)

theorem stack_erase (fp : FP) {b b' : Box} (off : Num) (bm : Option Int) {c c' : Node} (hb : b.noOrigin = b'.noOrigin) (hc : c.noOrigin = c'.noOrigin) :
    Agrees eraseStack (stackChild fp b off bm c) (stackChild fp b' off bm c') := by
  obtain ⟨s, z, l, cs⟩ := c
  obtain ⟨s', z', l', cs'⟩ := c'
  simp only [noOrigin_mk] at hc
  injection hc with e1 e2 e3 e4
  subst e1 e2
  cases l with
  | none =>
    cases l' with
    | none => exact .refl _
    | some _ => cases e3
  | some cb =>
    cases l' with
    | none => cases e3
    | some cb' =>
      have e3 : cb.noOrigin = cb'.noOrigin := Option.some.inj e3
      have h1 : Agrees (fun x : Box × Num => (x.1.noOrigin, x.2)) (collapseAbove fp b off bm cb) (collapseAbove fp b' off bm cb') := by
        unfold collapseAbove
        cases bm with
        | none =>
          dsimp only
          rw [same_collapse e3]
          exact agrees_ok (by simp only [setCollapse_erase, hb])
        | some m =>
          dsimp only
          rw [same_margin e3]
          exact agrees_bind_same _ fun _ => agrees_ok (by simp only [hb])
      refine agrees_bind h1 ?_
      rintro ⟨b1, o1⟩ ⟨b2, o2⟩ e
      obtain ⟨e5, rfl⟩ := Prod.mk.inj e
      dsimp only
      rw [same_top e3]
      obtain ⟨e6, e7⟩ := Prod.mk.inj (setContent_erase fp .v (cb'.v.content.add fp o1) e3 e4)
      have k : ∀ b : Box, b.borderBoxHeight fp = b.noOrigin.borderBoxHeight fp := fun _ => rfl
      rw [k, e6, ← k]
      refine agrees_bind_same _ fun h => agrees_ok ?_
      simp only [eraseStack, noOrigin_mk, Option.map_some]
      rw [e6, e7, same_collapse e6, e5]

theorem anonymizeLoop_erase {cs cs' : List Node} (h : cs.map Node.noOrigin = cs'.map Node.noOrigin) : ∀ (xs ys : List Node),
    (∃ a r r', anonymizeLoop (some xs) cs = .anon a :: r ∧ ∃ a', anonymizeLoop (some ys) cs' = .anon a' :: r') ∨
      anonymizeLoop (some xs) cs = [] ∧ anonymizeLoop (some ys) cs' = [] := by
  have hf := forall₂_of_map h
  clear h
  induction hf with
  | nil => intro xs ys; exact Or.inr ⟨rfl, rfl⟩
  | @cons c c' cs cs' h _ ih =>
    intro xs ys
    have hst : c.style = c'.style := by rw [← noOrigin_style, h, noOrigin_style]
    simp only [anonymizeLoop, hst]
    split
    · exact Or.inl ⟨_, _, _, rfl, _, rfl⟩
    · exact ih _ _

theorem block_erase (fp : FP) {lay lay' : Box → Node → Res Node} (hl : ∀ b b' c c', b.noOrigin = b'.noOrigin → c.noOrigin = c'.noOrigin →
    Agrees Node.noOrigin (lay b c) (lay' b' c')) {cs cs' : List Node} (h : cs.map Node.noOrigin = cs'.map Node.noOrigin) :
    ∀ (b b' : Box) (off : Num) (bm : Option Int), b.noOrigin = b'.noOrigin →
      Agrees erase (blockLoop fp lay b off bm (anonymize cs)) (blockLoop fp lay' b' off bm (anonymize cs')) := by
  unfold anonymize
  have hf := forall₂_of_map h
  clear h
  induction hf with
  | nil => intro b b' off bm hb; exact agrees_ok (by simp only [erase, hb])
  | @cons c c' cs cs' h hr ih =>
    intro b b' off bm hb
    have hst : c.style = c'.style := by rw [← noOrigin_style, h, noOrigin_style]
    have hmap : cs.map Node.noOrigin = cs'.map Node.noOrigin := forall₂_map_eq hr
    simp only [anonymizeLoop, hst]
    split
    · have e : ∀ (lay : Box → Node → Res Node) (b : Box) (c : Node) (ks : List Container), blockLoop fp lay b off bm (.node c :: ks) =
          lay b c >>= fun c => stackChild fp b off bm c >>= fun x => blockLoop fp lay x.1 x.2.2.1 x.2.2.2 ks >>= fun y => .ok (y.1, x.2.1 :: y.2) := by
        intro lay b c ks
        simp only [blockLoop]
        cases lay b c with
        | error _ => rfl
        | ok c1 =>
          simp only [Bind.bind, Except.bind]
          cases stackChild fp b off bm c1 with
          | error _ => rfl
          | ok x =>
            obtain ⟨b1, c2, o1, m1⟩ := x
            simp only
            cases blockLoop fp lay b1 o1 m1 ks <;> rfl
      rw [e, e]
      refine agrees_bind (hl b b' c c' hb h) fun c1 c2 h1 => agrees_bind (stack_erase fp off bm hb h1) ?_
      rintro ⟨b1, k1, o1, m1⟩ ⟨b2, k2, o2, m2⟩ h2
      simp only [eraseStack, Prod.mk.injEq] at h2
      obtain ⟨e1, e2, rfl, rfl⟩ := h2
      refine agrees_bind (ih b1 b2 o1 m1 e1) ?_
      rintro ⟨b3, l3⟩ ⟨b4, l4⟩ h3
      obtain ⟨e3, e4⟩ := Prod.mk.inj h3
      exact agrees_ok (by simp only [erase, List.map_cons, e2, e3, e4])
    · rcases anonymizeLoop_erase hmap [c] [c'] with ⟨a, r, r', e1, a', e2⟩ | ⟨e1, e2⟩
      · rw [e1, e2]; exact .refl _
      · rw [e1, e2]; exact agrees_ok (by simp only [erase, hb])

theorem children_erase (fp : FP) {lay lay' : Box → Node → Res Node} (hl : ∀ b b' c c', b.noOrigin = b'.noOrigin → c.noOrigin = c'.noOrigin →
    Agrees Node.noOrigin (lay b c) (lay' b' c')) (s : CSS) (z : Intrinsic) {b b' : Box} {cs cs' : List Node} (hb : b.noOrigin = b'.noOrigin)
    (h : cs.map Node.noOrigin = cs'.map Node.noOrigin) : Agrees erase (layoutChildren fp lay s z b cs) (layoutChildren fp lay' s z b' cs') := by
  have hs : cs.map Node.strip = cs'.map Node.strip := forall₂_map_eq ((forall₂_of_map h).imp fun _ _ h => strip_of_noOrigin h)
  have hi : establishesInline s z cs = establishesInline s z cs' := inline_of_styles (styles_of_strips hs)
  unfold layoutChildren
  rw [hi]
  split
  · have := inline_erase (lay := lay b) (lay' := lay' b') ((forall₂_of_map h).imp fun c c' hc => hl b b' c c' hb hc)
    cases h1 : inlineLoop (lay b) cs with
    | error e =>
      cases h2 : inlineLoop (lay' b') cs' with
      | error e' => rw [h1, h2] at this; cases this; exact .refl _
      | ok _ => rw [h1, h2] at this; cases this
    | ok l =>
      cases h2 : inlineLoop (lay' b') cs' with
      | error e' => rw [h1, h2] at this; cases this
      | ok l' =>
        rw [h1, h2] at this
        exact agrees_ok (by simp only [erase, hb]; rw [show l.map Node.noOrigin = l'.map Node.noOrigin from Except.ok.inj this])
  · have := block_erase fp hl h b b' (.int 0) none hb
    cases h1 : blockLoop fp lay b (.int 0) none (anonymize cs) with
    | error e =>
      cases h2 : blockLoop fp lay' b' (.int 0) none (anonymize cs') with
      | error e' => rw [h1, h2] at this; cases this; exact .refl _
      | ok _ => rw [h1, h2] at this; cases this
    | ok x =>
      cases h2 : blockLoop fp lay' b' (.int 0) none (anonymize cs') with
      | error e' => rw [h1, h2] at this; cases this
      | ok y =>
        rw [h1, h2] at this
        obtain ⟨b1, l1⟩ := x
        obtain ⟨b2, l2⟩ := y
        obtain ⟨e1, e2⟩ := Prod.mk.inj (Except.ok.inj this)
        refine agrees_ok ?_
        have e2 : l1.map Node.noOrigin = l2.map Node.noOrigin := e2
        have el : l1.length = l2.length := by have := congrArg List.length e2; simpa using this
        simp only [erase, List.map_append, List.map_drop, e2, h, el]
        rw [show b1.noOrigin = b2.noOrigin from e1]

theorem body_erase (fp : FP) (d : Display) {lay lay' : Box → Node → Res Node} (hl : ∀ b b' c c', b.noOrigin = b'.noOrigin → c.noOrigin = c'.noOrigin →
    Agrees Node.noOrigin (lay b c) (lay' b' c')) (p : Option CSS) {cb cb' : CB} (hcb : cb.Agree cb') (s : CSS) (z : Intrinsic) {b b' : Box}
    {cs cs' : List Node} (hb : b.noOrigin = b'.noOrigin) (h : cs.map Node.noOrigin = cs'.map Node.noOrigin) :
    Agrees erase (layoutBody fp d lay p cb s z b cs) (layoutBody fp d lay' p cb' s z b' cs') := by
  unfold layoutBody
  rw [hcb.width, hcb.height]
  refine agrees_bind (copyEdges_erase fp s _ _ hb) fun b1 b2 h1 => agrees_bind (width_erase fp s z _ h1 h) ?_
  rintro ⟨b3, l3⟩ ⟨b4, l4⟩ e
  obtain ⟨e1, e2⟩ := Prod.mk.inj e
  refine agrees_bind (e := erase) ?_ ?_
  · unfold relativeHeight
    split
    · exact height_erase fp s z p _ e1 e2
    · exact agrees_ok e
  rintro ⟨b5, l5⟩ ⟨b6, l6⟩ e
  obtain ⟨e3, e4⟩ := Prod.mk.inj e
  dsimp only
  split
  · exact .refl _
  split
  · exact .refl _
  refine agrees_bind (children_erase fp hl s z e3 e4) ?_
  rintro ⟨b7, l7⟩ ⟨b8, l8⟩ e
  obtain ⟨e5, e6⟩ := Prod.mk.inj e
  refine agrees_bind (height_erase fp s z p _ e5 e6) ?_
  rintro ⟨b9, l9⟩ ⟨b10, l10⟩ e
  obtain ⟨e7, e8⟩ := Prod.mk.inj e
  exact relative_erase fp s hcb _ _ e7 e8

theorem layoutBox_erase (fp : FP) (d : Display) (f : Nat) : ∀ (p : Option CSS) (cb cb' : CB) (n n' : Node), cb.Agree cb' → n.noOrigin = n'.noOrigin →
    Agrees Node.noOrigin (layoutBox fp d f p cb n) (layoutBox fp d f p cb' n') := by
  induction f with
  | zero => intro _ _ _ _ _ _ _; exact .refl _
  | succ f ih =>
    rintro p cb cb' ⟨s, z, l, cs⟩ ⟨s', z', l', cs'⟩ hcb h
    simp only [noOrigin_mk] at h
    injection h with e1 e2 e3 e4
    subst e1 e2
    have key : ∀ {b b' : Box} {cs cs' : List Node}, b.noOrigin = b'.noOrigin → cs.map Node.noOrigin = cs'.map Node.noOrigin →
        Agrees Node.noOrigin (layoutBox fp d (f + 1) p cb (.mk s z (some b) cs)) (layoutBox fp d (f + 1) p cb' (.mk s z (some b') cs')) := by
      intro b b' cs cs' hb hc
      cases hn : (s.get .display).isNone with
      | true =>
        rw [layoutBox_hidden hn, layoutBox_hidden hn]
        exact agrees_ok (by simp only [noOrigin_mk, hc])
      | false =>
        have := body_erase fp d (lay := fun b n => layoutBox fp d f (some s) (.box b) n) (lay' := fun b n => layoutBox fp d f (some s) (.box b) n)
          (fun b b' c c' h1 h2 => ih _ _ _ _ _ h1 h2) p hcb s z hb hc
        simp only [layoutBox, hn, Bool.false_eq_true, if_false]
        cases h1 : layoutBody fp d (fun b n => layoutBox fp d f (some s) (.box b) n) p cb s z b cs with
        | error e =>
          cases h2 : layoutBody fp d (fun b n => layoutBox fp d f (some s) (.box b) n) p cb' s z b' cs' with
          | error e' => rw [h1, h2] at this; cases this; exact .refl _
          | ok _ => rw [h1, h2] at this; cases this
        | ok x =>
          cases h2 : layoutBody fp d (fun b n => layoutBox fp d f (some s) (.box b) n) p cb' s z b' cs' with
          | error e' => rw [h1, h2] at this; cases this
          | ok y =>
            rw [h1, h2] at this
            obtain ⟨b1, l1⟩ := x
            obtain ⟨b2, l2⟩ := y
            obtain ⟨e1, e2⟩ := Prod.mk.inj (Except.ok.inj this)
            refine agrees_ok ?_
            simp only [noOrigin_mk, Option.map_some]
            rw [show b1.noOrigin = b2.noOrigin from e1, show l1.map Node.noOrigin = l2.map Node.noOrigin from e2]
    cases l with
    | some b =>
      cases l' with
      | none => cases e3
      | some b' => exact key (Option.some.inj e3) e4
    | none =>
      cases l' with
      | some _ => cases e3
      | none =>
        cases hn : (s.get .display).isNone with
        | true =>
          rw [layoutBox_hidden hn, layoutBox_hidden hn]
          exact agrees_ok (by simp only [noOrigin_mk, e4])
        | false =>
          have hr : ∀ cs : List Node, (resetOne fp cs).2.map Node.noOrigin = cs.map Node.noOrigin := fun cs => by
            simp only [resetOne, setOrigins_noOrigin]
          have hx : ∀ (cb : CB) (cs : List Node), layoutBox fp d (f + 1) p cb (.mk s z none cs) =
              layoutBox fp d (f + 1) p cb (.mk s z (some (resetOne fp cs).1) (resetOne fp cs).2) := by
            intro cb cs
            simp only [layoutBox, hn, Bool.false_eq_true, if_false]
          rw [hx, hx]
          exact key rfl ((hr cs).trans (e4.trans (hr cs').symm))

end Colosseum
