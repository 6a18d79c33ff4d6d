import Verif.Spec.Blueprint
import Verif.Lemmas.Layout
import Verif.Lemmas.Reach
import Verif.Lemmas.Widths

/-!
# Lemmas: the engine follows the blueprint
-/

namespace Colosseum.Blue

open Colosseum

/-! ## Results -/

/-- Both fail, or both succeed with related results. -/
def Yields {α β : Type} (x : Res α) (o : Option β) (R : α → β → Prop) : Prop :=
  match x, o with
  | .ok a, some b => R a b
  | .error _, none => True
  | _, _ => False

theorem Yields.ok {α β : Type} {a : α} {b : β} {R : α → β → Prop} (h : R a b) : Yields (.ok a) (some b) R := h
theorem Yields.error {α β : Type} {e : Err} {R : α → β → Prop} : Yields (.error e) (none : Option β) R := trivial

theorem Yields.bind {α β γ δ : Type} {x : Res α} {o : Option β} {R : α → β → Prop} {f : α → Res γ} {g : β → Option δ} {S : γ → δ → Prop}
    (h : Yields x o R) (hf : ∀ a b, R a b → Yields (f a) (g b) S) : Yields (x >>= f) (o >>= g) S := by
  cases x with
  | error e =>
    cases o with
    | none => trivial
    | some b => exact h.elim
  | ok a =>
    cases o with
    | none => exact h.elim
    | some b => exact hf a b h

theorem Yields.imp {α β : Type} {x : Res α} {o : Option β} {R S : α → β → Prop} (h : Yields x o R) (hi : ∀ a b, R a b → S a b) : Yields x o S := by
  cases x <;> cases o <;> first | exact h | exact hi _ _ h

theorem Yields.cases {α β : Type} {x : Res α} {o : Option β} {R : α → β → Prop} (h : Yields x o R) :
    (o = none ∧ ∃ e, x = .error e) ∨ ∃ a b, x = .ok a ∧ o = some b ∧ R a b := by
  cases x with
  | error e => cases o with
    | none => exact .inl ⟨rfl, e, rfl⟩
    | some b => exact h.elim
  | ok a => cases o with
    | none => exact h.elim
    | some b => exact .inr ⟨a, b, rfl, rfl, h⟩

theorem Yields.of_toOption {α : Type} (x : Res α) : Yields x x.toOption Eq := by cases x <;> trivial

theorem Yields.map {α β γ : Type} {x : Res α} {o : Option β} {R : α → β → Prop} {S : α → γ → Prop} {g : β → γ} (h : Yields x o R)
    (hg : ∀ a b, R a b → S a (g b)) : Yields x (o.map g) S := by
  cases x <;> cases o <;> first | exact h | exact hg _ _ h

theorem Yields.map' {α β γ δ : Type} {x : Res α} {o : Option β} {R : α → β → Prop} {S : γ → δ → Prop} {f : α → γ} {g : β → δ} (h : Yields x o R)
    (hg : ∀ a b, R a b → S (f a) (g b)) : Yields (x.map f) (o.map g) S := by
  cases x <;> cases o <;> first | exact h | exact hg _ _ h

theorem Yields.bindMap {α β γ δ : Type} {x : Res α} {o : Option β} {R : α → β → Prop} {f : α → Res γ} {g : β → δ} {S : γ → δ → Prop}
    (h : Yields x o R) (hf : ∀ a b, R a b → Yields (f a) (some (g b)) S) : Yields (x >>= f) (o.map g) S := by
  cases x with
  | error e =>
    cases o with
    | none => trivial
    | some b => exact h.elim
  | ok a =>
    cases o with
    | none => exact h.elim
    | some b => exact hf a b h

theorem Yields.eq {α β : Type} {x : Res α} {o : Option β} {f : α → β} (h : Yields x o fun a b => f a = b) : x.toOption.map f = o := by
  cases x <;> cases o <;> first | exact h.elim | rfl | exact congrArg some h

theorem yields_need {α : Type} (o : Option α) : Yields (need o) o Eq := by cases o <;> trivial

/-! ## Sizes -/

theorem px_yields (fp : FP) (d : Display) (size : Option Num) (v : Val) :
    Yields (v.px fp ⟨d, dummyFont fp, size⟩) (v.inPixels fp d size) Eq := by
  cases v <;> first | exact Yields.of_toOption _ | trivial

theorem kw_str (a : PyStr) (s : String) : (Val.str a).isKw s = decide (a = lit s) := by
  show (a == lit s) = _
  exact beq_eq_decide _ _

theorem not_kw {v : Val} (h : ∀ a, v ≠ .str a) (s : String) : v.isKw s = false := by
  rw [Bool.eq_false_iff]; intro e; exact h _ ((isKw_iff v s).1 e)

theorem size_yields (fp : FP) (d : Display) (size : Option Num) (v : Val) :
    Yields (calculateSize fp v ⟨d, dummyFont fp, size⟩) (v.extent fp d size) Eq := by
  cases v with
  | str t =>
    simp only [calculateSize, kw_str, Val.extent, decide_eq_true_eq, Val.pyEq, Val.isNone, Bool.or_self, Bool.false_eq_true, if_false, Val.px]
    by_cases h1 : t = lit "auto"
    · rw [if_pos h1, if_pos h1]; exact rfl
    rw [if_neg h1, if_neg h1]
    by_cases h2 : t = lit "thin"
    · rw [if_pos h2, if_pos h2]; exact rfl
    rw [if_neg h2, if_neg h2]
    by_cases h3 : t = lit "medium"
    · rw [if_pos h3, if_pos h3]; exact rfl
    rw [if_neg h3, if_neg h3]
    by_cases h4 : t = lit "thick"
    · rw [if_pos h4, if_pos h4]; exact rfl
    rw [if_neg h4, if_neg h4]
    trivial
  | none => exact rfl
  | num x =>
    have hk : ∀ s, (Val.num x).isKw s = false := not_kw (by simp)
    simp only [calculateSize, hk, Bool.false_eq_true, if_false, Val.pyEq, Val.isNone, Bool.or_false, Val.extent, Val.px]
    split <;> trivial
  | unit u =>
    have hk : ∀ s, (Val.unit u).isKw s = false := not_kw (by simp)
    simp only [calculateSize, hk, Bool.false_eq_true, if_false, Val.pyEq, Val.isNone, Bool.or_false, Val.extent, Val.px, PyNum.isInt, Num.isInt, Bool.and_true,
      Bool.and_eq_true, beq_iff_eq]
    by_cases h : u.kind = UKind.len LKind.px ∧ u.val.pyEq (PyNum.fin (Num.int 0)) = true
    · rw [if_pos h, if_pos h]; exact rfl
    · rw [if_neg h, if_neg h]
      exact (Yields.of_toOption _).map' (fun a b h => congrArg MVal.num h)
  | _ => exact Yields.error (e := .attribute)

theorem edge_yields (fp : FP) (d : Display) (size : Option Num) (v : Val) :
    Yields (calculateEdge fp v ⟨d, dummyFont fp, size⟩) (v.thickness fp d size) Eq := by
  refine (size_yields fp d size v).bind ?_
  rintro a _ rfl
  cases a <;> trivial

/-! ## Figures -/

/-- What becomes of a collapsed margin. -/
def bump (i : Int) : MVal → Int
  | .num (.int j) => if i < j then j else i
  | _ => i

/-- What assigning to a collapsed margin does to the figures. -/
def _root_.Colosseum.Figures.merge (f : Figures) (t : Side) (x : MVal) : Figures :=
  match t with
  | .top => { f with above := bump f.above x }
  | .bottom => { f with below := bump f.below x }
  | _ => f

/-- What assigning to a margin does to the figures. -/
def _root_.Colosseum.Figures.put (f : Figures) (t : Side) (x : MVal) : Figures :=
  if x.pyEq (f.margin.get t) then f else ({ f with margin := f.margin.set t x } : Figures).merge t x

theorem setCollapse_figures (b : Box) (t : Side) (x : MVal) : (b.setCollapse t x).figures = b.figures.merge t x := by
  unfold Box.setCollapse Figures.merge bump
  rcases x with _ | ⟨i⟩ | q
  · cases t <;> rfl
  · by_cases h : b.collapse.get t < i
    · simp only [if_pos h]
      cases t
      · show _ = ({ b.figures with above := if b.collapse.top < i then i else b.collapse.top } : Figures)
        rw [if_pos (show b.collapse.top < i from h)]; rfl
      · rfl
      · show _ = ({ b.figures with below := if b.collapse.bottom < i then i else b.collapse.bottom } : Figures)
        rw [if_pos (show b.collapse.bottom < i from h)]; rfl
      · rfl
    · simp only [if_neg h]
      cases t
      · show _ = ({ b.figures with above := if b.collapse.top < i then i else b.collapse.top } : Figures)
        rw [if_neg (show ¬ b.collapse.top < i from h)]; rfl
      · rfl
      · show _ = ({ b.figures with below := if b.collapse.bottom < i then i else b.collapse.bottom } : Figures)
        rw [if_neg (show ¬ b.collapse.bottom < i from h)]; rfl
      · rfl
  · cases t <;> rfl

theorem setMargin_figures (b : Box) (t : Side) (x : MVal) : (b.setMargin t x).figures = b.figures.put t x := by
  unfold Box.setMargin Figures.put
  have e : b.figures.margin = b.margin := rfl
  rw [e]
  split
  · rfl
  · rw [setCollapse_figures]; rfl

/-- A margin as it is stored over the whole number 0. -/
def stored : MVal → MVal
  | .num x => .num ((Num.int 0).replacing x)
  | .auto => .auto

theorem pyEq_zero (x : Num) : (MVal.num x).pyEq (.num (.int 0)) = decide (x.val = (Num.int 0).val) := rfl

theorem stored_bump (x : MVal) : (stored x).collapsible = bump 0 x := by
  rcases x with _ | ⟨i⟩ | q
  · rfl
  · simp only [stored, Num.replacing, bump]
    by_cases h : (Num.int i).val = (Num.int 0).val
    · have : i = 0 := by simpa [Num.val] using h
      subst this; rfl
    · rw [if_neg h]
      show max 0 i = _
      split
      · exact max_eq_right (by omega)
      · exact max_eq_left (by omega)
  · simp only [stored, Num.replacing, bump]
    split <;> rfl

theorem put_zero (f : Figures) (t : Side) (x : MVal) (h : f.margin.get t = .num (.int 0)) (ha : 0 ≤ f.above) (hb : 0 ≤ f.below) :
    f.put t x = ({ f with margin := f.margin.set t (stored x) } : Figures).merge t x := by
  unfold Figures.put
  rw [h]
  rcases x with _ | x
  · rfl
  · rw [pyEq_zero]
    by_cases e : x.val = (Num.int 0).val
    · have es : stored (.num x) = .num (.int 0) := by simp only [stored, Num.replacing, if_pos e]
      rw [if_pos (by simpa using e), es]
      have em : f.margin.set t (.num (.int 0)) = f.margin := by
        cases hm : f.margin
        rw [hm] at h
        cases t <;> simp only [Edge.get] at h <;> subst h <;> rfl
      rw [em]
      have eb : ∀ i : Int, 0 ≤ i → bump i (.num x) = i := by
        intro i hi
        cases x with
        | int j =>
          have : j = 0 := by simpa [Num.val] using e
          subst this
          simp only [bump]
          exact if_neg (by omega)
        | flt q => rfl
      cases t <;> simp only [Figures.merge, eb _ ha, eb _ hb]
    · have es : stored (.num x) = .num x := by simp only [stored, Num.replacing, if_neg e]
      rw [if_neg (by simpa using e), es]

theorem copy_yields (fp : FP) (d : Display) (s : CSS) (W H : Option Num) (b : Box) (hb : b.figures = .zero) :
    Yields (copyEdges fp s ⟨d, dummyFont fp, W⟩ ⟨d, dummyFont fp, H⟩ b) (s.edges fp d W H) fun b' e =>
      b'.figures = { Figures.zero with margin := e.1, border := e.2.1, padding := e.2.2, above := e.1.top.collapsible, below := e.1.bottom.collapsible } := by
  have sp : ∀ v size, Yields (calculateSize fp v ⟨d, dummyFont fp, size⟩) (v.spacing fp d size) fun a b => b = stored a := by
    intro v size
    refine (size_yields fp d size v).map ?_
    rintro a _ rfl
    cases a <;> rfl
  unfold copyEdges CSS.edges
  refine (sp _ _).bind ?_; rintro mt _ rfl
  refine (sp _ _).bind ?_; rintro mr _ rfl
  refine (sp _ _).bind ?_; rintro mb _ rfl
  refine (sp _ _).bind ?_; rintro ml _ rfl
  refine (edge_yields _ _ _ _).bind ?_; rintro bt _ rfl
  refine (edge_yields _ _ _ _).bind ?_; rintro br _ rfl
  refine (edge_yields _ _ _ _).bind ?_; rintro bb _ rfl
  refine (edge_yields _ _ _ _).bind ?_; rintro bl _ rfl
  refine (edge_yields _ _ _ _).bind ?_; rintro pt _ rfl
  refine (edge_yields _ _ _ _).bind ?_; rintro pr _ rfl
  refine (edge_yields _ _ _ _).bind ?_; rintro pb _ rfl
  refine (edge_yields _ _ _ _).bind ?_; rintro pl _ rfl
  refine Yields.ok ?_
  have e : ∀ (b : Box) (x y : Edge Num), ({ b with border := x, padding := y } : Box).figures = { b.figures with border := x, padding := y } :=
    fun _ _ _ => rfl
  have nb : ∀ i : Int, 0 ≤ i → ∀ x, 0 ≤ bump i x := by
    intro i hi x
    rcases x with _ | ⟨j⟩ | q <;> simp only [bump] <;> first | exact hi | (split <;> omega)
  rw [e, setMargin_figures, setMargin_figures, setMargin_figures, setMargin_figures, hb,
    put_zero _ .top mt rfl (le_refl 0) (le_refl 0),
    put_zero _ .right mr rfl (nb _ (le_refl 0) _) (le_refl 0),
    put_zero _ .bottom mb rfl (nb _ (le_refl 0) _) (le_refl 0),
    put_zero _ .left ml rfl (nb _ (le_refl 0) _) (nb _ (le_refl 0) _), stored_bump, stored_bump]
  rfl

/-! ## Trees -/

mutual
/-- The document with unwritten boxes. -/
def _root_.Colosseum.Node.skel : Node → Node
  | .mk s z l cs => .mk s z (l.map fun _ => Box.fresh) (skelAll cs)
/-- See `Node.skel`. -/
def skelAll : List Node → List Node
  | [] => []
  | c :: cs => c.skel :: skelAll cs
end

theorem skelAll_map (cs : List Node) : skelAll cs = cs.map Node.skel := by
  induction cs with
  | nil => rfl
  | cons c cs ih => simp only [skelAll, ih, List.map_cons]

theorem drawnAll_map (cs : List Node) : drawnAll cs = cs.map Node.drawn := by
  induction cs with
  | nil => rfl
  | cons c cs ih => simp only [drawnAll, ih, List.map_cons]

theorem blankAll_map (cs : List Node) : blankAll cs = cs.map Node.blank := by
  induction cs with
  | nil => rfl
  | cons c cs ih => simp only [blankAll, ih, List.map_cons]

theorem skel_mk (s : CSS) (z : Intrinsic) (l : Option Box) (cs : List Node) :
    (Node.mk s z l cs).skel = .mk s z (l.map fun _ => Box.fresh) (cs.map Node.skel) := by
  simp only [Node.skel, skelAll_map]

theorem setOrigin_skel (fp : FP) (a : Axis) (n : Node) : ∀ v, (n.setOrigin fp a v).skel = n.skel ∧ (n.setOrigin fp a v).drawn = n.drawn := by
  induction n using Node.ind with
  | h s z l cs ih =>
    intro v
    cases l with
    | none => exact ⟨rfl, rfl⟩
    | some b =>
      simp only [Node.setOrigin]
      split
      · exact ⟨rfl, rfl⟩
      · refine ⟨?_, ?_⟩
        · simp only [skel_mk, setOrigins_map, List.map_map]
          congr 1
          exact List.map_congr_left fun c hc => (ih c hc _).1
        · simp only [Node.drawn, drawnAll_map, setOrigins_map, List.map_map]
          congr 1
          · cases a <;> rfl
          · exact List.map_congr_left fun c hc => (ih c hc _).2

/-- The same children, apart from origins. -/
structure Like (cs cs' : List Node) : Prop where
  skel : cs'.map Node.skel = cs.map Node.skel
  drawn : cs'.map Node.drawn = cs.map Node.drawn

theorem Like.refl (cs : List Node) : Like cs cs := ⟨rfl, rfl⟩
theorem Like.trans {cs ds es : List Node} (h : Like cs ds) (h' : Like ds es) : Like cs es := ⟨h'.skel.trans h.skel, h'.drawn.trans h.drawn⟩

theorem setOrigins_like (fp : FP) (a : Axis) (v : Num) (cs : List Node) : Like cs (setOrigins fp a v cs) := by
  rw [setOrigins_map]
  constructor
  · rw [List.map_map]; exact List.map_congr_left fun c _ => (setOrigin_skel fp a c v).1
  · rw [List.map_map]; exact List.map_congr_left fun c _ => (setOrigin_skel fp a c v).2

theorem setContent_like (fp : FP) (a : Axis) (v : Num) (b : Box) (cs : List Node) : Like cs (setContent fp a v b cs).2 := by
  unfold setContent
  split
  · exact .refl _
  · exact setOrigins_like ..

theorem setContent_h (fp : FP) (v : Num) (b : Box) (cs : List Node) :
    (setContent fp .h v b cs).1.figures = { b.figures with x := b.figures.x.replacing v } := by
  unfold setContent Num.replacing
  by_cases e : v.val = b.h.content.val
  · rw [if_pos (show v.pyEq (b.pos .h).content = true by simpa [Num.pyEq, Box.pos] using e), if_pos (show v.val = b.figures.x.val from e)]
  · rw [if_neg (show ¬ v.pyEq (b.pos .h).content = true by simpa [Num.pyEq, Box.pos] using e), if_neg (show ¬ v.val = b.figures.x.val from e)]
    rfl

theorem setContent_v (fp : FP) (v : Num) (b : Box) (cs : List Node) :
    (setContent fp .v v b cs).1.figures = { b.figures with y := b.figures.y.replacing v } := by
  unfold setContent Num.replacing
  by_cases e : v.val = b.v.content.val
  · rw [if_pos (show v.pyEq (b.pos .v).content = true by simpa [Num.pyEq, Box.pos] using e), if_pos (show v.val = b.figures.y.val from e)]
  · rw [if_neg (show ¬ v.pyEq (b.pos .v).content = true by simpa [Num.pyEq, Box.pos] using e), if_neg (show ¬ v.val = b.figures.y.val from e)]
    rfl

/-! ## Widths -/

theorem auto_left (b : Box) : (autoMarginToZero b .left).figures =
    { b.figures with margin := { b.figures.margin with left := .num b.figures.margin.left.grounded } } := by
  have e : b.figures.margin = b.margin := rfl
  rw [e]
  unfold autoMarginToZero
  cases h : b.margin.get .left with
  | auto =>
    simp only []
    rw [setMargin_figures, Figures.put, e, h]
    rw [show b.margin.left = .auto from h]
    rfl
  | num x =>
    simp only []
    rw [show b.margin.left = .num x from h]
    have : ({ b.margin with left := .num x } : Edge MVal) = b.margin := by rw [← show b.margin.left = .num x from h]
    show b.figures = { b.figures with margin := { b.margin with left := .num x } }
    rw [this]; rfl

theorem auto_right (b : Box) : (autoMarginToZero b .right).figures =
    { b.figures with margin := { b.figures.margin with right := .num b.figures.margin.right.grounded } } := by
  have e : b.figures.margin = b.margin := rfl
  rw [e]
  unfold autoMarginToZero
  cases h : b.margin.get .right with
  | auto =>
    simp only []
    rw [setMargin_figures, Figures.put, e, h]
    rw [show b.margin.right = .auto from h]
    rfl
  | num x =>
    simp only []
    rw [show b.margin.right = .num x from h]
    have : ({ b.margin with right := .num x } : Edge MVal) = b.margin := by rw [← show b.margin.right = .num x from h]
    show b.figures = { b.figures with margin := { b.margin with right := .num x } }
    rw [this]; rfl

theorem bump_zero {i : Int} (h : 0 ≤ i) : bump i (.num (.int 0)) = i := if_neg (by omega)

theorem auto_top (b : Box) (h0 : 0 ≤ b.figures.above) : (autoMarginToZero b .top).figures =
    { b.figures with margin := { b.figures.margin with top := .num b.figures.margin.top.grounded } } := by
  have e : b.figures.margin = b.margin := rfl
  rw [e]
  unfold autoMarginToZero
  cases h : b.margin.get .top with
  | auto =>
    simp only []
    rw [setMargin_figures, Figures.put, e, h]
    rw [show b.margin.top = .auto from h]
    show ({ b.figures with margin := _, above := bump b.figures.above (.num (.int 0)) } : Figures) = _
    rw [bump_zero h0]; rfl
  | num x =>
    simp only []
    rw [show b.margin.top = .num x from h]
    have : ({ b.margin with top := .num x } : Edge MVal) = b.margin := by rw [← show b.margin.top = .num x from h]
    show b.figures = { b.figures with margin := { b.margin with top := .num x } }
    rw [this]; rfl

theorem auto_bottom (b : Box) (h0 : 0 ≤ b.figures.below) : (autoMarginToZero b .bottom).figures =
    { b.figures with margin := { b.figures.margin with bottom := .num b.figures.margin.bottom.grounded } } := by
  have e : b.figures.margin = b.margin := rfl
  rw [e]
  unfold autoMarginToZero
  cases h : b.margin.get .bottom with
  | auto =>
    simp only []
    rw [setMargin_figures, Figures.put, e, h]
    rw [show b.margin.bottom = .auto from h]
    show ({ b.figures with margin := _, below := bump b.figures.below (.num (.int 0)) } : Figures) = _
    rw [bump_zero h0]; rfl
  | num x =>
    simp only []
    rw [show b.margin.bottom = .num x from h]
    have : ({ b.margin with bottom := .num x } : Edge MVal) = b.margin := by rw [← show b.margin.bottom = .num x from h]
    show b.figures = { b.figures with margin := { b.margin with bottom := .num x } }
    rw [this]; rfl

/-- A figure set with other horizontal margins. -/
def _root_.Colosseum.Figures.beside (f : Figures) (l r : Num) : Figures := { f with margin := { f.margin with left := .num l, right := .num r } }

theorem auto_sides (b : Box) : (autoMarginToZero (autoMarginToZero b .left) .right).figures =
    b.figures.beside b.figures.margin.left.grounded b.figures.margin.right.grounded := by
  rw [auto_right, auto_left]; rfl

theorem put_left (f : Figures) (x : Num) : f.put .left (.num x) = { f with margin := { f.margin with left := .num (match f.margin.left with
    | .auto => x
    | .num y => y.replacing x) } } := by
  unfold Figures.put
  cases h : f.margin.left with
  | auto => rw [show f.margin.get .left = .auto from h]; rfl
  | num y =>
    rw [show f.margin.get .left = .num y from h]
    simp only [Num.replacing]
    by_cases e : x.val = y.val
    · rw [if_pos (show (MVal.num x).pyEq (.num y) = true by simpa [MVal.pyEq, Num.pyEq] using e), if_pos e]
      have : ({ f.margin with left := .num y } : Edge MVal) = f.margin := by rw [← h]
      rw [this]
    · rw [if_neg (show ¬ (MVal.num x).pyEq (.num y) = true by simpa [MVal.pyEq, Num.pyEq] using e), if_neg e]; rfl

theorem put_right (f : Figures) (x : Num) : f.put .right (.num x) = { f with margin := { f.margin with right := .num (match f.margin.right with
    | .auto => x
    | .num y => y.replacing x) } } := by
  unfold Figures.put
  cases h : f.margin.right with
  | auto => rw [show f.margin.get .right = .auto from h]; rfl
  | num y =>
    rw [show f.margin.get .right = .num y from h]
    simp only [Num.replacing]
    by_cases e : x.val = y.val
    · rw [if_pos (show (MVal.num x).pyEq (.num y) = true by simpa [MVal.pyEq, Num.pyEq] using e), if_pos e]
      have : ({ f.margin with right := .num y } : Edge MVal) = f.margin := by rw [← h]
      rw [this]
    · rw [if_neg (show ¬ (MVal.num x).pyEq (.num y) = true by simpa [MVal.pyEq, Num.pyEq] using e), if_neg e]; rfl

/-- The end of `solveMargins`. -/
def solveTail (fp : FP) (s : CSS) (size w : Num) (b : Box) : Box :=
  match b.margin.left, b.margin.right with
  | .num ml, .num mr =>
    if (s.get .direction).isKw "ltr" then
      b.setMargin .right (.num
        (subAll fp size [ml, b.border.left, b.padding.left, w, b.padding.right, b.border.right]))
    else
      b.setMargin .left (.num
        (subAll fp size [b.border.left, b.padding.left, w, b.padding.right, b.border.right, mr]))
  | .auto, .num mr =>
    b.setMargin .left (.num
      (subAll fp size [b.border.left, b.padding.left, w, b.padding.right, b.border.right, mr]))
  | .num ml, .auto =>
    b.setMargin .right (.num
      (subAll fp size [ml, b.border.left, b.padding.left, w, b.padding.right, b.border.right]))
  | .auto, .auto =>
    let avail := subAll fp size [b.border.left, b.padding.left, w, b.padding.right, b.border.right]
    (b.setMargin .left (.num (avail.floorDiv2 fp))).setMargin .right (.num (avail.floorDiv2 fp))

/-- The margins at the end of `solveMargins`. -/
def tailMargins (fp : FP) (ltr : Bool) (W w : Num) (b p : Edge Num) (l r : MVal) : Num × Num :=
  match l, r with
  | .num l, .num r =>
    if ltr then (l, r.replacing (leftover fp W w b p [l] []))
    else (l.replacing (leftover fp W w b p [] [r]), r)
  | .auto, .num r => (leftover fp W w b p [] [r], r)
  | .num l, .auto => (l, leftover fp W w b p [l] [])
  | .auto, .auto => ((leftover fp W w b p [] []).floorDiv2 fp, (leftover fp W w b p [] []).floorDiv2 fp)

theorem tail_figures (fp : FP) (s : CSS) (W w : Num) (b : Box) : (solveTail fp s W w b).figures =
    b.figures.beside (tailMargins fp ((s.get .direction).isKw "ltr") W w b.figures.border b.figures.padding b.figures.margin.left b.figures.margin.right).1
      (tailMargins fp ((s.get .direction).isKw "ltr") W w b.figures.border b.figures.padding b.figures.margin.left b.figures.margin.right).2 := by
  have em : b.figures.margin = b.margin := rfl
  unfold solveTail tailMargins
  rw [em]
  rcases hl : b.margin.left with _ | ml <;> rcases hr : b.margin.right with _ | mr <;> simp only []
  · rw [setMargin_figures, setMargin_figures, put_right, put_left, em, hl]
    simp only []
    rw [hr]; rfl
  · rw [setMargin_figures, put_left, em, hl]
    unfold Figures.beside
    rw [em]
    have : ∀ x, ({ b.margin with left := x, right := .num mr } : Edge MVal) = { b.margin with left := x } := by intro x; rw [← hr]
    rw [this]; rfl
  · rw [setMargin_figures, put_right, em, hr]
    unfold Figures.beside
    rw [em]
    have : ∀ x, ({ b.margin with left := .num ml, right := x } : Edge MVal) = { b.margin with right := x } := by intro x; rw [← hl]
    rw [this]; rfl
  · split
    · rw [setMargin_figures, put_right, em, hr]
      unfold Figures.beside
      rw [em]
      have : ∀ x, ({ b.margin with left := .num ml, right := x } : Edge MVal) = { b.margin with right := x } := by intro x; rw [← hl]
      rw [this]; rfl
    · rw [setMargin_figures, put_left, em, hl]
      unfold Figures.beside
      rw [em]
      have : ∀ x, ({ b.margin with left := x, right := .num mr } : Edge MVal) = { b.margin with left := x } := by intro x; rw [← hr]
      rw [this]; rfl

theorem solve_figures (fp : FP) (s : CSS) (W w : Num) (b : Box) : (solveMargins fp s W w b).figures =
    b.figures.beside (sideMargins fp ((s.get .direction).isKw "ltr") W w b.figures.border b.figures.padding b.figures.margin.left b.figures.margin.right).1
      (sideMargins fp ((s.get .direction).isKw "ltr") W w b.figures.border b.figures.padding b.figures.margin.left b.figures.margin.right).2 := by
  have em : b.figures.margin = b.margin := rfl
  have e : solveMargins fp s W w b = solveTail fp s W w (if W.pyLt (addMargin fp (addMargin fp
      (addAll fp b.border.left [b.padding.left, w, b.padding.right, b.border.right]) b.margin.left) b.margin.right) then
        autoMarginToZero (autoMarginToZero b .left) .right else b) := rfl
  rw [e]
  by_cases h : W.pyLt (addMargin fp (addMargin fp
      (addAll fp b.border.left [b.padding.left, w, b.padding.right, b.border.right]) b.margin.left) b.margin.right) = true
  · rw [if_pos h, tail_figures, auto_sides]
    have h := of_decide_eq_true h
    unfold sideMargins tailMargins
    rw [em]
    rcases hl : b.margin.left with _ | ml <;> rcases hr : b.margin.right with _ | mr <;> rw [hl, hr] at h <;>
      simp only [Figures.beside, MVal.grounded]
    · rw [if_pos (show W.val < (b.figures.border.left.plus fp [b.figures.padding.left, w, b.figures.padding.right, b.figures.border.right]).val from h)]
    · rw [if_pos (show W.val < ((b.figures.border.left.plus fp [b.figures.padding.left, w, b.figures.padding.right, b.figures.border.right]).plus fp [mr]).val from h)]
    · rw [if_pos (show W.val < ((b.figures.border.left.plus fp [b.figures.padding.left, w, b.figures.padding.right, b.figures.border.right]).plus fp [ml]).val from h)]
  · rw [if_neg h, tail_figures]
    have h : ¬ _ := fun hh => h (decide_eq_true hh)
    unfold sideMargins tailMargins
    rw [em]
    rcases hl : b.margin.left with _ | ml <;> rcases hr : b.margin.right with _ | mr <;> rw [hl, hr] at h <;> simp only []
    · rw [if_neg (show ¬ W.val < (b.figures.border.left.plus fp [b.figures.padding.left, w, b.figures.padding.right, b.figures.border.right]).val from h)]
    · rw [if_neg (show ¬ W.val < ((b.figures.border.left.plus fp [b.figures.padding.left, w, b.figures.padding.right, b.figures.border.right]).plus fp [mr]).val from h)]
    · rw [if_neg (show ¬ W.val < ((b.figures.border.left.plus fp [b.figures.padding.left, w, b.figures.padding.right, b.figures.border.right]).plus fp [ml]).val from h)]

theorem clamp_yields (fp : FP) (d : Display) (s : CSS) (W : Option Num) :
    Yields (clampedWidth fp s ⟨d, dummyFont fp, W⟩) (s.givenWidth fp d W) Eq := by
  have least : ∀ w : Num, Yields (if (s.get .minWidth).isKw "auto" then pure w
      else do
        let m ← (s.get .minWidth).px fp ⟨d, dummyFont fp, W⟩
        pure (if w.pyLt m then m else w))
      (do let least ← (if (s.get .minWidth).isKw "auto" then some w else (s.get .minWidth).inPixels fp d W : Option Num)
          some (if w.val < least.val then least else w)) Eq := by
    intro w
    by_cases h : (s.get .minWidth).isKw "auto" = true
    · rw [if_pos h, if_pos h]
      show w = _
      exact (ite_self w).symm
    · rw [if_neg h, if_neg h]
      refine (px_yields fp d W _).bind ?_
      rintro m _ rfl
      show (if w.pyLt m = true then m else w) = if w.val < m.val then m else w
      simp only [Num.pyLt, decide_eq_true_eq]
  unfold clampedWidth CSS.givenWidth
  refine (px_yields fp d W _).bind ?_
  rintro w _ rfl
  by_cases h : (s.get .maxWidth).isNone = true
  · rw [if_pos h, if_pos h]
    show Yields _ ((some w) >>= _) Eq
    simp only [Option.bind_eq_bind, Option.bind_some, ite_self]
    exact least w
  · rw [if_neg h, if_neg h]
    refine (px_yields fp d W _).bind ?_
    rintro m _ rfl
    simp only [pure_bind]
    have : (if m.pyLt w = true then m else w) = if m.val < w.val then m else w := by simp only [Num.pyLt, decide_eq_true_eq]
    rw [this]
    exact least _

theorem blockish_eq (n : Node) : n.blockish = isBlockLevel n.style := by
  simp only [Node.blockish, isBlockLevel, List.any_cons, List.any_nil, Bool.or_false, Bool.or_assoc]

theorem piles_eq (s : CSS) (z : Intrinsic) (l : Option Box) (cs : List Node) : (Node.mk s z l cs).piles = !establishesInline s z cs := by
  have e : (Node.mk s z l cs).piles = (isBlockContainer s z && cs.any fun c => isBlockLevel c.style) := by
    simp only [Node.piles, isBlockContainer, List.any_cons, List.any_nil, Bool.or_false, Bool.or_assoc, Node.style, Node.intrinsic, Node.children]
    congr 2
    exact funext blockish_eq
  rw [e, establishesInline]
  cases isBlockContainer s z <;> simp

/-- What the kind of an element means in the engine. -/
inductive Mannered (s : CSS) (z : Intrinsic) : Option Manner → Prop
  | inline : isFloat s = false → isAbsolute s = false → isInline s = true → z.isReplaced = false → Mannered s z (some .inline)
  | image : isFloat s = false → isAbsolute s = false → isInline s = true → z.isReplaced = true → Mannered s z (some .image)
  | block : isFloat s = false → isAbsolute s = false → isInline s = false → isBlockLevel s = true → z.isReplaced = false → Mannered s z (some .block)
  | none : (isFloat s = true ∨ isAbsolute s = true ∨ isInline s = false ∧ (isBlockLevel s = false ∨ z.isReplaced = true)) → Mannered s z Option.none

theorem mannered (s : CSS) (z : Intrinsic) (l : Option Box) (cs : List Node) : Mannered s z (Node.mk s z l cs).manner := by
  have e : (Node.mk s z l cs).manner = if isFloat s || isAbsolute s then none
      else if isInline s then some (if z.isReplaced then .image else .inline)
      else if isBlockLevel s && !z.isReplaced then some .block
      else none := by
    simp only [Node.manner, blockish_eq, Node.style, Node.intrinsic, List.any_cons, List.any_nil, Bool.or_false]
    rfl
  rw [e]
  cases h1 : isFloat s
  · cases h2 : isAbsolute s
    · cases h3 : isInline s
      · cases h4 : isBlockLevel s
        · exact .none (.inr (.inr ⟨h3, .inl h4⟩))
        · cases h5 : z.isReplaced
          · exact .block h1 h2 h3 h4 h5
          · exact .none (.inr (.inr ⟨h3, .inr h5⟩))
      · cases h5 : z.isReplaced
        · exact .inline h1 h2 h3 h5
        · exact .image h1 h2 h3 h5
    · exact .none (.inr (.inl h2))
  · exact .none (.inl h1)

theorem width_none {fp : FP} {s : CSS} {z : Intrinsic} (h : Mannered s z none) (c : PxCtx) (b : Box) (cs : List Node) :
    ∃ e, widthAndMargins fp s z c b cs = .error e := by
  cases h with
  | none h =>
    unfold widthAndMargins
    rcases h with h | h | ⟨h, h'⟩
    · rw [if_pos h]; exact ⟨_, rfl⟩
    · split <;> exact ⟨_, rfl⟩
    · split
      · exact ⟨_, rfl⟩
      split
      · exact ⟨_, rfl⟩
      rw [if_neg (by rw [h]; simp)]
      rcases h' with h' | h'
      · rw [if_neg (by rw [h']; simp)]
        split <;> exact ⟨_, rfl⟩
      · split
        · exact ⟨_, rfl⟩
        · split <;> exact ⟨_, rfl⟩

theorem place_figures (fp : FP) (b : Box) (w : Option Num) (cs : List Node) {l : Num} (h : b.figures.margin.left = .num l) :
    placeLeft fp { b with contentWidth := w } cs =
      .ok (setContent fp .h (l.plus fp [b.figures.border.left, b.figures.padding.left]) { b with contentWidth := w } cs) := by
  unfold placeLeft
  show (b.margin.left.toNum >>= _) = _
  rw [show b.margin.left = .num l from h]; rfl

theorem imageWidth_yields (fp : FP) (d : Display) (s : CSS) (z : Intrinsic) (W : Option Num) (b : Box) {l r : Num}
    (hl : b.figures.margin.left = .num l) (hr : b.figures.margin.right = .num r) :
    Yields (inlineReplacedContentWidth fp s z ⟨d, dummyFont fp, W⟩ b) (s.imageWidth fp d z W b.figures.border b.figures.padding l r) Eq := by
  unfold inlineReplacedContentWidth CSS.imageWidth
  by_cases hw : (s.get .width).isKw "auto" = true
  · rw [if_pos hw, if_neg (show ¬ (!(s.get .width).isKw "auto") = true by rw [hw]; simp)]
    by_cases hh : (s.get .height).isKw "auto" = true
    · rw [if_pos hh]
      rcases z with ⟨zw, zh, e1, e2, zr, e3⟩
      cases zw with
      | some w => exact rfl
      | none =>
        simp only []
        rw [if_pos hh]
        cases zr with
        | none => cases zh <;> exact rfl
        | some q =>
          cases zh with
          | some h => exact rfl
          | none =>
            simp only []
            rw [show b.margin.left = .num l from hl, show b.margin.right = .num r from hr]
            cases W <;> trivial
    · rw [if_neg hh]
      cases z.width with
      | some w => exact rfl
      | none => simp only []; rw [if_neg hh]; exact rfl
  · rw [if_neg hw, if_pos (by simpa using hw)]
    exact px_yields ..

/-- What the first part of the layout does to the figures. -/
def _root_.Colosseum.Figures.wide (fp : FP) (f : Figures) (k : Manner) (r : Option Num × Num × Num) : Figures :=
  { f with width := r.1, margin := { f.margin with left := .num r.2.1, right := .num r.2.2 },
           x := if k = .inline then f.x else f.x.replacing (r.2.1.plus fp [f.border.left, f.padding.left]) }

theorem width_yields (fp : FP) (d : Display) (s : CSS) (z : Intrinsic) (l : Option Box) (ks : List Node) {k : Manner} (hk : Mannered s z (some k))
    (W : Option Num) (b : Box) (cs : List Node) :
    Yields (widthAndMargins fp s z ⟨d, dummyFont fp, W⟩ b cs)
      ((Node.mk s z l ks).across fp d W b.figures.margin b.figures.border b.figures.padding k)
      fun b' r => Like cs b'.2 ∧ b'.1.figures = b.figures.wide fp k r := by
  unfold widthAndMargins
  cases hk with
  | inline h1 h2 h3 h4 =>
    rw [if_neg (by rw [h1]; simp), if_neg (by rw [h2]; simp), if_pos h3, if_neg (by rw [h4]; simp)]
    refine Yields.ok ⟨.refl _, ?_⟩
    unfold inlineWidth
    show ({ (autoMarginToZero (autoMarginToZero b .left) .right).figures with width := z.width } : Figures) = _
    rw [auto_sides]; rfl
  | image h1 h2 h3 h4 =>
    rw [if_neg (by rw [h1]; simp), if_neg (by rw [h2]; simp), if_pos h3, if_pos h4]
    unfold inlineReplacedWidth
    simp only []
    have e := auto_sides b
    generalize autoMarginToZero (autoMarginToZero b .left) .right = b1 at e
    have hy := imageWidth_yields fp d s z W b1 (l := b.figures.margin.left.grounded) (r := b.figures.margin.right.grounded)
      (by rw [e]; rfl) (by rw [e]; rfl)
    have ee : b1.figures.border = b.figures.border := by rw [e]; rfl
    have ep : b1.figures.padding = b.figures.padding := by rw [e]; rfl
    rw [ee, ep] at hy
    refine Yields.bindMap hy ?_
    rintro w _ rfl
    rw [place_figures fp b1 _ _ (l := b.figures.margin.left.grounded)
      (show b1.figures.margin.left = _ by rw [e]; rfl)]
    refine Yields.ok ⟨setContent_like .., ?_⟩
    rw [setContent_h]
    show ({ b1.figures with width := some w, x := Num.replacing _ (Num.plus fp _ [b1.figures.border.left, b1.figures.padding.left]) } : Figures) = _
    rw [ee, ep]
    show ({ b1.figures with width := some w, x := b1.figures.x.replacing (Num.plus fp _ [b.figures.border.left, b.figures.padding.left]) } : Figures) = _
    rw [e]; rfl
  | block h1 h2 h3 h4 h5 =>
    rw [if_neg (by rw [h1]; simp), if_neg (by rw [h2]; simp), if_neg (by rw [h3]; simp), if_pos h4, if_neg (by rw [h5]; simp)]
    unfold blockWidth Node.across
    by_cases hw : (s.get .width).isKw "auto" = true
    · rw [if_pos hw, if_pos (show ((Node.mk s z l ks).style.get .width).isKw "auto" = true from hw)]
      have e := auto_sides b
      simp only []
      generalize autoMarginToZero (autoMarginToZero b .left) .right = b1 at e
      cases W with
      | none => trivial
      | some W =>
        have hl : b1.margin.left = .num b.figures.margin.left.grounded := show b1.figures.margin.left = _ by rw [e]; rfl
        have hr : b1.margin.right = .num b.figures.margin.right.grounded := show b1.figures.margin.right = _ by rw [e]; rfl
        have ee : b1.figures.border = b.figures.border := by rw [e]; rfl
        have ep : b1.figures.padding = b.figures.padding := by rw [e]; rfl
        show Yields (b1.margin.left.toNum >>= fun ml => b1.margin.right.toNum >>= fun mr =>
          placeLeft fp { b1 with contentWidth := some (remainingWidth fp W ml mr b1) } cs) _ _
        rw [hl, hr]
        show Yields (placeLeft fp { b1 with contentWidth := some (remainingWidth fp W b.figures.margin.left.grounded b.figures.margin.right.grounded b1) } cs) _ _
        rw [place_figures fp b1 _ _ (l := b.figures.margin.left.grounded) hl]
        refine Yields.ok ⟨setContent_like .., ?_⟩
        rw [setContent_h]
        show ({ b1.figures with
          width := some (W.less fp [_, b1.figures.border.left, b1.figures.padding.left, b1.figures.padding.right, b1.figures.border.right, _])
          x := b1.figures.x.replacing (Num.plus fp _ [b1.figures.border.left, b1.figures.padding.left]) } : Figures) = _
        rw [ee, ep, e]; rfl
    · rw [if_neg hw, if_neg (show ¬ ((Node.mk s z l ks).style.get .width).isKw "auto" = true from hw)]
      refine Yields.bind (clamp_yields fp d s W) ?_
      rintro w _ rfl
      cases W with
      | none => trivial
      | some W =>
        have e := solve_figures fp s W w b
        show Yields (placeLeft fp { solveMargins fp s W w b with contentWidth := some w } cs) _ _
        generalize solveMargins fp s W w b = b1 at e
        rw [place_figures fp b1 _ _ (l := (sideMargins fp ((s.get .direction).isKw "ltr") W w b.figures.border b.figures.padding b.figures.margin.left
          b.figures.margin.right).1) (show b1.figures.margin.left = _ by rw [e]; rfl)]
        refine Yields.ok ⟨setContent_like .., ?_⟩
        rw [setContent_h]
        have ee : b1.figures.border = b.figures.border := by rw [e]; rfl
        have ep : b1.figures.padding = b.figures.padding := by rw [e]; rfl
        show ({ b1.figures with width := some w, x := b1.figures.x.replacing (Num.plus fp _ [b1.figures.border.left, b1.figures.padding.left]) } : Figures) = _
        rw [ee, ep, e]; rfl

/-! ## Heights -/

/-- What the calculation of the height does to the figures. -/
def _root_.Colosseum.Figures.lowered (fp : FP) (f : Figures) (k : Manner) (open_ : Bool) (t : Num) (bo : MVal) (kids : List Blueprint) (h : Option Num) :
    Figures :=
  { f with height := h, y := f.y.replacing (f.y.add fp (lowering fp t f.border f.padding k)), margin := { f.margin with top := .num t, bottom := bo },
           below := lastBelow open_ kids f.below }

theorem bump_max (i j : Int) : bump i (.num (.int j)) = max i j := by
  simp only [bump]
  split
  · exact (max_eq_right (by omega)).symm
  · exact (max_eq_left (by omega)).symm

theorem imageHeight_yields (fp : FP) (d : Display) (s : CSS) (z : Intrinsic) (H : Option Num) (b : Box) :
    Yields (inlineReplacedContentHeight fp s z ⟨d, dummyFont fp, H⟩ b) (s.imageHeight fp d z H b.figures.width) Eq := by
  have ew : b.figures.width = b.contentWidth := rfl
  rw [ew]
  unfold inlineReplacedContentHeight CSS.imageHeight
  by_cases hh : (s.get .height).isKw "auto" = true
  · rw [if_pos hh, if_neg (show ¬ (!(s.get .height).isKw "auto") = true by rw [hh]; simp)]
    have half : Yields (do let w ← need b.contentWidth; pure ((w.floorDiv2 fp).pyMin (.int 150))) (CSS.imageHeight.half fp b.contentWidth) Eq := by
      cases b.contentWidth with
      | none => trivial
      | some w =>
        show (w.floorDiv2 fp).pyMin (.int 150) = if 150 < (w.floorDiv2 fp).val then .int 150 else w.floorDiv2 fp
        simp only [Num.pyMin, Num.pyLt, decide_eq_true_eq]
        rfl
    have other : Yields (if truthy z.height then need z.height else do let w ← need b.contentWidth; pure ((w.floorDiv2 fp).pyMin (.int 150)))
        (CSS.imageHeight.other fp b.contentWidth z.height) Eq := by
      unfold CSS.imageHeight.other
      cases z.height with
      | none => exact half
      | some h =>
        by_cases h0 : h.val = 0
        · rw [if_neg (show ¬ truthy (some h) = true by simp [truthy, h0])]
          dsimp only
          rw [if_neg (show ¬ h.val ≠ 0 by simpa using h0)]
          exact half
        · rw [if_pos (show truthy (some h) = true by simpa [truthy] using h0)]
          dsimp only
          rw [if_pos (show h.val ≠ 0 from h0)]
          exact rfl
    have ratio : Yields (if truthy z.ratio then do let w ← need b.contentWidth; let r ← need z.ratio; pure (w.mul fp r)
        else if truthy z.height then need z.height else do let w ← need b.contentWidth; pure ((w.floorDiv2 fp).pyMin (.int 150)))
        (match z.ratio with
          | some q => if q.val ≠ 0 then b.contentWidth.map fun w => w.mul fp q else CSS.imageHeight.other fp b.contentWidth z.height
          | none => CSS.imageHeight.other fp b.contentWidth z.height) Eq := by
      cases z.ratio with
      | none => exact other
      | some q =>
        by_cases h0 : q.val = 0
        · rw [if_neg (show ¬ truthy (some q) = true by simp [truthy, h0])]
          dsimp only
          rw [if_neg (show ¬ q.val ≠ 0 by simpa using h0)]
          exact other
        · rw [if_pos (show truthy (some q) = true by simpa [truthy] using h0)]
          dsimp only
          rw [if_pos (show q.val ≠ 0 from h0)]
          cases b.contentWidth <;> trivial
    cases hw : (s.get .width).isKw "auto"
    · exact ratio
    · cases hz : z.height with
      | some h => exact rfl
      | none => rw [hz] at ratio; exact ratio
  · rw [if_neg hh, if_pos (by simpa using hh)]
    exact px_yields ..

theorem givenHeight_yields (fp : FP) (d : Display) (s : CSS) (parent : Option CSS) (H : Option Num) :
    Yields (explicitHeight fp s parent ⟨d, dummyFont fp, H⟩) (s.givenHeight fp d parent H) Eq := by
  have most : ∀ h : Num, Yields (if (s.get .maxHeight).isNone then pure h
      else do
        let m ← (s.get .maxHeight).px fp ⟨d, dummyFont fp, H⟩
        pure (if m.pyLt h then m else h))
      (do let most ← (if (s.get .maxHeight).isNone then some h else (s.get .maxHeight).inPixels fp d H : Option Num)
          some (if most.val < h.val then most else h)) Eq := by
    intro h
    by_cases hn : (s.get .maxHeight).isNone = true
    · rw [if_pos hn, if_pos hn]
      show h = _
      exact (ite_self h).symm
    · rw [if_neg hn, if_neg hn]
      refine (px_yields fp d H _).bind ?_
      rintro m _ rfl
      show (if m.pyLt h = true then m else h) = if m.val < h.val then m else h
      simp only [Num.pyLt, decide_eq_true_eq]
  unfold explicitHeight CSS.givenHeight
  cases parent with
  | none => exact (px_yields fp d H _).bind fun a b h => h ▸ most a
  | some p =>
    simp only []
    by_cases hp : (p.get .height).isKw "auto" = true
    · rw [if_pos hp, if_pos hp]
      exact (px_yields fp d H _).bind fun a b h => h ▸ most a
    · rw [if_neg hp, if_neg hp]
      have e : ∀ {α β : Type} (o : Option α) (g : Option α → Option β), (o.map some >>= g) = o >>= fun x => g (some x) := by
        intro α β o g; cases o <;> rfl
      rw [e]
      refine (px_yields fp d H _).bind ?_
      rintro ph _ rfl
      exact (px_yields fp d (some ph) _).bind fun a b h => h ▸ most a

theorem getLast_map {α β : Type} (f : α → β) (xs : List α) : (xs.map f).getLast? = xs.getLast?.map f := by
  rw [List.getLast?_map]

theorem height_yields (fp : FP) (d : Display) (s : CSS) (z : Intrinsic) (l : Option Box) (ks : List Node) {k : Manner} (hk : Mannered s z (some k))
    (parent : Option CSS) (H : Option Num) (b : Box) (cs : List Node) {t : Num} {bo : MVal} (hu : upright b.figures.margin k = some (t, bo))
    (ha : 0 ≤ b.figures.above) (hb : 0 ≤ b.figures.below) :
    Yields (heightAndMargins fp s z parent ⟨d, dummyFont fp, H⟩ b cs)
      ((Node.mk s z l ks).along fp d parent H b.figures.width (cs.map Node.drawn) k)
      fun b' h => Like cs b'.2 ∧
        b'.1.figures = b.figures.lowered fp k (k = .block && (s.get .height).isKw "auto") t bo (cs.map Node.drawn) h := by
  unfold heightAndMargins
  cases hk with
  | inline h1 h2 h3 h4 =>
    rw [if_neg (by rw [h1]; simp), if_neg (by rw [h2]; simp), if_pos h3, if_neg (by rw [h4]; simp)]
    unfold inlineHeight placeTopInline
    have ht : b.figures.margin.top = .num t ∧ b.figures.margin.bottom = bo := by
      simp only [upright] at hu
      cases h : b.figures.margin.top with
      | auto => rw [h] at hu; cases hu
      | num x =>
        rw [h] at hu
        have := Option.some.inj hu
        exact ⟨congrArg MVal.num (congrArg Prod.fst this), congrArg Prod.snd this⟩
    show Yields (b.margin.top.toNum >>= _) _ _
    rw [show b.margin.top = .num t from ht.1]
    refine Yields.ok ⟨setContent_like .., ?_⟩
    rw [setContent_v]
    have em : ({ b.figures.margin with top := .num t, bottom := bo } : Edge MVal) = b.figures.margin := by rw [← ht.1, ← ht.2]
    unfold Figures.lowered
    rw [em]; rfl
  | image h1 h2 h3 h4 =>
    rw [if_neg (by rw [h1]; simp), if_neg (by rw [h2]; simp), if_pos h3, if_pos h4]
    unfold inlineReplacedHeight
    simp only []
    have ha' := auto_top b ha
    have e := auto_bottom (autoMarginToZero b .top) (by rw [ha']; exact hb)
    rw [ha'] at e
    generalize autoMarginToZero (autoMarginToZero b .top) .bottom = b1 at e
    have hy := imageHeight_yields fp d s z H b1
    rw [show b1.figures.width = b.figures.width by rw [e]] at hy
    refine Yields.bindMap hy ?_
    rintro h _ rfl
    cases Option.some.inj hu
    unfold placeTopInline
    show Yields (b1.margin.top.toNum >>= _) _ _
    rw [show b1.margin.top = .num b.figures.margin.top.grounded from show b1.figures.margin.top = _ by rw [e]]
    refine Yields.ok ⟨setContent_like .., ?_⟩
    rw [setContent_v]
    show ({ b1.figures with height := some h, y := b1.figures.y.replacing (b1.figures.y.add fp (Num.plus fp _ [b1.figures.border.top, b1.figures.padding.top])) } : Figures) = _
    rw [e]; rfl
  | block h1 h2 h3 h4 h5 =>
    rw [if_neg (by rw [h1]; simp), if_neg (by rw [h2]; simp), if_neg (by rw [h3]; simp), if_pos h4, if_neg (by rw [h5]; simp)]
    unfold blockHeight
    have ha' := auto_top b ha
    have e := auto_bottom (autoMarginToZero b .top) (by rw [ha']; exact hb)
    rw [ha'] at e
    generalize autoMarginToZero (autoMarginToZero b .top) .bottom = b1 at e
    have hc : Yields (blockContentHeight fp s parent ⟨d, dummyFont fp, H⟩ b1 cs)
        ((Node.mk s z l ks).along fp d parent H b.figures.width (cs.map Node.drawn) .block)
        fun r h => some r.1 = h ∧ r.2.figures = { b1.figures with below := lastBelow ((s.get .height).isKw "auto") (cs.map Node.drawn) b1.figures.below } := by
      unfold blockContentHeight Node.along
      by_cases hh : (s.get .height).isKw "auto" = true
      · rw [if_pos hh, if_neg (show ¬ (!((Node.mk s z l ks).style.get .height).isKw "auto") = true by simp only [Node.style]; rw [hh]; simp), getLast_map, hh]
        cases hl : cs.getLast? with
        | none =>
          have en : cs = [] := List.getLast?_eq_none_iff.1 hl
          subst en
          simp only [Option.map_none]
          by_cases hm : (s.get .minHeight).isKw "auto" = true
          · rw [if_pos hm, if_pos (show ((Node.mk s z l ks).style.get .minHeight).isKw "auto" = true from hm)]
            exact ⟨rfl, rfl⟩
          · rw [if_neg hm, if_neg (show ¬ ((Node.mk s z l ks).style.get .minHeight).isKw "auto" = true from hm)]
            refine Yields.bindMap (px_yields fp d H _) ?_
            rintro h _ rfl
            exact ⟨rfl, rfl⟩
        | some last =>
          obtain ⟨s', z', l', cs'⟩ := last
          cases l' with
          | none => trivial
          | some lb =>
            have hd : (Node.mk s' z' (some lb) cs').drawn = .mk lb.figures (drawnAll cs') := rfl
            simp only [Option.map_some, Node.layout, hd]
            refine Yields.bindMap (o := lb.figures.end fp) (yields_need _) ?_
            rintro h _ rfl
            refine Yields.ok ⟨rfl, ?_⟩
            rw [setCollapse_figures]
            show ({ b1.figures with below := bump b1.figures.below (.num (.int lb.collapse.bottom)) } : Figures) = _
            rw [bump_max]
            have : lastBelow true (cs.map Node.drawn) b1.figures.below = max b1.figures.below lb.figures.below := by
              unfold lastBelow
              rw [getLast_map, hl]
              simp only [Option.map_some, hd]
            rw [this]; rfl
      · rw [if_neg hh, if_pos (show (!((Node.mk s z l ks).style.get .height).isKw "auto") = true by simpa [Node.style] using hh)]
        refine Yields.bindMap (givenHeight_yields fp d s parent H) ?_
        rintro h _ rfl
        refine ⟨rfl, ?_⟩
        rw [show (s.get .height).isKw "auto" = false by simpa using hh]
        rfl
    cases Option.some.inj hu
    have e2 : (decide (Manner.block = Manner.block) && (s.get .height).isKw "auto") = (s.get .height).isKw "auto" := by simp
    rw [e2]
    rcases hc.cases with ⟨ho, er, hx⟩ | ⟨⟨x, b2⟩, h, hx, ho, rfl, hf⟩
    · rw [hx, ho]; exact trivial
    · rw [hx, ho]
      refine Yields.ok ⟨setContent_like .., ?_⟩
      rw [setContent_v]
      show ({ b2.figures with height := some x, y := b2.figures.y.replacing (b2.figures.y.add fp (Num.plus fp b2.figures.border.top [b2.figures.padding.top])) } : Figures) = _
      rw [hf]
      simp only
      rw [e]; rfl

/-! ## Relative positions -/

/-- What an element finds around it. -/
def _root_.Colosseum.CB.surround : CB → Surround
  | .viewport d => ⟨some d.contentWidth, some d.contentHeight, none⟩
  | .box b => ⟨b.contentWidth, b.contentHeight, some (b.h.content, b.v.content)⟩

theorem move_yields (fp : FP) (d : Display) (size : Option Num) (cb : CB) (a : Axis) {start stop : Option Num} (u v : Val)
    (h1 : Yields (cb.contentStart a) start Eq) (h2 : Yields (cb.contentEnd fp a) stop Eq) :
    Yields (relativeOffset fp cb a u v ⟨d, dummyFont fp, size⟩) (relativeMove fp d size start stop u v) Eq := by
  unfold relativeOffset relativeMove
  have neg : ∀ {x : Res Num} {o : Option Num}, Yields x o Eq → Yields (x.map Num.neg) (o.map Num.neg) Eq :=
    fun h => h.map' fun a b h => congrArg Num.neg h
  cases hu : u.isKw "auto"
  · cases hv : v.isKw "auto"
    · exact px_yields ..
    · cases hi : u.isKw "inherit"
      · exact px_yields ..
      · exact h1
  · cases hv : v.isKw "auto"
    · cases hi : v.isKw "inherit"
      · exact neg (px_yields ..)
      · exact neg h2
    · exact rfl

theorem apply_yields (fp : FP) (d : Display) (s : CSS) (cb : CB) (b : Box) (cs : List Node) :
    Yields (applyRelative fp s cb ⟨d, dummyFont fp, cb.width⟩ ⟨d, dummyFont fp, cb.height⟩ b cs)
      (if (s.get .position).isKw "relative" then
        (s.moves fp d cb.surround).map fun (dx, dy) => (b.figures.x.replacing (b.figures.x.add fp dx), b.figures.y.replacing (b.figures.y.add fp dy))
       else some (b.figures.x, b.figures.y))
      fun b' p => Like cs b'.2 ∧ b'.1.figures = { b.figures with x := p.1, y := p.2 } := by
  unfold applyRelative
  have er : isRelative s = (s.get .position).isKw "relative" := rfl
  rw [er]
  split
  · have ew : cb.width = cb.surround.width := by cases cb <;> rfl
    have eh : cb.height = cb.surround.height := by cases cb <;> rfl
    rw [ew, eh]
    have hx := move_yields fp d cb.surround.width cb .h (start := cb.surround.corner.map (·.1))
      (stop := cb.surround.corner.bind fun c => cb.surround.width.map fun w => c.1.add fp w) (s.get .left) (s.get .right)
      (by cases cb <;> trivial) (by
        cases cb with
        | viewport d => trivial
        | box b => exact yields_need _)
    have hy := move_yields fp d cb.surround.height cb .v (start := cb.surround.corner.map (·.2))
      (stop := cb.surround.corner.bind fun c => cb.surround.height.map fun w => c.2.add fp w) (s.get .top) (s.get .bottom)
      (by cases cb <;> trivial) (by
        cases cb with
        | viewport d => trivial
        | box b => exact yields_need _)
    unfold CSS.moves
    rcases hx.cases with ⟨ho, e, hx⟩ | ⟨dx, _, hx, ho, rfl⟩
    · rw [hx, ho]; exact trivial
    · rw [hx, ho]
      rcases hy.cases with ⟨ho, e, hy⟩ | ⟨dy, _, hy, ho, rfl⟩
      · simp only [bind, Except.bind]
        rw [hy, ho]; exact trivial
      · simp only [bind, Except.bind]
        rw [hy, ho]
        refine Yields.ok ⟨(setContent_like ..).trans (setContent_like ..), ?_⟩
        rw [setContent_v]
        have ev : (setContent fp .h (b.h.content.add fp dx) b cs).1.v.content = b.v.content := congrArg Figures.y (setContent_h ..)
        rw [ev, setContent_h]; rfl
  · exact ⟨.refl _, rfl⟩

/-! ## The specification does not look at boxes -/

theorem skel_style (n : Node) : n.skel.style = n.style := by cases n; rfl

theorem skel_blank (n : Node) : n.skel.blank = n.blank := by
  induction n using Node.ind with
  | h s z l cs ih =>
    rw [skel_mk]
    cases l with
    | none => rfl
    | some b =>
      simp only [Option.map_some, Node.blank, blankAll_map, List.map_map]
      congr 1
      exact List.map_congr_left ih

theorem blankAll_skel (cs : List Node) : blankAll (cs.map Node.skel) = blankAll cs := by
  rw [blankAll_map, blankAll_map, List.map_map]
  exact List.map_congr_left fun c _ => skel_blank c

theorem blockish_skel (n : Node) : n.skel.blockish = n.blockish := by rw [blockish_eq, blockish_eq, skel_style]

theorem any_skel (cs : List Node) : (cs.map Node.skel).any Node.blockish = cs.any Node.blockish := by
  rw [List.any_map]
  congr 1
  exact funext blockish_skel

theorem flow_skel (fp : FP) (d : Display) (s : CSS) (r : Surround) (cs : List Node)
    (h : ∀ c ∈ cs, ∀ p r, c.skel.plan fp d p r = c.plan fp d p r) : flowPlans fp d s r (cs.map Node.skel) = flowPlans fp d s r cs := by
  induction cs with
  | nil => rfl
  | cons c cs ih =>
    rw [List.map_cons]
    simp only [flowPlans]
    rw [h c (by simp), ih fun c hc => h c (by simp [hc])]

theorem stack_skel (fp : FP) (d : Display) (s : CSS) (r : Surround) (cs : List Node)
    (h : ∀ c ∈ cs, ∀ p r, c.skel.plan fp d p r = c.plan fp d p r) :
    ∀ y bm, stackPlans fp d s r y bm (cs.map Node.skel) = stackPlans fp d s r y bm cs := by
  induction cs with
  | nil => intro y bm; rfl
  | cons c cs ih =>
    intro y bm
    have e := blankAll_skel (c :: cs)
    rw [List.map_cons] at e ⊢
    simp only [stackPlans]
    rw [blockish_skel, any_skel, h c (by simp), e]
    have ih := ih fun c hc => h c (by simp [hc])
    simp only [ih]

theorem plan_skel (fp : FP) (d : Display) (n : Node) : ∀ p r, n.skel.plan fp d p r = n.plan fp d p r := by
  induction n using Node.ind with
  | h s z l cs ih =>
    intro p r
    rw [skel_mk]
    have e : ∀ l', (Node.mk s z l' (cs.map Node.skel)).piles = (Node.mk s z l cs).piles := by
      intro l'
      simp only [Node.piles, Node.style, Node.intrinsic, Node.children, any_skel]
    simp only [Node.plan, blankAll_skel, flow_skel fp d s _ cs ih, stack_skel fp d s _ cs ih, e]
    rfl

theorem Like.flow {cs cs' : List Node} (h : Like cs cs') (fp : FP) (d : Display) (s : CSS) (r : Surround) :
    flowPlans fp d s r cs' = flowPlans fp d s r cs := by
  rw [← flow_skel fp d s r cs' fun c _ => plan_skel fp d c, h.skel, flow_skel fp d s r cs fun c _ => plan_skel fp d c]

theorem Like.stack {cs cs' : List Node} (h : Like cs cs') (fp : FP) (d : Display) (s : CSS) (r : Surround) (y : Num) (bm : Option Int) :
    stackPlans fp d s r y bm cs' = stackPlans fp d s r y bm cs := by
  rw [← stack_skel fp d s r cs' (fun c _ => plan_skel fp d c), h.skel, stack_skel fp d s r cs fun c _ => plan_skel fp d c]

theorem Like.blank {cs cs' : List Node} (h : Like cs cs') : cs'.map Node.blank = cs.map Node.blank := by
  rw [← blankAll_map, ← blankAll_map, ← blankAll_skel cs', h.skel, blankAll_skel]

theorem Like.piles {cs cs' : List Node} (h : Like cs cs') (s : CSS) (z : Intrinsic) (l l' : Option Box) :
    (Node.mk s z l' cs').piles = (Node.mk s z l cs).piles := by
  simp only [Node.piles, Node.style, Node.intrinsic, Node.children]
  rw [← any_skel cs', h.skel, any_skel]

/-- Properties of the children that only depend on the document and on which elements have boxes. -/
theorem Like.mem {cs cs' : List Node} (h : Like cs cs') {P : Node → Prop} (hP : ∀ c, P c.skel ↔ P c) (hc : ∀ c ∈ cs, P c) : ∀ c ∈ cs', P c := by
  intro c' hc'
  have : c'.skel ∈ cs.map Node.skel := by rw [← h.skel]; exact List.mem_map_of_mem hc'
  obtain ⟨c, hcm, he⟩ := List.mem_map.1 this
  exact (hP c').1 (he ▸ (hP c).2 (hc c hcm))

theorem skel_depth (n : Node) : n.skel.depth = n.depth := by
  induction n using Node.ind with
  | h s z l cs ih =>
    rw [skel_mk]
    simp only [Node.depth]
    rw [depths_map ih]

theorem skel_boxed (n : Node) : AllBoxed n.skel ↔ AllBoxed n := by
  induction n using Node.ind with
  | h s z l cs ih =>
    rw [skel_mk, allBoxed_mk, allBoxed_mk]
    constructor
    · intro h hs
      obtain ⟨h1, h2⟩ := h hs
      exact ⟨by intro e; rw [e] at h1; exact h1 rfl, fun c hc => (ih c hc).1 (h2 _ (List.mem_map_of_mem hc))⟩
    · intro h hs
      obtain ⟨h1, h2⟩ := h hs
      refine ⟨by cases l <;> simp at h1 ⊢, ?_⟩
      intro c hc
      obtain ⟨c0, hc0, rfl⟩ := List.mem_map.1 hc
      exact (ih c0 hc0).2 (h2 c0 hc0)

/-! ## Children -/

theorem flow_yields (fp : FP) (d : Display) (s : CSS) (r : Surround) (lay : Node → Res Node) (cs : List Node)
    (h : ∀ c ∈ cs, Yields (lay c) (c.plan fp d (some s) r) fun c' k => c'.drawn = k) :
    Yields (inlineLoop lay cs) (flowPlans fp d s r cs) fun cs' ks => cs'.map Node.drawn = ks := by
  induction cs with
  | nil => exact rfl
  | cons c cs ih =>
    have hc := h c (by simp)
    have hcs := ih fun c hc => h c (by simp [hc])
    simp only [inlineLoop, flowPlans]
    rcases hc.cases with ⟨ho, e, hx⟩ | ⟨c', k, hx, ho, rfl⟩
    · rw [hx, ho]; exact trivial
    · rw [hx, ho]
      rcases hcs.cases with ⟨ho, e, hx⟩ | ⟨cs', ks, hx, ho, rfl⟩
      · simp only []
        rw [hx, ho]; exact trivial
      · simp only []
        rw [hx, ho]; exact rfl

theorem surround_merge (b : Box) (t : Side) (x : MVal) : (CB.box (b.setCollapse t x)).surround = (CB.box b).surround := by
  have e := setCollapse_figures b t x
  have h : ∀ c : Box, (CB.box c).surround = ⟨c.figures.width, c.figures.height, some (c.figures.x, c.figures.y)⟩ := fun _ => rfl
  rw [h, h, e]
  cases t <;> rfl

theorem stack_yields (fp : FP) (d : Display) (s : CSS) (r : Surround) (lay : Box → Node → Res Node) (cs : List Node)
    (h : ∀ c ∈ cs, ∀ b, (CB.box b).surround = r → Yields (lay b c) (c.plan fp d (some s) r) fun c' k => c'.drawn = k)
    (hd : ∀ c ∈ cs, c.drawn = c.blank) : ∀ (b : Box) (off : Num) (bm : Option Int), (CB.box b).surround = r → 0 ≤ b.figures.above →
    Yields (blockLoop fp lay b off bm (anonymize cs)) (stackPlans fp d s r off bm cs)
      fun p ks => (p.2 ++ cs.drop p.2.length).map Node.drawn = ks ∧ p.1.figures = { b.figures with above :=
        match bm with
        | some _ => b.figures.above
        | none => firstAbove true ks b.figures.above } := by
  induction cs with
  | nil =>
    intro b off bm hb h0
    refine ⟨rfl, ?_⟩
    cases bm <;> rfl
  | cons c cs ih =>
    intro b off bm hb h0
    have ih := ih (fun c hc => h c (by simp [hc])) (fun c hc => hd c (by simp [hc]))
    have hc := h c (by simp) b hb
    simp only [anonymize, anonymizeLoop, stackPlans]
    rw [blockish_eq]
    by_cases hbl : isBlockLevel c.style = true
    · rw [if_pos hbl, if_pos hbl]
      simp only [blockLoop]
      rcases hc.cases with ⟨ho, e, hx⟩ | ⟨⟨s', z', l', cs'⟩, k, hx, ho, rfl⟩
      · rw [hx, ho]; exact trivial
      rw [hx, ho]
      cases l' with
      | none => exact trivial
      | some cb =>
        have hdr : (Node.mk s' z' (some cb) cs').drawn = .mk cb.figures (cs'.map Node.drawn) := by simp only [Node.drawn, drawnAll_map]
        simp only [hdr, stackChild, Option.bind_eq_bind, Option.bind_some]
        -- the gap above
        have hgap : Yields (collapseAbove fp b off bm cb) (gapAbove bm cb.figures) fun p g =>
            p.2 = g.elim off (off.add fp) ∧ (CB.box p.1).surround = r ∧ p.1.figures = { b.figures with above :=
                match bm with
                | some _ => b.figures.above
                | none => max b.figures.above cb.figures.above } := by
          unfold collapseAbove gapAbove
          cases bm with
          | none =>
            refine ⟨rfl, (surround_merge ..).trans hb, ?_⟩
            rw [setCollapse_figures]
            show ({ b.figures with above := bump b.figures.above (.num (.int cb.collapse.top)) } : Figures) = _
            rw [bump_max]; rfl
          | some m =>
            have em : cb.figures.margin = cb.margin := rfl
            simp only [em]
            cases cb.margin.top with
            | auto => trivial
            | num t =>
              refine ⟨?_, hb, rfl⟩
              show off.add fp ((Num.int m).pyMax t) = off.add fp (if (m : Rat) < t.val then t else .int m)
              simp only [Num.pyMax, Num.pyLt, decide_eq_true_eq]
              rfl
        rcases hgap.cases with ⟨ho, e, hx⟩ | ⟨⟨b1, off1⟩, g, hx, ho, rfl, hs1, hf1⟩
        · rw [hx, ho]; exact trivial
        rw [hx, ho]
        simp only [Option.bind_some, bind, Except.bind]
        generalize g.elim off (off.add fp) = off1
        have hset := setContent_v fp (cb.v.content.add fp off1) cb cs'
        have hlike := setContent_like fp .v (cb.v.content.add fp off1) cb cs'
        generalize setContent fp .v (cb.v.content.add fp off1) cb cs' = moved at hset hlike ⊢
        obtain ⟨cb', cs''⟩ := moved
        simp only at hset hlike ⊢
        have htall : cb'.borderBoxHeight fp = cb.figures.tall fp := by
          show cb'.figures.tall fp = cb.figures.tall fp
          rw [hset]; rfl
        rw [htall]
        cases ht : cb.figures.tall fp with
        | none => exact trivial
        | some hh =>
          simp only [need, pure, Except.pure, Option.bind_some]
          have hbelow : cb'.collapse.bottom = cb.figures.below := by
            show cb'.figures.below = cb.figures.below
            rw [hset]
          rw [hbelow]
          have hrec := ih b1 (off1.add fp hh) (some cb.figures.below) hs1 (by
            rw [hf1]
            cases bm with
            | none => exact le_trans h0 (le_max_left _ _)
            | some _ => exact h0)
          simp only [anonymize] at hrec
          rcases hrec.cases with ⟨ho, e, hx⟩ | ⟨⟨b2, laid⟩, ks, hx, ho, rfl, hf2⟩
          · rw [hx, ho]; exact trivial
          rw [hx, ho]
          simp only [Option.bind_some]
          have hd' : (Node.mk s' z' (some cb') cs'').drawn = .mk (cb.figures.moved fp off1) (cs'.map Node.drawn) := by
            simp only [Node.drawn, drawnAll_map, hlike.drawn]
            rw [hset]; rfl
          refine ⟨?_, ?_⟩
          · simp only [List.length_cons, List.drop_succ_cons, List.cons_append, List.map_cons, hd']
          · simp only at hf2 ⊢
            rw [hf2, hf1]
            cases bm <;> rfl
    · rw [if_neg hbl, if_neg hbl]
      have hany : cs.any Node.blockish = cs.any fun c => isBlockLevel c.style := by
        congr 1
        exact funext blockish_eq
      have key : ∀ (cs xs : List Node), ((cs.any fun c => isBlockLevel c.style) = true → ∃ ys r, anonymizeLoop (some xs) cs = .anon ys :: r) ∧
          ((cs.any fun c => isBlockLevel c.style) = false → anonymizeLoop (some xs) cs = []) := by
        intro cs
        induction cs with
        | nil => intro xs; exact ⟨fun h => by simp at h, fun _ => rfl⟩
        | cons y cs ih =>
          intro xs
          simp only [anonymizeLoop, List.any_cons]
          by_cases hy : isBlockLevel y.style = true
          · rw [if_pos hy]
            exact ⟨fun _ => ⟨_, _, rfl⟩, fun h => by rw [hy] at h; simp at h⟩
          · rw [if_neg hy]
            have hy' : isBlockLevel y.style = false := by simpa using hy
            rw [hy', Bool.false_or]
            exact ih _
      rw [hany]
      cases ha : cs.any fun c => isBlockLevel c.style
      · simp only [(key cs [c]).2 ha, blockLoop, Bool.false_eq_true, if_false]
        refine ⟨?_, ?_⟩
        · rw [blankAll_map]
          simp only [List.length_nil, List.drop_zero, List.nil_append]
          exact List.map_congr_left hd
        · cases bm with
          | some _ => rfl
          | none =>
            have : firstAbove true (blankAll (c :: cs)) b.figures.above = b.figures.above := by
              simp only [blankAll]
              obtain ⟨s', z', l', cs'⟩ := c
              cases l' with
              | none => rfl
              | some cb => exact max_eq_left h0
            simp only
            rw [this]
      · obtain ⟨ys, q, hq⟩ := (key cs [c]).1 ha
        simp only [hq, blockLoop, if_true]
        exact trivial

theorem children_yields (fp : FP) (d : Display) (s : CSS) (z : Intrinsic) (l : Option Box) (lay : Box → Node → Res Node) (b : Box) (cs : List Node)
    (h : ∀ c ∈ cs, ∀ b, Yields (lay b c) (c.plan fp d (some s) (CB.box b).surround) fun c' k => c'.drawn = k)
    (hd : ∀ c ∈ cs, c.drawn = c.blank) (h0 : 0 ≤ b.figures.above) :
    Yields (layoutChildren fp lay s z b cs)
      (if (Node.mk s z l cs).piles then stackPlans fp d s (CB.box b).surround (.int 0) none cs else flowPlans fp d s (CB.box b).surround cs)
      fun p ks => p.2.map Node.drawn = ks ∧ p.1.figures = { b.figures with above := firstAbove (Node.mk s z l cs).piles ks b.figures.above } := by
  unfold layoutChildren
  rw [piles_eq]
  cases he : establishesInline s z cs
  · rw [if_neg (by simp), if_pos (by simp)]
    have hy := stack_yields fp d s (CB.box b).surround lay cs (fun c hc b' hb' => hb' ▸ h c hc b') hd b (.int 0) none rfl h0
    rcases hy.cases with ⟨ho, e, hx⟩ | ⟨⟨b1, laid⟩, ks, hx, ho, hk, hf⟩
    · rw [hx, ho]; exact trivial
    · rw [hx, ho]; exact ⟨hk, hf⟩
  · rw [if_pos rfl, if_neg (by simp)]
    have hy := flow_yields fp d s (CB.box b).surround (lay b) cs fun c hc => h c hc b
    rcases hy.cases with ⟨ho, e, hx⟩ | ⟨cs1, ks, hx, ho, hk⟩
    · rw [hx, ho]; exact trivial
    · rw [hx, ho]; exact ⟨hk, rfl⟩

/-! ## Elements -/

theorem inline_no_container {s : CSS} (h : isInline s = true) (z : Intrinsic) (cs : List Node) : establishesInline s z cs = true := by
  rw [isInline, isKw_iff] at h
  have : isBlockContainer s z = false := by
    unfold isBlockContainer
    rw [h]
    have : ((kw "inline").isKw "block" || (kw "inline").isKw "list-item" || (kw "inline").isKw "inline-block" || (kw "inline").isKw "table-cell" ||
      (kw "inline").isKw "table-caption") = false := by decide
    rw [this]; rfl
  unfold establishesInline
  rw [this]; rfl

theorem height_auto {fp : FP} {s : CSS} {z : Intrinsic} (hk : Mannered s z (some .inline)) (parent : Option CSS) (c : PxCtx) (b : Box) (cs : List Node)
    (h : b.figures.margin.top = .auto) : ∃ e, heightAndMargins fp s z parent c b cs = .error e := by
  cases hk with
  | inline h1 h2 h3 h4 =>
    unfold heightAndMargins
    rw [if_neg (by rw [h1]; simp), if_neg (by rw [h2]; simp), if_pos h3, if_neg (by rw [h4]; simp)]
    unfold inlineHeight placeTopInline
    show ∃ e, (b.margin.top.toNum >>= _) = _
    rw [show b.margin.top = .auto from h]
    exact ⟨_, rfl⟩

theorem lastBelow_blank (o : Bool) (cs : List Node) {i : Int} (h : 0 ≤ i) : lastBelow o (cs.map Node.blank) i = i := by
  unfold lastBelow
  cases o
  · rfl
  · rw [getLast_map]
    cases cs.getLast? with
    | none => rfl
    | some c =>
      obtain ⟨s, z, l, ks⟩ := c
      cases l with
      | none => rfl
      | some b => exact max_eq_left h

theorem collapsible_nonneg (m : MVal) : 0 ≤ m.collapsible := by
  rcases m with _ | ⟨i⟩ | q
  · exact le_refl _
  · exact le_max_left _ _
  · exact le_refl _

theorem upright_again {m m' : Edge MVal} {k : Manner} {t : Num} {bo : MVal} (h : upright m k = some (t, bo)) (h1 : m'.top = .num t) (h2 : m'.bottom = bo) :
    upright m' k = some (t, bo) := by
  cases k with
  | inline => simp only [upright, h1, h2]
  | image =>
    cases Option.some.inj h
    simp only [upright, h1, h2, MVal.grounded]
  | block =>
    cases Option.some.inj h
    simp only [upright, h1, h2, MVal.grounded]

theorem mannered_not {s : CSS} {z : Intrinsic} {k : Manner} (h : Mannered s z (some k)) : isFloat s = false ∧ isAbsolute s = false := by
  cases h <;> exact ⟨‹_›, ‹_›⟩

/-- From the children on. -/
theorem tail_yields (fp : FP) (d : Display) (lay : Box → Node → Res Node) (parent : Option CSS) (cb : CB) (s : CSS) (z : Intrinsic) (l : Option Box)
    {k : Manner} (hk : Mannered s z (some k)) (cs cs3 : List Node) (l3 : Like cs cs3) (hd : ∀ c ∈ cs3, c.drawn = c.blank) (b3 : Box)
    (hl : ∀ c ∈ cs3, ∀ b, Yields (lay b c) (c.plan fp d (some s) (CB.box b).surround) fun c' k => c'.drawn = k)
    {t : Num} {bo : MVal} (hu : upright b3.figures.margin k = some (t, bo)) (ha : 0 ≤ b3.figures.above) (hb : 0 ≤ b3.figures.below) :
    Yields
      (layoutChildren fp lay s z b3 cs3 >>= fun p => heightAndMargins fp s z parent ⟨d, dummyFont fp, cb.height⟩ p.1 p.2 >>= fun p =>
        applyRelative fp s cb ⟨d, dummyFont fp, cb.width⟩ ⟨d, dummyFont fp, cb.height⟩ p.1 p.2)
      ((if (Node.mk s z l cs).piles then stackPlans fp d s (CB.box b3).surround (.int 0) none cs else flowPlans fp d s (CB.box b3).surround cs) >>= fun kids =>
        (Node.mk s z l cs).along fp d parent cb.surround.height b3.figures.width kids k >>= fun h =>
        (if (s.get .position).isKw "relative" then
          (s.moves fp d cb.surround).map fun (dx, dy) => (b3.figures.x.replacing (b3.figures.x.add fp dx),
            (b3.figures.y.replacing (b3.figures.y.add fp (lowering fp t b3.figures.border b3.figures.padding k))).replacing
              ((b3.figures.y.replacing (b3.figures.y.add fp (lowering fp t b3.figures.border b3.figures.padding k))).add fp dy))
         else some (b3.figures.x, b3.figures.y.replacing (b3.figures.y.add fp (lowering fp t b3.figures.border b3.figures.padding k)))) >>= fun q =>
        some (Blueprint.mk
          { b3.figures with
            x := q.1
            y := q.2
            height := h
            margin := { b3.figures.margin with top := .num t, bottom := bo }
            above := firstAbove (Node.mk s z l cs).piles kids b3.figures.above
            below := lastBelow (k = .block && (s.get .height).isKw "auto") kids b3.figures.below } kids))
      fun p k => Blueprint.mk p.1.figures (p.2.map Node.drawn) = k := by
  have eh : cb.height = cb.surround.height := by cases cb <;> rfl
  have hc := children_yields fp d s z l lay b3 cs3 hl hd ha
  rw [l3.piles s z l l, l3.stack, l3.flow] at hc
  refine hc.bind ?_
  rintro ⟨b4, cs4⟩ kids ⟨rfl, hf4⟩
  simp only at hf4
  have hh := height_yields fp d s z l cs hk parent cb.height b4 cs4 (t := t) (bo := bo) (by rw [hf4]; exact hu)
    (by
      rw [hf4]
      show 0 ≤ firstAbove _ _ _
      unfold firstAbove
      split
      · exact le_max_of_le_left ha
      · exact ha)
    (by rw [hf4]; exact hb)
  rw [show b4.figures.width = b3.figures.width by rw [hf4]] at hh
  rw [← eh]
  refine hh.bind ?_
  rintro ⟨b5, cs5⟩ h ⟨l5, hf5⟩
  simp only at hf5 l5
  have hy := apply_yields fp d s cb b5 cs5
  have e1 : b5.figures.x = b3.figures.x := by rw [hf5, hf4]; rfl
  have e2 : b5.figures.y = b3.figures.y.replacing (b3.figures.y.add fp (lowering fp t b3.figures.border b3.figures.padding k)) := by rw [hf5, hf4]; rfl
  rw [e1, e2] at hy
  have hz := hy.bind (f := fun p => .ok p) (S := fun p k => Blueprint.mk p.1.figures (p.2.map Node.drawn) = k) (g := fun q =>
        some (Blueprint.mk
          { b3.figures with
            x := q.1
            y := q.2
            height := h
            margin := { b3.figures.margin with top := .num t, bottom := bo }
            above := firstAbove (Node.mk s z l cs).piles (cs4.map Node.drawn) b3.figures.above
            below := lastBelow (k = .block && (s.get .height).isKw "auto") (cs4.map Node.drawn) b3.figures.below } (cs4.map Node.drawn))) ?_
  · have e : ∀ x : Res (Box × List Node), (x >>= fun p => .ok p) = x := by intro x; cases x <;> rfl
    rw [e] at hz
    exact hz
  · rintro ⟨b6, cs6⟩ q ⟨l6, hf6⟩
    simp only at l6 hf6
    show Blueprint.mk b6.figures (cs6.map Node.drawn) = _
    rw [hf6, l6.drawn, l5.drawn, hf5, hf4]
    rfl

theorem body_yields (fp : FP) (d : Display) (lay : Box → Node → Res Node) (parent : Option CSS) (cb : CB) (s : CSS) (z : Intrinsic) (l : Option Box)
    (b : Box) (cs : List Node) (hn : (s.get .display).isNone = false) (hb : b.figures = .zero) (hd : ∀ c ∈ cs, c.drawn = c.blank)
    (hl : ∀ cs', Like cs cs' → ∀ c ∈ cs', ∀ b, Yields (lay b c) (c.plan fp d (some s) (CB.box b).surround) fun c' k => c'.drawn = k) :
    Yields (layoutBody fp d lay parent cb s z b cs) ((Node.mk s z l cs).plan fp d parent cb.surround)
      fun p k => Blueprint.mk p.1.figures (p.2.map Node.drawn) = k := by
  have ew : cb.width = cb.surround.width := by cases cb <;> rfl
  have eh : cb.height = cb.surround.height := by cases cb <;> rfl
  have ht := fun k hk cs3 l3 hd b3 hl t bo => tail_yields (k := k) (t := t) (bo := bo) fp d lay parent cb s z l hk cs cs3 l3 hd b3 hl
  have hbl : ∀ cs', Like cs cs' → cs'.map Node.drawn = cs.map Node.blank ∧ ∀ c ∈ cs', c.drawn = c.blank := by
    intro cs' h
    have e : cs'.map Node.drawn = cs.map Node.blank := h.drawn.trans (List.map_congr_left hd)
    exact ⟨e, List.map_inj_left.1 (e.trans h.blank.symm)⟩
  unfold layoutBody Node.plan
  rw [ew, eh] at ht ⊢
  generalize cb.surround.width = W at ht ⊢
  generalize cb.surround.height = H at ht ⊢
  dsimp only
  rw [if_neg (by rw [hn]; simp)]
  have hm := mannered s z l cs
  rcases (copy_yields fp d s W H b hb).cases with ⟨ho, e, hx⟩ | ⟨b1, ⟨m, bd, pd⟩, hx, ho, hf1⟩
  · rw [hx]
    cases (Node.mk s z l cs).manner with
    | none => exact trivial
    | some k => simp only [ho, Option.bind_eq_bind, Option.bind_some, Option.bind_none]; exact trivial
  rw [hx]
  generalize hk : (Node.mk s z l cs).manner = k at hm ⊢
  cases k with
  | none =>
    obtain ⟨e, he⟩ := width_none (fp := fp) hm ⟨d, dummyFont fp, W⟩ b1 cs
    simp only [bind, Except.bind, he]
    exact trivial
  | some k =>
    simp only [bind, Except.bind, Option.bind_some, ho]
    have hw := width_yields fp d s z l cs hm W b1 cs
    rw [hf1] at hw
    rcases hw.cases with ⟨ho, e, hx⟩ | ⟨⟨b2, cs2⟩, ⟨w, left, right⟩, hx, ho, l2, hf2⟩
    · simp only at ho
      simp only [hx, ho, Option.bind_none]
      exact trivial
    · simp only at ho
      simp only [hx, ho, Option.bind_some]
      obtain ⟨nf, na⟩ := mannered_not hm
      simp only [nf, na, Bool.false_eq_true, if_false]
      have em : b2.figures.margin = ⟨m.top, .num right, m.bottom, .num left⟩ := by rw [hf2]; rfl
      have eb : b2.figures.border = bd ∧ b2.figures.padding = pd ∧ b2.figures.width = w ∧ b2.figures.y = .int 0 ∧ b2.figures.height = some (.int 0) := by
        rw [hf2]; exact ⟨rfl, rfl, rfl, rfl, rfl⟩
      have eu : upright b2.figures.margin k = upright m k := by rw [em]; cases k <;> rfl
      have ea : b2.figures.above = m.top.collapsible ∧ b2.figures.below = m.bottom.collapsible := by rw [hf2]; exact ⟨rfl, rfl⟩
      have ex : b2.figures.x = if k = .inline then .int 0 else (Num.int 0).replacing (left.plus fp [bd.left, pd.left]) := by rw [hf2]; rfl
      unfold relativeHeight
      have er : isRelative s = (s.get .position).isKw "relative" := rfl
      rw [er]
      cases hu : upright m k with
      | none =>
        obtain ⟨rfl, hm1⟩ : k = .inline ∧ m.top = .auto := by
          cases k with
          | inline =>
            refine ⟨rfl, ?_⟩
            unfold upright at hu
            cases h : m.top with
            | auto => rfl
            | num t => rw [h] at hu; cases hu
          | image => cases hu
          | block => cases hu
        have hi : isInline s = true := by cases hm; assumption
        have he : ∀ cs', ∃ e, heightAndMargins fp s z parent ⟨d, dummyFont fp, H⟩ b2 cs' = .error e :=
          fun cs' => height_auto hm parent _ b2 cs' (by rw [em]; exact hm1)
        simp only [Option.bind_none]
        cases hr : (s.get .position).isKw "relative"
        · simp only [Bool.false_eq_true, if_false]
          unfold layoutChildren
          rw [if_pos (inline_no_container hi z cs2)]
          cases inlineLoop (lay b2) cs2 with
          | error e => exact trivial
          | ok cs4 =>
            obtain ⟨e, he⟩ := he cs4
            simp only [he]
            exact trivial
        · obtain ⟨e, he⟩ := he cs2
          simp only [if_true, he]
          exact trivial
      | some tb =>
        obtain ⟨t, bo⟩ := tb
        simp only [Option.bind_some]
        obtain ⟨eb, ep, ewi, ey, ehe⟩ := eb
        cases hr : (s.get .position).isKw "relative"
        · simp only [Bool.false_eq_true, if_false, Option.bind_some]
          have hy := ht k hm cs2 l2 (hbl cs2 l2).2 b2 (hl cs2 l2) t bo (eu.trans hu) (by rw [ea.1]; exact collapsible_nonneg _)
            (by rw [ea.2]; exact collapsible_nonneg _)
          rw [show (CB.box b2).surround = ⟨b2.figures.width, b2.figures.height, some (b2.figures.x, b2.figures.y)⟩ from rfl] at hy
          rw [eb, ep, ewi, ey, ehe, ex, ea.1, ea.2, em, hr] at hy
          simp only [Bool.false_eq_true, if_false, eb, ep, ewi] at hy
          exact hy
        · simp only [if_true]
          have hh := height_yields fp d s z l cs hm parent H b2 cs2 (eu.trans hu) (by rw [ea.1]; exact collapsible_nonneg _)
            (by rw [ea.2]; exact collapsible_nonneg _)
          rw [(hbl cs2 l2).1, ewi] at hh
          rw [blankAll_map]
          rcases hh.cases with ⟨ho, e, hx⟩ | ⟨⟨b3, cs3⟩, guess, hx, ho, l3, hf3⟩
          · simp only [hx, ho, Option.bind_none]
            exact trivial
          · simp only [hx, ho, Option.bind_some]
            have l3' := l2.trans l3
            have em3 : b3.figures.margin = ⟨.num t, .num right, bo, .num left⟩ := by rw [hf3, Figures.lowered, em]
            have eb3 : b3.figures.border = bd := by rw [hf3]; exact eb
            have ep3 : b3.figures.padding = pd := by rw [hf3]; exact ep
            have ew3 : b3.figures.width = w := by rw [hf3]; exact ewi
            have eh3 : b3.figures.height = guess := by rw [hf3]; rfl
            have ex3 := show b3.figures.x = b2.figures.x by rw [hf3]; rfl
            have ey3 : b3.figures.y = (Num.int 0).replacing ((Num.int 0).add fp (lowering fp t bd pd k)) := by rw [hf3, Figures.lowered, ey, eb, ep]
            have ea3 : b3.figures.above = m.top.collapsible := by rw [hf3]; exact ea.1
            have el3 : b3.figures.below = m.bottom.collapsible := by
              rw [hf3, Figures.lowered, lastBelow_blank _ _ (by rw [ea.2]; exact collapsible_nonneg _)]
              exact ea.2
            have hy := ht k hm cs3 l3' (hbl cs3 l3').2 b3 (hl cs3 l3') t bo (upright_again hu (by rw [em3]) (by rw [em3]))
              (by rw [ea3]; exact collapsible_nonneg _) (by rw [el3]; exact collapsible_nonneg _)
            rw [show (CB.box b3).surround = ⟨b3.figures.width, b3.figures.height, some (b3.figures.x, b3.figures.y)⟩ from rfl] at hy
            rw [eb3, ep3, ew3, ey3, eh3, ex3, ea3, el3, em3, ex, hr] at hy
            simp only [if_true, eb3, ep3, ew3] at hy
            exact hy

theorem box_yields (fp : FP) (d : Display) (f : Nat) : ∀ (parent : Option CSS) (cb : CB) (n : Node), n.depth ≤ f → AllBoxed n → n.drawn = n.blank →
    Yields (layoutBox fp d f parent cb n) (n.plan fp d parent cb.surround) fun n' k => n'.drawn = k := by
  induction f with
  | zero => intro parent cb n h; have := depth_pos n; omega
  | succ f ih =>
    rintro parent cb ⟨s, z, l, cs⟩ hf hb hd
    cases hn : (s.get .display).isNone
    · obtain ⟨h1, h2⟩ := allBoxed_mk.1 hb fun h => by rw [h] at hn; cases hn
      cases l with
      | none => exact absurd rfl h1
      | some b =>
        simp only [Node.drawn, Node.blank, Blueprint.mk.injEq, drawnAll_map, blankAll_map] at hd
        have hdc : ∀ c ∈ cs, c.drawn = c.blank := List.map_inj_left.1 hd.2
        have hfc : ∀ c ∈ cs, c.depth ≤ f := fun c hc => by
          have := depth_child (s := s) (z := z) (l := some b) hc
          omega
        have hy := body_yields fp d (fun b n => layoutBox fp d f (some s) (.box b) n) parent cb s z (some b) b cs hn hd.1 hdc (by
          intro cs' hl c hc b'
          have e : cs'.map Node.drawn = cs'.map Node.blank := (hl.drawn.trans hd.2).trans hl.blank.symm
          exact ih (some s) (.box b') c (hl.mem (P := fun c => c.depth ≤ f) (fun c => by rw [skel_depth]) hfc c hc)
            (hl.mem skel_boxed h2 c hc) (List.map_inj_left.1 e c hc))
        unfold layoutBox
        rw [if_neg (by rw [hn]; simp)]
        rcases hy.cases with ⟨ho, e, hx⟩ | ⟨⟨b', cs'⟩, k, hx, ho, hk⟩
        · rw [ho]
          simp only [hx]
          exact trivial
        · rw [ho]
          simp only [hx]
          rw [← hk]
          show (Node.mk s z (some b') cs').drawn = _
          rw [Node.drawn, drawnAll_map]
    · unfold layoutBox Node.plan
      rw [if_pos hn]
      dsimp only
      rw [if_pos hn]
      exact rfl

/-! ## Documents -/

theorem resetOne_like (fp : FP) (cs : List Node) : Like cs (resetOne fp cs).2 := (setOrigins_like ..).trans (setOrigins_like ..)

theorem resetFuel_skel (fp : FP) (f : Nat) : ∀ n : Node, (n.resetFuel fp f).skel = n.skel := by
  induction f with
  | zero => intro n; rfl
  | succ f ih =>
    rintro ⟨s, z, l, cs⟩
    cases l with
    | none => rfl
    | some b =>
      show (Node.mk s z (some (resetOne fp cs).1) ((resetOne fp cs).2.map (Node.resetFuel fp f))).skel = _
      rw [skel_mk, skel_mk, List.map_map, List.map_congr_left (f := Node.skel ∘ Node.resetFuel fp f) (g := Node.skel) fun c _ => ih c, (resetOne_like fp cs).skel]
      rfl

theorem resetFuel_blank (fp : FP) (f : Nat) : ∀ n : Node, n.depth ≤ f → (n.resetFuel fp f).drawn = (n.resetFuel fp f).blank := by
  induction f with
  | zero => intro n h; have := depth_pos n; omega
  | succ f ih =>
    rintro ⟨s, z, l, cs⟩ hf
    cases l with
    | none => rfl
    | some b =>
      show (Node.mk s z (some (resetOne fp cs).1) ((resetOne fp cs).2.map (Node.resetFuel fp f))).drawn =
        (Node.mk s z (some (resetOne fp cs).1) ((resetOne fp cs).2.map (Node.resetFuel fp f))).blank
      rw [Node.drawn, Node.blank, drawnAll_map, blankAll_map]
      congr 1
      refine List.map_congr_left fun c hc => ?_
      obtain ⟨c0, hc0, rfl⟩ := List.mem_map.1 hc
      refine ih c0 ((resetOne_like fp cs).mem (P := fun c => c.depth ≤ f) (fun c => by rw [skel_depth]) (fun c hc => ?_) c0 hc0)
      have := depth_child (s := s) (z := z) (l := some b) hc
      omega

theorem finish_yields (fp : FP) (d : Display) (html5 : Bool) (n : Node) :
    Yields (finishRoot fp d html5 n) (match n.drawn with
      | .mk f ks => some (.mk (if html5 then { f.moved fp (.int f.above) with height := some (d.contentHeight.less fp [.int f.above, .int f.below]) }
          else f.moved fp (.int f.above)) ks)
      | .absent => none) fun n' k => n'.drawn = k := by
  obtain ⟨s, z, l, cs⟩ := n
  cases l with
  | none => exact trivial
  | some b =>
    have h1 := setContent_v fp (b.v.content.add fp (.int b.collapse.top)) b cs
    have h2 := setContent_like fp .v (b.v.content.add fp (.int b.collapse.top)) b cs
    unfold finishRoot
    rw [Node.drawn, drawnAll_map]
    dsimp only
    generalize setContent fp .v (b.v.content.add fp (.int b.collapse.top)) b cs = p at h1 h2
    obtain ⟨b', cs'⟩ := p
    simp only at h1 h2
    cases html5
    · show (Node.mk s z (some b') cs').drawn = _
      rw [Node.drawn, drawnAll_map, h2.drawn, h1]
      rfl
    · show (Node.mk s z (some { b' with contentHeight := _ }) cs').drawn = _
      rw [Node.drawn, drawnAll_map, h2.drawn]
      show Blueprint.mk { b'.figures with height := some (d.contentHeight.less fp [.int b'.figures.above, .int b'.figures.below]) } _ = _
      rw [h1]
      rfl

theorem layout_yields (fp : FP) (d : Display) (html5 : Bool) (parent : Option CSS) (n : Node) (hb : AllBoxed n) :
    Yields (layout fp d html5 parent n) (n.blueprint fp d html5 parent) fun n' k => n'.drawn = k := by
  have he : ∀ p r, (n.reset fp).plan fp d p r = n.plan fp d p r := fun p r => by
    rw [← plan_skel, Node.reset, resetFuel_skel, plan_skel]
  have hdp : (n.reset fp).depth = n.depth := by rw [← skel_depth, Node.reset, resetFuel_skel, skel_depth]
  have hy := box_yields fp d n.depth parent (.viewport d) (n.reset fp) (le_of_eq hdp) (allBoxed_reset fp hb) (resetFuel_blank fp _ n le_rfl)
  rw [he] at hy
  unfold layout Node.blueprint
  obtain ⟨s, z, l, cs⟩ := n
  cases l with
  | none =>
    have hn : (s.get .display).isNone = true := by
      cases hn : (s.get .display).isNone
      · exact absurd rfl (allBoxed_mk.1 hb (fun h => by rw [h] at hn; cases hn)).1
      · rfl
    have : (Node.mk s z none cs).plan fp d parent ⟨some d.contentWidth, some d.contentHeight, none⟩ = some .absent := by
      unfold Node.plan
      exact if_pos hn
    rw [this]
    exact trivial
  | some b =>
    dsimp only [Node.layout]
    rcases hy.cases with ⟨ho, e, hx⟩ | ⟨n', k, hx, ho, hk⟩
    · rw [show (CB.viewport d).surround = ⟨some d.contentWidth, some d.contentHeight, none⟩ from rfl] at ho
      rw [ho, hx]
      exact trivial
    · rw [show (CB.viewport d).surround = ⟨some d.contentWidth, some d.contentHeight, none⟩ from rfl] at ho
      rw [ho, hx]
      have := finish_yields fp d html5 n'
      rw [hk] at this
      cases k with
      | absent => exact this
      | mk f ks => exact this

end Colosseum.Blue
