import Verif.Spec.Whole
import Verif.Lemmas.Reset
import Verif.Lemmas.Layout
import Verif.Lemmas.Collapse

/-!
# Documents in whole pixels

All sums and differences are of `int`s, so that nothing is ever rounded.
-/

namespace Colosseum

namespace Whole

/-! ## Numbers -/

theorem Num.Integral.add {fp fp' : FP} {a b : Num} (ha : a.Integral) (hb : b.Integral) : a.add fp b = a.add fp' b ∧ (a.add fp b).Integral := by
  obtain ⟨i, rfl⟩ := ha; obtain ⟨j, rfl⟩ := hb
  exact ⟨rfl, _, rfl⟩

theorem Num.Integral.sub {fp fp' : FP} {a b : Num} (ha : a.Integral) (hb : b.Integral) : a.sub fp b = a.sub fp' b ∧ (a.sub fp b).Integral := by
  obtain ⟨i, rfl⟩ := ha; obtain ⟨j, rfl⟩ := hb
  exact ⟨rfl, _, rfl⟩

theorem Num.Integral.mul {fp fp' : FP} {a b : Num} (ha : a.Integral) (hb : b.Integral) : a.mul fp b = a.mul fp' b ∧ (a.mul fp b).Integral := by
  obtain ⟨i, rfl⟩ := ha; obtain ⟨j, rfl⟩ := hb
  exact ⟨rfl, _, rfl⟩

theorem Num.Integral.half {fp fp' : FP} {a : Num} (ha : a.Integral) : a.floorDiv2 fp = a.floorDiv2 fp' ∧ (a.floorDiv2 fp).Integral := by
  obtain ⟨i, rfl⟩ := ha
  exact ⟨rfl, _, rfl⟩

theorem Num.Integral.neg {a : Num} (ha : a.Integral) : a.neg.Integral := by
  obtain ⟨i, rfl⟩ := ha
  exact ⟨_, rfl⟩

theorem int_integral (i : Int) : (Num.int i).Integral := ⟨i, rfl⟩

theorem subAll_whole {fp fp' : FP} (xs : List Num) : ∀ {a : Num}, a.Integral → (∀ x ∈ xs, x.Integral) →
    subAll fp a xs = subAll fp' a xs ∧ (subAll fp a xs).Integral := by
  induction xs with
  | nil => intro a ha _; exact ⟨rfl, ha⟩
  | cons x xs ih =>
    intro a ha hx
    have h1 := Num.Integral.sub (fp := fp) (fp' := fp') ha (hx x List.mem_cons_self)
    have h2 := ih h1.2 fun y hy => hx y (List.mem_cons_of_mem _ hy)
    exact ⟨h2.1.trans (congrArg (subAll fp' · xs) h1.1), h2.2⟩

theorem addAll_whole {fp fp' : FP} (xs : List Num) : ∀ {a : Num}, a.Integral → (∀ x ∈ xs, x.Integral) →
    addAll fp a xs = addAll fp' a xs ∧ (addAll fp a xs).Integral := by
  induction xs with
  | nil => intro a ha _; exact ⟨rfl, ha⟩
  | cons x xs ih =>
    intro a ha hx
    have h1 := Num.Integral.add (fp := fp) (fp' := fp') ha (hx x List.mem_cons_self)
    have h2 := ih h1.2 fun y hy => hx y (List.mem_cons_of_mem _ hy)
    exact ⟨h2.1.trans (congrArg (addAll fp' · xs) h1.1), h2.2⟩

/-! ## Two computations with the same outcome -/

/-- The same outcome, with a property of the result. -/
def Joint {α : Type} (P : α → Prop) (x y : Res α) : Prop := x = y ∧ ∀ a, x = .ok a → P a

theorem Joint.ok {α : Type} {P : α → Prop} {a b : α} (h : a = b ∧ P a) : Joint P (.ok a) (.ok b) :=
  ⟨congrArg _ h.1, fun _ e => by cases e; exact h.2⟩

theorem Joint.error {α : Type} {P : α → Prop} (e : Err) : Joint P (.error e) (.error e) := ⟨rfl, fun _ h => nomatch h⟩

theorem Joint.bind {α β : Type} {P : α → Prop} {Q : β → Prop} {x y : Res α} {f g : α → Res β} (h : Joint P x y)
    (k : ∀ a, P a → Joint Q (f a) (g a)) : Joint Q (x >>= f) (y >>= g) := by
  obtain ⟨rfl, h⟩ := h
  cases x with
  | error e => exact Joint.error e
  | ok a => exact k a (h a rfl)

theorem Joint.map {α β : Type} {P : α → Prop} {Q : β → Prop} {x y : Res α} {f : α → β} (h : Joint P x y)
    (k : ∀ a, P a → Q (f a)) : Joint Q (x.map f) (y.map f) := by
  obtain ⟨rfl, h⟩ := h
  cases x with
  | error e => exact Joint.error e
  | ok a => exact Joint.ok ⟨rfl, k a (h a rfl)⟩

theorem Joint.mono {α : Type} {P Q : α → Prop} {x y : Res α} (h : Joint P x y) (k : ∀ a, P a → Q a) : Joint Q x y := ⟨h.1, fun a e => k a (h.2 a e)⟩

theorem Joint.same {α : Type} {P : α → Prop} {x : Res α} (h : ∀ a, x = .ok a → P a) : Joint P x x := ⟨rfl, h⟩

theorem need_joint {α : Type} {P : α → Prop} {x : Option α} (h : ∀ a, x = some a → P a) : Joint P (need x) (need x) := by
  cases x with
  | none => exact Joint.error _
  | some a => exact Joint.ok ⟨rfl, h a rfl⟩

/-! ## Boxes and documents -/

/-- All boxes that are shown are in whole numbers. -/
inductive Trim : Node → Prop
  | none {s : CSS} {z : Intrinsic} {cs : List Node} : Trim (.mk s z none cs)
  | some {s : CSS} {z : Intrinsic} {b : Box} {cs : List Node} : b.Integral → (∀ c ∈ cs, Trim c) → Trim (.mk s z (some b) cs)

theorem trim_some {s : CSS} {z : Intrinsic} {b : Box} {cs : List Node} : Trim (.mk s z (some b) cs) ↔ b.Integral ∧ ∀ c ∈ cs, Trim c :=
  ⟨fun h => by cases h with | some h1 h2 => exact ⟨h1, h2⟩, fun h => .some h.1 h.2⟩

theorem trim_shown (n : Node) : Trim n ↔ ∀ bs b, Shown n bs b → b.Integral := by
  induction n using Node.ind with
  | h s z l cs ih =>
    cases l with
    | none =>
      refine ⟨fun _ bs b h => ?_, fun _ => .none⟩
      cases h with
      | here h => cases h
      | step h _ _ => cases h
    | some b =>
      rw [trim_some]
      constructor
      · rintro ⟨h1, h2⟩ bs b' h
        cases h with
        | here h => cases h; exact h1
        | step h hc hb => exact (ih _ hc).1 (h2 _ hc) _ _ hb
      · intro h
        exact ⟨h _ _ (.here rfl), fun c hc => (ih c hc).2 fun bs b' hb => h _ _ (.step rfl hc hb)⟩

theorem fresh_integral : Box.fresh.Integral where
  width x h := by cases h; exact int_integral _
  height x h := by cases h; exact int_integral _
  origin a := by cases a <;> exact int_integral _
  content a := by cases a <;> exact int_integral _
  margin t x h := by cases t <;> cases h <;> exact int_integral _
  border t := by cases t <;> exact int_integral _
  padding t := by cases t <;> exact int_integral _

theorem setPos_integral {b : Box} (h : b.Integral) (a : Axis) {p : AxisPos} (h1 : p.origin.Integral) (h2 : p.content.Integral) : (b.setPos a p).Integral := by
  cases a with
  | v =>
    exact ⟨h.1, h.2, fun a => by cases a; exact h1; exact h.origin .h, fun a => by cases a; exact h2; exact h.content .h, h.5, h.6, h.7⟩
  | h =>
    exact ⟨h.1, h.2, fun a => by cases a; exact h.origin .v; exact h1, fun a => by cases a; exact h.content .v; exact h2, h.5, h.6, h.7⟩

variable {fp fp' : FP} {d : Display}

theorem absContent_whole {b : Box} (h : b.Integral) (a : Axis) : b.absContent fp a = b.absContent fp' a ∧ (b.absContent fp a).Integral :=
  Num.Integral.add (h.origin a) (h.content a)

/-- A document in whole numbers all of whose boxes are in whole numbers. -/
def Fit (fp fp' : FP) (d : Display) (n : Node) : Prop := Trim n ∧ Doc fp fp' d n

theorem setOrigin_doc {f : FP} (a : Axis) (n : Node) : ∀ {v : Num}, Doc fp fp' d n → Doc fp fp' d (n.setOrigin f a v) := by
  induction n using Node.ind with
  | h s z l cs ih =>
    intro v h
    cases l with
    | none => simpa only [Node.setOrigin] using h
    | some b =>
      simp only [Node.setOrigin]
      split
      · exact h
      · cases h with
        | hidden h => exact .hidden h
        | shown h1 h2 h3 =>
          refine .shown h1 h2 fun c hc => ?_
          rw [setOrigins_map] at hc
          obtain ⟨c0, hc0, rfl⟩ := List.mem_map.1 hc
          exact ih c0 hc0 (h3 c0 hc0)

theorem setOrigin_whole (a : Axis) (n : Node) : ∀ {v : Num}, v.Integral → Trim n → n.setOrigin fp a v = n.setOrigin fp' a v ∧ Trim (n.setOrigin fp a v) := by
  induction n using Node.ind with
  | h s z l cs ih =>
    intro v hv hn
    cases l with
    | none => simp only [Node.setOrigin]; exact ⟨trivial, hn⟩
    | some b =>
      simp only [Node.setOrigin]
      split
      · exact ⟨rfl, hn⟩
      · rw [trim_some] at hn ⊢
        have hb := setPos_integral hn.1 a (p := { b.pos a with origin := v }) hv (hn.1.content a)
        have ha := absContent_whole (fp := fp) (fp' := fp') hb a
        have hc : ∀ c ∈ cs, c.setOrigin fp a ((b.setPos a { b.pos a with origin := v }).absContent fp a) =
            c.setOrigin fp' a ((b.setPos a { b.pos a with origin := v }).absContent fp' a) ∧
            Trim (c.setOrigin fp a ((b.setPos a { b.pos a with origin := v }).absContent fp a)) := by
          intro c hc
          rw [← ha.1]
          exact ih c hc ha.2 (hn.2 c hc)
        refine ⟨?_, hb, fun c hc' => ?_⟩
        · rw [setOrigins_map, setOrigins_map, List.map_congr_left fun c h => (hc c h).1]
        · rw [setOrigins_map] at hc'
          obtain ⟨c0, hc0, rfl⟩ := List.mem_map.1 hc'
          exact (hc c0 hc0).2

/-- A box and the children of its node. -/
def Pair (fp fp' : FP) (d : Display) (x : Box × List Node) : Prop := x.1.Integral ∧ ∀ c ∈ x.2, Fit fp fp' d c

theorem setOrigins_whole (a : Axis) {cs : List Node} {v : Num} (hv : v.Integral) (h : ∀ c ∈ cs, Fit fp fp' d c) :
    setOrigins fp a v cs = setOrigins fp' a v cs ∧ ∀ c ∈ setOrigins fp a v cs, Fit fp fp' d c := by
  rw [setOrigins_map, setOrigins_map]
  refine ⟨List.map_congr_left fun c hc => (setOrigin_whole a c hv (h c hc).1).1, fun c hc => ?_⟩
  obtain ⟨c0, hc0, rfl⟩ := List.mem_map.1 hc
  exact ⟨(setOrigin_whole (fp' := fp') a c0 hv (h c0 hc0).1).2, setOrigin_doc a c0 (h c0 hc0).2⟩

theorem setContent_whole (a : Axis) {v w : Num} {b : Box} {cs : List Node} (hv : v = w ∧ v.Integral) (h : Pair fp fp' d (b, cs)) :
    setContent fp a v b cs = setContent fp' a w b cs ∧ Pair fp fp' d (setContent fp a v b cs) := by
  obtain ⟨rfl, hv⟩ := hv
  unfold setContent
  split
  · exact ⟨rfl, h⟩
  · have hb := setPos_integral h.1 a (p := { b.pos a with content := v }) (h.1.origin a) hv
    have ha := absContent_whole (fp := fp) (fp' := fp') hb a
    have hc := setOrigins_whole a ha.2 h.2
    refine ⟨?_, hb, hc.2⟩
    simp only
    rw [hc.1, ha.1]

theorem sameCollapse_integral {b b' : Box} (h : SameButCollapse b b') (hb : b.Integral) : b'.Integral := by
  obtain ⟨w, hh, v, hz, m, c, bo, pa, di⟩ := b
  obtain ⟨w', hh', v', hz', m', c', bo', pa', di'⟩ := b'
  unfold SameButCollapse at h
  injection h
  subst_vars
  exact ⟨hb.1, hb.2, fun a => by cases a; exact hb.origin .v; exact hb.origin .h, fun a => by cases a; exact hb.content .v; exact hb.content .h, hb.5, hb.6, hb.7⟩

/-- A margin in whole numbers. -/
def MWhole (x : MVal) : Prop := ∀ y, x = .num y → y.Integral

theorem setMargin_integral {b : Box} (h : b.Integral) (t : Side) {x : MVal} (hx : MWhole x) : (b.setMargin t x).Integral := by
  unfold Box.setMargin
  split
  · exact h
  · refine sameCollapse_integral (setCollapse_same _ t x) ⟨h.1, h.2, fun a => by cases a; exact h.origin .v; exact h.origin .h,
      fun a => by cases a; exact h.content .v; exact h.content .h, ?_, h.6, h.7⟩
    intro u y hy
    have hy : (b.margin.set t x).get u = .num y := hy
    rw [get_set] at hy
    split at hy
    · exact hx y hy
    · exact h.margin u y hy

theorem num_whole {y : Num} (h : y.Integral) : MWhole (.num y) := fun z e => by cases e; exact h

theorem autoZero_integral {b : Box} (h : b.Integral) (t : Side) : (autoMarginToZero b t).Integral := by
  unfold autoMarginToZero
  split
  · exact setMargin_integral h t (num_whole (int_integral _))
  · exact h

theorem withWidth_integral {b : Box} (h : b.Integral) {w : Option Num} (hw : ∀ x, w = some x → x.Integral) : ({ b with contentWidth := w } : Box).Integral :=
  ⟨hw, h.2, fun a => by cases a; exact h.origin .v; exact h.origin .h, fun a => by cases a; exact h.content .v; exact h.content .h, h.5, h.6, h.7⟩

theorem withHeight_integral {b : Box} (h : b.Integral) {w : Option Num} (hw : ∀ x, w = some x → x.Integral) : ({ b with contentHeight := w } : Box).Integral :=
  ⟨h.1, hw, fun a => by cases a; exact h.origin .v; exact h.origin .h, fun a => by cases a; exact h.content .v; exact h.content .h, h.5, h.6, h.7⟩

theorem withEdges_integral {b : Box} (h : b.Integral) {o p : Edge Num} (ho : ∀ t, (o.get t).Integral) (hp : ∀ t, (p.get t).Integral) :
    ({ b with border := o, padding := p } : Box).Integral :=
  ⟨h.1, h.2, fun a => by cases a; exact h.origin .v; exact h.origin .h, fun a => by cases a; exact h.content .v; exact h.content .h, h.5, ho, hp⟩

/-! ## The passes -/

/-- The context of a length. -/
abbrev ctx (fp : FP) (d : Display) (size : Option Num) : PxCtx := ⟨d, dummyFont fp, size⟩

/-- A size in whole numbers, as far as it is known. -/
def Size (x : Option Num) : Prop := ∀ y, x = some y → y.Integral

theorem Agreed.joint {v : Val} (h : Agreed fp fp' d v) {z : Option Num} (hz : Size z) : Joint Num.Integral (v.px fp (ctx fp d z)) (v.px fp' (ctx fp' d z)) := h z hz

variable (hd : d.Integral)
include hd

theorem size_joint {v : Val} (h : Agreed fp fp' d v) {z : Option Num} (hz : Size z) :
    Joint MWhole (calculateSize fp v (ctx fp d z)) (calculateSize fp' v (ctx fp' d z)) := by
  unfold calculateSize
  split
  · exact Joint.ok ⟨rfl, fun y e => nomatch e⟩
  split
  · exact Joint.ok ⟨rfl, num_whole hd.thin⟩
  split
  · exact Joint.ok ⟨rfl, num_whole hd.medium⟩
  split
  · exact Joint.ok ⟨rfl, num_whole hd.thick⟩
  split
  · exact Joint.ok ⟨rfl, num_whole (int_integral _)⟩
  · exact (h.joint hz).map fun a ha => num_whole ha

omit hd in
theorem toNum_joint {x : MVal} (h : MWhole x) : Joint Num.Integral x.toNum x.toNum := by
  cases x with
  | auto => exact Joint.error _
  | num y => exact Joint.ok ⟨rfl, h y rfl⟩

theorem edge_joint {v : Val} (h : Agreed fp fp' d v) {z : Option Num} (hz : Size z) :
    Joint Num.Integral (calculateEdge fp v (ctx fp d z)) (calculateEdge fp' v (ctx fp' d z)) :=
  (size_joint hd h hz).bind fun _ hm => toNum_joint hm

theorem edges_joint {s : CSS} (hs : Style fp fp' d s) {z z' : Option Num} (hz : Size z) (hz' : Size z') {b : Box} (hb : b.Integral) :
    Joint Box.Integral (copyEdges fp s (ctx fp d z) (ctx fp d z') b) (copyEdges fp' s (ctx fp' d z) (ctx fp' d z') b) := by
  have m : ∀ t, Agreed fp fp' d (s.get (.margin t)) := fun t => hs _ (Or.inl (by simp [LH.Sizing]))
  have o : ∀ t, Agreed fp fp' d (s.get (.borderWidth t)) := fun t => hs _ (Or.inl (by simp [LH.Sizing]))
  have p : ∀ t, Agreed fp fp' d (s.get (.padding t)) := fun t => hs _ (Or.inl (by simp [LH.Sizing]))
  unfold copyEdges
  refine (size_joint hd (m .top) hz').bind fun m1 h1 => ?_
  refine (size_joint hd (m .right) hz).bind fun m2 h2 => ?_
  refine (size_joint hd (m .bottom) hz').bind fun m3 h3 => ?_
  refine (size_joint hd (m .left) hz).bind fun m4 h4 => ?_
  refine (edge_joint hd (o .top) hz).bind fun o1 k1 => ?_
  refine (edge_joint hd (o .right) hz').bind fun o2 k2 => ?_
  refine (edge_joint hd (o .bottom) hz).bind fun o3 k3 => ?_
  refine (edge_joint hd (o .left) hz').bind fun o4 k4 => ?_
  refine (edge_joint hd (p .top) hz).bind fun p1 l1 => ?_
  refine (edge_joint hd (p .right) hz').bind fun p2 l2 => ?_
  refine (edge_joint hd (p .bottom) hz).bind fun p3 l3 => ?_
  refine (edge_joint hd (p .left) hz').bind fun p4 l4 => ?_
  refine Joint.ok ⟨rfl, withEdges_integral (setMargin_integral (setMargin_integral (setMargin_integral (setMargin_integral hb _ h1) _ h2) _ h3) _ h4) ?_ ?_⟩
  · intro t; cases t <;> assumption
  · intro t; cases t <;> assumption

omit hd

theorem left_joint {b : Box} {cs : List Node} (h : Pair fp fp' d (b, cs)) : Joint (Pair fp fp' d) (placeLeft fp b cs) (placeLeft fp' b cs) := by
  unfold placeLeft
  refine (toNum_joint (fun y e => h.1.margin .left y e)).bind fun ml hl => Joint.ok (setContent_whole .h (addAll_whole _ hl ?_) h)
  intro y hy
  simp only [List.mem_cons, List.not_mem_nil, or_false] at hy
  rcases hy with rfl | rfl
  · exact h.1.border .left
  · exact h.1.padding .left

theorem remaining_whole {b : Box} (h : b.Integral) {size ml mr : Num} (hs : size.Integral) (hl : ml.Integral) (hr : mr.Integral) :
    remainingWidth fp size ml mr b = remainingWidth fp' size ml mr b ∧ (remainingWidth fp size ml mr b).Integral := by
  refine subAll_whole _ hs ?_
  intro y hy
  simp only [List.mem_cons, List.not_mem_nil, or_false] at hy
  rcases hy with rfl | rfl | rfl | rfl | rfl | rfl
  exacts [hl, h.border .left, h.padding .left, h.padding .right, h.border .right, hr]

theorem addMargin_whole {x : Num} {m : MVal} (hx : x.Integral) (hm : MWhole m) : addMargin fp x m = addMargin fp' x m ∧ (addMargin fp x m).Integral := by
  cases m with
  | auto => exact ⟨rfl, hx⟩
  | num y => exact Num.Integral.add hx (hm y rfl)

theorem solveMargins_whole {s : CSS} {size w : Num} {b : Box} (hs : size.Integral) (hw : w.Integral) (hb : b.Integral) :
    solveMargins fp s size w b = solveMargins fp' s size w b ∧ (solveMargins fp s size w b).Integral := by
  have t0 := addAll_whole (fp := fp) (fp' := fp') [b.padding.left, w, b.padding.right, b.border.right] (hb.border .left) (by
    intro y hy
    simp only [List.mem_cons, List.not_mem_nil, or_false] at hy
    rcases hy with rfl | rfl | rfl | rfl
    exacts [hb.padding .left, hw, hb.padding .right, hb.border .right])
  have t1 := addMargin_whole (fp := fp) (fp' := fp') t0.2 (m := b.margin.left) (fun y e => hb.margin .left y e)
  have t2 := addMargin_whole (fp := fp) (fp' := fp') t1.2 (m := b.margin.right) (fun y e => hb.margin .right y e)
  have et : addMargin fp (addMargin fp (addAll fp b.border.left [b.padding.left, w, b.padding.right, b.border.right]) b.margin.left) b.margin.right =
      addMargin fp' (addMargin fp' (addAll fp' b.border.left [b.padding.left, w, b.padding.right, b.border.right]) b.margin.left) b.margin.right := by
    simp only [Edge.get] at t0 t1 t2
    rw [t2.1, t1.1, t0.1]
  unfold solveMargins
  rw [et]
  extract_lets total c
  have hc : c.Integral := by
    show Box.Integral (if _ then _ else _)
    split
    · exact autoZero_integral (autoZero_integral hb _) _
    · exact hb
  clear_value c total
  have sub : ∀ (t : Side) (xs : List Num), (∀ x ∈ xs, x.Integral) → c.setMargin t (.num (subAll fp size xs)) = c.setMargin t (.num (subAll fp' size xs)) ∧
      (c.setMargin t (.num (subAll fp size xs))).Integral := by
    intro t xs hx
    have := subAll_whole (fp := fp) (fp' := fp') xs hs hx
    exact ⟨by rw [this.1], setMargin_integral hc t (num_whole this.2)⟩
  split
  · rename_i ml mr h1 h2
    split
    · refine sub _ _ ?_
      intro y hy
      simp only [List.mem_cons, List.not_mem_nil, or_false] at hy
      rcases hy with rfl | rfl | rfl | rfl | rfl | rfl
      exacts [hc.margin .left _ h1, hc.border .left, hc.padding .left, hw, hc.padding .right, hc.border .right]
    · refine sub _ _ ?_
      intro y hy
      simp only [List.mem_cons, List.not_mem_nil, or_false] at hy
      rcases hy with rfl | rfl | rfl | rfl | rfl | rfl
      exacts [hc.border .left, hc.padding .left, hw, hc.padding .right, hc.border .right, hc.margin .right _ h2]
  · rename_i mr h1 h2
    refine sub _ _ ?_
    intro y hy
    simp only [List.mem_cons, List.not_mem_nil, or_false] at hy
    rcases hy with rfl | rfl | rfl | rfl | rfl | rfl
    exacts [hc.border .left, hc.padding .left, hw, hc.padding .right, hc.border .right, hc.margin .right _ h2]
  · rename_i ml h1 h2
    refine sub _ _ ?_
    intro y hy
    simp only [List.mem_cons, List.not_mem_nil, or_false] at hy
    rcases hy with rfl | rfl | rfl | rfl | rfl | rfl
    exacts [hc.margin .left _ h1, hc.border .left, hc.padding .left, hw, hc.padding .right, hc.border .right]
  · have ha := subAll_whole (fp := fp) (fp' := fp') [c.border.left, c.padding.left, w, c.padding.right, c.border.right] hs (by
      intro y hy
      simp only [List.mem_cons, List.not_mem_nil, or_false] at hy
      rcases hy with rfl | rfl | rfl | rfl | rfl
      exacts [hc.border .left, hc.padding .left, hw, hc.padding .right, hc.border .right])
    have hf := Num.Integral.half (fp := fp) (fp' := fp') ha.2
    refine ⟨?_, setMargin_integral (setMargin_integral hc _ (num_whole hf.2)) _ (num_whole hf.2)⟩
    have e : (subAll fp size [c.border.left, c.padding.left, w, c.padding.right, c.border.right]).floorDiv2 fp =
        (subAll fp' size [c.border.left, c.padding.left, w, c.padding.right, c.border.right]).floorDiv2 fp' := by rw [← ha.1, hf.1]
    show (c.setMargin .left (.num ((subAll fp size [c.border.left, c.padding.left, w, c.padding.right, c.border.right]).floorDiv2 fp))).setMargin .right
        (.num ((subAll fp size [c.border.left, c.padding.left, w, c.padding.right, c.border.right]).floorDiv2 fp)) = _
    rw [e]

theorem clamped_joint {s : CSS} (hs : Style fp fp' d s) {z : Option Num} (hz : Size z) :
    Joint Num.Integral (clampedWidth fp s (ctx fp d z)) (clampedWidth fp' s (ctx fp' d z)) := by
  have g : ∀ p : LH, p.Sizing → Joint Num.Integral ((s.get p).px fp (ctx fp d z)) ((s.get p).px fp' (ctx fp' d z)) := fun p hp => (hs p (Or.inl hp)).joint hz
  have last : ∀ w : Num, w.Integral → Joint Num.Integral
      (if (s.get .minWidth).isKw "auto" = true then pure w else do
        let m ← (s.get .minWidth).px fp (ctx fp d z)
        pure (if w.pyLt m then m else w))
      (if (s.get .minWidth).isKw "auto" = true then pure w else do
        let m ← (s.get .minWidth).px fp' (ctx fp' d z)
        pure (if w.pyLt m then m else w)) := by
    intro w hw
    split
    · exact Joint.ok ⟨rfl, hw⟩
    · refine (g .minWidth (by simp [LH.Sizing])).bind fun m hm => Joint.ok ⟨rfl, ?_⟩
      split <;> assumption
  unfold clampedWidth
  refine (g .width (by simp [LH.Sizing])).bind fun w hw => ?_
  simp only
  split
  · exact last w hw
  · refine (g .maxWidth (by simp [LH.Sizing])).bind fun m hm => last _ ?_
    split <;> assumption

theorem margin_joint {b : Box} (h : b.Integral) (t : Side) : Joint Num.Integral (b.margin.get t).toNum (b.margin.get t).toNum :=
  toNum_joint fun y e => h.margin t y e

theorem width_joint {s : CSS} (hs : Style fp fp' d s) {i : Intrinsic} (hi : i.Integral) {z : Option Num} (hz : Size z) {b : Box} {cs : List Node}
    (hb : Pair fp fp' d (b, cs)) : Joint (Pair fp fp' d) (widthAndMargins fp s i (ctx fp d z) b cs) (widthAndMargins fp' s i (ctx fp' d z) b cs) := by
  have h0 : (autoMarginToZero (autoMarginToZero b .left) .right).Integral := autoZero_integral (autoZero_integral hb.1 _) _
  have put : ∀ {c : Box} {w w' : Num}, c.Integral → w = w' ∧ w.Integral →
      Joint (Pair fp fp' d) (placeLeft fp { c with contentWidth := some w } cs) (placeLeft fp' { c with contentWidth := some w' } cs) := by
    rintro c w _ hc ⟨rfl, hw⟩
    exact left_joint ⟨withWidth_integral hc fun y e => by cases e; exact hw, hb.2⟩
  unfold widthAndMargins
  split
  · exact Joint.error _
  split
  · exact Joint.error _
  split
  · split
    · unfold inlineReplacedWidth
      refine Joint.bind (P := Num.Integral) ?_ fun w hw => put h0 ⟨rfl, hw⟩
      unfold inlineReplacedContentWidth
      split
      · split
        · split
          · rename_i hq; exact Joint.ok ⟨rfl, hi.width _ hq⟩
          · rename_i h r hh hr
            have := Num.Integral.mul (fp := fp) (fp' := fp') (hi.height _ hh) (hi.ratio _ hr)
            exact Joint.ok ⟨by rw [this.1], int_integral _⟩
          · refine (need_joint hz).bind fun size hs => ?_
            refine (margin_joint h0 .left).bind fun ml hl => ?_
            refine (margin_joint h0 .right).bind fun mr hr => ?_
            exact Joint.ok (remaining_whole h0 hs hl hr)
          · exact Joint.ok ⟨rfl, int_integral _⟩
        · split
          · rename_i hq; exact Joint.ok ⟨rfl, hi.width _ hq⟩
          · exact Joint.ok ⟨rfl, int_integral _⟩
      · exact (hs .width (by simp [LH.Sizing])).joint hz
    · exact Joint.ok ⟨rfl, withWidth_integral h0 hi.width, hb.2⟩
  split
  · split
    · exact Joint.error _
    · unfold blockWidth
      split
      · refine (need_joint hz).bind fun size hs => ?_
        refine (margin_joint h0 .left).bind fun ml hl => ?_
        refine (margin_joint h0 .right).bind fun mr hr => ?_
        exact put h0 (remaining_whole h0 hs hl hr)
      · refine (clamped_joint hs hz).bind fun w hw => ?_
        refine (need_joint hz).bind fun size hs => ?_
        have := solveMargins_whole (fp := fp) (fp' := fp') (s := s) hs hw hb.1
        simp only
        rw [← this.1]
        exact put this.2 ⟨rfl, hw⟩
  · split <;> exact Joint.error _

theorem top_joint {b : Box} {cs : List Node} (h : Pair fp fp' d (b, cs)) : Joint (Pair fp fp' d) (placeTopInline fp b cs) (placeTopInline fp' b cs) := by
  unfold placeTopInline
  refine (margin_joint h.1 .top).bind fun mt ht => ?_
  have h1 := addAll_whole (fp := fp) (fp' := fp') [b.border.top, b.padding.top] ht (by
    intro y hy
    simp only [List.mem_cons, List.not_mem_nil, or_false] at hy
    rcases hy with rfl | rfl
    · exact h.1.border .top
    · exact h.1.padding .top)
  have h2 := Num.Integral.add (fp := fp) (fp' := fp') (h.1.content .v) h1.2
  refine Joint.ok (setContent_whole .v ⟨?_, h2.2⟩ h)
  rw [← h1.1]
  exact h2.1

theorem explicit_joint {s : CSS} (hs : Style fp fp' d s) {p : Option CSS} (hp : ∀ q, p = some q → Style fp fp' d q) {z : Option Num} (hz : Size z) :
    Joint Num.Integral (explicitHeight fp s p (ctx fp d z)) (explicitHeight fp' s p (ctx fp' d z)) := by
  have g : ∀ p : LH, p.Sizing → Joint Num.Integral ((s.get p).px fp (ctx fp d z)) ((s.get p).px fp' (ctx fp' d z)) := fun p hp => (hs p (Or.inl hp)).joint hz
  have last : ∀ h : Num, h.Integral → Joint Num.Integral
      (if (s.get .maxHeight).isNone = true then pure h else do
        let m ← (s.get .maxHeight).px fp (ctx fp d z)
        pure (if m.pyLt h then m else h))
      (if (s.get .maxHeight).isNone = true then pure h else do
        let m ← (s.get .maxHeight).px fp' (ctx fp' d z)
        pure (if m.pyLt h then m else h)) := by
    intro h hh
    split
    · exact Joint.ok ⟨rfl, hh⟩
    · refine (g .maxHeight (by simp [LH.Sizing])).bind fun m hm => Joint.ok ⟨rfl, ?_⟩
      split <;> assumption
  unfold explicitHeight
  simp only
  split
  · rename_i q
    split
    · exact (g .height (by simp [LH.Sizing])).bind last
    · refine ((hp q rfl .height (by simp [LH.Sizing])).joint hz).bind fun ph hph => ?_
      exact ((hs .height (by simp [LH.Sizing])).joint (z := some ph) fun y e => by cases e; exact hph).bind last
  · exact (g .height (by simp [LH.Sizing])).bind last

theorem bottom_whole {b : Box} (hb : b.Integral) : b.borderBoxBottom fp = b.borderBoxBottom fp' ∧ ∀ x, b.borderBoxBottom fp = some x → x.Integral := by
  unfold Box.borderBoxBottom
  cases hw : b.contentHeight with
  | none => exact ⟨rfl, fun x e => nomatch e⟩
  | some w =>
    have h1 := Num.Integral.add (fp := fp) (fp' := fp') (hb.content .v) (hb.height w hw)
    have h2 := Num.Integral.add (fp := fp) (fp' := fp') h1.2 (hb.padding .bottom)
    have h3 := Num.Integral.add (fp := fp) (fp' := fp') h2.2 (hb.border .bottom)
    simp only [Box.pos, Edge.get] at h1 h2 h3
    refine ⟨?_, fun x e => ?_⟩
    · simp only [Option.map_some]
      rw [h3.1, h2.1, h1.1]
    · simp only [Option.map_some, Option.some.injEq] at e
      subst e
      exact h3.2

theorem borderHeight_whole {b : Box} (hb : b.Integral) : b.borderBoxHeight fp = b.borderBoxHeight fp' ∧ ∀ x, b.borderBoxHeight fp = some x → x.Integral := by
  unfold Box.borderBoxHeight
  cases hw : b.contentHeight with
  | none => exact ⟨rfl, fun x e => nomatch e⟩
  | some w =>
    have h0 := Num.Integral.add (fp := fp) (fp' := fp') (hb.border .top) (hb.padding .top)
    have h1 := Num.Integral.add (fp := fp) (fp' := fp') h0.2 (hb.height w hw)
    have h2 := Num.Integral.add (fp := fp) (fp' := fp') h1.2 (hb.padding .bottom)
    have h3 := Num.Integral.add (fp := fp) (fp' := fp') h2.2 (hb.border .bottom)
    simp only [Edge.get] at h0 h1 h2 h3
    refine ⟨?_, fun x e => ?_⟩
    · simp only [Option.map_some]
      rw [h3.1, h2.1, h1.1, h0.1]
    · simp only [Option.map_some, Option.some.injEq] at e
      subst e
      exact h3.2

theorem contentHeight_joint {s : CSS} (hs : Style fp fp' d s) {p : Option CSS} (hp : ∀ q, p = some q → Style fp fp' d q) {z : Option Num} (hz : Size z)
    {b : Box} {cs : List Node} (hb : Pair fp fp' d (b, cs)) :
    Joint (fun x => x.1.Integral ∧ x.2.Integral) (blockContentHeight fp s p (ctx fp d z) b cs) (blockContentHeight fp' s p (ctx fp' d z) b cs) := by
  unfold blockContentHeight
  split
  · split
    · rename_i last hlast
      split
      · exact Joint.error _
      · rename_i lb hlb
        have ht := ((trim_shown last).1 (hb.2 last (List.mem_of_getLast? hlast)).1) _ _ (.here hlb)
        have := bottom_whole (fp := fp) (fp' := fp') ht
        rw [← this.1]
        exact (need_joint this.2).bind fun h hh => Joint.ok ⟨rfl, hh, sameCollapse_integral (setCollapse_same _ _ _) hb.1⟩
    · split
      · exact Joint.ok ⟨rfl, int_integral _, hb.1⟩
      · exact ((hs .minHeight (by simp [LH.Sizing])).joint hz).bind fun h hh => Joint.ok ⟨rfl, hh, hb.1⟩
  · exact (explicit_joint hs hp hz).bind fun h hh => Joint.ok ⟨rfl, hh, hb.1⟩

theorem height_joint {s : CSS} (hs : Style fp fp' d s) {i : Intrinsic} (hi : i.Integral) {p : Option CSS} (hp : ∀ q, p = some q → Style fp fp' d q)
    {z : Option Num} (hz : Size z) {b : Box} {cs : List Node} (hb : Pair fp fp' d (b, cs)) :
    Joint (Pair fp fp' d) (heightAndMargins fp s i p (ctx fp d z) b cs) (heightAndMargins fp' s i p (ctx fp' d z) b cs) := by
  have h0 : (autoMarginToZero (autoMarginToZero b .top) .bottom).Integral := autoZero_integral (autoZero_integral hb.1 _) _
  unfold heightAndMargins
  split
  · exact Joint.error _
  split
  · exact Joint.error _
  split
  · split
    · unfold inlineReplacedHeight
      refine Joint.bind (P := Num.Integral) ?_ fun w hw => top_joint ⟨withHeight_integral h0 fun y e => by cases e; exact hw, hb.2⟩
      unfold inlineReplacedContentHeight
      split
      · split
        · rename_i hq; exact Joint.ok ⟨rfl, hi.height _ hq⟩
        · split
          · refine (need_joint h0.width).bind fun w hw => ?_
            exact (need_joint hi.ratio).bind fun r hr => Joint.ok (Num.Integral.mul hw hr)
          · split
            · exact need_joint hi.height
            · refine (need_joint h0.width).bind fun w hw => ?_
              have := Num.Integral.half (fp := fp) (fp' := fp') hw
              refine Joint.ok ⟨by rw [this.1], ?_⟩
              unfold Num.pyMin
              split
              · exact int_integral _
              · exact this.2
      · exact (hs .height (by simp [LH.Sizing])).joint hz
    · unfold inlineHeight
      exact top_joint ⟨withHeight_integral hb.1 hi.height, hb.2⟩
  split
  · split
    · exact Joint.error _
    · unfold blockHeight
      refine (contentHeight_joint hs hp hz ⟨h0, hb.2⟩).bind fun x hx => ?_
      obtain ⟨h, b1⟩ := x
      have k1 := Num.Integral.add (fp := fp) (fp' := fp') (hx.2.border .top) (hx.2.padding .top)
      have k2 := Num.Integral.add (fp := fp) (fp' := fp') (hx.2.content .v) k1.2
      simp only [Box.pos, Edge.get] at k1 k2
      refine Joint.ok (setContent_whole .v ⟨?_, k2.2⟩ ⟨withHeight_integral hx.2 fun y e => by cases e; exact hx.1, hb.2⟩)
      show b1.v.content.add fp (b1.border.top.add fp b1.padding.top) = b1.v.content.add fp' (b1.border.top.add fp' b1.padding.top)
      rw [k2.1, k1.1]
  · split <;> exact Joint.error _

theorem offset_joint {cb : CB} (hcb : ∀ b, cb = .box b → b.Integral) {a : Axis} {start stop : Val} (h1 : Agreed fp fp' d start) (h2 : Agreed fp fp' d stop)
    {z : Option Num} (hz : Size z) :
    Joint Num.Integral (relativeOffset fp cb a start stop (ctx fp d z)) (relativeOffset fp' cb a start stop (ctx fp' d z)) := by
  unfold relativeOffset
  split
  · exact Joint.ok ⟨rfl, int_integral _⟩
  split
  · split
    · refine Joint.map (P := Num.Integral) ?_ fun _ h => Num.Integral.neg h
      cases cb with
      | viewport d => exact Joint.error _
      | box b =>
        have g := hcb b rfl
        cases a with
        | h =>
          show Joint _ (need (b.contentRight fp)) (need (b.contentRight fp'))
          unfold Box.contentRight
          cases hw : b.contentWidth with
          | none => exact Joint.error _
          | some w => exact Joint.ok (Num.Integral.add (g.content .h) (g.width w hw))
        | v =>
          show Joint _ (need (b.contentBottom fp)) (need (b.contentBottom fp'))
          unfold Box.contentBottom
          cases hw : b.contentHeight with
          | none => exact Joint.error _
          | some w => exact Joint.ok (Num.Integral.add (g.content .v) (g.height w hw))
    · exact (h2.joint hz).map fun _ h => Num.Integral.neg h
  split
  · split
    · cases cb with
      | viewport d => exact Joint.error _
      | box b => exact Joint.ok ⟨rfl, (hcb b rfl).content a⟩
    · exact h1.joint hz
  · exact h1.joint hz

theorem relative_joint {s : CSS} (hs : Style fp fp' d s) {cb : CB} (hcb : ∀ b, cb = .box b → b.Integral) {z z' : Option Num} (hz : Size z) (hz' : Size z')
    {b : Box} {cs : List Node} (hb : Pair fp fp' d (b, cs)) :
    Joint (Pair fp fp' d) (applyRelative fp s cb (ctx fp d z) (ctx fp d z') b cs) (applyRelative fp' s cb (ctx fp' d z) (ctx fp' d z') b cs) := by
  have g : ∀ p : LH, p.Offset → Agreed fp fp' d (s.get p) := fun p hp => hs p (Or.inr hp)
  unfold applyRelative
  split
  · refine (offset_joint hcb (g .left (by simp [LH.Offset])) (g .right (by simp [LH.Offset])) hz).bind fun dx hx => ?_
    have k := setContent_whole (fp := fp) (fp' := fp') .h (Num.Integral.add (fp := fp) (fp' := fp') (hb.1.content .h) hx) hb
    simp only [Box.pos] at k
    rw [← k.1]
    refine (offset_joint hcb (g .top (by simp [LH.Offset])) (g .bottom (by simp [LH.Offset])) hz').bind fun dy hy => ?_
    exact Joint.ok (setContent_whole .v (Num.Integral.add (k.2.1.content .v) hy) k.2)
  · exact Joint.ok ⟨rfl, hb⟩

/-! ## Children -/

theorem inline_joint {lay lay' : Node → Res Node} (cs : List Node) (h : ∀ c ∈ cs, Joint (Fit fp fp' d) (lay c) (lay' c)) :
    Joint (fun ks => ∀ c ∈ ks, Fit fp fp' d c) (inlineLoop lay cs) (inlineLoop lay' cs) := by
  induction cs with
  | nil => exact Joint.ok ⟨rfl, fun c hc => nomatch hc⟩
  | cons c cs ih =>
    have e : ∀ l : Node → Res Node, inlineLoop l (c :: cs) = l c >>= fun c' => inlineLoop l cs >>= fun cs' => .ok (c' :: cs') := by
      intro l
      rw [inlineLoop]
      cases l c with
      | error e => rfl
      | ok c' => cases inlineLoop l cs <;> rfl
    rw [e, e]
    refine (h c List.mem_cons_self).bind fun c' h1 => ?_
    refine (ih fun x hx => h x (List.mem_cons_of_mem _ hx)).bind fun cs' h2 => Joint.ok ⟨rfl, fun x hx => ?_⟩
    rcases List.mem_cons.1 hx with rfl | hx
    · exact h1
    · exact h2 x hx

theorem stack_joint {b : Box} (hb : b.Integral) {off : Num} (ho : off.Integral) (bm : Option Int) {c : Node} (hc : Fit fp fp' d c) :
    Joint (fun x => x.1.Integral ∧ Fit fp fp' d x.2.1 ∧ x.2.2.1.Integral) (stackChild fp b off bm c) (stackChild fp' b off bm c) := by
  obtain ⟨s, z, l, cs⟩ := c
  cases l with
  | none => exact Joint.error _
  | some cb =>
    obtain ⟨ht, hr⟩ := hc
    rw [trim_some] at ht
    unfold stackChild
    refine Joint.bind (P := fun x => x.1.Integral ∧ x.2.Integral) ?_ fun x hx => ?_
    · unfold collapseAbove
      split
      · exact Joint.ok ⟨rfl, sameCollapse_integral (setCollapse_same _ _ _) hb, ho⟩
      · refine (margin_joint ht.1 .top).bind fun mt hm => ?_
        rename_i m0
        have hx : ((Num.int m0).pyMax mt).Integral := by unfold Num.pyMax; split; exacts [hm, int_integral _]
        have := Num.Integral.add (fp := fp) (fp' := fp') ho hx
        exact Joint.ok ⟨by rw [this.1], hb, this.2⟩
    · obtain ⟨b1, off1⟩ := x
      have hkids : s.get .display = .none ∨ ∀ c ∈ cs, Doc fp fp' d c := by
        cases hr with
        | hidden h => exact Or.inl h
        | shown _ _ h => exact Or.inr h
      have hv := Num.Integral.add (fp := fp) (fp' := fp') (ht.1.content .v) hx.2
      -- children need not be displayed, if the node is hidden
      have key : setContent fp .v (cb.v.content.add fp off1) cb cs = setContent fp' .v (cb.v.content.add fp' off1) cb cs ∧
          (setContent fp .v (cb.v.content.add fp off1) cb cs).1.Integral ∧ Fit fp fp' d (.mk s z (some (setContent fp .v (cb.v.content.add fp off1) cb cs).1)
            (setContent fp .v (cb.v.content.add fp off1) cb cs).2) := by
        simp only [Box.pos] at hv
        rw [← hv.1]
        have hv := hv.2
        generalize cb.v.content.add fp off1 = v at hv ⊢
        unfold setContent
        split
        · exact ⟨rfl, ht.1, trim_some.2 ht, hr⟩
        · have hb' := setPos_integral ht.1 .v (p := { cb.pos .v with content := v }) (ht.1.origin .v) hv
          have ha := absContent_whole (fp := fp) (fp' := fp') hb' .v
          have e : setOrigins fp .v ((cb.setPos .v { cb.pos .v with content := v }).absContent fp .v) cs =
              setOrigins fp' .v ((cb.setPos .v { cb.pos .v with content := v }).absContent fp' .v) cs := by
            rw [← ha.1, setOrigins_map, setOrigins_map]
            exact List.map_congr_left fun c hc => (setOrigin_whole .v c ha.2 (ht.2 c hc)).1
          refine ⟨?_, hb', trim_some.2 ⟨hb', fun c hc => ?_⟩, ?_⟩
          · simp only
            rw [e]
          · simp only at hc
            rw [setOrigins_map] at hc
            obtain ⟨c0, hc0, rfl⟩ := List.mem_map.1 hc
            exact (setOrigin_whole (fp' := fp') .v c0 ha.2 (ht.2 c0 hc0)).2
          · cases hr with
            | hidden h => exact .hidden h
            | shown k1 k2 k3 =>
              refine .shown k1 k2 fun c hc => ?_
              simp only at hc
              rw [setOrigins_map] at hc
              obtain ⟨c0, hc0, rfl⟩ := List.mem_map.1 hc
              exact setOrigin_doc .v c0 (k3 c0 hc0)
      simp only
      rw [← key.1]
      have kh := borderHeight_whole (fp := fp) (fp' := fp') key.2.1
      rw [← kh.1]
      refine (need_joint kh.2).bind fun h hh => ?_
      have := Num.Integral.add (fp := fp) (fp' := fp') hx.2 hh
      exact Joint.ok ⟨by rw [this.1], hx.1, key.2.2, this.2⟩

theorem block_joint {lay lay' : Box → Node → Res Node} (ks : List Container) : ∀ {b : Box} {off : Num} {bm : Option Int}, b.Integral → off.Integral →
    (∀ b c, Container.node c ∈ ks → b.Integral → Joint (Fit fp fp' d) (lay b c) (lay' b c)) →
    Joint (Pair fp fp' d) (blockLoop fp lay b off bm ks) (blockLoop fp' lay' b off bm ks) := by
  induction ks with
  | nil => intro b off bm hb _ _; exact Joint.ok ⟨rfl, hb, fun c hc => nomatch hc⟩
  | cons k ks ih =>
    intro b off bm hb ho h
    cases k with
    | anon xs => exact Joint.error _
    | node c =>
      have e : ∀ (f : FP) (l : Box → Node → Res Node), blockLoop f l b off bm (.node c :: ks) = l b c >>= fun c' => stackChild f b off bm c' >>= fun x =>
          blockLoop f l x.1 x.2.2.1 x.2.2.2 ks >>= fun y => .ok (y.1, x.2.1 :: y.2) := by
        intro f l
        rw [blockLoop]
        cases l b c with
        | error e => rfl
        | ok c' =>
          show (match stackChild f b off bm c' with
            | .error e => Except.error e
            | .ok (b, c, offset, bm) => _) = stackChild f b off bm c' >>= _
          cases stackChild f b off bm c' with
          | error e => rfl
          | ok x =>
            show (match blockLoop f l x.1 x.2.2.1 x.2.2.2 ks with
              | .error e => Except.error e
              | .ok (b, cs) => _) = blockLoop f l x.1 x.2.2.1 x.2.2.2 ks >>= _
            cases blockLoop f l x.1 x.2.2.1 x.2.2.2 ks <;> rfl
      rw [e, e]
      refine (h b c List.mem_cons_self hb).bind fun c' hc' => ?_
      refine (stack_joint hb ho bm hc').bind fun x hx => ?_
      refine (ih hx.1 hx.2.2 fun b c hc => h b c (List.mem_cons_of_mem _ hc)).bind fun y hy => Joint.ok ⟨rfl, hy.1, fun k hk => ?_⟩
      rcases List.mem_cons.1 hk with rfl | hk
      · exact hx.2.1
      · exact hy.2 k hk

theorem anonymize_mem (cs : List Node) : ∀ pending c, Container.node c ∈ anonymizeLoop pending cs → c ∈ cs := by
  induction cs with
  | nil => intro p c h; cases p <;> cases h
  | cons x cs ih =>
    intro p c h
    unfold anonymizeLoop at h
    split at h
    · split at h
      · rcases List.mem_cons.1 h with h | h
        · cases h
        · rcases List.mem_cons.1 h with h | h
          · cases h; exact List.mem_cons_self
          · exact List.mem_cons_of_mem _ (ih _ _ h)
      · rcases List.mem_cons.1 h with h | h
        · cases h; exact List.mem_cons_self
        · exact List.mem_cons_of_mem _ (ih _ _ h)
    · split at h
      · exact List.mem_cons_of_mem _ (ih _ _ h)
      · exact List.mem_cons_of_mem _ (ih _ _ h)

theorem children_joint {lay lay' : Box → Node → Res Node} {s : CSS} {i : Intrinsic} {b : Box} {cs : List Node} (hb : Pair fp fp' d (b, cs))
    (h : ∀ b c, c ∈ cs → b.Integral → Joint (Fit fp fp' d) (lay b c) (lay' b c)) :
    Joint (Pair fp fp' d) (layoutChildren fp lay s i b cs) (layoutChildren fp' lay' s i b cs) := by
  unfold layoutChildren
  split
  · have := inline_joint cs fun c hc => h b c hc hb.1
    obtain ⟨e, k⟩ := this
    rw [← e]
    cases hl : inlineLoop (lay b) cs with
    | error e => exact Joint.error _
    | ok ks => exact Joint.ok ⟨rfl, hb.1, k ks hl⟩
  · have := block_joint (anonymize cs) (bm := none) hb.1 (int_integral 0) fun b c hc => h b c (anonymize_mem cs _ _ hc)
    obtain ⟨e, k⟩ := this
    rw [← e]
    cases hl : blockLoop fp lay b (.int 0) none (anonymize cs) with
    | error e => exact Joint.error _
    | ok x =>
      refine Joint.ok ⟨rfl, (k x hl).1, fun c hc => ?_⟩
      rcases List.mem_append.1 hc with hc | hc
      · exact (k x hl).2 c hc
      · exact hb.2 c (List.mem_of_mem_drop hc)

/-! ## Documents -/

theorem layoutBox_joint (hd : d.Integral) (f : Nat) : ∀ (p : Option CSS) (cb : CB) (n : Node), (∀ q, p = some q → Style fp fp' d q) →
    (∀ b, cb = .box b → b.Integral) → Size cb.width → Size cb.height → Fit fp fp' d n →
    Joint (Fit fp fp' d) (layoutBox fp d f p cb n) (layoutBox fp' d f p cb n) := by
  induction f with
  | zero => intro p cb n _ _ _ _ _; exact Joint.error _
  | succ f ih =>
    rintro p cb ⟨s, z, l, cs⟩ hp hcb hw hh hn
    by_cases hs : s.get .display = .none
    · unfold layoutBox
      simp only [hs, Val.isNone, if_true]
      exact Joint.ok ⟨rfl, .none, .hidden hs⟩
    · obtain ⟨ht, hr⟩ := hn
      cases hr with
      | hidden h => exact absurd h hs
      | @shown _ _ b _ k1 k2 k3 =>
        rw [trim_some] at ht
        have hnone : ¬ (s.get .display).isNone = true := fun h => hs (by
          cases hg : s.get .display <;> simp_all [Val.isNone])
        have body : Joint (Pair fp fp' d) (layoutBody fp d (fun b n => layoutBox fp d f (some s) (.box b) n) p cb s z b cs)
            (layoutBody fp' d (fun b n => layoutBox fp' d f (some s) (.box b) n) p cb s z b cs) := by
          unfold layoutBody
          refine (edges_joint hd k1 hw hh ht.1).bind fun b1 h1 => ?_
          refine (width_joint k1 k2 hw (b := b1) (cs := cs) ⟨h1, fun c hc => ⟨ht.2 c hc, k3 c hc⟩⟩).bind fun x2 h2 => ?_
          refine Joint.bind (P := Pair fp fp' d) ?_ fun x3 h3 => ?_
          · unfold relativeHeight
            split
            · exact height_joint k1 k2 hp hh h2
            · exact Joint.ok ⟨rfl, h2⟩
          · obtain ⟨b3, cs3⟩ := x3
            simp only
            split
            · exact Joint.error _
            split
            · exact Joint.error _
            refine (children_joint (b := b3) (cs := cs3) h3 fun b c hc hb => ?_).bind fun x4 h4 => ?_
            · exact ih (some s) (.box b) c (fun q e => by cases e; exact k1) (fun b' e => by cases e; exact hb) hb.1 hb.2 (h3.2 c hc)
            · exact (height_joint k1 k2 hp hh h4).bind fun x5 h5 => relative_joint k1 hcb hw hh h5
        obtain ⟨e, k⟩ := body
        have u : ∀ g : FP, layoutBox g d (f + 1) p cb (.mk s z (some b) cs) =
            match layoutBody g d (fun b n => layoutBox g d f (some s) (.box b) n) p cb s z b cs with
            | .error e => .error e
            | .ok (b, cs) => .ok (.mk s z (some b) cs) := by
          intro g
          rw [layoutBox]
          simp only [hnone]
          rfl
        rw [u, u, ← e]
        cases hl : layoutBody fp d (fun b n => layoutBox fp d f (some s) (.box b) n) p cb s z b cs with
        | error e => exact Joint.error _
        | ok x =>
          have hx := k x hl
          exact Joint.ok ⟨rfl, trim_some.2 ⟨hx.1, fun c hc => (hx.2 c hc).1⟩, .shown k1 k2 fun c hc => (hx.2 c hc).2⟩

mutual
/-- The document with fresh boxes. -/
def cleaned : Node → Node
  | .mk s z none cs => .mk s z none cs
  | .mk s z (some _) cs => .mk s z (some .fresh) (cleanedAll cs)
/-- See `cleaned`. -/
def cleanedAll : List Node → List Node
  | [] => []
  | c :: cs => cleaned c :: cleanedAll cs
end

theorem cleanedAll_map (cs : List Node) : cleanedAll cs = cs.map cleaned := by
  induction cs with
  | nil => rfl
  | cons c cs ih => simp [cleanedAll, ih]

theorem cleaned_setOrigin (f : FP) (a : Axis) (n : Node) : ∀ v, cleaned (n.setOrigin f a v) = cleaned n := by
  induction n using Node.ind with
  | h s z l cs ih =>
    intro v
    cases l with
    | none => simp only [Node.setOrigin]
    | some b =>
      simp only [Node.setOrigin]
      split
      · rfl
      · simp only [cleaned, cleanedAll_map, setOrigins_map, List.map_map]
        congr 1
        exact List.map_congr_left fun c hc => ih c hc _

theorem reset_cleaned (f : FP) (k : Nat) : ∀ n : Node, n.depth ≤ k → n.resetFuel f k = cleaned n := by
  induction k with
  | zero => intro n h; have := depth_pos n; omega
  | succ k ih =>
    rintro ⟨s, z, l, cs⟩ h
    cases l with
    | none => rfl
    | some b =>
      simp only [Node.resetFuel, resetOne, cleaned, cleanedAll_map, setOrigins_map, List.map_map]
      congr 1
      refine List.map_congr_left fun c hc => ?_
      have hk : c.depth ≤ k := by have := depth_child (s := s) (z := z) (l := some b) hc; omega
      show Node.resetFuel f k (Node.setOrigin f .h _ (Node.setOrigin f .v _ c)) = cleaned c
      rw [ih _ (by rw [depth_setOrigin, depth_setOrigin]; exact hk), cleaned_setOrigin, cleaned_setOrigin]

theorem cleaned_fit (n : Node) (h : Doc fp fp' d n) : Fit fp fp' d (cleaned n) := by
  have t : ∀ n : Node, Trim (cleaned n) := by
    intro n
    induction n using Node.ind with
    | h s z l cs ih =>
      cases l with
      | none => exact .none
      | some b =>
        rw [cleaned, cleanedAll_map]
        refine .some fresh_integral fun c hc => ?_
        obtain ⟨c0, h0, rfl⟩ := List.mem_map.1 hc
        exact ih c0 h0
  refine ⟨t n, ?_⟩
  induction h with
  | @hidden s z l cs h => cases l <;> exact .hidden h
  | shown h1 h2 _ ih =>
    rw [cleaned, cleanedAll_map]
    refine .shown h1 h2 fun c hc => ?_
    obtain ⟨c0, h0, rfl⟩ := List.mem_map.1 hc
    exact ih c0 h0

theorem layout_joint (hd : d.Integral) {html5 : Bool} {p : Option CSS} (hp : ∀ q, p = some q → Style fp fp' d q) {n : Node} (hn : Doc fp fp' d n) :
    Joint Trim (layout fp d html5 p n) (layout fp' d html5 p n) := by
  unfold layout
  cases n.layout with
  | none => exact Joint.error _
  | some b =>
    simp only [Node.reset]
    rw [reset_cleaned fp _ n le_rfl, reset_cleaned fp' _ n le_rfl]
    obtain ⟨e, k⟩ := layoutBox_joint (fp := fp) (fp' := fp') hd n.depth p (.viewport d) (cleaned n) hp (fun b e => nomatch e)
      (fun y e => by cases e; exact hd.width) (fun y e => by cases e; exact hd.height) (cleaned_fit n hn)
    rw [← e]
    cases hl : layoutBox fp d n.depth p (.viewport d) (cleaned n) with
    | error e => exact Joint.error _
    | ok m =>
      obtain ⟨ht, hr⟩ := k m hl
      obtain ⟨s, z, l, cs⟩ := m
      cases l with
      | none => exact Joint.error _
      | some b =>
        rw [trim_some] at ht
        have hv := Num.Integral.add (fp := fp) (fp' := fp') (ht.1.content .v) (int_integral b.collapse.top)
        simp only [Box.pos] at hv
        show Joint Trim (finishRoot fp d html5 (.mk s z (some b) cs)) (finishRoot fp' d html5 (.mk s z (some b) cs))
        have key : setContent fp .v (b.v.content.add fp (.int b.collapse.top)) b cs = setContent fp' .v (b.v.content.add fp' (.int b.collapse.top)) b cs ∧
            (setContent fp .v (b.v.content.add fp (.int b.collapse.top)) b cs).1.Integral ∧
            ∀ c ∈ (setContent fp .v (b.v.content.add fp (.int b.collapse.top)) b cs).2, Trim c := by
          rw [← hv.1]
          have hv := hv.2
          generalize b.v.content.add fp (.int b.collapse.top) = v at hv ⊢
          unfold setContent
          split
          · exact ⟨rfl, ht.1, ht.2⟩
          · have hb' := setPos_integral ht.1 .v (p := { b.pos .v with content := v }) (ht.1.origin .v) hv
            have ha := absContent_whole (fp := fp) (fp' := fp') hb' .v
            refine ⟨?_, hb', fun c hc => ?_⟩
            · simp only
              rw [← ha.1, setOrigins_map, setOrigins_map]
              congr 1
              exact List.map_congr_left fun c hc => (setOrigin_whole .v c ha.2 (ht.2 c hc)).1
            · simp only at hc
              rw [setOrigins_map] at hc
              obtain ⟨c0, hc0, rfl⟩ := List.mem_map.1 hc
              exact (setOrigin_whole (fp' := fp') .v c0 ha.2 (ht.2 c0 hc0)).2
        unfold finishRoot
        simp only
        rw [← key.1]
        obtain ⟨_, k1, k2⟩ := key
        generalize setContent fp .v (b.v.content.add fp (.int b.collapse.top)) b cs = x at k1 k2 ⊢
        have hh := subAll_whole (fp := fp) (fp' := fp') [.int x.1.collapse.top, .int x.1.collapse.bottom] hd.height (by
          intro y hy
          simp only [List.mem_cons, List.not_mem_nil, or_false] at hy
          rcases hy with rfl | rfl <;> exact int_integral _)
        rw [← hh.1]
        refine Joint.ok ⟨rfl, trim_some.2 ⟨?_, k2⟩⟩
        split
        · exact withHeight_integral k1 fun y e => by cases e; exact hh.2
        · exact k1

end Whole

end Colosseum
