import Verif.Lemmas.Resize

/-!
# Another width around: the vertical numbers stay
-/

namespace Colosseum

/-- Paired are there and related, or neither is. -/
def Paired {α β : Type} (R : α → β → Prop) : Option α → Option β → Prop
  | none, none => True
  | some a, some b => R a b
  | _, _ => False

theorem Paired.bind {α β γ δ : Type} {R : α → β → Prop} {S : γ → δ → Prop} {x : Option α} {y : Option β} {f : α → Option γ} {g : β → Option δ}
    (h : Paired R x y) (hf : ∀ a b, R a b → Paired S (f a) (g b)) : Paired S (x.bind f) (y.bind g) := by
  cases x <;> cases y <;> first | exact hf _ _ h | exact h | exact absurd h id

theorem Paired.map {α β γ δ : Type} {R : α → β → Prop} {S : γ → δ → Prop} {x : Option α} {y : Option β} {f : α → γ} {g : β → δ}
    (h : Paired R x y) (hf : ∀ a b, R a b → S (f a) (g b)) : Paired S (x.map f) (y.map g) := by
  cases x <;> cases y <;> first | exact hf _ _ h | exact h | exact absurd h id

theorem Paired.same {α : Type} {R : α → α → Prop} (hR : ∀ a, R a a) (x : Option α) : Paired R x x := by
  cases x
  · trivial
  · exact hR _

theorem Paired.some_iff {α β : Type} {x : Option α} {y : Option β} (h : x.isSome = y.isSome) : Paired (fun _ _ => True) x y := by
  cases x <;> cases y <;> first | trivial | cases h

theorem Paired.isSome {α β : Type} {R : α → β → Prop} {x : Option α} {y : Option β} (h : Paired R x y) : x.isSome = y.isSome := by
  cases x <;> cases y <;> first | rfl | exact absurd h id

theorem Paired.eq {α : Type} {x y : Option α} (h : Paired Eq x y) : x = y := by
  cases x <;> cases y <;> first | rfl | exact congrArg some h | exact absurd h id

theorem Paired.mono {α β : Type} {R S : α → β → Prop} {x : Option α} {y : Option β} (h : Paired R x y) (hi : ∀ a b, R a b → S a b) : Paired S x y := by
  cases x <;> cases y <;> first | exact hi _ _ h | exact h

theorem percent_some (fp : FP) (v : PyNum) (d : Display) (f : Font) (s : Num) :
    (pxOf fp .percent v ⟨d, f, some s⟩).toOption.isSome = match v with | .fin _ => true | _ => false := by
  simp only [pxOf, luOf]
  cases v with
  | fin a => rfl
  | inf b =>
    simp only [PyNum.mul, luPerPixel, Num.val_int]
    norm_num
    simp only [PyNum.div]
    split_ifs <;> rfl
  | nan => rfl

section
variable {fp : FP} {d d' : Display} (hs : SameScreen d d') {W W' : Option Num} (hw : W.isSome = W'.isSome)
include hs hw

theorem widen_px (f : Font) (u : CUnit) (h : (Val.unit u).fixed = true) :
    Paired (fun _ _ => True) (u.px fp ⟨d, f, W⟩).toOption (u.px fp ⟨d', f, W'⟩).toOption := by
  rw [fixed_px hs f W' u h]
  cases hp : (Val.unit u).isPercent with
  | false =>
    rw [rigid_px fp d f W W' u hp]
    exact .same (fun _ => trivial) _
  | true =>
    obtain ⟨k, v⟩ := u
    cases k with
    | ang k => cases hp
    | len k =>
      cases k <;> first
        | (simp [Val.isPercent] at hp; done)
        | skip
      cases W with
      | none => cases W' with
        | none => exact .same (fun _ => trivial) _
        | some _ => cases hw
      | some w => cases W' with
        | none => cases hw
        | some w' =>
          refine .some_iff ?_
          exact (percent_some fp v d f w).trans (percent_some fp v d f w').symm

theorem widen_pixels (v : Val) (h : v.fixed = true) : Paired (fun _ _ => True) (v.inPixels fp d W) (v.inPixels fp d' W') := by
  unfold Val.inPixels
  split
  · exact widen_px hs hw _ _ h
  · trivial

/-- Margins that are both automatic, or both numbers. -/
def SameSort : MVal → MVal → Prop
  | .auto, .auto => True
  | .num _, .num _ => True
  | _, _ => False

omit hs hw in
theorem SameSort.rfl (x : MVal) : SameSort x x := by cases x <;> trivial

theorem widen_extent (v : Val) (h : v.fixed = true) : Paired SameSort (v.extent fp d W) (v.extent fp d' W') := by
  unfold Val.extent
  split
  · exact .same SameSort.rfl _
  · rw [hs.thin, hs.medium, hs.thick]
    exact .same SameSort.rfl _
  · exact .same SameSort.rfl _
  · split
    · exact .same SameSort.rfl _
    · exact (widen_px hs hw _ _ h).map fun _ _ _ => trivial
  · trivial

theorem widen_spacing (v : Val) (h : v.fixed = true) : Paired SameSort (v.spacing fp d W) (v.spacing fp d' W') :=
  (widen_extent hs hw v h).map fun a b hab => by cases a <;> cases b <;> first | trivial | exact absurd hab id

theorem widen_thickness (v : Val) (h : v.fixed = true) : Paired (fun _ _ => True) (v.thickness fp d W) (v.thickness fp d' W') :=
  (widen_extent hs hw v h).bind fun a b hab => by cases a <;> cases b <;> first | trivial | exact absurd hab id

omit hw in
theorem rigid_thickness (v : Val) (h : v.fixed = true) (hp : v.isPercent = false) : v.thickness fp d W = v.thickness fp d' W' := by
  unfold Val.thickness
  rw [fixed_extent hs _ _ h, rigid_extent fp d W W' v hp]

/-- The edges at the top and at the bottom are the same. -/
def SameEdges (x y : Edge MVal × Edge Num × Edge Num) : Prop :=
  x.1.top = y.1.top ∧ x.1.bottom = y.1.bottom ∧ x.2.1.top = y.2.1.top ∧ x.2.1.bottom = y.2.1.bottom ∧ x.2.2.top = y.2.2.top ∧ x.2.2.bottom = y.2.2.bottom

theorem widen_edges {s : CSS} {z : Intrinsic} (h : s.Fixed) (hz : s.Steady z) (H : Option Num) : Paired SameEdges (s.edges fp d W H) (s.edges fp d' W' H) := by
  have e1 : ∀ q, (s.get q).spacing fp d' H = (s.get q).spacing fp d H := fun q => by
    unfold Val.spacing
    rw [fixed_extent hs _ _ (h q)]
  have e2 : ∀ q, (s.get q).thickness fp d' H = (s.get q).thickness fp d H := fun q => by
    unfold Val.thickness
    rw [fixed_extent hs _ _ (h q)]
  have b1 := rigid_thickness (fp := fp) (W := W) (W' := W') hs _ (h (.borderWidth .top)) (hz.1 .top (.inl rfl)).1
  have b2 := rigid_thickness (fp := fp) (W := W) (W' := W') hs _ (h (.borderWidth .bottom)) (hz.1 .bottom (.inr rfl)).1
  have p1 := rigid_thickness (fp := fp) (W := W) (W' := W') hs _ (h (.padding .top)) (hz.1 .top (.inl rfl)).2
  have p2 := rigid_thickness (fp := fp) (W := W) (W' := W') hs _ (h (.padding .bottom)) (hz.1 .bottom (.inr rfl)).2
  have eq : ∀ {α : Type} (x : Option α), Paired Eq x x := fun x => .same (fun _ => rfl) x
  unfold CSS.edges
  refine Paired.bind (R := Eq) (by rw [e1]; exact eq _) fun mt _ e => ?_
  subst e
  refine Paired.bind (widen_spacing hs hw _ (h _)) fun m m' _ => ?_
  refine Paired.bind (R := Eq) (by rw [e1]; exact eq _) fun mb _ e => ?_
  subst e
  refine Paired.bind (widen_spacing hs hw _ (h _)) fun m m' _ => ?_
  refine Paired.bind (R := Eq) (by rw [b1]; exact eq _) fun bt _ e => ?_
  subst e
  refine Paired.bind (R := Eq) (by rw [e2]; exact eq _) fun br _ e => ?_
  subst e
  refine Paired.bind (R := Eq) (by rw [b2]; exact eq _) fun bb _ e => ?_
  subst e
  refine Paired.bind (R := Eq) (by rw [e2]; exact eq _) fun bl _ e => ?_
  subst e
  refine Paired.bind (R := Eq) (by rw [p1]; exact eq _) fun pt _ e => ?_
  subst e
  refine Paired.bind (R := Eq) (by rw [e2]; exact eq _) fun pr _ e => ?_
  subst e
  refine Paired.bind (R := Eq) (by rw [p2]; exact eq _) fun pb _ e => ?_
  subst e
  refine Paired.bind (R := Eq) (by rw [e2]; exact eq _) fun pl _ e => ?_
  subst e
  exact ⟨rfl, rfl, rfl, rfl, rfl, rfl⟩

theorem widen_given {s : CSS} (h : s.Fixed) : Paired (fun _ _ => True) (s.givenWidth fp d W) (s.givenWidth fp d' W') := by
  unfold CSS.givenWidth
  simp only [Option.bind_eq_bind]
  refine (widen_pixels hs hw _ (h _)).bind fun w w' _ => ?_
  refine Paired.bind (R := fun _ _ => True) ?_ fun a a' _ => ?_
  · split
    · trivial
    · exact widen_pixels hs hw _ (h _)
  · refine Paired.bind (R := fun _ _ => True) ?_ fun a a' _ => ?_
    · split
      · trivial
      · exact widen_pixels hs hw _ (h _)
    · trivial

theorem widen_across {s : CSS} (h : s.Fixed) (z : Intrinsic) (l : Option Box) (cs : List Node) (m m' : Edge MVal) (b b' q q' : Edge Num) (k : Manner) :
    Paired (fun x y => x.1.isSome = y.1.isSome) ((Node.mk s z l cs).across fp d W m b q k) ((Node.mk s z l cs).across fp d' W' m' b' q' k) := by
  cases k with
  | inline => exact rfl
  | image =>
    refine Paired.map (R := fun _ _ => True) ?_ fun _ _ _ => rfl
    simp only [CSS.imageWidth, Node.style, Node.intrinsic]
    by_cases hx : (!(s.get .width).isKw "auto") = true
    · simp only [hx, if_true]
      exact widen_pixels hs hw _ (h _)
    · simp only [hx, if_false, Bool.false_eq_true]
      cases z.width with
      | some w => trivial
      | none =>
        dsimp only
        by_cases hy : (s.get .height).isKw "auto" = true
        · simp only [hy, if_true]
          cases z.height <;> cases z.ratio <;> first | trivial | exact (Paired.some_iff hw).map fun _ _ _ => trivial
        · simp only [hy, if_false, Bool.false_eq_true]
          trivial
  | block =>
    simp only [Node.across, Node.style]
    by_cases hx : (s.get .width).isKw "auto" = true
    · simp only [hx, if_true]
      exact (Paired.some_iff hw).map fun _ _ _ => rfl
    · simp only [hx, if_false, Bool.false_eq_true]
      refine (widen_given hs hw h).bind fun w w' _ => ?_
      exact (Paired.some_iff hw).map fun _ _ _ => rfl

theorem widen_move (H : Option Num) {c c' : Option (Num × Num)} (hc : Paired (fun x y => x.2 = y.2) c c') {s : CSS} (h : s.Fixed) :
    Paired (fun x y => x.2 = y.2) (s.moves fp d ⟨W, H, c⟩) (s.moves fp d' ⟨W', H, c'⟩) := by
  unfold CSS.moves
  simp only [Option.bind_eq_bind]
  refine Paired.bind (R := fun _ _ => True) ?_ fun dx dx' _ => ?_
  · unfold relativeMove
    split
    · split
      · trivial
      · refine Paired.map (R := fun _ _ => True) ?_ fun _ _ _ => trivial
        split
        · exact hc.bind fun x y _ => (Paired.some_iff hw).map fun _ _ _ => trivial
        · exact widen_pixels hs hw _ (h _)
    · split
      · exact hc.map fun _ _ _ => trivial
      · exact widen_pixels hs hw _ (h _)
  · have e : relativeMove fp d H (c.map (·.2)) (c.bind fun c => H.map fun h => c.2.add fp h) (s.get .top) (s.get .bottom) =
        relativeMove fp d' H (c'.map (·.2)) (c'.bind fun c => H.map fun h => c.2.add fp h) (s.get .top) (s.get .bottom) := by
      have e1 : c.map (·.2) = c'.map (·.2) := by
        cases c <;> cases c' <;> first | rfl | exact congrArg some hc | exact absurd hc id
      have e2 : (c.bind fun c => H.map fun h => c.2.add fp h) = c'.bind fun c => H.map fun h => c.2.add fp h := by
        cases c <;> cases c' <;> first
          | rfl
          | exact absurd hc id
          | (rename_i x y; have : x.2 = y.2 := hc; simp only [Option.bind_some, this])
      rw [e1, e2]
      simp only [relativeMove, fixed_pixels hs _ _ (h _)]
    rw [e]
    exact (Paired.same (R := Eq) (fun _ => rfl) _).bind fun dy dy' hd => hd

end

/-! ## Blueprints -/

theorem uprightAll_map (ks : List Blueprint) : uprightAll ks = ks.map Blueprint.upright := by
  induction ks with
  | nil => rfl
  | cons k ks ih => simp [uprightAll, ih]

/-- The vertical numbers are the same. -/
def Upright (a b : Blueprint) : Prop := a.upright = b.upright

/-- The vertical numbers are the same, for lists. -/
def Uprights (as bs : List Blueprint) : Prop := List.Forall₂ Upright as bs

theorem Uprights.rfl (as : List Blueprint) : Uprights as as := List.forall₂_same.2 fun _ _ => Eq.refl _

theorem upright_mk {f f' : Figures} {ks ks' : List Blueprint} (h : f.upright = f'.upright) (hk : Uprights ks ks') : Upright (.mk f ks) (.mk f' ks') := by
  unfold Upright
  simp only [Blueprint.upright, h, uprightAll_map]
  congr 1
  induction hk with
  | nil => rfl
  | cons h _ ih => simp [show Blueprint.upright _ = _ from h, ih]

theorem upright_cases {a b : Blueprint} (h : Upright a b) : a = .absent ∧ b = .absent ∨ ∃ f f' ks ks', a = .mk f ks ∧ b = .mk f' ks' ∧ f.upright = f'.upright ∧ Uprights ks ks' := by
  cases a with
  | absent =>
    cases b with
    | absent => exact .inl ⟨rfl, rfl⟩
    | mk f ks => simp [Upright, Blueprint.upright] at h
  | mk f ks =>
    cases b with
    | absent => simp [Upright, Blueprint.upright] at h
    | mk f' ks' =>
      simp only [Upright, Blueprint.upright, Blueprint.mk.injEq, uprightAll_map] at h
      refine .inr ⟨f, f', ks, ks', rfl, rfl, h.1, ?_⟩
      have h2 := h.2
      clear h
      induction ks generalizing ks' with
      | nil =>
        cases ks' with
        | nil => exact .nil
        | cons _ _ => simp at h2
      | cons k ks ih =>
        cases ks' with
        | nil => simp at h2
        | cons k' ks' =>
          simp only [List.map_cons, List.cons.injEq] at h2
          exact .cons h2.1 (ih ks' h2.2)

theorem upright_figures {f f' : Figures} (h : f.upright = f'.upright) : f.y = f'.y ∧ f.height = f'.height ∧ f.margin.top = f'.margin.top ∧ f.margin.bottom = f'.margin.bottom ∧
    f.border.top = f'.border.top ∧ f.border.bottom = f'.border.bottom ∧ f.padding.top = f'.padding.top ∧ f.padding.bottom = f'.padding.bottom ∧
    f.above = f'.above ∧ f.below = f'.below := by
  simp only [Figures.upright, Figures.mk.injEq, Edge.mk.injEq] at h
  tauto

theorem uprights_last {as bs : List Blueprint} (h : Uprights as bs) : Paired Upright as.getLast? bs.getLast? := by
  induction h with
  | nil => trivial
  | @cons a b as bs h hs ih =>
    cases hs with
    | nil => exact h
    | cons h' hs' =>
      rw [List.getLast?_cons_cons, List.getLast?_cons_cons]
      exact ih

theorem first_above {as bs : List Blueprint} (h : Uprights as bs) (o : Bool) (i : Int) : firstAbove o as i = firstAbove o bs i := by
  cases h with
  | nil => rfl
  | cons h _ =>
    rcases upright_cases h with ⟨rfl, rfl⟩ | ⟨f, f', ks, ks', rfl, rfl, hf, _⟩
    · cases o <;> rfl
    · cases o with
      | false => rfl
      | true => simp only [firstAbove, (upright_figures hf).2.2.2.2.2.2.2.2.1]

theorem last_below {as bs : List Blueprint} (h : Uprights as bs) (o : Bool) (i : Int) : lastBelow o as i = lastBelow o bs i := by
  have hl := uprights_last h
  unfold lastBelow
  generalize as.getLast? = x at hl ⊢
  generalize bs.getLast? = y at hl ⊢
  match x, y, hl with
  | none, none, _ => rfl
  | some x, some y, hl =>
    rcases upright_cases hl with ⟨rfl, rfl⟩ | ⟨f, f', ks, ks', rfl, rfl, hf, _⟩
    · cases o <;> rfl
    · cases o with
      | false => rfl
      | true => simp only [(upright_figures hf).2.2.2.2.2.2.2.2.2]

theorem upright_moved {fp : FP} {f f' : Figures} (h : f.upright = f'.upright) (y : Num) : (f.moved fp y).upright = (f'.moved fp y).upright := by
  obtain ⟨h1, h2, h3, h4, h5, h6, h7, h8, h9, h10⟩ := upright_figures h
  simp only [Figures.upright, Figures.moved, h1, h2, h3, h4, h5, h6, h7, h8, h9, h10]

section
variable {fp : FP} {d d' : Display} (hs : SameScreen d d')
include hs

theorem widen_along {s : CSS} (h : s.Fixed) {p : Option CSS} (hp : ∀ q, p = some q → (q.get .height).fixed = true) {z : Intrinsic} (hz : s.Steady z) (l : Option Box)
    (cs : List Node) (H w w' : Option Num) {ks ks' : List Blueprint} (hk : Uprights ks ks') {k : Manner} (hm : (Node.mk s z l cs).manner = some k) :
    (Node.mk s z l cs).along fp d p H w ks k = (Node.mk s z l cs).along fp d' p H w' ks' k := by
  rw [fixed_along hs h hp]
  cases k with
  | inline => rfl
  | image =>
    have hr : z.isReplaced = true := by
      unfold Node.manner at hm
      split at hm
      · cases hm
      · split at hm
        · cases hz' : z.isReplaced with
          | true => rfl
          | false => simp [Node.intrinsic, hz'] at hm
        · split at hm <;> cases hm
    simp only [Node.along, Node.style, Node.intrinsic, CSS.imageHeight]
    rcases hz.2 hr with h' | ⟨h1, h2⟩
    · simp only [h', Bool.not_false, if_true]
    · cases hh : z.height with
      | none => rw [hh] at h2; cases h2
      | some x => simp only [h1]
  | block =>
    simp only [Node.along, Node.style]
    by_cases hx : (!(s.get .height).isKw "auto") = true
    · simp only [hx, if_true]
    · simp only [hx, if_false, Bool.false_eq_true]
      have hl := uprights_last hk
      generalize ks.getLast? = x at hl ⊢
      generalize ks'.getLast? = y at hl ⊢
      match x, y, hl with
      | none, none, _ => rfl
      | some x, some y, hl =>
        rcases upright_cases hl with ⟨rfl, rfl⟩ | ⟨f, f', _, _, rfl, rfl, hf, _⟩
        · rfl
        · obtain ⟨h1, h2, h3, h4, h5, h6, h7, h8, h9, h10⟩ := upright_figures hf
          simp only [Figures.end, h1, h2, h6, h8]

omit hs in
theorem widen_flow (s : CSS) (r r' : Surround) (cs : List Node) (h : ∀ c ∈ cs, Paired Upright (c.plan fp d (some s) r) (c.plan fp d' (some s) r')) :
    Paired Uprights (flowPlans fp d s r cs) (flowPlans fp d' s r' cs) := by
  induction cs with
  | nil => exact List.Forall₂.nil
  | cons c cs ih =>
    simp only [flowPlans, Option.bind_eq_bind]
    refine (h c (by simp)).bind fun k k' hk => ?_
    exact (ih fun c hc => h c (by simp [hc])).bind fun ks ks' hks => List.Forall₂.cons hk hks

omit hs in
theorem widen_stack (s : CSS) (r r' : Surround) (cs : List Node) (h : ∀ c ∈ cs, Paired Upright (c.plan fp d (some s) r) (c.plan fp d' (some s) r')) :
    ∀ y bm, Paired Uprights (stackPlans fp d s r y bm cs) (stackPlans fp d' s r' y bm cs) := by
  induction cs with
  | nil => intro y bm; exact List.Forall₂.nil
  | cons c cs ih =>
    intro y bm
    have ih := ih fun c hc => h c (by simp [hc])
    simp only [stackPlans, Option.bind_eq_bind]
    split
    · refine (h c (by simp)).bind fun k k' hk => ?_
      rcases upright_cases hk with ⟨rfl, rfl⟩ | ⟨f, f', ks, ks', rfl, rfl, hf, hks⟩
      · trivial
      · obtain ⟨h1, h2, h3, h4, h5, h6, h7, h8, h9, h10⟩ := upright_figures hf
        dsimp only
        have eg : gapAbove bm f = gapAbove bm f' := by unfold gapAbove; rw [h3]
        have et : f.tall fp = f'.tall fp := by simp only [Figures.tall, h2, h5, h6, h7, h8]
        rw [eg, et, h10]
        refine (Paired.same (R := Eq) (fun _ => rfl) _).bind fun g _ e => ?_
        subst e
        refine (Paired.same (R := Eq) (fun _ => rfl) _).bind fun t _ e => ?_
        subst e
        exact (ih _ _).bind fun ts ts' hts => List.Forall₂.cons (upright_mk (upright_moved hf _) hks) hts
    · split
      · trivial
      · exact Uprights.rfl _

theorem widen_plan (n : Node) : ∀ p H W W' c c', n.Throughout (fun s z => s.Fixed ∧ s.Steady z) → (∀ q, p = some q → (q.get .height).fixed = true) →
    W.isSome = W'.isSome → Paired (fun x y => x.2 = y.2) c c' → Paired Upright (n.plan fp d p ⟨W, H, c⟩) (n.plan fp d' p ⟨W', H, c'⟩) := by
  induction n using Node.ind with
  | h s z l cs ih =>
    intro p H W W' c c' hn hp hw hc
    obtain ⟨⟨h, hz⟩, hn⟩ := hn
    have step : ∀ H W W' c c', W.isSome = W'.isSome → Paired (fun x y => x.2 = y.2) c c' →
        ∀ x ∈ cs, Paired Upright (x.plan fp d (some s) ⟨W, H, c⟩) (x.plan fp d' (some s) ⟨W', H, c'⟩) := fun H W W' c c' hw hc x hx =>
      ih x hx _ H W W' c c' (throughoutAll_mem hn x hx) (fun q e => by cases e; exact h _) hw hc
    unfold Node.plan
    dsimp only
    split
    · exact Eq.refl _
    · simp only [Option.bind_eq_bind]
      cases hm : (Node.mk s z l cs).manner with
      | none => trivial
      | some k =>
        rw [Option.bind_some, Option.bind_some]
        refine (widen_edges hs hw h hz H).bind ?_
        rintro ⟨m, b, q⟩ ⟨m', b', q'⟩ ⟨e1, e2, e3, e4, e5, e6⟩
        dsimp only at e1 e2 e3 e4 e5 e6 ⊢
        refine (widen_across hs hw h z l cs m m' b b' q q' k).bind ?_
        rintro ⟨w, left, right⟩ ⟨w', left', right'⟩ hww
        dsimp only at hww ⊢
        have eu : upright m k = upright m' k := by cases k <;> simp only [upright, e1, e2]
        rw [eu]
        refine (Paired.same (R := Eq) (fun _ => rfl) _).bind ?_
        rintro ⟨top, bottom⟩ _ rfl
        dsimp only
        have el : lowering fp top b q k = lowering fp top b' q' k := by
          cases k <;> simp only [lowering, e3, e5, Num.plus]
        rw [el]
        have ea : ∀ {ks ks'}, Uprights ks ks' → (Node.mk s z l cs).along fp d p H w ks k = (Node.mk s z l cs).along fp d' p H w' ks' k := fun hk =>
          widen_along hs h hp hz l cs H w w' hk hm
        rw [ea (Uprights.rfl _)]
        refine (Paired.same (R := Eq) (fun _ => rfl) _).bind ?_
        rintro guess _ rfl
        refine Paired.bind (R := Uprights) ?_ ?_
        · split
          · exact widen_stack s _ _ cs (step guess w w' _ _ hww (by first | trivial | exact Eq.refl _)) _ _
          · exact widen_flow s _ _ cs (step guess w w' _ _ hww (by first | trivial | exact Eq.refl _))
        · intro ks ks' hk
          rw [ea hk]
          refine (Paired.same (R := Eq) (fun _ => rfl) _).bind ?_
          rintro hh _ rfl
          refine Paired.bind (R := fun x y => x.2 = y.2) ?_ ?_
          · split
            · exact (widen_move hs hw H hc h).map fun x y e => by
                show Num.replacing _ _ = Num.replacing _ _
                rw [e]
            · exact Eq.refl _
          · rintro ⟨x, y⟩ ⟨x', y'⟩ e
            dsimp only at e ⊢
            refine upright_mk ?_ hk
            simp only [Figures.upright, e, e1, e2, e3, e4, e5, e6, first_above hk, last_below hk]

end

end Colosseum
