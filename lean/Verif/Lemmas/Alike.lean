import Verif.Lemmas.Layout

/-!
# Documents that lay out alike

`Akin R v n m`: the same document with boxes at the same places, related by `R`; `v` says whether the node
will be visited by `layout_box`.  A hidden node that will be visited may have a box or not, since it will
lose it.  What is below a node without box does not matter.
-/

namespace Colosseum

/-- Will `layout_box` visit this child of a visited node? -/
def visits (s : CSS) (z : Intrinsic) (cs : List Node) (c : Node) : Bool := establishesInline s z cs || isBlockLevel c.style

/-- See above. -/
inductive Akin (R : Box → Box → Prop) : Bool → Node → Node → Prop
  | hidden {s : CSS} {z : Intrinsic} {l l' : Option Box} {cs cs' : List Node} : (s.get .display).isNone = true →
      cs.map Node.strip = cs'.map Node.strip → Akin R true (.mk s z l cs) (.mk s z l' cs')
  | unboxed {v : Bool} {s : CSS} {z : Intrinsic} {cs cs' : List Node} :
      cs.map Node.strip = cs'.map Node.strip → Akin R v (.mk s z none cs) (.mk s z none cs')
  | boxed {v : Bool} {s : CSS} {z : Intrinsic} {b b' : Box} {cs cs' : List Node} : R b b' → cs.length = cs'.length →
      (∀ x ∈ cs.zip cs', Akin R (v && visits s z cs x.1) x.1 x.2) → Akin R v (.mk s z (some b) cs) (.mk s z (some b') cs')

theorem zip_forall {α β : Type} {P : α → β → Prop} {xs : List α} {ys : List β} :
    (xs.length = ys.length ∧ ∀ x ∈ xs.zip ys, P x.1 x.2) ↔ List.Forall₂ P xs ys := by
  rw [List.forall₂_iff_zip]
  constructor
  · rintro ⟨h, h'⟩; exact ⟨h, fun {a b} hab => h' (a, b) hab⟩
  · rintro ⟨h, h'⟩; exact ⟨h, fun x hx => h' hx⟩

theorem alike_boxed {R : Box → Box → Prop} {v : Bool} {s : CSS} {z : Intrinsic} {b b' : Box} {cs cs' : List Node} (hR : R b b')
    (h : List.Forall₂ (fun c c' => Akin R (v && visits s z cs c) c c') cs cs') :
    Akin R v (.mk s z (some b) cs) (.mk s z (some b') cs') := by
  obtain ⟨h1, h2⟩ := zip_forall.2 h
  exact .boxed hR h1 h2

theorem alike_kids {R : Box → Box → Prop} {v : Bool} {s : CSS} {z : Intrinsic} {cs cs' : List Node} (h1 : cs.length = cs'.length)
    (h2 : ∀ x ∈ cs.zip cs', Akin R (v && visits s z cs x.1) x.1 x.2) :
    List.Forall₂ (fun c c' => Akin R (v && visits s z cs c) c c') cs cs' :=
  zip_forall (P := fun c c' => Akin R (v && visits s z cs c) c c').1 ⟨h1, h2⟩

theorem forall₂_map_eq {α β : Type} {f : α → β} {xs ys : List α} (h : List.Forall₂ (fun x y => f x = f y) xs ys) :
    xs.map f = ys.map f := by
  induction h with
  | nil => rfl
  | cons h _ ih => simp [h, ih]

theorem Akin.strip {R : Box → Box → Prop} {n : Node} : ∀ {v : Bool} {m : Node}, Akin R v n m → n.strip = m.strip := by
  induction n using Node.ind with
  | h s z l cs ih =>
    intro v m h
    cases h with
    | hidden _ hs => simp only [strip_mk, hs]
    | unboxed hs => simp only [strip_mk, hs]
    | boxed hR hl hk =>
      simp only [strip_mk]
      congr 1
      refine forall₂_map_eq ((List.forall₂_iff_zip).2 ⟨hl, ?_⟩)
      intro a b hab
      exact ih a (List.of_mem_zip hab).1 (hk (a, b) hab)

theorem Akin.style {R : Box → Box → Prop} {v : Bool} {n m : Node} (h : Akin R v n m) : n.style = m.style := by
  cases h <;> rfl

theorem Akin.layout {v : Bool} {n m : Node} (h : Akin Eq v n m) (hv : v = false ∨ (n.style.get .display).isNone = false) :
    n.layout = m.layout := by
  cases h with
  | hidden hs _ =>
    rcases hv with hv | hv
    · cases hv
    · exact absurd (hs.symm.trans hv) (by decide)
  | unboxed _ => rfl
  | boxed hR _ _ => exact congrArg some hR

theorem visits_styles {s : CSS} {z : Intrinsic} {cs cs' : List Node} {c c' : Node} (h : cs.map Node.strip = cs'.map Node.strip)
    (hc : c.style = c'.style) : visits s z cs c = visits s z cs' c' := by
  unfold visits
  rw [inline_of_styles (styles_of_strips h), hc]

theorem forall₂_map {α : Type} {P Q : α → α → Prop} {f g : α → α} {xs ys : List α} (h : List.Forall₂ P xs ys)
    (hpq : ∀ x ∈ xs, ∀ y, P x y → Q (f x) (g y)) : List.Forall₂ Q (xs.map f) (ys.map g) := by
  induction h with
  | nil => exact .nil
  | cons h _ ih => exact .cons (hpq _ List.mem_cons_self _ h) (ih fun x hx => hpq x (List.mem_cons_of_mem _ hx))

theorem forall₂_of_map {α β : Type} {f : α → β} {xs ys : List α} (h : xs.map f = ys.map f) :
    List.Forall₂ (fun x y => f x = f y) xs ys := by
  induction xs generalizing ys with
  | nil => cases ys with
    | nil => exact .nil
    | cons _ _ => cases h
  | cons x xs ih => cases ys with
    | nil => cases h
    | cons y ys =>
      simp only [List.map_cons, List.cons.injEq] at h
      exact .cons h.1 (ih h.2)

theorem strips_forall {R : Box → Box → Prop} {w : Node → Bool} {cs cs' : List Node}
    (h : List.Forall₂ (fun c c' => Akin R (w c) c c') cs cs') : cs.map Node.strip = cs'.map Node.strip :=
  forall₂_map_eq (h.imp fun _ _ h => h.strip)

/-- Pushing the same origin keeps documents alike. -/
theorem Akin.setOrigin (fp : FP) (a : Axis) {n : Node} : ∀ {v : Bool} {m : Node} (x : Num), Akin Eq v n m →
    Akin Eq v (n.setOrigin fp a x) (m.setOrigin fp a x) := by
  induction n using Node.ind with
  | h s z l cs ih =>
    intro v m x h
    cases h with
    | @hidden _ _ _ l' _ cs' hs hd =>
      have key : ∀ (l : Option Box) (cs : List Node), ∃ l1 cs1, (Node.mk s z l cs).setOrigin fp a x = .mk s z l1 cs1 ∧
          cs1.map Node.strip = cs.map Node.strip := by
        intro l cs
        cases l with
        | none => exact ⟨none, cs, by simp only [Node.setOrigin], rfl⟩
        | some b =>
          simp only [Node.setOrigin]
          split
          · exact ⟨_, _, rfl, rfl⟩
          · exact ⟨_, _, rfl, strips_setOrigins ..⟩
      obtain ⟨l1, cs1, e1, e2⟩ := key l cs
      obtain ⟨l2, cs2, e3, e4⟩ := key l' cs'
      rw [e1, e3]
      exact .hidden hs (e2.trans (hd.trans e4.symm))
    | unboxed hd => simp only [Node.setOrigin]; exact .unboxed hd
    | @boxed _ _ _ b b' _ cs' hR hl hk =>
      subst hR
      have hf := alike_kids hl hk
      simp only [Node.setOrigin]
      split
      · exact alike_boxed rfl hf
      · simp only [setOrigins_map]
        refine alike_boxed rfl (forall₂_map hf ?_)
        intro c hc c' hcc
        have := ih c hc ((b.setPos a { b.pos a with origin := x }).absContent fp a) hcc
        rwa [show visits s z (List.map (Node.setOrigin fp a ((b.setPos a { b.pos a with origin := x }).absContent fp a)) cs)
            (Node.setOrigin fp a ((b.setPos a { b.pos a with origin := x }).absContent fp a) c) = visits s z cs c from
          visits_styles (by rw [← setOrigins_map]; exact strips_setOrigins ..)
            (by rw [← strip_style, strip_setOrigin, strip_style])]

/-- Pushing any origin keeps the places of the boxes. -/
theorem Akin.push (fp : FP) (a : Axis) (n : Node) : ∀ (v : Bool) (x : Num),
    Akin (fun _ _ => True) v n (n.setOrigin fp a x) := by
  induction n using Node.ind with
  | h s z l cs ih =>
    intro v x
    have rf : ∀ (n : Node) (v : Bool), Akin (fun _ _ => True) v n n := by
      intro n
      induction n using Node.ind with
      | h s z l cs ih =>
        intro v
        cases l with
        | none => exact .unboxed rfl
        | some b => exact alike_boxed trivial (List.forall₂_same.2 fun c hc => ih c hc _)
    cases l with
    | none => simp only [Node.setOrigin]; exact .unboxed rfl
    | some b =>
      simp only [Node.setOrigin]
      split
      · exact rf _ _
      · simp only [setOrigins_map]
        refine alike_boxed trivial ?_
        rw [List.forall₂_map_right_iff]
        exact List.forall₂_same.2 fun c hc => ih c hc _ _

/-- The places of the boxes. -/
abbrev Shape : Bool → Node → Node → Prop := Akin fun _ _ => True

theorem Shape.refl (n : Node) : ∀ v, Shape v n n := by
  induction n using Node.ind with
  | h s z l cs ih =>
    intro v
    cases l with
    | none => exact .unboxed rfl
    | some b => exact alike_boxed trivial (List.forall₂_same.2 fun c hc => ih c hc _)

theorem Shape.symm {n : Node} : ∀ {v : Bool} {m : Node}, Shape v n m → Shape v m n := by
  induction n using Node.ind with
  | h s z l cs ih =>
    intro v m h
    cases h with
    | hidden hs hd => exact .hidden hs hd.symm
    | unboxed hd => exact .unboxed hd.symm
    | @boxed _ _ _ b b' _ cs' hR hl hk =>
      have hf := alike_kids hl hk
      have hs := strips_forall (w := fun c => v && visits s z cs c) hf
      refine .boxed trivial hl.symm ?_
      rintro ⟨x, y⟩ hxy
      have hyx : (y, x) ∈ cs.zip cs' := by
        rw [← List.zip_swap] at hxy
        obtain ⟨⟨p, q⟩, hpq, he⟩ := List.mem_map.1 hxy
        cases he
        exact hpq
      have h1 := hk (y, x) hyx
      have h2 := ih y (List.of_mem_zip hyx).1 h1
      have h3 : visits s z cs' x = visits s z cs y := visits_styles hs.symm h1.style.symm
      simpa only [h3] using h2

theorem forall₂_trans {α : Type} {P Q T : α → α → Prop} {xs ys zs : List α} (h : List.Forall₂ P xs ys)
    (h' : List.Forall₂ Q ys zs) (hpq : ∀ x ∈ xs, ∀ y z, P x y → Q y z → T x z) : List.Forall₂ T xs zs := by
  induction h generalizing zs with
  | nil => cases h'; exact .nil
  | cons h _ ih =>
    cases h' with
    | cons h1 h2 =>
      exact .cons (hpq _ List.mem_cons_self _ _ h h1) (ih h2 fun x hx => hpq x (List.mem_cons_of_mem _ hx))

theorem Shape.trans {n : Node} : ∀ {v : Bool} {m k : Node}, Shape v n m → Shape v m k → Shape v n k := by
  induction n using Node.ind with
  | h s z l cs ih =>
    intro v m k h h'
    have hst := h'.strip
    cases h with
    | hidden hs hd =>
      obtain ⟨s2, z2, l2, cs2⟩ := k
      simp only [strip_mk] at hst
      injection hst with e1 e2 e3 e4
      subst e1 e2
      exact .hidden hs (hd.trans e4)
    | unboxed hd =>
      cases h' with
      | hidden hs hd' => exact .hidden hs (hd.trans hd')
      | unboxed hd' => exact .unboxed (hd.trans hd')
    | @boxed _ _ _ b b' _ cs' hR hl hk =>
      have hf := alike_kids hl hk
      have hs := strips_forall (w := fun c => v && visits s z cs c) hf
      cases h' with
      | hidden hn hd' => exact .hidden hn (hs.trans hd')
      | boxed hR' hl' hk' =>
        have hf' := alike_kids hl' hk'
        refine alike_boxed trivial (forall₂_trans hf hf' ?_)
        intro x hx y w hxy hyw
        have : visits s z cs' y = visits s z cs x := visits_styles hs.symm hxy.style.symm
        rw [this] at hyw
        exact ih x hx hxy hyw

/-! ## The phases do the same to alike children -/

/-- Push origins one after another. -/
def pushAll (fp : FP) (ps : List (Axis × Num)) (cs : List Node) : List Node :=
  ps.foldl (fun cs p => setOrigins fp p.1 p.2 cs) cs

theorem pushAll_append (fp : FP) (ps qs : List (Axis × Num)) (cs : List Node) :
    pushAll fp (ps ++ qs) cs = pushAll fp qs (pushAll fp ps cs) := List.foldl_append ..

/-- On the lists of children in `S` the phase does the same. -/
def Uniform (fp : FP) (S : List Node → Prop) (F : List Node → Res (Box × List Node)) : Prop :=
  (∃ e, ∀ ks, S ks → F ks = .error e) ∨ ∃ b ps, ∀ ks, S ks → F ks = .ok (b, pushAll fp ps ks)

theorem Uniform.congr {fp : FP} {S : List Node → Prop} {F G : List Node → Res (Box × List Node)} (h : Uniform fp S F)
    (he : ∀ ks, S ks → G ks = F ks) : Uniform fp S G := by
  rcases h with ⟨e, h⟩ | ⟨b, ps, h⟩
  · exact Or.inl ⟨e, fun ks hk => (he ks hk).trans (h ks hk)⟩
  · exact Or.inr ⟨b, ps, fun ks hk => (he ks hk).trans (h ks hk)⟩

theorem uniform_error (fp : FP) (S : List Node → Prop) (e : Err) : Uniform fp S fun _ => .error e := Or.inl ⟨e, fun _ _ => rfl⟩

theorem uniform_ok (fp : FP) (S : List Node → Prop) (b : Box) : Uniform fp S fun ks => .ok (b, ks) :=
  Or.inr ⟨b, [], fun _ _ => rfl⟩

theorem uniform_move (fp : FP) (S : List Node → Prop) (a : Axis) (v : Num) (b : Box) :
    Uniform fp S fun ks => .ok (setContent fp a v b ks) := by
  by_cases h : v.pyEq (b.pos a).content = true
  · exact Or.inr ⟨b, [], fun ks _ => by simp [setContent, h, pushAll]⟩
  · exact Or.inr ⟨b.setPos a { b.pos a with content := v },
      [(a, (b.setPos a { b.pos a with content := v }).absContent fp a)], fun ks _ => by simp [setContent, h, pushAll]⟩

theorem uniform_bind {fp : FP} {S : List Node → Prop} {α : Type} (x : Res α) {F : α → List Node → Res (Box × List Node)}
    (h : ∀ a, x = .ok a → Uniform fp S (F a)) : Uniform fp S fun ks => x >>= fun a => F a ks := by
  cases x with
  | error e => exact uniform_error fp S e
  | ok a => exact h a rfl

theorem uniform_placeLeft (fp : FP) (S : List Node → Prop) (b : Box) : Uniform fp S (placeLeft fp b) := by
  unfold placeLeft
  exact uniform_bind _ fun a _ => uniform_move ..

theorem uniform_width (fp : FP) (S : List Node → Prop) (s : CSS) (z : Intrinsic) (c : PxCtx) (b : Box) :
    Uniform fp S (widthAndMargins fp s z c b) := by
  unfold widthAndMargins
  by_cases h1 : isFloat s = true
  · simp only [h1, if_true]; exact uniform_error ..
  by_cases h2 : isAbsolute s = true
  · simp only [h1, h2, if_true]; exact uniform_error ..
  by_cases h3 : isInline s = true
  · by_cases h4 : z.isReplaced = true
    · simp only [h1, h2, h3, h4, if_true]
      exact uniform_bind _ fun a _ => uniform_placeLeft ..
    · simp only [h1, h2, h3, h4, if_true]
      exact uniform_ok ..
  by_cases h5 : isBlockLevel s = true
  · by_cases h4 : z.isReplaced = true
    · simp only [h1, h2, h3, h4, h5, if_true]; exact uniform_error ..
    · simp only [h1, h2, h3, h4, h5, if_true]
      unfold blockWidth
      by_cases h6 : (s.get .width).isKw "auto" = true
      · simp only [h6, if_true]
        exact uniform_bind _ fun _ _ => uniform_bind _ fun _ _ => uniform_bind _ fun _ _ => uniform_placeLeft ..
      · simp only [h6]
        exact uniform_bind _ fun _ _ => uniform_bind _ fun _ _ => uniform_placeLeft ..
  simp only [h1, h2, h3, h5]
  by_cases h7 : isInlineBlock s = true
  · simp only [h7, if_true]; exact uniform_error ..
  · simp only [h7]; exact uniform_error ..

/-- The height of the node depends on the box of its last child. -/
def readsLast (s : CSS) : Bool := !isInline s && (s.get .height).isKw "auto"

/-- The lists of children whose last has this box, if the node's height depends on it. -/
def SameLast (s : CSS) (x : Option (Option Box)) (ks : List Node) : Prop := readsLast s = true → ks.getLast?.map Node.layout = x

theorem uniform_height (fp : FP) (s : CSS) (z : Intrinsic) (p : Option CSS) (c : PxCtx) (b : Box) (x : Option (Option Box)) :
    Uniform fp (SameLast s x) (heightAndMargins fp s z p c b) := by
  unfold heightAndMargins
  by_cases h1 : isFloat s = true
  · simp only [h1, if_true]; exact uniform_error ..
  by_cases h2 : isAbsolute s = true
  · simp only [h1, h2, if_true]; exact uniform_error ..
  by_cases h3 : isInline s = true
  · by_cases h4 : z.isReplaced = true
    · simp only [h1, h2, h3, h4, if_true]
      exact uniform_bind _ fun a _ => uniform_bind _ fun a _ => uniform_move ..
    · simp only [h1, h2, h3, h4, if_true]
      exact uniform_bind _ fun a _ => uniform_move ..
  by_cases h5 : isBlockLevel s = true
  · by_cases h4 : z.isReplaced = true
    · simp only [h1, h2, h3, h4, h5, if_true]; exact uniform_error ..
    · simp only [h1, h2, h3, h4, h5, if_true]
      by_cases h6 : (s.get .height).isKw "auto" = true
      · have hr : readsLast s = true := by simp [readsLast, h3, h6]
        cases x with
        | none =>
          refine Uniform.congr (F := fun ks => blockContentHeight fp s p c (autoMarginToZero (autoMarginToZero b .top) .bottom) [] >>=
            fun r => .ok (setContent fp .v (r.2.v.content.add fp (r.2.border.top.add fp r.2.padding.top))
              { r.2 with contentHeight := some r.1 } ks)) (uniform_bind _ fun a _ => uniform_move ..) ?_
          intro ks hk
          have := hk hr
          have : ks = [] := by simpa using this
          subst this
          rfl
        | some y =>
          refine Uniform.congr (F := fun ks => blockContentHeight fp s p c (autoMarginToZero (autoMarginToZero b .top) .bottom)
            [.mk CSS.empty Intrinsic.initial y []] >>=
            fun r => .ok (setContent fp .v (r.2.v.content.add fp (r.2.border.top.add fp r.2.padding.top))
              { r.2 with contentHeight := some r.1 } ks)) (uniform_bind _ fun a _ => uniform_move ..) ?_
          intro ks hk
          have := hk hr
          have e : blockContentHeight fp s p c (autoMarginToZero (autoMarginToZero b .top) .bottom) ks =
              blockContentHeight fp s p c (autoMarginToZero (autoMarginToZero b .top) .bottom)
                [.mk CSS.empty Intrinsic.initial y []] := by
            unfold blockContentHeight
            simp only [h6, if_true]
            cases hl : ks.getLast? with
            | none => rw [hl] at this; cases this
            | some last =>
              rw [hl] at this
              have this : last.layout = y := Option.some.inj this
              subst this
              rfl
          unfold blockHeight
          rw [e]
          rfl
      · refine Uniform.congr (F := fun ks => blockContentHeight fp s p c (autoMarginToZero (autoMarginToZero b .top) .bottom) [] >>=
            fun r => .ok (setContent fp .v (r.2.v.content.add fp (r.2.border.top.add fp r.2.padding.top))
              { r.2 with contentHeight := some r.1 } ks)) (uniform_bind _ fun a _ => uniform_move ..) ?_
        intro ks _
        unfold blockHeight blockContentHeight
        simp only [h6]
        rfl
  simp only [h1, h2, h3, h5]
  by_cases h7 : isInlineBlock s = true
  · simp only [h7, if_true]; exact uniform_error ..
  · simp only [h7]; exact uniform_error ..

theorem uniform_relative (fp : FP) (S : List Node → Prop) (s : CSS) (cb : CB) (hz vt : PxCtx) (b : Box) :
    Uniform fp S (applyRelative fp s cb hz vt b) := by
  unfold applyRelative
  by_cases h : isRelative s = true
  · simp only [h, if_true]
    refine uniform_bind _ fun dx _ => ?_
    rcases uniform_move fp (fun _ => True) .h (b.h.content.add fp dx) b with ⟨e, he⟩ | ⟨b1, ps, h1⟩
    · have := he [] trivial; cases this
    · have e1 : ∀ ks, setContent fp .h (b.h.content.add fp dx) b ks = (b1, pushAll fp ps ks) := fun ks => Except.ok.inj (h1 ks trivial)
      simp only [e1]
      refine uniform_bind _ fun dy _ => ?_
      rcases uniform_move fp (fun _ => True) .v (b1.v.content.add fp dy) b1 with ⟨e, he⟩ | ⟨b2, qs, h2⟩
      · have := he [] trivial; cases this
      · exact Or.inr ⟨b2, ps ++ qs, fun ks _ => by rw [pushAll_append]; exact h2 _ trivial⟩
  · simp only [h]
    exact uniform_ok ..

/-! ## Akin children -/

/-- Children that are alike, with their flags. -/
def Kids (w : Node → Bool) (cs ks : List Node) : Prop := List.Forall₂ (fun c k => Akin Eq (w c) c k) cs ks

/-- The flag only depends on the style. -/
def ByStyle (w : Node → Bool) : Prop := ∀ c c' : Node, c.style = c'.style → w c = w c'

theorem kids_push {fp : FP} {w : Node → Bool} (hw : ByStyle w) {a : Axis} {x : Num} {cs ks : List Node} (h : Kids w cs ks) :
    Kids w (setOrigins fp a x cs) (setOrigins fp a x ks) := by
  rw [setOrigins_map, setOrigins_map]
  refine forall₂_map h fun c _ k hck => ?_
  rw [hw (c.setOrigin fp a x) c (by rw [← strip_style, strip_setOrigin, strip_style])]
  exact hck.setOrigin fp a x

theorem kids_pushAll {fp : FP} {w : Node → Bool} (hw : ByStyle w) {ps : List (Axis × Num)} : ∀ {cs ks : List Node}, Kids w cs ks →
    Kids w (pushAll fp ps cs) (pushAll fp ps ks) := by
  induction ps with
  | nil => intro cs ks h; exact h
  | cons p ps ih => intro cs ks h; exact ih (kids_push hw h)

theorem uniform_kids {fp : FP} {w : Node → Bool} (hw : ByStyle w) {S : List Node → Prop} {F : List Node → Res (Box × List Node)}
    (hF : Uniform fp S F) {cs ks cs' : List Node} {b' : Box} (h : Kids w cs ks) (hc : S cs) (hk : S ks) (hr : F cs = .ok (b', cs')) :
    ∃ ks', F ks = .ok (b', ks') ∧ Kids w cs' ks' := by
  rcases hF with ⟨e, he⟩ | ⟨b, ps, he⟩
  · rw [he cs hc] at hr; cases hr
  · rw [he cs hc] at hr
    cases hr
    exact ⟨_, he ks hk, kids_pushAll hw h⟩

theorem kids_strips {w : Node → Bool} {cs ks : List Node} (h : Kids w cs ks) : cs.map Node.strip = ks.map Node.strip :=
  strips_forall h

/-- Laying out a node and one like it. -/
def Respects (lay : Box → Node → Res Node) : Prop := ∀ b c k c', Akin Eq true c k → AllBoxed c → lay b c = .ok c' →
  ∃ k', lay b k = .ok k' ∧ Akin Eq false c' k'

theorem inline_kids {lay : Box → Node → Res Node} (hl : Respects lay) {b : Box} {cs ks : List Node}
    (h : List.Forall₂ (Akin Eq true) cs ks) : ∀ {cs' : List Node}, (∀ c ∈ cs, AllBoxed c) → inlineLoop (lay b) cs = .ok cs' →
    ∃ ks', inlineLoop (lay b) ks = .ok ks' ∧ Kids (fun _ => false) cs' ks' := by
  induction h with
  | nil => intro cs' _ hr; cases hr; exact ⟨[], rfl, .nil⟩
  | @cons c k cs ks hck _ ih =>
    intro cs' hb hr
    simp only [inlineLoop] at hr
    split at hr
    · cases hr
    · rename_i c' hc'
      split at hr
      · cases hr
      · rename_i cs1 hcs1
        cases hr
        obtain ⟨k', hk', ha⟩ := hl b c k c' hck (hb c List.mem_cons_self) hc'
        obtain ⟨ks', hks', hf⟩ := ih (fun x hx => hb x (List.mem_cons_of_mem _ hx)) hcs1
        exact ⟨k' :: ks', by simp only [inlineLoop, hk', hks'], .cons ha hf⟩

theorem stack_kids {fp : FP} {b b' : Box} {off off' : Num} {bm bm' : Option Int} {c k c' : Node} (h : Akin Eq false c k)
    (hr : stackChild fp b off bm c = .ok (b', c', off', bm')) :
    ∃ k', stackChild fp b off bm k = .ok (b', k', off', bm') ∧ Akin Eq false c' k' := by
  cases h with
  | unboxed _ => cases hr
  | @boxed _ s z cb cb' cs ks hR hlen hk =>
    subst hR
    have hf := alike_kids hlen hk
    simp only [Bool.false_and] at hf
    simp only [stackChild] at hr ⊢
    obtain ⟨⟨b1, o1⟩, h1, hr⟩ := bind_eq_ok.1 hr
    simp only at hr
    obtain ⟨hh, h2, hr⟩ := bind_eq_ok.1 hr
    rcases uniform_move fp (fun _ => True) .v (cb.v.content.add fp o1) cb with ⟨e, he⟩ | ⟨b2, ps, hu⟩
    · have := he [] trivial; cases this
    · have e1 : ∀ ks, setContent fp .v (cb.v.content.add fp o1) cb ks = (b2, pushAll fp ps ks) := fun ks => Except.ok.inj (hu ks trivial)
      rw [h1]
      show ∃ k', (do
        let h ← need ((setContent fp .v (cb.v.content.add fp o1) cb ks).1.borderBoxHeight fp)
        pure (b1, Node.mk s z (some (setContent fp .v (cb.v.content.add fp o1) cb ks).1)
          (setContent fp .v (cb.v.content.add fp o1) cb ks).2, o1.add fp h,
          some (setContent fp .v (cb.v.content.add fp o1) cb ks).1.collapse.bottom)) = _ ∧ _
      rw [e1] at h2 hr ⊢
      simp only at h2 hr ⊢
      rw [h2]
      cases hr
      refine ⟨_, rfl, alike_boxed rfl ?_⟩
      simp only [Bool.false_and]
      exact kids_pushAll (w := fun _ => false) (fun _ _ _ => rfl) hf

theorem block_kids {fp : FP} {lay : Box → Node → Res Node} (hl : Respects lay) {w : Node → Bool}
    (hw : ∀ c, isBlockLevel c.style = true → w c = true) {cs ks : List Node} (h : Kids w cs ks) :
    ∀ {b b' : Box} {off : Num} {bm : Option Int} {laid : List Node}, (∀ c ∈ cs, AllBoxed c) →
      blockLoop fp lay b off bm (anonymize cs) = .ok (b', laid) →
      ∃ laid', blockLoop fp lay b off bm (anonymize ks) = .ok (b', laid') ∧ Kids (fun _ => false) laid laid' := by
  have anon : ∀ (cs ks : List Node) (xs ys : List Node), Kids w cs ks → anonymizeLoop (some xs) cs = [] →
      anonymizeLoop (some ys) ks = [] := by
    intro cs
    induction cs with
    | nil => intro ks xs ys h _; cases h; rfl
    | cons c cs ih =>
      intro ks xs ys h he
      cases h with
      | cons hck hrest =>
        simp only [anonymizeLoop] at he ⊢
        rw [← hck.style]
        split at he
        · cases he
        · rename_i hb
          rw [if_neg hb]
          exact ih _ _ _ hrest he
  induction h with
  | nil => intro b b' off bm laid _ hr; cases hr; exact ⟨[], rfl, .nil⟩
  | @cons c k cs ks hck hrest ih =>
    intro b b' off bm laid hb hr
    simp only [anonymize, anonymizeLoop] at hr ⊢
    rw [← hck.style]
    split at hr
    · rename_i hbl
      rw [if_pos hbl]
      simp only [blockLoop] at hr ⊢
      split at hr
      · cases hr
      · rename_i c1 hc1
        rw [hw c hbl] at hck
        obtain ⟨k1, hk1, ha⟩ := hl b c k c1 hck (hb c List.mem_cons_self) hc1
        rw [hk1]
        simp only
        split at hr
        · cases hr
        · rename_i b1 c2 off1 bm1 hst
          obtain ⟨k2, hk2, ha2⟩ := stack_kids ha hst
          rw [hk2]
          simp only
          split at hr
          · cases hr
          · rename_i b2 cs2 hr2
            cases hr
            obtain ⟨laid', h1, h2⟩ := ih (fun x hx => hb x (List.mem_cons_of_mem _ hx)) hr2
            unfold anonymize at h1
            rw [h1]
            exact ⟨k2 :: laid', rfl, .cons ha2 h2⟩
    · rename_i hbl
      rw [if_neg hbl]
      rcases anonymizeLoop_anon (xs := [c]) (cs := cs) _ rfl with h0 | ⟨ys, r, h0⟩
      · rw [h0] at hr
        cases hr
        rw [anon cs ks [c] [k] hrest h0]
        exact ⟨[], rfl, .nil⟩
      · rw [h0] at hr; cases hr

theorem forall₂_drop {α : Type} {P : α → α → Prop} {xs ys : List α} (n : Nat) (h : List.Forall₂ P xs ys) :
    List.Forall₂ P (xs.drop n) (ys.drop n) := by
  induction h generalizing n with
  | nil => simp
  | cons h hr ih =>
    cases n with
    | zero => exact .cons h hr
    | succ n => exact ih n

theorem children_kids {fp : FP} {lay : Box → Node → Res Node} (hl : Respects lay) {s : CSS} {z : Intrinsic} {b b' : Box}
    {cs ks cs' : List Node} (h : Kids (visits s z cs) cs ks) (hb : ∀ c ∈ cs, AllBoxed c)
    (hr : layoutChildren fp lay s z b cs = .ok (b', cs')) :
    ∃ ks', layoutChildren fp lay s z b ks = .ok (b', ks') ∧ Kids (fun _ => false) cs' ks' := by
  have he : establishesInline s z ks = establishesInline s z cs := (inline_of_styles (styles_of_strips (kids_strips h))).symm
  have hr0 := hr
  unfold layoutChildren at hr ⊢
  rw [he]
  split at hr
  · rename_i hi
    rw [if_pos hi]
    split at hr
    · cases hr
    · rename_i cs1 h1
      cases hr
      have : List.Forall₂ (Akin Eq true) cs ks := h.imp fun c k hck => by
        have : visits s z cs c = true := by simp [visits, hi]
        rwa [this] at hck
      obtain ⟨ks', h2, h3⟩ := inline_kids hl this hb h1
      rw [h2]
      exact ⟨ks', rfl, h3⟩
  · rename_i hi
    rw [if_neg hi]
    split at hr
    · cases hr
    · rename_i b1 laid h1
      cases hr
      obtain ⟨laid', h2, h3⟩ := block_kids hl (fun c hc => by simp [visits, hc]) h hb h1
      rw [h2]
      refine ⟨_, rfl, List.rel_append h3 ?_⟩
      rw [← h3.length_eq]
      obtain ⟨pre, post, rfl, hf, _, _, hpost⟩ := blockLoop_laid cs h1
      have hd := forall₂_drop laid.length h
      rw [← hf.length_eq, List.drop_left] at hd ⊢
      have : ∀ {xs ys : List Node}, (∀ c ∈ xs, isBlockLevel c.style = false) →
          List.Forall₂ (fun c k => Akin Eq (visits s z (pre ++ post) c) c k) xs ys →
          List.Forall₂ (fun c k => Akin Eq false c k) xs ys := by
        intro xs ys hx hf
        induction hf with
        | nil => exact .nil
        | @cons c k _ _ hck _ ih =>
          refine .cons ?_ (ih fun y hy => hx y (List.mem_cons_of_mem _ hy))
          have hv : visits s z (pre ++ post) c = false := by
            simp [visits, hx c List.mem_cons_self]; simpa using hi
          rwa [hv] at hck
      exact this hpost hd

theorem forall₂_getLast {α : Type} {P : α → α → Prop} {xs ys : List α} (h : List.Forall₂ P xs ys) :
    (xs.getLast? = none ∧ ys.getLast? = none) ∨ ∃ x y, xs.getLast? = some x ∧ ys.getLast? = some y ∧ P x y := by
  induction h with
  | nil => exact Or.inl ⟨rfl, rfl⟩
  | @cons a b xs ys hab hr ih =>
    cases hr with
    | nil => exact Or.inr ⟨a, b, rfl, rfl, hab⟩
    | cons h1 h2 =>
      rcases ih with ⟨h, _⟩ | ⟨x, y, hx, hy, hp⟩
      · simp at h
      · exact Or.inr ⟨x, y, by simpa using hx, by simpa using hy, hp⟩

theorem kids_last {cs ks : List Node} (h : Kids (fun _ => false) cs ks) :
    cs.getLast?.map Node.layout = ks.getLast?.map Node.layout := by
  rcases forall₂_getLast h with ⟨h1, h2⟩ | ⟨x, y, hx, hy, hxy⟩
  · rw [h1, h2]
  · rw [hx, hy]
    simp only [Option.map_some, hxy.layout (Or.inl rfl)]

theorem block_not_hidden {s : CSS} (h : isBlockLevel s = true) : (s.get .display).isNone = false := by
  unfold isBlockLevel at h
  cases hd : s.get .display <;> simp [hd, Val.isKw, kw, Val.pyEq, Val.isNone] at h ⊢

/-- A block of automatic height whose last child is hidden and visited cannot be laid out. -/
theorem height_last {fp : FP} {s : CSS} {z : Intrinsic} {p : Option CSS} {c : PxCtx} {b b' : Box} {cs cs' : List Node}
    (h : heightAndMargins fp s z p c b cs = .ok (b', cs')) (hr : readsLast s = true) {x : Node} (hx : cs.getLast? = some x) :
    x.layout ≠ none := by
  intro hn
  simp only [readsLast, Bool.and_eq_true, Bool.not_eq_true'] at hr
  unfold heightAndMargins at h
  rw [hr.1] at h
  split at h
  · cases h
  split at h
  · cases h
  simp only [Bool.false_eq_true, if_false] at h
  split at h
  · split at h
    · cases h
    · unfold blockHeight at h
      obtain ⟨r, h1, h⟩ := bind_eq_ok.1 h
      unfold blockContentHeight at h1
      rw [if_pos hr.2, hx] at h1
      simp only [hn] at h1
      cases h1
  split at h <;> cases h

theorem steps_styles {fp : FP} {b b' : Box} {cs cs' : List Node} (h : Steps fp b cs b' cs') (s : CSS) (z : Intrinsic) :
    visits s z cs = visits s z cs' := by
  funext c
  exact visits_styles h.strips.symm rfl

theorem body_kids {fp : FP} {d : Display} {lay : Box → Node → Res Node} (hl : Respects lay)
    (hh : ∀ b c c', lay b c = .ok c' → c.style.get .display = .none → c'.layout = none) {p : Option CSS} {cb : CB} {s : CSS}
    {z : Intrinsic} {b b' : Box} {cs ks cs' : List Node} (h : Kids (visits s z cs) cs ks) (hb : ∀ c ∈ cs, AllBoxed c)
    (hr : layoutBody fp d lay p cb s z b cs = .ok (b', cs')) :
    ∃ ks', layoutBody fp d lay p cb s z b ks = .ok (b', ks') ∧ Kids (fun _ => false) cs' ks' := by
  obtain ⟨b1, b2, cs2, b3, cs3, b4, cs4, b5, cs5, h1, h2, h3, ha, hf, h4, h5, h6⟩ := body_phases hr
  have hw : ByStyle (visits s z cs) := fun c c' hc => visits_styles rfl hc
  have hw0 : ByStyle fun _ => false := fun _ _ _ => rfl
  obtain ⟨ks2, g2, k2⟩ := uniform_kids hw (uniform_width fp (fun _ => True) s z _ b1) h trivial trivial h2
  have s2 := width_steps h2
  -- the first height calculation of a relatively positioned node
  have g3 : ∃ ks3, relativeHeight fp s z p ⟨d, dummyFont fp, cb.height⟩ b2 ks2 = .ok (b3, ks3) ∧ Kids (visits s z cs) cs3 ks3 ∧
      Steps fp b2 cs2 b3 cs3 := by
    unfold relativeHeight at h3 ⊢
    split at h3
    · rename_i hrel
      rw [if_pos hrel]
      have hlast : SameLast s (cs2.getLast?.map Node.layout) ks2 := by
        intro hrl
        rcases forall₂_getLast k2 with ⟨q1, q2⟩ | ⟨x, y, hx, hy, hxy⟩
        · rw [q1, q2]
        · rw [hx, hy]
          simp only [Option.map_some]
          congr 1
          refine (hxy.layout ?_).symm
          by_contra hcon
          rw [not_or] at hcon
          obtain ⟨n1, n2⟩ := hcon
          have n2 : (x.style.get .display).isNone = true := by simpa using n2
          have hi : establishesInline s z cs = true := by
            have : visits s z cs x = true := by simpa using n1
            unfold visits at this
            rcases Bool.or_eq_true _ _ ▸ this with h | h
            · exact h
            · rw [block_not_hidden h] at n2; cases n2
          have s3 := height_steps h3
          -- the last child after laying out the children
          obtain ⟨_, ⟨_, _, hfa⟩ | ⟨hi', _⟩⟩ := children_laid h4
          · rcases forall₂_getLast (P := fun c c' => c.strip = c'.strip) (xs := cs2) (ys := cs3)
              (forall₂_of_map s3.strips.symm) with ⟨q1, _⟩ | ⟨x2, x3, hx2, hx3, hs23⟩
            · rw [q1] at hx; cases hx
            · rw [hx] at hx2
              cases hx2
              have h34 : ∀ {xs ys : List Node}, List.Forall₂ (fun c c' => lay b3 c = .ok c') xs ys →
                  (xs.getLast? = none ∧ ys.getLast? = none) ∨ ∃ u w, xs.getLast? = some u ∧ ys.getLast? = some w ∧ lay b3 u = .ok w := by
                intro xs ys h; exact forall₂_getLast h
              rcases h34 hfa with ⟨q1, _⟩ | ⟨u, w, hu, hwl, hlw⟩
              · rw [q1] at hx3; cases hx3
              · rw [hx3] at hu
                cases hu
                have hst : x3.style = x.style := by rw [← strip_style, ← hs23, strip_style]
                have := hh b3 x3 w hlw (by rw [hst]; exact (hidden_iff _).1 n2)
                exact height_last h5 hrl hwl this
          · have : establishesInline s z cs3 = establishesInline s z cs :=
              inline_of_styles (styles_of_strips ((height_steps h3).strips.trans s2.strips))
            rw [this, hi] at hi'
            cases hi'
      obtain ⟨ks3, q1, q2⟩ := uniform_kids hw (uniform_height fp s z p _ b2 _) k2 (fun _ => rfl) hlast h3
      exact ⟨ks3, q1, q2, height_steps h3⟩
    · rename_i hrel
      rw [if_neg hrel]
      cases h3
      exact ⟨ks2, rfl, k2, .refl ..⟩
  obtain ⟨ks3, g3, k3, s3⟩ := g3
  have hv : visits s z cs = visits s z cs3 := steps_styles (s2.trans s3) s z
  rw [hv] at k3
  obtain ⟨ks4, g4, k4⟩ := children_kids hl k3 ((s2.trans s3).boxed hb) h4
  obtain ⟨ks5, g5, k5⟩ := uniform_kids hw0 (uniform_height fp s z p _ b4 (cs4.getLast?.map Node.layout)) k4 (fun _ => rfl)
    (fun _ => (kids_last k4).symm) h5
  obtain ⟨ks6, g6, k6⟩ := uniform_kids hw0 (uniform_relative fp (fun _ => True) s cb _ _ b5) k5 trivial trivial h6
  refine ⟨ks6, ?_, k6⟩
  unfold layoutBody
  simp only
  rw [h1]
  show (widthAndMargins _ _ _ _ _ _ >>= _) = _
  rw [g2]
  show (relativeHeight _ _ _ _ _ _ _ >>= _) = _
  rw [g3]
  show (if _ then _ else if _ then _ else _) = _
  rw [if_neg (by simp [ha]), if_neg (by simp [hf])]
  show (layoutChildren _ _ _ _ _ _ >>= _) = _
  rw [g4]
  show (heightAndMargins _ _ _ _ _ _ _ >>= _) = _
  rw [g5]
  exact g6

theorem layoutBox_alike (fp : FP) (d : Display) (f : Nat) : ∀ (p : Option CSS) (cb : CB) (n m n' : Node), Akin Eq true n m → AllBoxed n →
    layoutBox fp d f p cb n = .ok n' → ∃ m', layoutBox fp d f p cb m = .ok m' ∧ Akin Eq false n' m' := by
  induction f with
  | zero => intro p cb n m n' _ _ h; cases h
  | succ f ih =>
    rintro p cb ⟨s, z, l, cs⟩ m n' ha hb h
    by_cases hn : (s.get .display).isNone = true
    · rw [layoutBox_hidden hn] at h
      cases h
      have hst := ha.strip
      obtain ⟨s2, z2, l2, cs2⟩ := m
      simp only [strip_mk] at hst
      injection hst with e1 e2 e3 e4
      subst e1 e2
      exact ⟨_, layoutBox_hidden hn, .unboxed e4⟩
    · have hn' : (s.get .display).isNone = false := by simpa using hn
      cases ha with
      | hidden hs _ => exact absurd hs hn
      | unboxed _ =>
        exact absurd rfl ((allBoxed_mk.1 hb) (fun e => hn ((hidden_iff s).2 e))).1
      | @boxed _ _ _ b b0 _ ks hR hl hk =>
        subst hR
        have hf := alike_kids hl hk
        simp only [Bool.true_and] at hf
        obtain ⟨b', cs', hbody, rfl⟩ := (layoutBox_boxed hn').1 h
        obtain ⟨ks', g, k⟩ := body_kids (lay := fun b n => layoutBox fp d f (some s) (.box b) n) (fun b c k c' h1 h2 h3 => ih _ _ _ _ _ h1 h2 h3)
          (by
            intro b c c' hc hd
            obtain ⟨s1, z1, l1, cs1⟩ := c
            cases f with
            | zero => cases hc
            | succ f =>
              rw [layoutBox_hidden ((hidden_iff s1).2 hd)] at hc
              cases hc
              rfl) hf ((allBoxed_mk.1 hb) (fun e => hn ((hidden_iff s).2 e))).2 hbody
        refine ⟨_, (layoutBox_boxed hn').2 ⟨_, _, g, rfl⟩, alike_boxed rfl ?_⟩
        simp only [Bool.false_and]
        exact k

end Colosseum
