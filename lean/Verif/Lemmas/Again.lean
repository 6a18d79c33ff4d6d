import Verif.Lemmas.Alike

/-!
# Laying out again
-/

namespace Colosseum

theorem visits_push (fp : FP) (a : Axis) (x : Num) (s : CSS) (z : Intrinsic) (cs : List Node) (c : Node) :
    visits s z (setOrigins fp a x cs) (c.setOrigin fp a x) = visits s z cs c :=
  visits_styles (strips_setOrigins ..) (by rw [← strip_style, strip_setOrigin, strip_style])

/-- Children with the same shape, whatever the flag. -/
def KidsShape (cs ks : List Node) : Prop := List.Forall₂ (fun c k => ∀ w, Shape w c k) cs ks

theorem KidsShape.refl (cs : List Node) : KidsShape cs cs := List.forall₂_same.2 fun c _ w => Shape.refl c w

theorem KidsShape.trans {cs ks ms : List Node} (h : KidsShape cs ks) (h' : KidsShape ks ms) : KidsShape cs ms :=
  forall₂_trans h h' fun _ _ _ _ h1 h2 w => (h1 w).trans (h2 w)

theorem kidsShape_push (fp : FP) (a : Axis) (x : Num) (cs : List Node) : KidsShape cs (setOrigins fp a x cs) := by
  rw [setOrigins_map]
  unfold KidsShape
  rw [List.forall₂_map_right_iff]
  exact List.forall₂_same.2 fun c _ w => Akin.push fp a c w x

theorem Steps.shape {fp : FP} {b b' : Box} {cs cs' : List Node} (h : Steps fp b cs b' cs') : KidsShape cs cs' := by
  induction h with
  | refl => exact .refl _
  | write _ _ ih => exact ih
  | move a v _ ih =>
    refine KidsShape.trans ?_ ih
    unfold setContent
    split
    · exact .refl _
    · exact kidsShape_push ..

theorem kidsShape_resetOne (fp : FP) (cs : List Node) : KidsShape cs (resetOne fp cs).2 :=
  (kidsShape_push ..).trans (kidsShape_push ..)

theorem shape_of_kids {s : CSS} {z : Intrinsic} {b b' : Box} {cs ks : List Node} (h : KidsShape cs ks) (v : Bool) :
    Shape v (.mk s z (some b) cs) (.mk s z (some b') ks) :=
  alike_boxed trivial (h.imp fun _ _ h => h _)

theorem shape_resetFuel (fp : FP) (f : Nat) : ∀ n v, Shape v n (n.resetFuel fp f) := by
  induction f with
  | zero => intro n v; exact Shape.refl n v
  | succ f ih =>
    rintro ⟨s, z, l, cs⟩ v
    cases l with
    | none => exact Shape.refl _ v
    | some b =>
      simp only [Node.resetFuel]
      refine shape_of_kids ((kidsShape_resetOne fp cs).trans ?_) v
      unfold KidsShape
      rw [List.forall₂_map_right_iff]
      exact List.forall₂_same.2 fun c _ w => ih c w

theorem shape_reset (fp : FP) (n : Node) (v : Bool) : Shape v n (n.reset fp) := shape_resetFuel fp _ n v

/-- Documents of the same shape whose boxes are all fresh are alike. -/
theorem alike_fresh {n : Node} : ∀ {v : Bool} {m : Node}, Shape v n m → (∀ bs b, Shown n bs b → b = Box.fresh) →
    (∀ bs b, Shown m bs b → b = Box.fresh) → Akin Eq v n m := by
  induction n using Node.ind with
  | h s z l cs ih =>
    intro v m h hn hm
    cases h with
    | hidden hs hd => exact .hidden hs hd
    | unboxed hd => exact .unboxed hd
    | @boxed _ _ _ b b' _ cs' hR hl hk =>
      refine .boxed ((hn [] b (.here rfl)).trans (hm [] b' (.here rfl)).symm) hl ?_
      rintro ⟨x, y⟩ hxy
      obtain ⟨hx, hy⟩ := List.of_mem_zip hxy
      exact ih x hx (hk (x, y) hxy) (fun bs b0 h => hn (b :: bs) b0 (.step rfl hx h)) fun bs b0 h => hm (b' :: bs) b0 (.step rfl hy h)

theorem reset_alike (fp : FP) {n m : Node} {v : Bool} (h : Shape v n m) : Akin Eq v (n.reset fp) (m.reset fp) :=
  alike_fresh ((shape_reset fp n v).symm.trans (h.trans (shape_reset fp m v))) (fun _ _ => reset_shown) fun _ _ => reset_shown

theorem allBoxed_shape {n : Node} : ∀ {v : Bool} {m : Node}, Shape v n m → AllBoxed n → AllBoxed m := by
  induction n using Node.ind with
  | h s z l cs ih =>
    intro v m h hn
    cases h with
    | hidden hs hd =>
      rw [allBoxed_mk]
      intro h
      exact absurd ((hidden_iff s).1 hs) h
    | unboxed hd =>
      rw [allBoxed_mk] at hn ⊢
      intro h
      exact absurd rfl (hn h).1
    | @boxed _ _ _ b b' _ cs' hR hl hk =>
      rw [allBoxed_mk] at hn ⊢
      intro h
      refine ⟨by simp, fun y hy => ?_⟩
      obtain ⟨i, hi, rfl⟩ := List.mem_iff_getElem.1 hy
      have hi' : i < cs.length := by omega
      have hz : (cs[i], cs'[i]) ∈ cs.zip cs' := by
        refine List.mem_iff_getElem.2 ⟨i, by simp; omega, ?_⟩
        simp
      exact ih _ (List.getElem_mem hi') (hk _ hz) ((hn h).2 _ (List.getElem_mem hi'))

/-- What `layout_box` leaves has the shape it found. -/
theorem layoutBox_shape (fp : FP) (d : Display) (f : Nat) : ∀ (p : Option CSS) (cb : CB) (n n' : Node),
    layoutBox fp d f p cb n = .ok n' → AllBoxed n → Shape true n n' := by
  induction f with
  | zero => intro p cb n n' h; cases h
  | succ f ih =>
    rintro p cb ⟨s, z, l, cs⟩ n' h hbx
    rcases layoutBox_ok h with ⟨hs, rfl⟩ | ⟨hs, b, cs0, b', cs', hl, hb, rfl⟩
    · exact .hidden ((hidden_iff s).2 hs) rfl
    · obtain ⟨hl0, hkids⟩ := allBoxed_mk.1 hbx hs
      rcases hl with ⟨rfl, rfl⟩ | ⟨rfl, _⟩
      swap
      · exact absurd rfl hl0
      obtain ⟨b1, b2, cs2, b3, cs3, b4, cs4, b5, cs5, h1, h2, h3, _, _, h4, h5, h6⟩ := body_phases hb
      have s3 : Steps fp b2 cs2 b3 cs3 := by
        unfold relativeHeight at h3
        split at h3
        · exact height_steps h3
        · cases h3; exact .refl ..
      have s13 := (width_steps h2).trans s3
      have s46 := (height_steps h5).trans (relative_steps h6)
      have bx3 := s13.boxed hkids
      have k34 : List.Forall₂ (fun c k => Shape (visits s z cs0 c) c k) cs3 cs4 := by
        have hi : establishesInline s z cs3 = establishesInline s z cs0 := inline_of_styles (styles_of_strips s13.strips)
        obtain ⟨_, ⟨hin, _, hf⟩ | ⟨hin, pre, post, laid, rfl, rfl, hf, hpre, hpost⟩⟩ := children_laid h4
        · have : ∀ {xs ys : List Node}, (∀ c ∈ xs, AllBoxed c) →
              List.Forall₂ (fun c c' => layoutBox fp d f (some s) (.box b3) c = .ok c') xs ys →
              List.Forall₂ (fun c k => Shape (visits s z cs0 c) c k) xs ys := by
            intro xs ys hx hf
            induction hf with
            | nil => exact .nil
            | @cons c k _ _ hck _ ih' =>
              refine .cons ?_ (ih' fun y hy => hx y (List.mem_cons_of_mem _ hy))
              have : visits s z cs0 c = true := by simp [visits, ← hi, hin]
              rw [this]
              exact ih _ _ _ _ hck (hx c List.mem_cons_self)
          exact this bx3 hf
        · have : ∀ {xs ys : List Node}, (∀ c ∈ xs, AllBoxed c) → (∀ c ∈ xs, isBlockLevel c.style = true) →
              List.Forall₂ (Laid fp fun b n => layoutBox fp d f (some s) (.box b) n) xs ys →
              List.Forall₂ (fun c k => Shape (visits s z cs0 c) c k) xs ys := by
            intro xs ys hx hbl hf
            induction hf with
            | nil => exact .nil
            | @cons c k _ _ hck _ ih' =>
              refine .cons ?_ (ih' (fun y hy => hx y (List.mem_cons_of_mem _ hy)) fun y hy => hbl y (List.mem_cons_of_mem _ hy))
              have : visits s z cs0 c = true := by simp [visits, hbl c List.mem_cons_self]
              rw [this]
              cases hck with
              | same h => exact ih _ _ _ _ h (hx c List.mem_cons_self)
              | @moved bx cb c s' z' cs' x h =>
                exact (ih _ _ _ _ h (hx c List.mem_cons_self)).trans (shape_of_kids (Steps.moved fp .v x cb cs').shape _)
          refine List.rel_append (this (fun c hc => bx3 c (List.mem_append_left _ hc)) hpre hf) ?_
          exact List.forall₂_same.2 fun c _ => Shape.refl c _
      refine alike_boxed trivial ?_
      simp only [Bool.true_and]
      refine forall₂_trans s13.shape (Q := fun c k => Shape (visits s z cs0 c) c k) (ys := cs3) ?_ ?_
      · exact forall₂_trans k34 s46.shape fun _ _ _ _ q1 q2 => q1.trans (q2 _)
      · intro x _ y w q1 q2
        have : visits s z cs0 y = visits s z cs0 x := visits_styles rfl (q1 true).style.symm
        rw [this] at q2
        exact (q1 _).trans q2

theorem layout_shape {fp : FP} {d : Display} {html5 : Bool} {p : Option CSS} {n n' : Node} (h : layout fp d html5 p n = .ok n')
    (hb : AllBoxed n) : Shape true n n' := by
  obtain ⟨m, h1, h2, _⟩ := layout_ok h
  have q := layoutBox_shape fp d _ _ _ _ _ h1 (allBoxed_reset fp hb)
  obtain ⟨s, z, b, cs, b', cs', rfl, rfl, hs⟩ := finishRoot_steps h2
  exact (shape_reset fp n true).trans (q.trans (shape_of_kids hs.shape _))

theorem finish_alike {fp : FP} {d : Display} {html5 : Bool} {n m n' : Node} (h : Akin Eq false n m) (hr : finishRoot fp d html5 n = .ok n') :
    ∃ m', finishRoot fp d html5 m = .ok m' ∧ Akin Eq false n' m' := by
  cases h with
  | unboxed _ => cases hr
  | @boxed _ s z b b' cs ks hR hlen hk =>
    subst hR
    have hf := alike_kids hlen hk
    simp only [Bool.false_and] at hf
    rcases uniform_move fp (fun _ => True) .v (b.v.content.add fp (.int b.collapse.top)) b with ⟨e, he⟩ | ⟨b2, ps, hu⟩
    · have := he [] trivial; cases this
    · have e1 : ∀ ks, setContent fp .v (b.v.content.add fp (.int b.collapse.top)) b ks = (b2, pushAll fp ps ks) :=
        fun ks => Except.ok.inj (hu ks trivial)
      simp only [finishRoot, e1] at hr ⊢
      cases hr
      refine ⟨_, rfl, alike_boxed rfl ?_⟩
      simp only [Bool.false_and]
      exact kids_pushAll (w := fun _ => false) (fun _ _ _ => rfl) hf

/-- Documents of the same shape lay out alike. -/
theorem layout_alike {fp : FP} {d : Display} {html5 : Bool} {p : Option CSS} {n m n' : Node} (hs : Shape true n m) (hb : AllBoxed n)
    (hm : m.layout ≠ none) (h : layout fp d html5 p n = .ok n') :
    ∃ m', layout fp d html5 p m = .ok m' ∧ Akin Eq false n' m' := by
  obtain ⟨k, h1, h2, _⟩ := layout_ok h
  obtain ⟨k', g1, g2⟩ := layoutBox_alike fp d _ _ _ _ _ _ (reset_alike fp hs) (allBoxed_reset fp hb) h1
  obtain ⟨m', g3, g4⟩ := finish_alike g2 h2
  refine ⟨m', ?_, g4⟩
  unfold layout
  cases hl : m.layout with
  | none => exact absurd hl hm
  | some b =>
    simp only
    rw [← depth_same hs.strip, g1]
    exact g3

theorem boxAt_alike {n : Node} : ∀ {m : Node}, Akin Eq false n m → ∀ p, n.boxAt p = m.boxAt p := by
  induction n using Node.ind with
  | h s z l cs ih =>
    intro m h p
    cases h with
    | unboxed hd => cases p <;> simp [Node.boxAt, Node.layout]
    | @boxed _ _ _ b b' _ cs' hR hl hk =>
      subst hR
      cases p with
      | nil => rfl
      | cons i p =>
        simp only [Node.boxAt, Node.layout, Node.children, Option.isSome_some, if_true]
        by_cases hi : i < cs.length
        · have hi' : i < cs'.length := by omega
          rw [List.getElem?_eq_getElem hi, List.getElem?_eq_getElem hi']
          simp only [Option.bind_some]
          have hz : (cs[i], cs'[i]) ∈ cs.zip cs' := List.mem_iff_getElem.2 ⟨i, by simp; omega, by simp⟩
          have := hk _ hz
          simp only [Bool.false_and] at this
          exact ih _ (List.getElem_mem hi) this p
        · rw [List.getElem?_eq_none (by omega), List.getElem?_eq_none (by omega)]

theorem shape_of_boxAt {n : Node} : ∀ {m : Node}, n.strip = m.strip → (∀ p, (n.boxAt p).isSome = (m.boxAt p).isSome) →
    ∀ v, Shape v n m := by
  induction n using Node.ind with
  | h s z l cs ih =>
    rintro ⟨s', z', l', cs'⟩ hs hp v
    simp only [strip_mk] at hs
    injection hs with e1 e2 _ e4
    subst e1 e2
    have hl := hp []
    simp only [Node.boxAt, Node.layout] at hl
    cases l with
    | none =>
      cases l' with
      | none => exact .unboxed e4
      | some _ => cases hl
    | some b =>
      cases l' with
      | none => cases hl
      | some b' =>
        refine .boxed trivial (by simpa using congrArg List.length e4) ?_
        rintro ⟨x, y⟩ hxy
        obtain ⟨i, hi, he⟩ := List.mem_iff_getElem.1 hxy
        simp only [List.getElem_zip, Prod.mk.injEq] at he
        obtain ⟨rfl, rfl⟩ := he
        have hi1 : i < cs.length := by simp at hi; omega
        have hi2 : i < cs'.length := by simp at hi; omega
        refine ih _ (List.getElem_mem hi1) ?_ ?_ _
        · have := congrArg (fun l => l[i]?) e4
          simpa [List.getElem?_eq_getElem hi1, List.getElem?_eq_getElem hi2] using this
        · intro q
          have := hp (i :: q)
          simpa [Node.boxAt, Node.layout, Node.children, List.getElem?_eq_getElem hi1, List.getElem?_eq_getElem hi2] using this

end Colosseum
