import Verif.Lemmas.Again

/-!
# The nodes a layout reaches
-/

namespace Colosseum

theorem isKw_iff (v : Val) (s : String) : v.isKw s = true ↔ v = kw s := by
  unfold Val.isKw kw
  cases v <;> simp [Val.pyEq]

theorem blockLevel_iff (n : Node) : isBlockLevel n.style = true ↔ n.BlockLevel := by
  simp only [isBlockLevel, Bool.or_eq_true, isKw_iff, Node.BlockLevel, or_assoc]

theorem blockContext_iff (s : CSS) (z : Intrinsic) (l : Option Box) (cs : List Node) :
    establishesInline s z cs = false ↔ (Node.mk s z l cs).BlockContext := by
  unfold establishesInline isBlockContainer Node.BlockContext
  split
  · rename_i h
    simp only [Bool.and_eq_true, Bool.or_eq_true, isKw_iff, Bool.not_eq_true', or_assoc] at h
    have e : (cs.any fun c => isBlockLevel c.style) = true ↔ ∃ c ∈ cs, c.BlockLevel := by
      simp only [List.any_eq_true, blockLevel_iff]
    rw [Bool.not_eq_false', e]
    exact ⟨fun h' => ⟨h.1, h.2, h'⟩, fun h' => h'.2.2⟩
  · rename_i h
    simp only [Bool.and_eq_true, Bool.or_eq_true, isKw_iff, Bool.not_eq_true', or_assoc] at h
    simp only [Node.style, Node.intrinsic, Bool.true_eq_false, false_iff]
    exact fun h' => h ⟨h'.1, h'.2.1⟩

theorem strip_intrinsic (n : Node) : n.strip.intrinsic = n.intrinsic := by cases n; rfl
theorem strip_children (n : Node) : n.strip.children = n.children.map Node.strip := by cases n; simp [strip_mk, Node.children]
theorem hidden_strip (n : Node) : n.strip.Hidden ↔ n.Hidden := by simp only [Node.Hidden, strip_style]
theorem blockLevel_strip (n : Node) : n.strip.BlockLevel ↔ n.BlockLevel := by simp only [Node.BlockLevel, strip_style]
theorem blockContext_strip (n : Node) : n.strip.BlockContext ↔ n.BlockContext := by
  simp only [Node.BlockContext, strip_style, strip_intrinsic, strip_children, List.mem_map, exists_exists_and_eq_and, blockLevel_strip]

/-- What is reached does not depend on the boxes. -/
theorem reached_same {n n' : Node} (h : n.strip = n'.strip) {m : Node} (hm : Reached m n) : ∃ m', Reached m' n' ∧ m'.strip = m.strip := by
  induction hm generalizing n' with
  | here => exact ⟨n', .here n', h.symm⟩
  | @step c n hn hc hb _ ih =>
    have : c.strip ∈ n'.children.map Node.strip := by
      rw [← strip_children, ← h, strip_children]
      exact List.mem_map.2 ⟨c, hc, rfl⟩
    obtain ⟨c', hc', he⟩ := List.mem_map.1 this
    obtain ⟨m', h1, h2⟩ := ih he.symm
    refine ⟨m', .step ?_ hc' ?_ h1, h2⟩
    · rw [← hidden_strip, ← h, hidden_strip]; exact hn
    · rw [← blockContext_strip, ← h, blockContext_strip, ← blockLevel_strip, he, blockLevel_strip]; exact hb

/-- What the engine can lay out. -/
def Supported (m : Node) : Prop :=
  m.style.get .float = .none ∧ m.style.get .position ≠ kw "absolute" ∧ m.style.get .position ≠ kw "fixed" ∧
  (m.style.get .display = kw "inline" ∨ m.BlockLevel ∧ m.intrinsic.isReplaced = false)

theorem supported_of_width {fp : FP} {s : CSS} {z : Intrinsic} {c : PxCtx} {b b' : Box} {cs cs' : List Node} (l : Option Box)
    (ks : List Node) (h : widthAndMargins fp s z c b cs = .ok (b', cs')) : Supported (.mk s z l ks) := by
  unfold widthAndMargins at h
  split at h
  · cases h
  rename_i h1
  split at h
  · cases h
  rename_i h2
  simp only [isFloat, Bool.not_eq_true', Bool.not_eq_false] at h1
  simp only [isAbsolute, Bool.or_eq_true, isKw_iff, not_or] at h2
  refine ⟨?_, h2.1, h2.2, ?_⟩
  · show s.get .float = .none
    cases hf : s.get .float <;> simp [hf, Val.isNone] at h1 ⊢
  split at h
  · rename_i h3
    rw [isInline, isKw_iff] at h3
    exact Or.inl h3
  split at h
  · rename_i h4
    split at h
    · cases h
    · rename_i h5
      exact Or.inr ⟨(blockLevel_iff (.mk s z l ks)).1 h4, (by show z.isReplaced = false; simpa using h5)⟩
  · split at h <;> cases h

theorem supported_strip (n : Node) : Supported n.strip ↔ Supported n := by
  simp only [Supported, strip_style, strip_intrinsic, blockLevel_strip]

theorem forall₂_left {α β : Type} {P : α → β → Prop} {xs : List α} {ys : List β} (h : List.Forall₂ P xs ys) {x : α} (hx : x ∈ xs) :
    ∃ y ∈ ys, P x y := by
  induction h with
  | nil => cases hx
  | cons h _ ih =>
    rcases List.mem_cons.1 hx with rfl | hx
    · exact ⟨_, List.mem_cons_self, h⟩
    · obtain ⟨y, hy, hp⟩ := ih hx
      exact ⟨y, List.mem_cons_of_mem _ hy, hp⟩

theorem laid_lay {fp : FP} {lay : Box → Node → Res Node} {c c' : Node} (h : Laid fp lay c c') : ∃ b c'', lay b c = .ok c'' := by
  cases h with
  | same h => exact ⟨_, _, h⟩
  | moved v h => exact ⟨_, _, h⟩

theorem visited_laid {fp : FP} {lay : Box → Node → Res Node} {s : CSS} {z : Intrinsic} {b b' : Box} {cs cs' : List Node}
    (h : layoutChildren fp lay s z b cs = .ok (b', cs')) {c : Node} (hc : c ∈ cs) (hv : visits s z cs c = true) :
    ∃ b c', lay b c = .ok c' := by
  obtain ⟨_, ⟨_, _, hf⟩ | ⟨hi, pre, post, laid, rfl, rfl, hf, _, hpost⟩⟩ := children_laid h
  · obtain ⟨c', _, h⟩ := forall₂_left hf hc
    exact ⟨b, c', h⟩
  · rcases List.mem_append.1 hc with hc | hc
    · obtain ⟨c', _, h⟩ := forall₂_left hf hc
      exact laid_lay h
    · simp only [visits, hi, hpost c hc, Bool.or_self] at hv
      cases hv

theorem layoutBox_supported (fp : FP) (d : Display) (f : Nat) : ∀ (p : Option CSS) (cb : CB) (n n' : Node),
    layoutBox fp d f p cb n = .ok n' → ∀ m, Reached m n → ¬ m.Hidden → Supported m := by
  induction f with
  | zero => intro p cb n n' h; cases h
  | succ f ih =>
    rintro p cb ⟨s, z, l, cs⟩ n' h m hm hh
    rcases layoutBox_ok h with ⟨hs, _⟩ | ⟨hs, b, cs0, b', cs', hl, hb, rfl⟩
    · cases hm with
      | here => exact absurd hs hh
      | step hn _ _ _ => exact absurd hs hn
    · obtain ⟨b1, b2, cs2, b3, cs3, b4, cs4, b5, cs5, h1, h2, h3, ha, hf, h4, h5, h6⟩ := body_phases hb
      have hstr : cs3.map Node.strip = cs.map Node.strip := by
        have h3' : cs3.map Node.strip = cs0.map Node.strip := by
          unfold relativeHeight at h3
          split at h3
          · rw [(height_steps h3).strips, (width_steps h2).strips]
          · cases h3; exact (width_steps h2).strips
        rw [h3']
        rcases hl with ⟨_, rfl⟩ | ⟨_, _, rfl⟩
        · rfl
        · exact strips_resetOne ..
      cases hm with
      | here => exact supported_of_width l cs h2
      | @step c _ hn hc hv hr =>
        have : c.strip ∈ cs3.map Node.strip := by rw [hstr]; exact List.mem_map.2 ⟨c, hc, rfl⟩
        obtain ⟨c3, hc3, he⟩ := List.mem_map.1 this
        have hst : c3.style = c.style := by rw [← strip_style, he, strip_style]
        have hvis : visits s z cs3 c3 = true := by
          rw [visits_styles hstr hst]
          unfold visits
          cases hi : establishesInline s z cs with
          | true => rfl
          | false =>
            rw [Bool.false_or, blockLevel_iff]
            exact hv ((blockContext_iff s z l cs).1 hi)
        obtain ⟨bb, c', hl'⟩ := visited_laid h4 hc3 hvis
        obtain ⟨m', hm', hs'⟩ := reached_same he.symm hr
        have := ih _ _ _ _ hl' m' hm' (by rw [← hidden_strip, hs', hidden_strip]; exact hh)
        rw [← supported_strip, ← hs', supported_strip]
        exact this

/-! ## Which reached nodes have boxes -/

/-- The reached nodes have boxes unless they are hidden. -/
def BoxedUp (n : Node) : Prop := ∀ m, Reached m n → (m.layout = none ↔ m.Hidden)

theorem visits_iff {s : CSS} {z : Intrinsic} (l : Option Box) {cs : List Node} {c : Node} :
    visits s z cs c = true ↔ ((Node.mk s z l cs).BlockContext → c.BlockLevel) := by
  rw [← blockContext_iff, ← blockLevel_iff]
  unfold visits
  cases establishesInline s z cs <;> simp

theorem boxedUp_mk {s : CSS} {z : Intrinsic} {l : Option Box} {cs : List Node} :
    BoxedUp (.mk s z l cs) ↔ (l = none ↔ s.get .display = .none) ∧
      (s.get .display ≠ .none → ∀ c ∈ cs, visits s z cs c = true → BoxedUp c) := by
  constructor
  · intro h
    exact ⟨h _ (.here _), fun hs c hc hv m hm => h m (.step hs hc ((visits_iff l).1 hv) hm)⟩
  · rintro ⟨h1, h2⟩ m hm
    cases hm with
    | here => exact h1
    | @step c _ hn hc hv hr => exact h2 hn c hc ((visits_iff l).2 hv) m hr

theorem boxedUp_alike {R : Box → Box → Prop} {n : Node} : ∀ {m : Node}, Akin R false n m → BoxedUp n → BoxedUp m := by
  induction n using Node.ind with
  | h s z l cs ih =>
    intro m h hb
    have hst := h.strip
    cases h with
    | unboxed hs =>
      rw [boxedUp_mk] at hb ⊢
      exact ⟨hb.1, fun hd => absurd (hb.1.1 rfl) hd⟩
    | @boxed _ _ _ b b' _ cs' hR hlen hk =>
      have hf := alike_kids hlen hk
      rw [boxedUp_mk] at hb ⊢
      refine ⟨?_, fun hd c' hc' hv => ?_⟩
      · constructor
        · intro hx; cases hx
        · intro hx; exact (by cases hb.1.2 hx)
      · have hf2 : List.Forall₂ (fun c' c => Akin R (false && visits s z cs c) c c') cs' cs := hf.flip
        obtain ⟨c, hc, ha⟩ := forall₂_left hf2 hc'
        rw [Bool.false_and] at ha
        refine ih c hc ha (hb.2 hd c hc ?_)
        rw [← hv]
        exact visits_styles (strips_forall hf) (ha.style)

theorem boxedUp_steps {fp : FP} {s : CSS} {z : Intrinsic} {b b' : Box} {cs cs' : List Node} (h : Steps fp b cs b' cs')
    (hb : BoxedUp (.mk s z (some b) cs)) : BoxedUp (.mk s z (some b') cs') :=
  boxedUp_alike (R := fun _ _ => True) (shape_of_kids h.shape false) hb

theorem boxedUp_laid {fp : FP} {lay : Box → Node → Res Node} (hl : ∀ b c c', lay b c = .ok c' → BoxedUp c') {c c' : Node}
    (h : Laid fp lay c c') : BoxedUp c' := by
  cases h with
  | same h => exact hl _ _ _ h
  | moved v h => exact boxedUp_steps (Steps.moved ..) (hl _ _ _ h)

theorem layoutBox_boxedUp (fp : FP) (d : Display) (f : Nat) : ∀ (p : Option CSS) (cb : CB) (n n' : Node),
    layoutBox fp d f p cb n = .ok n' → BoxedUp n' := by
  induction f with
  | zero => intro p cb n n' h; cases h
  | succ f ih =>
    rintro p cb ⟨s, z, l, cs⟩ n' h
    rcases layoutBox_ok h with ⟨hs, rfl⟩ | ⟨hs, b, cs0, b', cs', hl, hb, rfl⟩
    · rw [boxedUp_mk]
      exact ⟨⟨fun _ => hs, fun _ => rfl⟩, fun h => absurd hs h⟩
    · obtain ⟨b1, b2, cs2, b3, cs3, b4, cs4, b5, cs5, h1, h2, h3, ha, hf, h4, h5, h6⟩ := body_phases hb
      refine boxedUp_steps ((height_steps h5).trans (relative_steps h6)) ?_
      rw [boxedUp_mk]
      refine ⟨⟨fun h => (by cases h), fun h => absurd h hs⟩, fun _ c hc hv => ?_⟩
      obtain ⟨_, ⟨_, _, hf⟩ | ⟨hi, pre, post, laid, rfl, rfl, hf, hpre, hpost⟩⟩ := children_laid h4
      · obtain ⟨c0, _, h⟩ := forall₂_left hf.flip hc
        exact ih _ _ _ _ h
      · rcases List.mem_append.1 hc with hc | hc
        · obtain ⟨c0, _, h⟩ := forall₂_left hf.flip hc
          exact boxedUp_laid (fun b c c' h => ih _ _ _ _ h) h
        · exfalso
          have hst : (laid ++ post).map Node.style = (pre ++ post).map Node.style := by
            rw [List.map_append, List.map_append]
            congr 1
            refine (forall₂_map_eq (hf.imp fun c c' h => ?_)).symm
            have : ∀ b c c', layoutBox fp d f (some s) (.box b) c = .ok c' → c'.style = c.style := fun b c c' h => by
              rw [← strip_style, layoutBox_strip _ _ _ _ _ _ _ h, strip_style]
            cases h with
            | same h => exact (this _ _ _ h).symm
            | moved v h => exact (this _ _ _ h).symm
          simp only [visits, inline_of_styles hst, hi, hpost c hc, Bool.or_self] at hv
          cases hv

theorem layout_boxedUp {fp : FP} {d : Display} {html5 : Bool} {p : Option CSS} {n n' : Node} (h : layout fp d html5 p n = .ok n') :
    BoxedUp n' := by
  obtain ⟨m, h1, h2, _⟩ := layout_ok h
  have q := layoutBox_boxedUp fp d _ _ _ _ _ h1
  obtain ⟨s, z, b, cs, b', cs', rfl, rfl, hs⟩ := finishRoot_steps h2
  exact boxedUp_steps hs q

theorem layout_supported {fp : FP} {d : Display} {html5 : Bool} {p : Option CSS} {n n' : Node} (h : layout fp d html5 p n = .ok n')
    {m : Node} (hm : Reached m n) (hh : ¬ m.Hidden) : Supported m := by
  obtain ⟨k, h1, h2, _⟩ := layout_ok h
  obtain ⟨m', hm', hs'⟩ := reached_same (strip_reset fp n).symm hm
  have := layoutBox_supported fp d _ _ _ _ _ h1 m' hm' (by rw [← hidden_strip, hs', hidden_strip]; exact hh)
  rw [← supported_strip, ← hs', supported_strip]
  exact this

/-! ## When the presence of boxes is determined -/

theorem shape_of_noStray {n : Node} : ∀ {m : Node}, n.strip = m.strip → AllBoxed n → AllBoxed m → NoStray n → Shape true n m := by
  induction n using Node.ind with
  | h s z l cs ih =>
    rintro ⟨s', z', l', cs'⟩ hs hn hm hx
    simp only [strip_mk] at hs
    injection hs with e1 e2 _ e4
    subst e1 e2
    by_cases hd : s.get .display = .none
    · exact .hidden ((hidden_iff s).2 hd) e4
    · obtain ⟨b, rfl⟩ := Option.ne_none_iff_exists'.1 (allBoxed_mk.1 hn hd).1
      obtain ⟨b', rfl⟩ := Option.ne_none_iff_exists'.1 (allBoxed_mk.1 hm hd).1
      have kn := (allBoxed_mk.1 hn hd).2
      have km := (allBoxed_mk.1 hm hd).2
      refine alike_boxed trivial ?_
      have e4' := e4
      have hk : ∀ c ∈ cs, ∀ c' ∈ cs', c.strip = c'.strip → Shape (true && visits s z cs c) c c' := by
        intro c hc c' hc' he
        have h1 : Shape true c c' := ih c hc he (kn c hc) (km c' hc') fun m hm hb => hx m (.step hd hc hm) hb
        rw [Bool.true_and]
        have hv : visits s z cs c = true := (visits_iff (some b)).2 fun hb => hx _ (.here hd) hb c hc
        rw [hv]
        exact h1
      clear ih hn hm hx kn km
      have hf := forall₂_of_map e4
      have hk' : ∀ v : Node → Bool, v = visits s z cs → List.Forall₂ (fun c c' => Shape (true && v c) c c') cs cs' := by
        rintro v rfl
        revert hk
        generalize visits s z cs = w
        intro hk
        clear e4 e4'
        induction hf with
        | nil => exact .nil
        | @cons a b' xs ys h _ ih =>
          exact .cons (hk _ List.mem_cons_self _ List.mem_cons_self h)
            (ih fun c hc c' hc' => hk c (List.mem_cons_of_mem _ hc) c' (List.mem_cons_of_mem _ hc'))
      exact hk' _ rfl

end Colosseum
