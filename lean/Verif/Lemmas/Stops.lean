import Verif.Spec.Stops
import Verif.Lemmas.Viable
import Verif.Props.Blocks

/-!
# Why a document cannot be laid out
-/

namespace Colosseum

theorem not_inlineBlock {n : Node} (h : n.style.get .display = kw "inline" ∨ n.BlockLevel) : n.style.get .display ≠ kw "inline-block" := by
  intro e
  rcases h with h | h | h | h <;>
  · rw [h] at e
    simp only [kw, Val.str.injEq] at e
    exact absurd e (by decide)

theorem fine_hidden {n : Node} (h : n.Hidden) : n.Fine := by
  intro m hm hh
  cases hm with
  | here => exact absurd h hh
  | step hn _ _ _ => exact absurd h hn

theorem fine_of_kids {n : Node} (hv : n.Viable) (hk : ∀ c ∈ n.children, (n.BlockContext → c.BlockLevel) → c.Fine) : n.Fine := by
  intro m hm hh
  cases hm with
  | here => exact hv
  | step _ hc hb hr => exact hk _ hc hb m hr hh

/-- The list up to the first element that is not fine. -/
theorem first_bad {α : Type} (P : α → Prop) (xs : List α) (h : ¬ ∀ x ∈ xs, P x) : ∃ pre c post, xs = pre ++ c :: post ∧ (∀ x ∈ pre, P x) ∧ ¬ P c := by
  induction xs with
  | nil => exact absurd nofun h
  | cons x xs ih =>
    by_cases hx : P x
    · have : ¬ ∀ x ∈ xs, P x := by
        intro h'
        exact h fun y hy => by rcases List.mem_cons.1 hy with rfl | hy; exacts [hx, h' y hy]
      obtain ⟨pre, c, post, e, h1, h2⟩ := ih this
      exact ⟨x :: pre, c, post, by rw [e]; rfl, fun y hy => by rcases List.mem_cons.1 hy with rfl | hy; exacts [hx, h1 y hy], h2⟩
    · exact ⟨[], x, xs, rfl, nofun, hx⟩

/-- If something is not fine then there is a reason to stop. -/
theorem stops_exists (f : Nat) : ∀ n : Node, n.depth ≤ f → ¬ n.Fine → ∃ e, Stops n e := by
  induction f with
  | zero => intro n h; exact absurd h (by have := depth_pos n; omega)
  | succ f ih =>
    intro n hd hn
    have hh : ¬ n.Hidden := fun h => hn (fine_hidden h)
    by_cases hu : n.Unsupported
    · exact ⟨_, .unsupported hh hu⟩
    by_cases hf : n.Foreign
    · exact ⟨_, .foreign hh hu hf⟩
    by_cases he : n.Unplaced ∧ n.Relative
    · exact ⟨_, .early hh hu he.1 he.2⟩
    have ho : n.Opens := ⟨hh, hu, hf, fun h1 h2 => he ⟨h1, h2⟩⟩
    have kid : ∀ c ∈ n.children, c.depth ≤ f := by
      intro c hc
      obtain ⟨s, z, l, cs⟩ := n
      have := depth_child (s := s) (z := z) (l := l) (show c ∈ cs from hc)
      omega
    have hlev : n.style.get .display = kw "inline" ∨ n.BlockLevel ∧ n.intrinsic.isReplaced = false := by
      by_cases h1 : n.style.get .display = kw "inline"
      · exact Or.inl h1
      by_cases h2 : n.BlockLevel
      · refine Or.inr ⟨h2, ?_⟩
        cases hr : n.intrinsic.isReplaced with
        | false => rfl
        | true => exact absurd (Or.inr (Or.inr (Or.inr (Or.inl ⟨h2, hr⟩)))) hu
      · exact absurd ⟨h1, h2, fun h3 => hu (Or.inr (Or.inr (Or.inr (Or.inr h3))))⟩ hf
    have hfl : n.style.get .float = .none := by
      by_contra h
      exact hu (Or.inl h)
    have hpo : n.style.get .position ≠ kw "absolute" ∧ n.style.get .position ≠ kw "fixed" :=
      ⟨fun h => hu (Or.inr (Or.inl h)), fun h => hu (Or.inr (Or.inr (Or.inl h)))⟩
    by_cases hb : n.BlockContext
    · by_cases hall : ∀ c ∈ n.children, c.BlockLevel ∧ c.Fine
      · exact absurd (fine_of_kids ⟨hfl, hpo, hlev, fun hi _ => by
          exfalso
          rcases hb.1 with h | h | h | h | h <;>
          · rw [h] at hi
            simp only [kw, Val.str.injEq] at hi
            exact absurd hi (by decide),
          fun _ => ⟨n.children, [], by simp, fun c hc => (hall c hc).1, nofun⟩, fun _ h => absurd hb h⟩ fun c hc _ => (hall c hc).2) hn
      · obtain ⟨pre, c, post, e1, e2, e3⟩ := first_bad _ _ hall
        have hc : c ∈ n.children := by rw [e1]; simp
        by_cases hcb : c.BlockLevel
        · have hcf : ¬ c.Fine := fun h => e3 ⟨hcb, h⟩
          obtain ⟨e, he⟩ := ih c (kid c hc) hcf
          refine ⟨e, .child ho e1 (fun x hx => (e2 x hx).2) (fun _ x hx => ?_) he⟩
          rcases List.mem_append.1 hx with hx | hx
          · exact (e2 x hx).1
          · rw [List.mem_singleton.1 hx]; exact hcb
        · by_cases hp : ∃ b ∈ post, b.BlockLevel
          · obtain ⟨b, hb1, hb2⟩ := hp
            exact ⟨_, .stray ho hb e1 (fun x hx => ⟨(e2 x hx).2, (e2 x hx).1⟩) hcb hb1 hb2⟩
          · refine absurd (fine_of_kids ⟨hfl, hpo, hlev, fun hi _ => ?_, fun _ => ⟨pre, c :: post, e1, fun c hc => (e2 c hc).1, ?_⟩, fun _ h => absurd hb h⟩ ?_) hn
            · exfalso
              rcases hb.1 with h | h | h | h | h <;>
              · rw [h] at hi
                simp only [kw, Val.str.injEq] at hi
                exact absurd hi (by decide)
            · intro x hx hxb
              rcases List.mem_cons.1 hx with rfl | hx
              · exact hcb hxb
              · exact hp ⟨x, hx, hxb⟩
            · intro x hx hxb
              replace hxb := hxb hb
              rw [e1] at hx
              rcases List.mem_append.1 hx with hx | hx
              · exact (e2 x hx).2
              · rcases List.mem_cons.1 hx with rfl | hx
                · exact absurd hxb hcb
                · exact absurd ⟨x, hx, hxb⟩ hp
    · by_cases hall : ∀ c ∈ n.children, c.Fine
      · by_cases hup : n.Unplaced
        · exact ⟨_, .late ho hup hall⟩
        by_cases hla : n.BlockLevel ∧ n.style.get .height = kw "auto" ∧ ∃ c, n.children.getLast? = some c ∧ c.Hidden
        · obtain ⟨h1, h2, c, h3, h4⟩ := hla
          exact ⟨_, .last ho h1 hb h2 hall h3 h4⟩
        · exact absurd (fine_of_kids ⟨hfl, hpo, hlev, fun h1 h2 h3 => hup ⟨h1, h2, h3⟩, fun h => absurd h hb,
            fun h1 _ h2 c h3 h4 => hla ⟨h1, h2, c, h3, h4⟩⟩ fun c hc _ => hall c hc) hn
      · obtain ⟨pre, c, post, e1, e2, e3⟩ := first_bad _ _ hall
        obtain ⟨e, he⟩ := ih c (kid c (by rw [e1]; simp)) e3
        exact ⟨e, .child ho e1 e2 (fun h => absurd h hb) he⟩

/-! ## What the engine does -/

theorem inlineLoop_error {lay : Node → Res Node} {pre post : List Node} {c : Node} {e : Err} (h : ∀ x ∈ pre, ∃ x', lay x = .ok x')
    (hc : lay c = .error e) : inlineLoop lay (pre ++ c :: post) = .error e := by
  induction pre with
  | nil => simp only [List.nil_append, inlineLoop, hc]
  | cons x pre ih =>
    obtain ⟨x', hx⟩ := h x List.mem_cons_self
    simp only [List.cons_append, inlineLoop, hx, ih fun y hy => h y (List.mem_cons_of_mem _ hy)]

/-- A stack of blocks fails where what comes after the first ones fails. -/
theorem blockLoop_error {fp : FP} {lay : Box → Node → Res Node} {w y : Num} {cs : List Node} {rest : List Container} {e : Err}
    (h : ∀ c ∈ cs, ∀ b : Box, b.contentWidth = some w → b.contentHeight = some y → ∃ s z cb ks x, lay b c = .ok (.mk s z (some cb) ks) ∧ cb.Stands x)
    (hr : ∀ (b : Box) (off : Num) (bm : Option Int), b.contentWidth = some w → b.contentHeight = some y → blockLoop fp lay b off bm rest = .error e) :
    ∀ (b : Box) (off : Num) (bm : Option Int), b.contentWidth = some w → b.contentHeight = some y →
      blockLoop fp lay b off bm (cs.map .node ++ rest) = .error e := by
  induction cs with
  | nil => exact hr
  | cons c cs ih =>
    intro b off bm hw hy
    obtain ⟨s, z, cb, ks, x, h1, h2⟩ := h c List.mem_cons_self b hw hy
    have hcol : ∃ b1 off1, collapseAbove fp b off bm cb = .ok (b1, off1) := by
      unfold collapseAbove
      cases bm with
      | none => exact ⟨_, _, rfl⟩
      | some m => dsimp only; rw [h2.1]; exact ⟨_, _, rfl⟩
    obtain ⟨b1, off1, h3⟩ := hcol
    have hsame := collapseAbove_same h3
    obtain ⟨hh, hb⟩ : ∃ hh, (setContent fp .v (cb.v.content.add fp off1) cb ks).1.borderBoxHeight fp = some hh := by
      unfold Box.borderBoxHeight
      rw [setContent_contentHeight, h2.2.2.2.1]
      exact ⟨_, rfl⟩
    have h4 := ih (fun x hx => h x (List.mem_cons_of_mem _ hx)) b1 (off1.add fp hh)
      (some (setContent fp .v (cb.v.content.add fp off1) cb ks).1.collapse.bottom)
      ((hsame.width).symm.trans hw) ((sameButCollapse_ch hsame).symm.trans hy)
    have hst : stackChild fp b off bm (.mk s z (some cb) ks) = .ok (b1, .mk s z (some (setContent fp .v (cb.v.content.add fp off1) cb ks).1)
        (setContent fp .v (cb.v.content.add fp off1) cb ks).2, off1.add fp hh, some (setContent fp .v (cb.v.content.add fp off1) cb ks).1.collapse.bottom) := by
      simp only [stackChild, bind_of_ok h3, hb, need]
      rfl
    simp only [List.map_cons, List.cons_append, blockLoop, h1, hst, h4]

theorem anonymize_block {pre post : List Node} {c : Node} (h : ∀ x ∈ pre, isBlockLevel x.style = true) (hc : isBlockLevel c.style = true) :
    ∃ rest, anonymize (pre ++ c :: post) = pre.map .node ++ .node c :: rest := by
  unfold anonymize
  induction pre with
  | nil => exact ⟨_, by simp only [List.nil_append, anonymizeLoop]; rw [if_pos hc]; rfl⟩
  | cons x pre ih =>
    obtain ⟨rest, e⟩ := ih fun y hy => h y (List.mem_cons_of_mem _ hy)
    refine ⟨rest, ?_⟩
    simp only [List.cons_append, anonymizeLoop]
    rw [if_pos (h x List.mem_cons_self), e]
    rfl

theorem anonymize_stray {pre post : List Node} {c b : Node} (h : ∀ x ∈ pre, isBlockLevel x.style = true) (hc : isBlockLevel c.style = false)
    (hb : b ∈ post) (hbl : isBlockLevel b.style = true) : ∃ ns rest, anonymize (pre ++ c :: post) = pre.map .node ++ .anon ns :: rest := by
  have tail : ∀ (post : List Node), b ∈ post → ∀ ns, ∃ ms rest, anonymizeLoop (some ns) post = .anon ms :: rest := by
    intro post
    induction post with
    | nil => intro h; cases h
    | cons x post ih =>
      intro hx ns
      simp only [anonymizeLoop]
      cases hq : isBlockLevel x.style with
      | true => exact ⟨_, _, rfl⟩
      | false =>
        simp only [Bool.false_eq_true, if_false]
        rcases List.mem_cons.1 hx with rfl | hx
        · rw [hbl] at hq; cases hq
        · exact ih hx _
  unfold anonymize
  induction pre with
  | nil =>
    simp only [List.nil_append, anonymizeLoop, hc, Bool.false_eq_true, if_false]
    obtain ⟨ms, rest, e⟩ := tail post hb [c]
    exact ⟨ms, rest, e⟩
  | cons x pre ih =>
    obtain ⟨ns, rest, e⟩ := ih fun y hy => h y (List.mem_cons_of_mem _ hy)
    refine ⟨ns, rest, ?_⟩
    simp only [List.cons_append, anonymizeLoop]
    rw [if_pos (h x List.mem_cons_self), e]
    rfl

theorem bind_of_error {α β : Type} {x : Res α} {f : α → Res β} {e : Err} (h : x = .error e) : (x >>= f) = .error e := by rw [h]; rfl

/-- The sizes of what the layout comes to are ordinary. -/
def Usual (n : Node) : Prop := ∀ m, Reached m n → ¬ m.Hidden → m.style.Sized ∧ m.Known

theorem ready_of_usual {n : Node} (h : Usual n) (hf : n.Fine) : Ready n := fun m hm hh => ⟨(h m hm hh).1, (h m hm hh).2, hf m hm hh⟩

theorem copyEdges_sized {s : CSS} (h : s.Sized) (fp : FP) (d : Display) (x y : Num) (b : Box) :
    ∃ b', copyEdges fp s ⟨d, dummyFont fp, some x⟩ ⟨d, dummyFont fp, some y⟩ b = .ok b' := by
  unfold copyEdges
  obtain ⟨m1, e1⟩ := margin_size (h.margin .top) fp d (dummyFont fp) y
  obtain ⟨m2, e2⟩ := margin_size (h.margin .right) fp d (dummyFont fp) x
  obtain ⟨m3, e3⟩ := margin_size (h.margin .bottom) fp d (dummyFont fp) y
  obtain ⟨m4, e4⟩ := margin_size (h.margin .left) fp d (dummyFont fp) x
  obtain ⟨n1, g1⟩ := edge_size (h.border .top) fp d (dummyFont fp) x
  obtain ⟨n2, g2⟩ := edge_size (h.border .right) fp d (dummyFont fp) y
  obtain ⟨n3, g3⟩ := edge_size (h.border .bottom) fp d (dummyFont fp) x
  obtain ⟨n4, g4⟩ := edge_size (h.border .left) fp d (dummyFont fp) y
  obtain ⟨p1, k1⟩ := edge_size (Or.inr (Or.inr (Or.inr (h.padding .top)))) fp d (dummyFont fp) x
  obtain ⟨p2, k2⟩ := edge_size (Or.inr (Or.inr (Or.inr (h.padding .right)))) fp d (dummyFont fp) y
  obtain ⟨p3, k3⟩ := edge_size (Or.inr (Or.inr (Or.inr (h.padding .bottom)))) fp d (dummyFont fp) x
  obtain ⟨p4, k4⟩ := edge_size (Or.inr (Or.inr (Or.inr (h.padding .left)))) fp d (dummyFont fp) y
  simp only [bind_of_ok e1, bind_of_ok e2, bind_of_ok e3, bind_of_ok e4, bind_of_ok g1, bind_of_ok g2, bind_of_ok g3, bind_of_ok g4,
    bind_of_ok k1, bind_of_ok k2, bind_of_ok k3, bind_of_ok k4]
  exact ⟨_, rfl⟩

/-- What is refused. -/
theorem width_refused {s : CSS} {z : Intrinsic} {l : Option Box} {ks : List Node} (h : (Node.mk s z l ks).Unsupported) (fp : FP) (c : PxCtx) (b : Box) (cs : List Node) :
    widthAndMargins fp s z c b cs = .error .notImplemented := by
  unfold widthAndMargins
  split
  · rfl
  rename_i hf
  split
  · rfl
  rename_i ha
  have hf : s.get .float = .none := by
    unfold isFloat at hf
    simp only [Bool.not_eq_true', Bool.not_eq_false] at hf
    exact isNone_eq (by simpa using hf)
  unfold isAbsolute at ha
  simp only [Bool.or_eq_true, isKw_iff, not_or] at ha
  have hr : (Node.mk s z l ks).BlockLevel ∧ z.isReplaced = true ∨ s.get .display = kw "inline-block" := by
    rcases h with h | h | h | h
    · exact absurd hf h
    · exact absurd h ha.1
    · exact absurd h ha.2
    · exact h
  rcases hr with ⟨h1, h2⟩ | h1
  · have hb : isBlockLevel s = true := (blockLevel_iff (.mk s z l ks)).2 h1
    rw [block_not_inline hb, hb, h2]
    rfl
  · have h2 : isInline s = false := by
      cases hq : isInline s with
      | false => rfl
      | true => exact absurd h1 (not_inlineBlock (n := .mk s z l ks) (Or.inl ((isKw_iff _ _).1 hq)))
    have h3 : isBlockLevel s = false := by
      cases hq : isBlockLevel s with
      | false => rfl
      | true => exact absurd h1 (not_inlineBlock (n := .mk s z l ks) (Or.inr ((blockLevel_iff (.mk s z l ks)).1 hq)))
    have h4 : isInlineBlock s = true := (isKw_iff _ _).2 h1
    rw [h2, h3, h4]
    rfl

theorem width_foreign {s : CSS} {z : Intrinsic} {l : Option Box} {ks : List Node} (hu : ¬ (Node.mk s z l ks).Unsupported) (h : (Node.mk s z l ks).Foreign)
    (fp : FP) (c : PxCtx) (b : Box) (cs : List Node) : widthAndMargins fp s z c b cs = .error .generic := by
  unfold widthAndMargins
  have h1 : isFloat s = false := by
    unfold isFloat
    cases hq : (s.get .float).isNone with
    | true => rfl
    | false => exact absurd (Or.inl fun e => by have e : s.get .float = .none := e; rw [e] at hq; cases hq) hu
  have h2 : isAbsolute s = false := by
    unfold isAbsolute
    rw [Bool.or_eq_false_iff, ← Bool.not_eq_true, ← Bool.not_eq_true, isKw_iff, isKw_iff]
    exact ⟨fun h => hu (Or.inr (Or.inl h)), fun h => hu (Or.inr (Or.inr (Or.inl h)))⟩
  have h3 : isInline s = false := by
    cases hq : isInline s with
    | false => rfl
    | true => exact absurd ((isKw_iff _ _).1 hq) h.1
  have h4 : isBlockLevel s = false := by
    cases hq : isBlockLevel s with
    | false => rfl
    | true => exact absurd ((blockLevel_iff (.mk s z l ks)).1 hq) h.2.1
  have h5 : isInlineBlock s = false := by
    cases hq : isInlineBlock s with
    | false => rfl
    | true => exact absurd ((isKw_iff _ _).1 hq) h.2.2
  rw [h1, h2, h3, h4, h5]
  rfl

theorem opens_level {s : CSS} {z : Intrinsic} {l : Option Box} {cs : List Node} (ho : (Node.mk s z l cs).Opens) :
    isInline s = true ∨ isBlockLevel s = true ∧ z.isReplaced = false := by
  by_cases h1 : s.get .display = kw "inline"
  · exact Or.inl ((isKw_iff _ _).2 h1)
  by_cases h2 : (Node.mk s z l cs).BlockLevel
  · refine Or.inr ⟨(blockLevel_iff (.mk s z l cs)).2 h2, ?_⟩
    cases hr : z.isReplaced with
    | false => rfl
    | true => exact absurd (Or.inr (Or.inr (Or.inr (Or.inl ⟨h2, hr⟩)))) ho.supported
  · exact absurd ⟨h1, h2, fun h3 => ho.supported (Or.inr (Or.inr (Or.inr (Or.inr h3))))⟩ ho.known

theorem opens_plain {s : CSS} {z : Intrinsic} {l : Option Box} {cs : List Node} (ho : ¬ (Node.mk s z l cs).Unsupported) (hs : s.Sized) : s.Plain := by
  refine ⟨hs, ?_, fun h => ho (Or.inr (Or.inl h)), fun h => ho (Or.inr (Or.inr (Or.inl h)))⟩
  by_contra h
  exact ho (Or.inl h)

/-- The widths of an element with which the engine can begin. -/
theorem body_widths {fp : FP} {d : Display} {s : CSS} {z : Intrinsic} {b : Box} {cs : List Node} {x y y0 : Num}
    (hl : isInline s = true ∨ isBlockLevel s = true ∧ z.isReplaced = false) (hs : s.Plain) (hk : (Node.mk s z (some b) cs).Known)
    (hb0 : b.contentHeight = some y0) :
    ∃ b1 b2 cs2 w, copyEdges fp s ⟨d, dummyFont fp, some x⟩ ⟨d, dummyFont fp, some y⟩ b = .ok b1 ∧
      widthAndMargins fp s z ⟨d, dummyFont fp, some x⟩ b1 cs = .ok (b2, cs2) ∧ b2.contentWidth = some w ∧ b2.contentHeight = some y0 ∧
      cs2.map Node.noOrigin = cs.map Node.noOrigin ∧
      (isInline s = true → z.isReplaced = false → (b2.margin.top = .auto ↔ s.get (.margin .top) = kw "auto")) := by
  obtain ⟨b1, h1⟩ := copyEdges_progress hs fp d x y b
  obtain ⟨⟨b2, cs2⟩, h2⟩ := width_progress' hs hl fp d x b1 cs
  obtain ⟨w, hw⟩ := width_known h2 hl fun hi hr => (hk ((isKw_iff _ _).1 hi) hr).1
  refine ⟨b1, b2, cs2, w, h1, h2, hw, by rw [width_ch h2, copyEdges_ch h1, hb0], (width_steps h2).noOrigin, fun hi hr => ?_⟩
  obtain ⟨u, u1, u2⟩ := (copyEdges_copied h1).mt
  rw [inline_margin_top h2 hi hr]
  exact (same_auto u2).trans (calculateSize_auto u1)

/-- The way to the children. -/
theorem body_opens {fp : FP} {d : Display} {parent : Option CSS} {cb : CB} {s : CSS} {z : Intrinsic} {b : Box} {cs : List Node} {x y y0 : Num}
    (ho : (Node.mk s z (some b) cs).Opens) (hsz : s.Sized) (hk : (Node.mk s z (some b) cs).Known)
    (hb0 : b.contentHeight = some y0) (hc : ∀ c ∈ cs, Full c) (hx : cb.width = some x) (hy : cb.height = some y)
    (hp : ∀ p, parent = some p → p.get .height = kw "auto" ∨ (p.get .height).Finite) :
    ∃ b3 cs3 w y3, b3.contentWidth = some w ∧ b3.contentHeight = some y3 ∧ cs3.map Node.noOrigin = cs.map Node.noOrigin ∧
      (isInline s = true → z.isReplaced = false → (b3.margin.top = .auto ↔ s.get (.margin .top) = kw "auto")) ∧
      ∀ lay, layoutBody fp d lay parent cb s z b cs = (layoutChildren fp lay s z b3 cs3 >>= fun p =>
        heightAndMargins fp s z parent ⟨d, dummyFont fp, some y⟩ p.1 p.2 >>= fun q =>
          applyRelative fp s cb ⟨d, dummyFont fp, some x⟩ ⟨d, dummyFont fp, some y⟩ q.1 q.2) := by
  have hlev := opens_level ho
  have hs := opens_plain ho.supported hsz
  obtain ⟨b1, b2, cs2, w, h1, h2, hw, hh2, n2, top2⟩ := body_widths (fp := fp) (d := d) (x := x) (y := y) hlev hs hk hb0
  obtain ⟨b3, cs3, h3, hh3⟩ : ∃ b3 cs3, relativeHeight fp s z parent ⟨d, dummyFont fp, some y⟩ b2 cs2 = .ok (b3, cs3) ∧ b3.contentHeight ≠ none := by
    unfold relativeHeight
    split
    · rename_i hrel
      rcases hlev with hi | ⟨hb, hz⟩
      · refine inlineHeight_progress hs hi fp d parent y w b2 cs2 hw (fun hr => (hk ((isKw_iff _ _).1 hi) hr).2) fun hr => ?_
        cases hm : b2.margin.top with
        | num t => exact ⟨t, rfl⟩
        | auto => exact absurd ((isKw_iff _ _).1 hrel) (ho.placed ⟨(isKw_iff _ _).1 hi, hr, (top2 hi hr).1 hm⟩)
      · refine height_progress hs hb hz fp d parent hp y b2 cs2 fun c hc2 => ?_
        obtain ⟨c0, h0, e0⟩ := noOrigin_mem n2 (List.mem_of_getLast? hc2)
        exact full_noOrigin e0.symm (hc c0 h0) c (.here c)
    · exact ⟨b2, cs2, rfl, by rw [hh2]; simp⟩
  obtain ⟨y3, hy3⟩ := Option.ne_none_iff_exists'.1 hh3
  refine ⟨b3, cs3, w, y3, (relativeHeight_wide h3).1.symm.trans hw, hy3, by rw [(relativeHeight_steps h3).noOrigin, n2], fun hi hr => ?_, fun lay => ?_⟩
  · rw [relativeInline_margin h3 hi hr]
    exact top2 hi hr
  · unfold layoutBody
    rw [hx, hy]
    simp only [bind_of_ok h1, bind_of_ok h2, bind_of_ok h3, (plain_unfloated hs).1, (plain_unfloated hs).2, Bool.false_eq_true, if_false]

theorem usual_child {n c : Node} (h : Usual n) (hn : ¬ n.Hidden) (hc : c ∈ n.children) (hb : n.BlockContext → c.BlockLevel) : Usual c :=
  fun m hm hh => h m (.step hn hc hb hm) hh

theorem stops_shown {n : Node} {e : Err} (h : Stops n e) : ¬ n.Hidden := by
  cases h with
  | unsupported h => exact h
  | foreign h => exact h
  | early h => exact h
  | child h => exact h.shown
  | stray h => exact h.shown
  | late h => exact h.shown
  | last h => exact h.shown

theorem usual_strip {n n' : Node} (e : n.strip = n'.strip) (h : Usual n) : Usual n' := by
  intro m hm hh
  obtain ⟨m', h1, h2⟩ := reached_same e.symm hm
  obtain ⟨g1, g2⟩ := h m' h1 (by rw [← hidden_strip, h2, hidden_strip]; exact hh)
  have es : m.style = m'.style := by rw [← strip_style m, ← h2, strip_style]
  have ez : m.intrinsic = m'.intrinsic := by rw [← strip_intrinsic m, ← h2, strip_intrinsic]
  refine ⟨es ▸ g1, ?_⟩
  unfold Node.Known
  rw [es, ez]
  exact g2

theorem fine_strip {n n' : Node} (e : n.strip = n'.strip) (h : n.Fine) : n'.Fine := by
  intro m hm hh
  obtain ⟨m', h1, h2⟩ := reached_same e.symm hm
  exact viable_strip h2 (h m' h1 (by rw [← hidden_strip, h2, hidden_strip]; exact hh))

/-- What matters for stopping, apart from the children. -/
theorem stops_same {n n' : Node} (e : n.strip = n'.strip) : (n.Hidden ↔ n'.Hidden) ∧ (n.Unsupported ↔ n'.Unsupported) ∧ (n.Foreign ↔ n'.Foreign) ∧
    (n.Unplaced ↔ n'.Unplaced) ∧ (n.Relative ↔ n'.Relative) ∧ (n.BlockContext ↔ n'.BlockContext) ∧ (n.BlockLevel ↔ n'.BlockLevel) ∧
    n.style = n'.style ∧ (n.Opens ↔ n'.Opens) := by
  have es : n.style = n'.style := by rw [← strip_style n, e, strip_style]
  have ez : n.intrinsic = n'.intrinsic := by rw [← strip_intrinsic n, e, strip_intrinsic]
  have el : n.BlockLevel ↔ n'.BlockLevel := by rw [← blockLevel_strip n, e, blockLevel_strip]
  have e1 : n.Hidden ↔ n'.Hidden := by rw [← hidden_strip n, e, hidden_strip]
  have e2 : n.Unsupported ↔ n'.Unsupported := by unfold Node.Unsupported; rw [es, ez, el]
  have e3 : n.Foreign ↔ n'.Foreign := by unfold Node.Foreign; rw [es, el]
  have e4 : n.Unplaced ↔ n'.Unplaced := by unfold Node.Unplaced; rw [es, ez]
  have e5 : n.Relative ↔ n'.Relative := by unfold Node.Relative; rw [es]
  refine ⟨e1, e2, e3, e4, e5, by rw [← blockContext_strip n, e, blockContext_strip], el, es, ?_⟩
  exact ⟨fun ⟨a, b, c, g⟩ => ⟨mt e1.2 a, mt e2.2 b, mt e3.2 c, fun h hr => g (e4.2 h) (e5.2 hr)⟩,
    fun ⟨a, b, c, g⟩ => ⟨mt e1.1 a, mt e2.1 b, mt e3.1 c, fun h hr => g (e4.1 h) (e5.1 hr)⟩⟩

theorem stops_strip {n : Node} {e : Err} (h : Stops n e) : ∀ {n' : Node}, n.strip = n'.strip → Stops n' e := by
  induction h with
  | unsupported h1 h2 =>
    intro n' en
    obtain ⟨e1, e2, e3, e4, e5, e6, e7, e8, e9⟩ := stops_same en
    exact .unsupported (mt e1.2 h1) (e2.1 h2)
  | foreign h1 h2 h3 =>
    intro n' en
    obtain ⟨e1, e2, e3, e4, e5, e6, e7, e8, e9⟩ := stops_same en
    exact .foreign (mt e1.2 h1) (mt e2.2 h2) (e3.1 h3)
  | early h1 h2 h3 h4 =>
    intro n' en
    obtain ⟨e1, e2, e3, e4, e5, e6, e7, e8, e9⟩ := stops_same en
    exact .early (mt e1.2 h1) (mt e2.2 h2) (e4.1 h3) (e5.1 h4)
  | @child n c e pre post h1 h2 h3 h4 h5 ih =>
    intro n' en
    obtain ⟨e1, e2, e3, e4, e5, e6, e7, e8, e9⟩ := stops_same en
    have ec : n.children.map Node.strip = n'.children.map Node.strip := by rw [← strip_children, ← strip_children, en]
    rw [h2, List.map_append, List.map_cons] at ec
    obtain ⟨pre', tl, k1, k2, k3⟩ := List.map_eq_append_iff.1 ec.symm
    obtain ⟨c', post', k4, k5, k6⟩ := List.map_eq_cons_iff.1 k3
    subst k4
    have kp := forall₂_of_map k2
    refine .child (e9.1 h1) k1 (fun x hx => ?_) (fun hb x hx => ?_) (ih k5.symm)
    · obtain ⟨x0, hx0, ex⟩ := forall₂_left kp hx
      exact fine_strip ex.symm (h3 x0 hx0)
    · rcases List.mem_append.1 hx with hx | hx
      · obtain ⟨x0, hx0, ex⟩ := forall₂_left kp hx
        exact (stops_same ex).2.2.2.2.2.2.1.2 (h4 (e6.2 hb) x0 (List.mem_append_left _ hx0))
      · rw [List.mem_singleton.1 hx]
        exact (stops_same k5).2.2.2.2.2.2.1.2 (h4 (e6.2 hb) c (by simp))
  | @stray n c b pre post h1 h2 h3 h4 h5 h6 h7 =>
    intro n' en
    obtain ⟨e1, e2, e3, e4, e5, e6, e7, e8, e9⟩ := stops_same en
    have ec : n.children.map Node.strip = n'.children.map Node.strip := by rw [← strip_children, ← strip_children, en]
    rw [h3, List.map_append, List.map_cons] at ec
    obtain ⟨pre', tl, k1, k2, k3⟩ := List.map_eq_append_iff.1 ec.symm
    obtain ⟨c', post', k4, k5, k6⟩ := List.map_eq_cons_iff.1 k3
    subst k4
    have kp := forall₂_of_map k2
    obtain ⟨b', hb', eb⟩ := forall₂_left (forall₂_of_map k6.symm) h6
    refine .stray (e9.1 h1) (e6.1 h2) k1 (fun x hx => ?_) (mt (stops_same k5).2.2.2.2.2.2.1.1 h5) hb' ((stops_same eb).2.2.2.2.2.2.1.1 h7)
    obtain ⟨x0, hx0, ex⟩ := forall₂_left kp hx
    exact ⟨fine_strip ex.symm (h4 x0 hx0).1, (stops_same ex).2.2.2.2.2.2.1.2 (h4 x0 hx0).2⟩
  | @late n h1 h2 h3 =>
    intro n' en
    obtain ⟨e1, e2, e3, e4, e5, e6, e7, e8, e9⟩ := stops_same en
    have ec : n'.children.map Node.strip = n.children.map Node.strip := by rw [← strip_children, ← strip_children, en]
    refine .late (e9.1 h1) (e4.1 h2) fun c hc => ?_
    obtain ⟨x0, hx0, ex⟩ := forall₂_left (forall₂_of_map ec) hc
    exact fine_strip ex.symm (h3 x0 hx0)
  | @last n c h1 h2 h3 h4 h5 h6 h7 =>
    intro n' en
    obtain ⟨e1, e2, e3, e4, e5, e6, e7, e8, e9⟩ := stops_same en
    have ec : n'.children.map Node.strip = n.children.map Node.strip := by rw [← strip_children, ← strip_children, en]
    obtain ⟨c', hc', ex⟩ := forall₂_last (forall₂_of_map ec.symm) h6
    refine .last (e9.1 h1) (e7.1 h2) (mt e6.2 h3) (e8 ▸ h4) (fun c hc => ?_) hc' ((stops_same ex).1.1 h7)
    obtain ⟨x0, hx0, ex⟩ := forall₂_left (forall₂_of_map ec) hc
    exact fine_strip ex.symm (h5 x0 hx0)

theorem height_unplaced {fp : FP} {s : CSS} {z : Intrinsic} {parent : Option CSS} {c : PxCtx} {b : Box} {cs : List Node} (hs : s.Plain)
    (hi : isInline s = true) (hr : z.isReplaced = false) (hm : b.margin.top = .auto) : heightAndMargins fp s z parent c b cs = .error .type := by
  unfold heightAndMargins
  rw [(plain_unfloated hs).1, (plain_unfloated hs).2, hi, hr]
  simp only [Bool.false_eq_true, if_false, if_true]
  unfold inlineHeight placeTopInline
  rw [show ({ b with contentHeight := z.height } : Box).margin.top = b.margin.top from rfl, hm]
  rfl

theorem layoutBox_stops (fp : FP) (d : Display) (f : Nat) : ∀ (n : Node) (e : Err) (parent : Option CSS) (cb : CB) (x y : Num), n.depth ≤ f → Full n →
    Usual n → Stops n e → cb.width = some x → cb.height = some y → (∀ p, parent = some p → p.get .height = kw "auto" ∨ (p.get .height).Finite) →
    layoutBox fp d f parent cb n = .error e := by
  induction f with
  | zero => intro n _ _ _ _ _ h; exact absurd h (by have := depth_pos n; omega)
  | succ f ih =>
    rintro ⟨s, z, l, cs⟩ e parent cb x y hdep hfl hus hst hx hy hp
    have hh := stops_shown hst
    have hn : (s.get .display).isNone = false := by
      cases hq : (s.get .display).isNone with
      | false => rfl
      | true => exact absurd ((hidden_iff s).1 hq) hh
    obtain ⟨b, y0, hl, hb0⟩ := hfl _ (.here _)
    have hl : l = some b := hl
    subst hl
    obtain ⟨hsz, hkn⟩ := hus _ (.here _) hh
    have hsz : s.Sized := hsz
    suffices body : layoutBody fp d (fun b n => layoutBox fp d f (some s) (.box b) n) parent cb s z b cs = .error e by
      simp only [layoutBox, hn, Bool.false_eq_true, if_false, body]
    obtain ⟨b1, h1⟩ := copyEdges_sized hsz fp d x y b
    have opened : (Node.mk s z (some b) cs).Opens → layoutBody fp d (fun b n => layoutBox fp d f (some s) (.box b) n) parent cb s z b cs = .error e := by
      intro ho
      obtain ⟨b3, cs3, w, y3, hw3, hy3, n3, top3, eq3⟩ := body_opens (fp := fp) (d := d) (parent := parent) ho hsz hkn hb0 (fun c hc m hm => hfl m (.step hc hm)) hx hy hp
      have hlev := opens_level ho
      have hs := opens_plain ho.supported hsz
      rw [eq3]
      have es3 : (Node.mk s z (some b) cs).strip = (Node.mk s z (some b) cs3).strip := by rw [strip_mk, strip_mk, strips_of_noOrigins n3]
      have hst3 := stops_strip hst es3
      have hus3 := usual_strip es3 hus
      have ho3 := (stops_same es3).2.2.2.2.2.2.2.2.1 ho
      have full3 : ∀ c ∈ cs3, Full c ∧ c.depth ≤ f := by
        intro c hc
        obtain ⟨c0, h0, e0⟩ := noOrigin_mem n3 hc
        refine ⟨full_noOrigin e0.symm fun m hm => hfl m (.step h0 hm), ?_⟩
        rw [depth_same (strip_of_noOrigin e0)]
        have := depth_child (s := s) (z := z) (l := some b) h0
        omega
      have fine3 : ∀ c ∈ cs3, ((Node.mk s z (some b) cs3).BlockContext → c.BlockLevel) → c.Fine → ∀ b : Box, b.contentWidth = some w →
          b.contentHeight = some y3 → ∃ c', layoutBox fp d f (some s) (.box b) c = .ok c' := by
        intro c hc hbc hf b hbw hbh
        exact layoutBox_ready fp d f c (some s) (.box b) w y3 (full3 c hc).2 (full3 c hc).1 (ready_of_usual (usual_child hus3 ho3.shown hc hbc) hf) hbw hbh
          (fun p e => by cases e; exact hs.height)
      have stack3 : ∀ c ∈ cs3, c.BlockLevel → c.Fine → ∀ b : Box, b.contentWidth = some w → b.contentHeight = some y3 →
          ∃ s' z' cb ks x, layoutBox fp d f (some s) (.box b) c = .ok (.mk s' z' (some cb) ks) ∧ cb.Stands x := by
        intro c hc hbl hf b hbw hbh
        obtain ⟨c', hc'⟩ := fine3 c hc (fun _ => hbl) hf b hbw hbh
        obtain ⟨s', z', cb', ks, v, rfl, hv⟩ := layoutBox_stands hc' ((blockLevel_iff c).2 hbl)
        exact ⟨s', z', cb', ks, v, hc', hv⟩
      have ctx3 : establishesInline s z cs3 = false ↔ (Node.mk s z (some b) cs3).BlockContext := blockContext_iff s z (some b) cs3
      have laid3 : (¬ (Node.mk s z (some b) cs3).BlockContext) → (∀ c ∈ cs3, c.Fine) → ∃ cs4,
          layoutChildren fp (fun b n => layoutBox fp d f (some s) (.box b) n) s z b3 cs3 = .ok (b3, cs4) := by
        intro hnb hf
        have hi : establishesInline s z cs3 = true := by
          cases hq : establishesInline s z cs3 with
          | true => rfl
          | false => exact absurd (ctx3.1 hq) hnb
        obtain ⟨cs4, e4⟩ := inlineLoop_progress (lay := fun n => layoutBox fp d f (some s) (.box b3) n) (cs := cs3) fun c hc =>
          fine3 c hc (fun h => absurd h hnb) (hf c hc) b3 hw3 hy3
        refine ⟨cs4, ?_⟩
        unfold layoutChildren
        rw [hi, if_pos rfl, e4]
      cases hst3 with
      | unsupported _ h => exact absurd h ho3.supported
      | foreign _ _ h => exact absurd h ho3.known
      | early _ _ h h' => exact absurd h' (ho3.placed h)
      | @child _ c _ pre post _ q2 q3 q4 q5 =>
        have q2 : cs3 = pre ++ c :: post := q2
        have hcm : c ∈ cs3 := by rw [q2]; simp
        have hpm : ∀ x ∈ pre, x ∈ cs3 := fun x hx => by rw [q2]; exact List.mem_append_left _ hx
        have lay : ∀ b : Box, b.contentWidth = some w → b.contentHeight = some y3 → layoutBox fp d f (some s) (.box b) c = .error e := by
          intro b hbw hbh
          exact ih c e (some s) (.box b) w y3 (full3 c hcm).2 (full3 c hcm).1
            (usual_child hus3 ho3.shown hcm fun hb => q4 hb c (by simp)) q5 hbw hbh (fun p e => by cases e; exact hs.height)
        refine bind_of_error ?_
        unfold layoutChildren
        cases hi : establishesInline s z cs3 with
        | true =>
          have hnb : ¬ (Node.mk s z (some b) cs3).BlockContext := fun h => by rw [← ctx3, hi] at h; cases h
          rw [if_pos rfl, q2, inlineLoop_error (fun x hx => fine3 x (hpm x hx) (fun h => absurd h hnb) (q3 x hx) b3 hw3 hy3) (lay b3 hw3 hy3)]
        | false =>
          have hbc := ctx3.1 hi
          have hbl : ∀ x ∈ pre, x.BlockLevel := fun x hx => q4 hbc x (List.mem_append_left _ hx)
          obtain ⟨rest, er⟩ := anonymize_block (post := post) (fun x hx => (blockLevel_iff x).2 (hbl x hx)) ((blockLevel_iff c).2 (q4 hbc c (by simp)))
          have hr : ∀ (b : Box) (off : Num) (bm : Option Int), b.contentWidth = some w → b.contentHeight = some y3 →
              blockLoop fp (fun b n => layoutBox fp d f (some s) (.box b) n) b off bm (.node c :: rest) = .error e :=
            fun b off bm hbw hbh => by simp only [blockLoop, lay b hbw hbh]
          rw [if_neg Bool.false_ne_true, q2, er, blockLoop_error (w := w) (y := y3) (fun x hx b hbw hbh => stack3 x (hpm x hx) (hbl x hx) (q3 x hx) b hbw hbh)
            hr b3 (.int 0) none hw3 hy3]
      | @stray _ c b0 pre post _ q1 q2 q3 q4 q5 q6 =>
        have q2 : cs3 = pre ++ c :: post := q2
        have hpm : ∀ x ∈ pre, x ∈ cs3 := fun x hx => by rw [q2]; exact List.mem_append_left _ hx
        refine bind_of_error ?_
        unfold layoutChildren
        have hc : isBlockLevel c.style = false := by
          cases hq : isBlockLevel c.style with
          | false => rfl
          | true => exact absurd ((blockLevel_iff c).1 hq) q4
        obtain ⟨ns, rest, er⟩ := anonymize_stray (fun x hx => (blockLevel_iff x).2 (q3 x hx).2) hc q5 ((blockLevel_iff b0).2 q6)
        have hr : ∀ (b : Box) (off : Num) (bm : Option Int), b.contentWidth = some w → b.contentHeight = some y3 →
            blockLoop fp (fun b n => layoutBox fp d f (some s) (.box b) n) b off bm (.anon ns :: rest) = .error .attribute :=
          fun b off bm _ _ => by simp only [blockLoop]
        rw [ctx3.2 q1, if_neg Bool.false_ne_true, q2, er, blockLoop_error (w := w) (y := y3) (fun x hx b hbw hbh => stack3 x (hpm x hx) (q3 x hx).2 (q3 x hx).1 b hbw hbh)
          hr b3 (.int 0) none hw3 hy3]
      | late _ q1 q2 =>
        have hi : isInline s = true := (isKw_iff _ _).2 q1.1
        have hnb : ¬ (Node.mk s z (some b) cs3).BlockContext := fun h => by rw [← ctx3, inline_context z cs3 hi] at h; cases h
        obtain ⟨cs4, e4⟩ := laid3 hnb q2
        rw [bind_of_ok e4]
        exact bind_of_error (height_unplaced hs hi q1.2.1 ((top3 hi q1.2.1).2 q1.2.2))
      | @last _ c _ q1 q2 q3 q4 q5 q6 =>
        obtain ⟨cs4, e4⟩ := laid3 q2 q4
        rw [bind_of_ok e4]
        refine bind_of_error ?_
        rcases (children_laid e4).2 with ⟨_, _, hall⟩ | ⟨hi, _⟩
        swap
        · exact absurd (ctx3.1 hi) q2
        obtain ⟨c', hc', hl⟩ := forall₂_last hall q5
        have hn := layoutBox_dropped hl q6
        have hb : isBlockLevel s = true := (blockLevel_iff (.mk s z (some b) cs3)).2 q1
        have hz : z.isReplaced = false := by
          rcases hlev with hi | h
          · rw [block_not_inline hb] at hi; cases hi
          · exact h.2
        unfold heightAndMargins
        rw [(plain_unfloated hs).1, (plain_unfloated hs).2, block_not_inline hb, hb, hz]
        simp only [Bool.false_eq_true, if_false, if_true]
        unfold blockHeight blockContentHeight
        rw [if_pos ((isKw_iff (s.get .height) _).2 q3), hc']
        dsimp only
        rw [hn]
        rfl
    cases hst with
    | unsupported _ h =>
      unfold layoutBody
      rw [hx, hy]
      simp only [bind_of_ok h1]
      exact bind_of_error (width_refused h ..)
    | foreign _ h h' =>
      unfold layoutBody
      rw [hx, hy]
      simp only [bind_of_ok h1]
      exact bind_of_error (width_foreign h h' ..)
    | early _ h h' h'' =>
      have hs := opens_plain h hsz
      have hi : isInline s = true := (isKw_iff _ _).2 h'.1
      obtain ⟨b1, b2, cs2, w, h1, h2, hw, hh2, n2, top2⟩ := body_widths (fp := fp) (d := d) (x := x) (y := y) (Or.inl hi) hs hkn hb0
      unfold layoutBody
      rw [hx, hy]
      simp only [bind_of_ok h1, bind_of_ok h2]
      refine bind_of_error ?_
      unfold relativeHeight
      rw [show isRelative s = true from (isKw_iff _ _).2 h'', if_pos rfl]
      exact height_unplaced hs hi h'.2.1 ((top2 hi h'.2.1).2 h'.2.2)
    | child h => exact opened h
    | stray h => exact opened h
    | late h => exact opened h
    | last h => exact opened h

/-- What stops a layout. -/
theorem layout_stops {fp : FP} {d : Display} {html5 : Bool} {p : Option CSS} {n : Node} {e : Err} (hbx : ∀ m, Occurs m n → m.layout ≠ none)
    (hp : ∀ q, p = some q → q.get .height = kw "auto" ∨ (q.get .height).Finite) (hu : Usual n) (h : Stops n e) :
    layout fp d html5 p n = .error e := by
  obtain ⟨b, hb⟩ := Option.ne_none_iff_exists'.1 (hbx n (.here n))
  have es := strip_reset fp n
  have h1 := layoutBox_stops fp d n.depth (n.reset fp) e p (.viewport d) d.contentWidth d.contentHeight (by rw [depth_same es])
    (full_resetFuel fp _ n le_rfl hbx) (usual_strip es.symm hu) (stops_strip h es.symm) rfl rfl hp
  unfold layout
  rw [hb]
  simp only [h1]

end Colosseum
