import Verif.Lemmas.Flow

/-!
# C81: in normal flow, blocks are nested and do not overlap
-/

namespace Colosseum

theorem root_collapse {fp : FP} {d : Display} {html5 : Bool} {p : Option CSS} {n n' : Node} (hbx : AllBoxed n) (h : layout fp d html5 p n = .ok n')
    (hbl : n'.BlockLevel) : ∃ b, n'.layout = some b ∧ 0 ≤ b.collapse.top := by
  obtain ⟨m, h1, h2, h0⟩ := layout_ok h
  obtain ⟨s, z, b, cs, b', rfl, rfl, e⟩ := finishRoot_ok h2
  refine ⟨b', rfl, ?_⟩
  have e1 : b'.collapse = b.collapse := by
    rw [e]
    have u := setContent_collapse fp .v (b.v.content.add fp (.int b.collapse.top)) b cs
    split <;> exact u
  rw [e1]
  have hs : (n.reset fp).style = s := (layoutBox_style h1).symm
  have hp := pristine_reset fp hbx
  generalize n.reset fp = c at h1 hs hp
  cases f : n.depth with
  | zero => rw [f] at h1; cases h1
  | succ f' =>
    rw [f] at h1
    obtain ⟨s', z', l, ks⟩ := c
    rcases layoutBox_ok h1 with ⟨hd, _⟩ | ⟨hd, b0, cs0, b1, cs1, hl, hbody, e⟩
    · refine absurd hd (blockLevel_display ?_)
      have : (Node.mk s' z' l ks).style = s' := rfl
      rw [← this, hs]
      exact (blockLevel_iff (.mk s z (some b') (setContent fp .v (b.v.content.add fp (.int b.collapse.top)) b cs).2)).2 hbl
    · cases e
      obtain ⟨b2, q1, q2⟩ := pristine_box hp hd
      rcases hl with ⟨rfl, rfl⟩ | ⟨rfl, _⟩
      swap
      · cases q1
      cases q1
      have u := (body_up hbody).le .top
      have e3 : b0.collapse = Box.fresh.collapse := by rw [← q2]; rfl
      rw [e3] at u
      exact u

/-- C81. The border box of a block is in the content box of its parent; by the rules of HTML5 the height of the root is not made for what is in it. -/
theorem C81_nested (fp : FP) (L : fp.Laws) (d : Display) (M : Nat) (html5 : Bool) (p : Option CSS) (n n' : Node) (hn : n.Moderate fp d M) (hf : n.Flowing fp d)
    (h : layout fp d html5 p n = .ok n') (bs : List Box) (q b : Box) (hs : Shown n' (bs ++ [q]) b) :
    ∃ r y w, b.borderBoxRight fp = some r ∧ b.borderBoxBottom fp = some y ∧ q.contentWidth = some w ∧
      0 ≤ (b.borderBoxLeft fp).val ∧ r.val ≤ w.val ∧ 0 ≤ (b.borderBoxTop fp).val ∧ (b.borderBoxTop fp).val ≤ y.val ∧
      (html5 = false ∨ bs ≠ [] → ∃ z, q.contentHeight = some z ∧ y.val ≤ z.val) := by
  have hf' := flowing_strip (layout_strip h) hf
  obtain ⟨w, ps, k, c, h1, h2, h3, h4, h5, h6⟩ := flow_shown html5 (w0 := some d.contentWidth) (p0 := p) hf' hs
  have fk := h5 k (.refl _)
  have fc := h5.kid h3 c (.refl _)
  have hx := flowing_context h5 (List.ne_nil_of_mem h3)
  have wc := within_next h1 fk.shown h2 h3 fun _ => fc.level
  obtain ⟨b1, r, size, g1, g2, g3, g4, g5⟩ := flows_sides L hn h wc fc
  cases h4.symm.trans g1
  obtain ⟨i, hi⟩ := List.getElem?_of_mem h3
  obtain ⟨b2, y, k1, k2, k3, k4, _⟩ := flows_kids L hn h h1 h5 i c hi
  cases h4.symm.trans k1
  refine ⟨r, y, size, g2, k2, g3, g4, g5, k3, k4, fun hh => ?_⟩
  have ha : k.style.get .height = kw "auto" := by
    rcases fk.height with ⟨ha, _⟩ | ⟨he, _⟩
    · exact ha
    · rw [he] at h3; cases h3
  obtain ⟨q', z, m1, m2, m3⟩ := C80_encloses fp L d M html5 p ps n n' k w hn h (h6 hh) fk.level hx ha
    (fun x hx => by
      have := h5 x (.child (List.mem_of_getLast? hx) (.refl _))
      exact ⟨this.level, this.static⟩)
    (fun x hx xb xx hb hxx => by
      have fx := h5.kid hx
      have wx : Inside html5 (some d.contentWidth) p n' q.contentWidth (some k.style) x := within_inside h1 fk.shown h2 hx fun _ => (fx x (.refl _)).level
      obtain ⟨b, y, h1, h2, h3⟩ := flows_height L hn h _ _ _ x le_rfl fx wx
      obtain ⟨b', h4, h5⟩ := flows_padded L h (inside_within wx) (fx x (.refl _))
      cases h1.symm.trans h4
      cases hb.symm.trans h1
      exact stands_height hxx h5 h2 h3)
  cases h2.symm.trans m1
  obtain ⟨cb, y', t1, t2, _, _, t3⟩ := m3 c h3 fc.level fc.static
  cases h4.symm.trans t1
  cases k2.symm.trans t2
  exact ⟨z, m2, t3⟩

/-- Everything that was laid out in normal flow is padded, and its sizes are known. -/
theorem flowing_box {fp : FP} (L : fp.Laws) {d : Display} {M : Nat} {html5 : Bool} {p : Option CSS} {n n' : Node} (hn : n.Moderate fp d M) (hf : n.Flowing fp d)
    (h : layout fp d html5 p n = .ok n') : ∀ {bs : List Box} {b : Box}, Shown n' bs b → b.Padded ∧ (∃ w, b.contentWidth = some w) ∧ ∃ y, b.contentHeight = some y := by
  have hf' := flowing_strip (layout_strip h) hf
  intro bs b hs
  have : ∃ w ps c, Within (some d.contentWidth) p n' w ps c ∧ c.layout = some b ∧ c.Flows fp d ∧ ∃ y, b.contentHeight = some y := by
    rcases List.eq_nil_or_concat bs with rfl | ⟨bs', q, rfl⟩
    · cases hs with
      | here hl =>
        refine ⟨_, _, n', .here .., hl, hf' n' (.refl _), ?_⟩
        cases html5 with
        | true =>
          obtain ⟨b', y, g1, g2, _⟩ := C80_display fp L d M p n n' hn h
          cases hl.symm.trans g1
          exact ⟨y, g2⟩
        | false =>
          obtain ⟨b', y, g1, g2, _⟩ := flows_height (html5 := false) L hn h _ _ _ n' le_rfl hf' (.here ..)
          cases hl.symm.trans g1
          exact ⟨y, g2⟩
    · rw [List.concat_eq_append] at hs
      obtain ⟨w, ps, k, c, h1, h2, h3, h4, h5, h6⟩ := flow_shown html5 (w0 := some d.contentWidth) (p0 := p) hf' hs
      have fc := h5.kid h3
      have wc : Inside html5 (some d.contentWidth) p n' q.contentWidth (some k.style) c :=
        within_inside h1 (h5 k (.refl _)).shown h2 h3 fun _ => (fc c (.refl _)).level
      obtain ⟨b', y, g1, g2, _⟩ := flows_height L hn h _ _ _ c le_rfl fc wc
      cases h4.symm.trans g1
      exact ⟨_, _, c, inside_within wc, h4, fc c (.refl _), y, g2⟩
  obtain ⟨w, ps, c, h1, h2, fc, hy⟩ := this
  obtain ⟨b1, g1, g2⟩ := flows_padded L h h1 fc
  obtain ⟨b2, x, size, g3, g4, _⟩ := flows_across L hn h h1 fc
  cases h2.symm.trans g1
  cases h2.symm.trans g3
  exact ⟨g2, ⟨_, g4.2.2.2.1⟩, hy⟩

theorem flowing_step {fp : FP} (L : fp.Laws) {d : Display} {M : Nat} {html5 : Bool} {p : Option CSS} {n n' : Node} (hn : n.Moderate fp d M) (hf : n.Flowing fp d)
    (h : layout fp d html5 p n = .ok n') {bs : List Box} {q b : Box} (hq : Shown n' bs q) (hs : Shown n' (bs ++ [q]) b) :
    ∃ r y qr qy, b.absBorderBoxRight fp = some r ∧ b.absBorderBoxBottom fp = some y ∧ q.absBorderBoxRight fp = some qr ∧ q.absBorderBoxBottom fp = some qy ∧
      (q.absBorderBoxLeft fp).val ≤ (b.absBorderBoxLeft fp).val ∧ r.val ≤ qr.val ∧ (q.absBorderBoxTop fp).val ≤ (b.absBorderBoxTop fp).val ∧
      (html5 = false ∨ bs ≠ [] → y.val ≤ qy.val) := by
  obtain ⟨r, y, w, h1, h2, h3, h4, h5, h6, h7, h8⟩ := C81_nested fp L d M html5 p n n' hn hf h bs q b hs
  obtain ⟨p1, ⟨pw, p2⟩, py, p3⟩ := flowing_box L hn hf h hq
  obtain ⟨b1, ⟨bw, b2⟩, by', b3⟩ := flowing_box L hn hf h hs
  have oh := (C49_origins_partial fp d html5 p n n' hn.boxed h .h).1 bs q b hs
  have ov := (C49_origins_partial fp d html5 p n n' hn.boxed h .v).1 bs q b hs
  obtain ⟨s1, s2⟩ := padded_sides p1 (moderate_fits L hn h hq)
  obtain ⟨t1, t2⟩ := padded_sides b1 (moderate_fits L hn h hs)
  obtain ⟨qr, qar, u1, u2, u3, u4, u5, u6⟩ := s1 pw p2
  obtain ⟨qy, qay, v1, v2, v3, v4, v5, v6, v7⟩ := s2 py p3
  obtain ⟨br, bar, x1, x2, x3, x4, x5, x6⟩ := t1 bw b2
  obtain ⟨by2, bay, y1, y2, y3, y4, y5, y6, y7⟩ := t2 by' b3
  cases h1.symm.trans x1
  cases h2.symm.trans y1
  cases h3.symm.trans p2
  refine ⟨bar, bay, qar, qay, x2, y2, u2, v2, by linarith, by linarith, by linarith, fun hh => ?_⟩
  obtain ⟨z, z1, z2⟩ := h8 hh
  cases p3.symm.trans z1
  linarith

/-- C81. On the screen the border box of a block is in the border box of every block around it, but for the end of the root. -/
theorem C81_contained (fp : FP) (L : fp.Laws) (d : Display) (M : Nat) (html5 : Bool) (p : Option CSS) (n n' : Node) (hn : n.Moderate fp d M) (hf : n.Flowing fp d)
    (h : layout fp d html5 p n = .ok n') (bs cs : List Box) (q b : Box) (hq : Shown n' bs q) (hs : Shown n' (bs ++ q :: cs) b) :
    ∃ r y qr qy, b.absBorderBoxRight fp = some r ∧ b.absBorderBoxBottom fp = some y ∧ q.absBorderBoxRight fp = some qr ∧ q.absBorderBoxBottom fp = some qy ∧
      (q.absBorderBoxLeft fp).val ≤ (b.absBorderBoxLeft fp).val ∧ r.val ≤ qr.val ∧ (q.absBorderBoxTop fp).val ≤ (b.absBorderBoxTop fp).val ∧
      (html5 = false ∨ bs ≠ [] → y.val ≤ qy.val) := by
  induction cs using List.reverseRecOn generalizing b with
  | nil => exact flowing_step L hn hf h hq hs
  | append_singleton cs x ih =>
    have e : bs ++ q :: (cs ++ [x]) = (bs ++ q :: cs) ++ [x] := by simp
    rw [e] at hs
    obtain ⟨xr, xy, qr, qy, h1, h2, h3, h4, h5, h6, h7, h8⟩ := ih x (shown_parent hs)
    obtain ⟨r, y, xr', xy', g1, g2, g3, g4, g5, g6, g7, g8⟩ := flowing_step L hn hf h (shown_parent hs) hs
    cases h1.symm.trans g3
    cases h2.symm.trans g4
    refine ⟨r, y, qr, qy, g1, g2, h3, h4, by linarith, by linarith, by linarith, fun hh => ?_⟩
    have := h8 hh
    have := g8 (Or.inr (by simp))
    linarith

/-- C81. Every block is on the screen, apart from what is below its end. -/
theorem C81_screen (fp : FP) (L : fp.Laws) (d : Display) (M : Nat) (html5 : Bool) (p : Option CSS) (n n' : Node) (hn : n.Moderate fp d M) (hf : n.Flowing fp d)
    (h : layout fp d html5 p n = .ok n') (bs : List Box) (b : Box) (hs : Shown n' bs b) :
    ∃ r, b.absBorderBoxRight fp = some r ∧ 0 ≤ (b.absBorderBoxLeft fp).val ∧ r.val ≤ d.contentWidth.val ∧ 0 ≤ (b.absBorderBoxTop fp).val := by
  have hf' := flowing_strip (layout_strip h) hf
  have root : ∀ q, n'.layout = some q → ∃ r, q.absBorderBoxRight fp = some r ∧ 0 ≤ (q.absBorderBoxLeft fp).val ∧ r.val ≤ d.contentWidth.val ∧
      0 ≤ (q.absBorderBoxTop fp).val := by
    intro q hq
    have hq' : Shown n' [] q := .here hq
    have fn := hf' n' (.refl _)
    obtain ⟨b1, r, size, g1, g2, g3, g4, g5⟩ := flows_sides (ps := p) L hn h (.here ..) fn
    obtain ⟨b2, t1, t2⟩ := C80_root fp L d M html5 p n n' hn h fn.level fn.static
    obtain ⟨b3, t3, t4⟩ := root_collapse hn.boxed h fn.level
    obtain ⟨p1, ⟨pw, p2⟩, py, p3⟩ := flowing_box L hn hf h hq'
    obtain ⟨s1, s2⟩ := padded_sides p1 (moderate_fits L hn h hq')
    obtain ⟨qr, qar, u1, u2, u3, u4, u5, u6⟩ := s1 pw p2
    obtain ⟨qy, qay, v1, v2, v3, v4, v5, v6, v7⟩ := s2 py p3
    obtain ⟨b4, o1, o2⟩ := (C49_origins_partial fp d html5 p n n' hn.boxed h .h).2
    obtain ⟨b5, o3, o4⟩ := (C49_origins_partial fp d html5 p n n' hn.boxed h .v).2
    cases hq.symm.trans g1
    cases hq.symm.trans t1
    cases hq.symm.trans t3
    cases hq.symm.trans o1
    cases hq.symm.trans o3
    cases u1.symm.trans g2
    cases g3
    rw [o2, Num.val_int] at u3 u5
    rw [o4, Num.val_int] at v5
    have c0 : (0 : Rat) ≤ q.collapse.top := by exact_mod_cast t4
    push_cast at u3 u5 v5
    exact ⟨qar, u2, by linarith, by linarith, by linarith⟩
  cases bs with
  | nil =>
    cases hs with
    | here hl => exact root b hl
  | cons q cs =>
    have hl : n'.layout = some q := by
      cases hs with
      | step h1 _ _ => exact h1
    obtain ⟨r0, g1, g2, g3, g4⟩ := root q hl
    obtain ⟨r, y, qr, qy, h1, h2, h3, h4, h5, h6, h7, _⟩ := C81_contained fp L d M html5 p n n' hn hf h [] cs q b (.here hl) hs
    cases g1.symm.trans h3
    exact ⟨r, h1, by linarith, by linarith, by linarith⟩

/-- Two paths that part at a node. -/
theorem paths_part {fp : FP} {d : Display} {i j : Nat} {s t : List Nat} {b b' : Box} (r : List Nat) : ∀ {w0 : Option Num} {p0 : Option CSS} {n : Node}, n.Flowing fp d →
    n.boxAt (r ++ i :: s) = some b → n.boxAt (r ++ j :: t) = some b' →
    ∃ w ps k q bs c c', Within w0 p0 n w ps k ∧ k.Flowing fp d ∧ k.layout = some q ∧ k.children[i]? = some c ∧ k.children[j]? = some c' ∧
      c.boxAt s = some b ∧ c'.boxAt t = some b' ∧ ∀ es e, Shown k es e → Shown n (bs ++ es) e := by
  induction r with
  | nil =>
    intro w0 p0 n hf h h'
    simp only [List.nil_append, Node.boxAt] at h h'
    split at h
    · rename_i hl
      obtain ⟨q, hq⟩ := Option.isSome_iff_exists.1 hl
      rw [if_pos hl] at h'
      obtain ⟨c, hc, h⟩ := Option.bind_eq_some_iff.1 h
      obtain ⟨c', hc', h'⟩ := Option.bind_eq_some_iff.1 h'
      exact ⟨_, _, n, q, [], c, c', .here .., hf, hq, hc, hc', h, h', fun es e he => he⟩
    · cases h
  | cons x r ih =>
    intro w0 p0 n hf h h'
    simp only [List.cons_append, Node.boxAt] at h h'
    split at h
    · rename_i hl
      obtain ⟨q, hq⟩ := Option.isSome_iff_exists.1 hl
      rw [if_pos hl] at h'
      obtain ⟨c, hc, h⟩ := Option.bind_eq_some_iff.1 h
      obtain ⟨c', hc', h'⟩ := Option.bind_eq_some_iff.1 h'
      cases hc.symm.trans hc'
      have hm := List.mem_of_getElem? hc
      obtain ⟨w, ps, k, q', bs, d1, d2, g1, g2, g3, g4, g5, g6, g7, g8⟩ := ih (w0 := q.contentWidth) (p0 := some n.style) (hf.kid hm) h h'
      exact ⟨w, ps, k, q', q :: bs, d1, d2, .step (hf n (.refl _)).shown hq hm (fun _ => (hf.kid hm c (.refl _)).level) g1, g2, g3, g4, g5, g6, g7,
        fun es e he => .step hq hm (g8 es e he)⟩
    · cases h

/-- C81. Of two blocks neither of which contains the other, the one that comes first in the document ends on the screen before the other one begins. -/
theorem C81_apart (fp : FP) (L : fp.Laws) (d : Display) (M : Nat) (html5 : Bool) (p : Option CSS) (n n' : Node) (hn : n.Moderate fp d M) (hf : n.Flowing fp d)
    (h : layout fp d html5 p n = .ok n') (r s t : List Nat) (i j : Nat) (hij : i < j) (b b' : Box) (hb : n'.boxAt (r ++ i :: s) = some b)
    (hb' : n'.boxAt (r ++ j :: t) = some b') :
    ∃ y, b.absBorderBoxBottom fp = some y ∧ y.val ≤ (b'.absBorderBoxTop fp).val := by
  have hf' := flowing_strip (layout_strip h) hf
  obtain ⟨w, ps, k, q, bs, c, c', g1, g2, g3, g4, g5, g6, g7, g8⟩ := paths_part r (w0 := some d.contentWidth) (p0 := p) hf' hb hb'
  obtain ⟨x, rfl⟩ : ∃ x, j = i + x + 1 := ⟨j - i - 1, by omega⟩
  obtain ⟨cb, cb', y, k1, k2, k3, k4⟩ := flows_order L hn h g1 g2 i x c c' g4 g5
  have sc : Shown n' (bs ++ [q]) cb := g8 _ _ (.step g3 (List.mem_of_getElem? g4) (.here k1))
  have sc' : Shown n' (bs ++ [q]) cb' := g8 _ _ (.step g3 (List.mem_of_getElem? g5) (.here k2))
  have top : ∃ y' z, b.absBorderBoxBottom fp = some y' ∧ cb.absBorderBoxBottom fp = some z ∧ y'.val ≤ z.val := by
    obtain ⟨cs, e1, _, _⟩ := boxAt_shown s g6
    cases e1 with
    | here hl =>
      cases k1.symm.trans hl
      obtain ⟨p1, _, py, p3⟩ := flowing_box L hn hf h sc
      obtain ⟨_, qay, _, v2, _⟩ := (padded_sides p1 (moderate_fits L hn h sc)).2 py p3
      exact ⟨qay, qay, v2, v2, le_rfl⟩
    | step hl hc hsh =>
      cases k1.symm.trans hl
      have := g8 _ _ (.step g3 (List.mem_of_getElem? g4) (.step hl hc hsh))
      rw [List.append_cons] at this
      obtain ⟨_, y', _, z, _, e2, _, e4, _, _, _, e5⟩ := C81_contained fp L d M html5 p n n' hn hf h (bs ++ [q]) _ cb b sc this
      exact ⟨y', z, e2, e4, e5 (Or.inr (by simp))⟩
  have bot : (cb'.absBorderBoxTop fp).val ≤ (b'.absBorderBoxTop fp).val := by
    obtain ⟨cs, e1, _, _⟩ := boxAt_shown t g7
    cases e1 with
    | here hl =>
      cases k2.symm.trans hl
      exact le_rfl
    | step hl hc hsh =>
      cases k2.symm.trans hl
      have := g8 _ _ (.step g3 (List.mem_of_getElem? g5) (.step hl hc hsh))
      rw [List.append_cons] at this
      obtain ⟨_, y', _, z, _, e2, _, e4, _, _, e5, _⟩ := C81_contained fp L d M html5 p n n' hn hf h (bs ++ [q]) _ cb' b' sc' this
      exact e5
  obtain ⟨y', z, q1, q2, q3⟩ := top
  refine ⟨y', q1, ?_⟩
  obtain ⟨p1, _, py, p3⟩ := flowing_box L hn hf h sc
  obtain ⟨p1', _, py', p3'⟩ := flowing_box L hn hf h sc'
  obtain ⟨by1, ay1, v1, v2, v3, v4, v5, v6, v7⟩ := (padded_sides p1 (moderate_fits L hn h sc)).2 py p3
  obtain ⟨by2, ay2, x1, x2, x3, x4, x5, x6, x7⟩ := (padded_sides p1' (moderate_fits L hn h sc')).2 py' p3'
  have o1 := (C49_origins_partial fp d html5 p n n' hn.boxed h .v).1 bs q cb sc
  have o2 := (C49_origins_partial fp d html5 p n n' hn.boxed h .v).1 bs q cb' sc'
  cases k3.symm.trans v1
  cases q2.symm.trans v2
  linarith

/-! ## An example -/

/-- A test for lengths of at least 0. -/
def Val.roomTest (fp : FP) (d : Display) (v : Val) : Bool :=
  match v with
  | .unit ⟨.len k, x⟩ => k != .percent && match pxOf fp k x ⟨d, dummyFont fp, Option.none⟩ with
    | .ok y => decide (0 ≤ y.val)
    | .error _ => false
  | _ => false

theorem roomTest_sound {fp : FP} {d : Display} {v : Val} (h : v.roomTest fp d = true) : v.Room fp d := by
  unfold Val.roomTest at h
  split at h
  · rename_i k x
    rw [Bool.and_eq_true] at h
    obtain ⟨h1, h2⟩ := h
    split at h2
    · rename_i y hy
      exact ⟨y, ⟨k, x, rfl, by simpa using h1, hy⟩, of_decide_eq_true h2⟩
    · cases h2
  · cases h

/-- A test for border widths of at least 0. -/
def Val.edgeTest (fp : FP) (d : Display) (v : Val) : Bool :=
  v.isKw "thin" && decide (0 ≤ d.thin.val) || v.isKw "medium" && decide (0 ≤ d.medium.val) || v.isKw "thick" && decide (0 ≤ d.thick.val) || v.roomTest fp d

theorem edgeTest_sound {fp : FP} {d : Display} {v : Val} (h : v.edgeTest fp d = true) : ∃ x, v.Edge fp d (dummyFont fp) x ∧ 0 ≤ x.val := by
  simp only [Val.edgeTest, Bool.or_eq_true, Bool.and_eq_true, decide_eq_true_eq, isKw_iff] at h
  rcases h with ((⟨h, h0⟩ | ⟨h, h0⟩) | ⟨h, h0⟩) | h
  · exact ⟨_, Or.inl ⟨h, rfl⟩, h0⟩
  · exact ⟨_, Or.inr (Or.inl ⟨h, rfl⟩), h0⟩
  · exact ⟨_, Or.inr (Or.inr (Or.inl ⟨h, rfl⟩)), h0⟩
  · obtain ⟨x, hx, h0⟩ := roomTest_sound h
    exact ⟨x, Or.inr (Or.inr (Or.inr hx)), h0⟩

/-- A test for blocks in normal flow. -/
def flowStyle (fp : FP) (d : Display) (s : CSS) (z : Intrinsic) (empty : Bool) : Bool :=
  ((s.get .display).isKw "block" || (s.get .display).isKw "list-item") && !z.isReplaced && !(s.get .position).isKw "relative" &&
  [Side.left, .right].all (fun t => (s.get (.margin t)).isKw "auto" || (s.get (.margin t)).roomTest fp d) &&
  [Side.top, .right, .bottom, .left].all (fun t => (s.get (.borderWidth t)).edgeTest fp d && (s.get (.padding t)).roomTest fp d) &&
  (s.get .width).isKw "auto" &&
  ((s.get .height).isKw "auto" && ((s.get .minHeight).isKw "auto" || (s.get .minHeight).roomTest fp d) ||
    empty && (s.get .height).roomTest fp d && (s.get .maxHeight).roomTest fp d)

theorem flowStyle_sound {fp : FP} {d : Display} {s : CSS} {z : Intrinsic} {l : Option Box} {cs : List Node} (h : flowStyle fp d s z cs.isEmpty = true) :
    (Node.mk s z l cs).Flows fp d := by
  simp only [flowStyle, Bool.and_eq_true, Bool.or_eq_true, List.all_cons, List.all_nil, Bool.not_eq_true', isKw_iff, List.isEmpty_iff] at h
  obtain ⟨⟨⟨⟨⟨⟨h1, h2⟩, h3⟩, h4⟩, h5⟩, h6⟩, h7⟩ := h
  have mg : ∀ {v : Val}, v = kw "auto" ∨ v.roomTest fp d = true → v = kw "auto" ∨ v.Room fp d := fun h => h.imp id roomTest_sound
  refine ⟨h1, h2, fun e => ?_, fun t ht => ?_, fun t => ?_, fun t => ?_, h6, ?_⟩
  · have e : s.get .position = kw "relative" := e
    rw [(isKw_iff _ _).2 e] at h3
    cases h3
  · rcases ht with rfl | rfl
    · exact mg h4.1
    · exact mg h4.2.1
  · cases t
    · exact edgeTest_sound h5.1.1
    · exact edgeTest_sound h5.2.1.1
    · exact edgeTest_sound h5.2.2.1.1
    · exact edgeTest_sound h5.2.2.2.1.1
  · cases t
    · exact roomTest_sound h5.1.2
    · exact roomTest_sound h5.2.1.2
    · exact roomTest_sound h5.2.2.1.2
    · exact roomTest_sound h5.2.2.2.1.2
  · rcases h7 with ⟨a, b⟩ | ⟨⟨a, b⟩, c⟩
    · exact Or.inl ⟨a, mg b⟩
    · exact Or.inr ⟨a, roomTest_sound b, Or.inr (roomTest_sound c)⟩

mutual
/-- A test for documents in normal flow. -/
def Node.flowTest (fp : FP) (d : Display) : Node → Bool
  | .mk s z _ cs => flowStyle fp d s z cs.isEmpty && flowTests fp d cs
/-- The test for lists. -/
def flowTests (fp : FP) (d : Display) : List Node → Bool
  | [] => true
  | c :: cs => c.flowTest fp d && flowTests fp d cs
end

theorem flowTests_mem {fp : FP} {d : Display} {cs : List Node} (h : flowTests fp d cs = true) {c : Node} (hc : c ∈ cs) : c.flowTest fp d = true := by
  induction cs with
  | nil => cases hc
  | cons x cs ih =>
    simp only [flowTests, Bool.and_eq_true] at h
    rcases List.mem_cons.1 hc with rfl | hc
    · exact h.1
    · exact ih h.2 hc

theorem flowTest_all {fp : FP} {d : Display} {n m : Node} (h : n.flowTest fp d = true) (hm : Sub m n) : m.Flows fp d := by
  induction hm with
  | refl =>
    obtain ⟨s, z, l, cs⟩ := m
    simp only [Node.flowTest, Bool.and_eq_true] at h
    exact flowStyle_sound h.1
  | @child c n hc _ ih =>
    obtain ⟨s, z, l, cs⟩ := n
    simp only [Node.flowTest, Bool.and_eq_true] at h
    exact ih (flowTests_mem h.2 hc)

/-- A column of blocks, with margins, borders and paddings. -/
def column : Node :=
  block [(.margin .top, px 8), (.padding .left, px 5), (.padding .top, px 3)] [
    block [(.margin .left, px 10), (.padding .bottom, px 4)] [
      block [(.height, px 30), (.maxHeight, px 25), (.margin .bottom, px 12)] [], block [(.minHeight, px 15), (.margin .top, px 7), (.margin .right, px 6)] []],
    block [(.borderWidth .top, kw "thick"), (.margin .top, px (-9))] [block [(.minHeight, px 600), (.margin .left, kw "auto")] []],
    block [(.minHeight, px 5)] []]

/-- It meets the hypotheses, and it can be laid out. -/
theorem column_moderate : column.Moderate .b64 screen 1000 := by
  have h : column.mildTest .b64 screen 1000 = true := by decide +kernel
  have hc : column.count = 7 := by decide +kernel
  refine ⟨fun m hm => (mildTest_all h hm).1, ⟨screen_mild, fun m hm => (mildTest_all h hm).2⟩, by norm_num, ?_, ?_⟩ <;> rw [hc] <;> norm_num

theorem column_flowing : column.Flowing .b64 screen := fun m hm => flowTest_all (by decide +kernel : column.flowTest .b64 screen = true) hm

example : (layout .b64 screen false none column).isOk = true ∧ (layout .b64 screen true none column).isOk = true := by decide +kernel

/-- The border boxes on the screen. -/
example : [[], [0], [0, 0], [0, 1], [1], [1, 0], [2]].map (fun q => (laidBox .b64 screen column q).map fun b =>
      (b.absBorderBoxLeft .b64, b.absBorderBoxRight .b64, b.absBorderBoxTop .b64, b.absBorderBoxBottom .b64)) =
    [some (.int 0, some (.int 640), .int 8, some (.int 677)), some (.int 15, some (.int 640), .int 11, some (.int 67)),
      some (.int 15, some (.int 640), .int 11, some (.int 36)), some (.int 15, some (.int 634), .int 48, some (.int 63)),
      some (.int 5, some (.int 640), .int 67, some (.int 672)), some (.int 5, some (.int 640), .int 72, some (.int 672)),
      some (.int 5, some (.int 640), .int 672, some (.int 677))] := by decide +kernel

/-- Each restriction is needed. A width that is too large goes out of the parent on the right, and so does a block with a negative margin on the left. -/
example : [[(LH.width, px 700)], [(.margin .left, px (-5))]].map (fun ps => (laidBox .b64 screen (block [] [block ps []]) [0]).map fun b =>
      (b.absBorderBoxLeft .b64, b.absBorderBoxRight .b64)) =
    [some (.int 0, some (.int 700)), some (.int (-5), some (.int 640))] := by decide +kernel

end Colosseum
