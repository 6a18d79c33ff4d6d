import Verif.Spec.Collapse
import Verif.Lemmas.Flow

/-!
# The vertical margins that collapse
-/

namespace Colosseum

/-! ## Setters -/

/-- The part of a value that counts for `collapse_<side>`. -/
def MVal.part : MVal → Int
  | .num (.int i) => i
  | _ => 0

theorem setCollapse_max (b : Box) (t u : Side) (x : MVal) (h : 0 ≤ b.collapse.get t) :
    (b.setCollapse t x).collapse.get u = if t = u then max (b.collapse.get t) x.part else b.collapse.get u := by
  unfold Box.setCollapse
  split
  · rename_i i
    split
    · show (b.collapse.set t i).get u = _
      rw [get_set]
      split
      · rename_i e
        subst e
        show i = max _ i
        omega
      · rfl
    · split
      · rename_i e
        subst e
        show _ = max _ i
        omega
      · rfl
  · rename_i hx
    split
    · rename_i e
      subst e
      have : x.part = 0 := by
        unfold MVal.part
        split
        · exact absurd rfl (hx _)
        · rfl
      rw [this]; omega
    · rfl

theorem pyEq_part {x y : MVal} (h : x.pyEq y = true) (hy : y = .auto ∨ y = .num (.int 0)) : x.part = 0 := by
  rcases hy with rfl | rfl
  · cases x with
    | auto => rfl
    | num a => cases h
  · cases x with
    | auto => rfl
    | num a =>
      cases a with
      | int i =>
        have h : ((i : Rat) == ((0 : Int) : Rat)) = true := h
        rw [beq_iff_eq] at h
        exact_mod_cast h
      | flt q => rfl

theorem setMargin_max (b : Box) (t u : Side) (x : MVal) (h : 0 ≤ b.collapse.get t)
    (hm : x.part = 0 ∨ b.margin.get t = .auto ∨ b.margin.get t = .num (.int 0)) :
    (b.setMargin t x).collapse.get u = if t = u then max (b.collapse.get t) x.part else b.collapse.get u := by
  unfold Box.setMargin
  split
  · rename_i e
    have : x.part = 0 := by
      rcases hm with hm | hm
      · exact hm
      · exact pyEq_part e hm
    rw [this]
    split
    · rename_i e; subst e; omega
    · rfl
  · exact setCollapse_max { b with margin := b.margin.set t x } t u x h

theorem setMargin_other (b : Box) (t u : Side) (x : MVal) (hu : t ≠ u) :
    (b.setMargin t x).collapse.get u = b.collapse.get u ∧ (b.setMargin t x).margin.get u = b.margin.get u := by
  unfold Box.setMargin
  split
  · exact ⟨rfl, rfl⟩
  · unfold Box.setCollapse
    have e : (b.margin.set t x).get u = b.margin.get u := by rw [get_set, if_neg hu]
    split
    · split
      · exact ⟨by show (b.collapse.set t _).get u = _; rw [get_set, if_neg hu], e⟩
      · exact ⟨rfl, e⟩
    · exact ⟨rfl, e⟩

/-- The vertical collapsed margins are the same. -/
def Box.SameEnds (b b' : Box) : Prop := b'.collapse.top = b.collapse.top ∧ b'.collapse.bottom = b.collapse.bottom

theorem Box.SameEnds.rfl {b : Box} : b.SameEnds b := ⟨Eq.refl _, Eq.refl _⟩
theorem Box.SameEnds.trans {a b c : Box} (h : a.SameEnds b) (h' : b.SameEnds c) : a.SameEnds c := ⟨h'.1.trans h.1, h'.2.trans h.2⟩
theorem Box.SameEnds.of_eq {b b' : Box} (h : b'.collapse = b.collapse) : b.SameEnds b' := by
  unfold Box.SameEnds; rw [h]; exact ⟨Eq.refl _, Eq.refl _⟩

theorem setMargin_ends (b : Box) (t : Side) (x : MVal) (ht : t = .left ∨ t = .right) : b.SameEnds (b.setMargin t x) := by
  rcases ht with rfl | rfl
  · exact ⟨(setMargin_other b .left .top x (by decide)).1, (setMargin_other b .left .bottom x (by decide)).1⟩
  · exact ⟨(setMargin_other b .right .top x (by decide)).1, (setMargin_other b .right .bottom x (by decide)).1⟩

theorem autoMargin_ends (b : Box) (t : Side) (ht : t = .left ∨ t = .right) : b.SameEnds (autoMarginToZero b t) := by
  unfold autoMarginToZero
  split
  · exact setMargin_ends _ _ _ ht
  · exact .rfl

theorem autoMargins_ends (b : Box) : b.SameEnds (autoMarginToZero (autoMarginToZero b .left) .right) :=
  (autoMargin_ends b .left (Or.inl rfl)).trans (autoMargin_ends _ .right (Or.inr rfl))

theorem autoZero_ends (b : Box) (t : Side) (h : 0 ≤ b.collapse.top ∧ 0 ≤ b.collapse.bottom) (ht : t = .top ∨ t = .bottom) : b.SameEnds (autoMarginToZero b t) := by
  unfold autoMarginToZero
  split
  · rename_i hm
    rcases ht with rfl | rfl
    · refine ⟨?_, (setMargin_other b .top .bottom _ (by decide)).1⟩
      have := setMargin_max b .top .top (.num (.int 0)) h.1 (Or.inl rfl)
      rw [if_pos rfl] at this
      have e : max b.collapse.top 0 = b.collapse.top := by omega
      exact this.trans e
    · refine ⟨(setMargin_other b .bottom .top _ (by decide)).1, ?_⟩
      have := setMargin_max b .bottom .bottom (.num (.int 0)) h.2 (Or.inl rfl)
      rw [if_pos rfl] at this
      have e : max b.collapse.bottom 0 = b.collapse.bottom := by omega
      exact this.trans e
  · exact .rfl

theorem autoZeros_ends (b : Box) (h : 0 ≤ b.collapse.top ∧ 0 ≤ b.collapse.bottom) :
    b.SameEnds (autoMarginToZero (autoMarginToZero b .top) .bottom) := by
  have h1 := autoZero_ends b .top h (Or.inl rfl)
  refine h1.trans (autoZero_ends _ .bottom ?_ (Or.inr rfl))
  rw [h1.1, h1.2]; exact h

theorem setContent_ends (fp : FP) (a : Axis) (v : Num) (b : Box) (cs : List Node) : b.SameEnds (setContent fp a v b cs).1 :=
  .of_eq (setContent_collapse ..)

/-! ## The phases -/

theorem copyEdges_ends {fp : FP} (L : fp.Laws) {d : Display} {s : CSS} {w h0 : Option Num} {b b' : Box} (hb : b.noOrigin = Box.fresh)
    (hs : ∀ t, t = .top ∨ t = .bottom → s.get (.margin t) = kw "auto" ∨ ∃ x, (s.get (.margin t)).Length fp d (dummyFont fp) x)
    (h : copyEdges fp s ⟨d, dummyFont fp, w⟩ ⟨d, dummyFont fp, h0⟩ b = .ok b') :
    b'.collapse.top = max 0 ((s.get (.margin .top)).whole fp d) ∧ b'.collapse.bottom = max 0 ((s.get (.margin .bottom)).whole fp d) := by
  have e0 : b.collapse = Box.fresh.collapse := by rw [← hb]; rfl
  have e1 : b.margin = Box.fresh.margin := by rw [← hb]; rfl
  have part : ∀ t, t = .top ∨ t = .bottom → ∀ x, calculateSize fp (s.get (.margin t)) ⟨d, dummyFont fp, h0⟩ = .ok x →
      x.part = (s.get (.margin t)).whole fp d := by
    intro t ht x hx
    rcases hs t ht with e | ⟨y, hy⟩
    · rw [e] at hx ⊢
      cases hx
      rfl
    · rw [calculateSize_length L hy] at hx
      cases hx
      unfold Val.whole
      rw [length_px hy none]
      cases y <;> rfl
  unfold copyEdges at h
  obtain ⟨mt, h1, h⟩ := bind_eq_ok.1 h
  obtain ⟨mr, h2, h⟩ := bind_eq_ok.1 h
  obtain ⟨mb, h3, h⟩ := bind_eq_ok.1 h
  obtain ⟨ml, h4, h⟩ := bind_eq_ok.1 h
  obtain ⟨bt, h5, h⟩ := bind_eq_ok.1 h
  obtain ⟨br, h6, h⟩ := bind_eq_ok.1 h
  obtain ⟨bb, h7, h⟩ := bind_eq_ok.1 h
  obtain ⟨bl, h8, h⟩ := bind_eq_ok.1 h
  obtain ⟨pt, h9, h⟩ := bind_eq_ok.1 h
  obtain ⟨pr, h10, h⟩ := bind_eq_ok.1 h
  obtain ⟨pb, h11, h⟩ := bind_eq_ok.1 h
  obtain ⟨pl, h12, h⟩ := bind_eq_ok.1 h
  rw [← Except.ok.inj h]
  show (Box.setMargin _ .left ml).collapse.get .top = _ ∧ (Box.setMargin _ .left ml).collapse.get .bottom = _
  rw [(setMargin_other _ .left .top ml (by decide)).1, (setMargin_other _ .left .bottom ml (by decide)).1, (setMargin_other _ .bottom .top mb (by decide)).1,
    (setMargin_other _ .right .top mr (by decide)).1, ← part .top (Or.inl rfl) mt h1, ← part .bottom (Or.inr rfl) mb h3]
  have c1 : ((b.setMargin .top mt).setMargin .right mr).collapse.get .bottom = 0 := by
    rw [(setMargin_other _ .right .bottom mr (by decide)).1, (setMargin_other _ .top .bottom mt (by decide)).1, e0]; rfl
  have c2 : ((b.setMargin .top mt).setMargin .right mr).margin.get .bottom = .num (.int 0) := by
    rw [(setMargin_other _ .right .bottom mr (by decide)).2, (setMargin_other _ .top .bottom mt (by decide)).2, e1]; rfl
  constructor
  · rw [setMargin_max b .top .top mt (by rw [e0]; decide) (Or.inr (Or.inr (by rw [e1]; rfl))), if_pos rfl, e0]; rfl
  · rw [setMargin_max _ .bottom .bottom mb (by rw [c1]) (Or.inr (Or.inr c2)), if_pos rfl, c1]

theorem solveMargins_ends (fp : FP) (s : CSS) (size w : Num) (b : Box) : b.SameEnds (solveMargins fp s size w b) := by
  have hl : ∀ (c : Box) x, c.SameEnds (c.setMargin .left x) := fun c x => setMargin_ends c .left x (Or.inl rfl)
  have hr : ∀ (c : Box) x, c.SameEnds (c.setMargin .right x) := fun c x => setMargin_ends c .right x (Or.inr rfl)
  unfold solveMargins
  extract_lets total c
  have hc : b.SameEnds c := by
    show b.SameEnds (if _ then _ else _ : Box)
    split
    · exact autoMargins_ends b
    · exact .rfl
  split
  · split
    · exact hc.trans (hr ..)
    · exact hc.trans (hl ..)
  · exact hc.trans (hl ..)
  · exact hc.trans (hr ..)
  · exact (hc.trans (hl ..)).trans (hr ..)

theorem placeLeft_ends {fp : FP} {b b' : Box} {cs cs' : List Node} (h : placeLeft fp b cs = .ok (b', cs')) : b.SameEnds b' := by
  unfold placeLeft at h
  obtain ⟨ml, _, h⟩ := bind_eq_ok.1 h
  rw [(ok_pair h).1]
  exact setContent_ends ..

theorem width_ends {fp : FP} {s : CSS} {z : Intrinsic} {c : PxCtx} {b b' : Box} {cs cs' : List Node} (hs : isBlockLevel s = true)
    (h : widthAndMargins fp s z c b cs = .ok (b', cs')) : b.SameEnds b' := by
  have h := widthAndMargins_block h hs
  unfold blockWidth at h
  split at h
  · simp only at h
    obtain ⟨size, _, h⟩ := bind_eq_ok.1 h
    obtain ⟨ml, _, h⟩ := bind_eq_ok.1 h
    obtain ⟨mr, _, h⟩ := bind_eq_ok.1 h
    have := placeLeft_ends h
    exact (autoMargins_ends b).trans ⟨this.1, this.2⟩
  · obtain ⟨w, _, h⟩ := bind_eq_ok.1 h
    obtain ⟨size, _, h⟩ := bind_eq_ok.1 h
    simp only at h
    have := placeLeft_ends h
    exact (solveMargins_ends fp s size w b).trans ⟨this.1, this.2⟩

/-- `collapse_top` of the first of the nodes. -/
def firstTop (cs : List Node) : Int := ((cs.head?.bind Node.layout).map fun b => b.collapse.top).getD 0

/-- `collapse_bottom` of the last of the nodes. -/
def finalBottom (cs : List Node) : Int := ((cs.getLast?.bind Node.layout).map fun b => b.collapse.bottom).getD 0

theorem noOrigin_part {c c' : Node} (h : c.noOrigin = c'.noOrigin) (g : Box → Int) (hg : ∀ b : Box, g b = g b.noOrigin) :
    c.layout.map g = c'.layout.map g := by
  have := noOrigin_box h
  have e : ∀ x : Option Box, x.map g = (x.map Box.noOrigin).map g := fun x => by
    cases x with
    | none => rfl
    | some b => exact congrArg some (hg b)
  rw [e c.layout, this, ← e]

theorem firstTop_noOrigin {cs cs' : List Node} (h : cs.map Node.noOrigin = cs'.map Node.noOrigin) : firstTop cs = firstTop cs' := by
  unfold firstTop
  cases cs with
  | nil => rw [List.map_nil] at h; rw [List.map_eq_nil_iff.1 h.symm]
  | cons c cs =>
    cases cs' with
    | nil => cases h
    | cons c' cs' =>
      have := noOrigin_part (List.cons.inj h).1 (fun b => b.collapse.top) fun _ => rfl
      show (c.layout.map _).getD 0 = (c'.layout.map _).getD 0
      rw [this]

theorem finalBottom_noOrigin {cs cs' : List Node} (h : cs.map Node.noOrigin = cs'.map Node.noOrigin) : finalBottom cs = finalBottom cs' := by
  unfold finalBottom
  have e : cs.getLast?.map Node.noOrigin = cs'.getLast?.map Node.noOrigin := by rw [← List.getLast?_map, ← List.getLast?_map, h]
  cases e1 : cs.getLast? <;> cases e2 : cs'.getLast? <;> rw [e1, e2] at e
  · cases e
  · cases e
  · have := noOrigin_part (Option.some.inj e) (fun b => b.collapse.bottom) fun _ => rfl
    show (Option.map _ _).getD 0 = (Option.map _ _).getD 0
    exact congrArg (Option.getD · 0) this

theorem contentHeight_ends {fp : FP} {s : CSS} {parent : Option CSS} {c : PxCtx} {b b' : Box} {cs : List Node} {x : Num} (hb : 0 ≤ b.collapse.bottom)
    (h : blockContentHeight fp s parent c b cs = .ok (x, b')) :
    b'.collapse.top = b.collapse.top ∧ b'.collapse.bottom = max b.collapse.bottom (if (s.get .height).isKw "auto" then finalBottom cs else 0) := by
  have e0 : b.collapse.bottom = max b.collapse.bottom 0 := by omega
  unfold blockContentHeight at h
  split at h
  · rename_i ha
    rw [if_pos ha]
    split at h
    · rename_i last hlast
      split at h
      · cases h
      · rename_i lb hl
        obtain ⟨y, _, h⟩ := bind_eq_ok.1 h
        cases h
        have e : finalBottom cs = lb.collapse.bottom := by
          unfold finalBottom
          rw [hlast]
          show (Option.map _ last.layout).getD 0 = _
          rw [hl]; rfl
        have t := setCollapse_max b .bottom .top (.num (.int lb.collapse.bottom)) hb
        have u := setCollapse_max b .bottom .bottom (.num (.int lb.collapse.bottom)) hb
        rw [if_neg (by decide)] at t
        rw [if_pos rfl] at u
        rw [e]
        exact ⟨t, u⟩
    · rename_i hn
      have e : finalBottom cs = 0 := by unfold finalBottom; rw [hn]; rfl
      rw [e]
      split at h
      · cases h; exact ⟨rfl, e0⟩
      · obtain ⟨y, _, h⟩ := bind_eq_ok.1 h
        cases h; exact ⟨rfl, e0⟩
  · rename_i ha
    rw [if_neg ha]
    obtain ⟨y, _, h⟩ := bind_eq_ok.1 h
    cases h; exact ⟨rfl, e0⟩

theorem height_ends {fp : FP} {s : CSS} {z : Intrinsic} {parent : Option CSS} {c : PxCtx} {b b' : Box} {cs cs' : List Node} (hs : isBlockLevel s = true)
    (hb : 0 ≤ b.collapse.top ∧ 0 ≤ b.collapse.bottom) (h : heightAndMargins fp s z parent c b cs = .ok (b', cs')) :
    b'.collapse.top = b.collapse.top ∧ b'.collapse.bottom = max b.collapse.bottom (if (s.get .height).isKw "auto" then finalBottom cs else 0) := by
  have h := heightAndMargins_block h hs
  unfold blockHeight at h
  obtain ⟨⟨x, b1⟩, h1, h⟩ := bind_eq_ok.1 h
  simp only at h
  rw [(ok_pair h).1]
  have k0 := autoZeros_ends b hb
  have k1 := contentHeight_ends (by rw [k0.2]; exact hb.2) h1
  have k2 := setContent_ends fp .v (b1.v.content.add fp (b1.border.top.add fp b1.padding.top)) { b1 with contentHeight := some x } cs
  rw [k0.1, k0.2] at k1
  exact ⟨k2.1.trans k1.1, k2.2.trans k1.2⟩

theorem relative_ends {fp : FP} {s : CSS} {cb : CB} {hz vt : PxCtx} {b b' : Box} {cs cs' : List Node}
    (h : applyRelative fp s cb hz vt b cs = .ok (b', cs')) : b.SameEnds b' := by
  unfold applyRelative at h
  split at h
  · obtain ⟨dx, _, h⟩ := bind_eq_ok.1 h
    simp only at h
    obtain ⟨dy, _, h⟩ := bind_eq_ok.1 h
    rw [(ok_pair h).1]
    exact (setContent_ends ..).trans (setContent_ends ..)
  · cases h; exact .rfl

theorem Stacked.ends {fp : FP} {lay : Box → Node → Res Node} {b b' : Box} {off : Num} {bm : Option Int} {cs cs' : List Node}
    (h : Stacked fp lay b off bm cs b' cs') (hb : 0 ≤ b.collapse.top) :
    b'.collapse.bottom = b.collapse.bottom ∧ b'.collapse.top = max b.collapse.top (if bm = none then firstTop cs' else 0) := by
  induction h with
  | nil =>
    refine ⟨rfl, ?_⟩
    split
    · show _ = max _ 0
      omega
    · omega
  | @cons b b1 b2 cb off off1 hh bm c s z ks cs cs' g1 g2 g3 _ ih =>
    unfold collapseAbove at g2
    cases bm with
    | none =>
      cases g2
      have t := setCollapse_max b .top .top (.num (.int cb.collapse.top)) hb
      have u := setCollapse_max b .top .bottom (.num (.int cb.collapse.top)) hb
      rw [if_pos rfl] at t
      rw [if_neg (by decide)] at u
      obtain ⟨i1, i2⟩ := ih (by
        show 0 ≤ (b.setCollapse .top (.num (.int cb.collapse.top))).collapse.get .top
        rw [t]
        have : 0 ≤ b.collapse.get .top := hb
        omega)
      have e : ∀ v, firstTop (.mk s z (some (setContent fp .v v cb ks).1) (setContent fp .v v cb ks).2 :: cs') = cb.collapse.top := by
        intro v
        show (setContent fp .v v cb ks).1.collapse.top = _
        rw [setContent_collapse]
      rw [if_pos rfl, e]
      refine ⟨i1.trans u, i2.trans ?_⟩
      rw [if_neg (by simp)]
      have t : (b.setCollapse .top (.num (.int cb.collapse.top))).collapse.top = max b.collapse.top cb.collapse.top := t
      rw [t]
      omega
    | some m =>
      obtain ⟨mt, _, g2⟩ := bind_eq_ok.1 g2
      cases g2
      obtain ⟨i1, i2⟩ := ih hb
      rw [if_neg (by simp)] at i2 ⊢
      exact ⟨i1, i2⟩

/-! ## One element -/

theorem Node.Blocky.kid {n c : Node} {fp : FP} {d : Display} (h : n.Blocky fp d) (hc : c ∈ n.children) : c.Blocky fp d :=
  fun m hm => h m (.child hc hm)

theorem Node.Blocky.level {n : Node} {fp : FP} {d : Display} (h : n.Blocky fp d) : n.BlockLevel :=
  (h n (.refl _)).1.elim Or.inl fun e => Or.inr (Or.inl e)

theorem blocky_context {m : Node} {fp : FP} {d : Display} (h : m.Blocky fp d) (hc : m.children ≠ []) : m.BlockContext := by
  have hm := h m (.refl _)
  obtain ⟨c, hc⟩ := List.exists_mem_of_ne_nil _ hc
  refine ⟨?_, hm.2.1, c, hc, (h.kid hc).level⟩
  rcases hm.1 with e | e
  · exact Or.inl e
  · exact Or.inr (Or.inl e)

theorem blocky_strip {n n' : Node} (h : n'.strip = n.strip) {fp : FP} {d : Display} (hn : n.Blocky fp d) : n'.Blocky fp d := by
  intro m hm
  obtain ⟨m', h1, h2⟩ := sub_strip h hm
  have e1 : m'.style = m.style := by rw [← strip_style, h2, strip_style]
  have e2 : m'.intrinsic = m.intrinsic := by rw [← strip_intrinsic, h2, strip_intrinsic]
  rw [← e1, ← e2]
  exact hn m' h1

theorem finalBottom_fresh {cs : List Node} (h : ∀ c ∈ cs, ∀ x, c.layout = some x → x.noOrigin = Box.fresh) : finalBottom cs = 0 := by
  unfold finalBottom
  cases e : cs.getLast? with
  | none => rfl
  | some c =>
    show (Option.map _ c.layout).getD 0 = 0
    cases e' : c.layout with
    | none => rfl
    | some x =>
      have := congrArg Box.collapse (h c (List.mem_of_getLast? e) x e')
      have e3 : x.collapse = Box.fresh.collapse := this
      show x.collapse.bottom = 0
      rw [e3]; rfl

theorem RanQ.ends {fp : FP} (L : fp.Laws) {d : Display} {hgt : Bool} {w : Option Num} {ps : Option CSS} {n : Node} (h : RanQ Pristine fp d hgt w ps n)
    (hn : n.Blocky fp d) :
    ∃ b, n.layout = some b ∧ b.collapse.top = max (max 0 ((n.style.get (.margin .top)).whole fp d)) (firstTop n.children) ∧
      b.collapse.bottom = max (max 0 ((n.style.get (.margin .bottom)).whole fp d)) (if (n.style.get .height).isKw "auto" then finalBottom n.children else 0) := by
  have hl := hn.level
  have hbl : isBlockLevel n.style = true := (blockLevel_iff n).2 hl
  have hh : n.style.get .display ≠ .none := blockLevel_display hbl
  obtain ⟨b, hb, f, cb, b0, cs0, b', cs', rfl, hbody, hcore, hk, hq⟩ := h
  obtain ⟨b1, b2, cs2, b3, cs3, b4, cs4, b5, cs5, h1, h2, h3, _, _, h4, h5, h6⟩ := body_phases hbody
  have ec : b'.collapse = b.collapse := by have := congrArg Box.collapse hcore; exact this
  obtain ⟨_, e0, hf⟩ := pristine_box hq hh
  cases e0
  have m1 := copyEdges_ends L hf (hn n (.refl _)).2.2 h1
  have m2 := width_ends hbl h2
  have n2 : 0 ≤ b2.collapse.top ∧ 0 ≤ b2.collapse.bottom := by rw [m2.1, m2.2, m1.1, m1.2]; omega
  have m3 : b2.SameEnds b3 := by
    unfold relativeHeight at h3
    split at h3
    · obtain ⟨k1, k2⟩ := height_ends hbl n2 h3
      refine ⟨k1, k2.trans ?_⟩
      rw [finalBottom_fresh (fresh_kids (width_steps h2).noOrigin (pristine_kids hq))]
      split <;> omega
    · cases h3; exact .rfl
  have n3 : 0 ≤ b3.collapse.top ∧ 0 ≤ b3.collapse.bottom := by rw [m3.1, m3.2]; exact n2
  have hstrip : cs4.map Node.style = cs3.map Node.style := by
    have := (children_forall h4).2
    refine (forall₂_map_eq (this.imp fun c c' h => ?_)).symm
    have key : ∀ b c c', layoutBox fp d f (some n.style) (.box b) c = .ok c' → c'.style = c.style := fun b c c' h => by
      rw [← strip_style, layoutBox_strip _ _ _ _ _ _ _ h, strip_style]
    rcases h with rfl | h
    · rfl
    · cases h with
      | same h => exact (key _ _ _ h).symm
      | moved v h => exact (key _ _ _ h).symm
  have e4 : cs4.map Node.noOrigin = n.children.map Node.noOrigin := by
    rw [← hk, (relative_steps h6).noOrigin, (height_steps h5).noOrigin]
  have hstyle : n.children.map Node.style = cs3.map Node.style := by
    have a1 : ∀ cs : List Node, cs.map Node.style = (cs.map Node.noOrigin).map Node.style := fun cs => by
      rw [List.map_map]; exact List.map_congr_left fun c _ => (noOrigin_style c).symm
    rw [a1 n.children, ← e4, ← a1, hstrip]
  have m4 : b4.collapse.bottom = b3.collapse.bottom ∧ b4.collapse.top = max b3.collapse.top (firstTop cs4) := by
    rcases children_stacked h4 with ⟨hi, rfl, _⟩ | ⟨_, pre, post, laid, rfl, rfl, hst, hpre, hpost⟩
    · have : n.children = [] := by
        by_contra hne
        rw [← inline_of_styles hstyle] at hi
        obtain ⟨s, z, l, cs⟩ := n
        cases hi.symm.trans ((blockContext_iff s z l cs).2 (blocky_context hn hne))
      rw [this] at e4
      rw [List.map_eq_nil_iff.1 e4]
      refine ⟨rfl, ?_⟩
      show _ = max _ 0
      omega
    · have := hst.ends n3.1
      rw [if_pos rfl] at this
      have hp : post = [] := by
        by_contra hne
        obtain ⟨c, hc⟩ := List.exists_mem_of_ne_nil _ hne
        have : c.style ∈ n.children.map Node.style := by
          rw [hstyle]; exact List.mem_map_of_mem (List.mem_append_right _ hc)
        obtain ⟨c', hc', e⟩ := List.mem_map.1 this
        have h1 := hpost c hc
        rw [← e, (blockLevel_iff c').2 (hn.kid hc').level] at h1
        cases h1
      rw [hp, List.append_nil]
      exact this
  have n4 : 0 ≤ b4.collapse.top ∧ 0 ≤ b4.collapse.bottom := by rw [m4.1, m4.2]; omega
  have m5 := height_ends hbl n4 h5
  have m6 := relative_ends h6
  refine ⟨b, hb, ?_, ?_⟩
  · rw [← ec, m6.1, m5.1, m4.2, m3.1, m2.1, m1.1, firstTop_noOrigin e4]
  · rw [← ec, m6.2, m5.2, m4.1, m3.2, m2.2, m1.2, finalBottom_noOrigin e4]

/-! ## The whole document -/

theorem sub_trans {k m n : Node} (h : Sub k m) (hm : Sub m n) : Sub k n := by
  induction hm with
  | refl => exact h
  | child hc _ ih => exact .child hc ih

theorem lastBottom_getLast (fp : FP) (d : Display) : ∀ cs : List Node, lastBottom fp d cs = ((cs.getLast?).map (Node.edgeBottom fp d)).getD 0
  | [] => rfl
  | [_] => rfl
  | _ :: c :: cs => by
    rw [lastBottom, lastBottom_getLast fp d (c :: cs)]
    rfl

theorem blocky_ends {fp : FP} (L : fp.Laws) {d : Display} {html5 : Bool} {p : Option CSS} {n n' : Node} (hbx : AllBoxed n) (hn : n.Blocky fp d)
    (h : layout fp d html5 p n = .ok n') : ∀ {w : Option Num} {ps : Option CSS} {m : Node}, Within (some d.contentWidth) p n' w ps m →
    ∃ b, m.layout = some b ∧ b.collapse.top = m.edgeTop fp d ∧ b.collapse.bottom = m.edgeBottom fp d := by
  have hn' : n'.Blocky fp d := blocky_strip (layout_strip h) hn
  intro w ps m
  induction m using Node.ind generalizing w ps with
  | h s z l cs ih =>
    intro hm
    have hb : (Node.mk s z l cs).Blocky fp d := fun k hk => hn' k (sub_trans hk (within_sub hm))
    have hh := blockLevel_not_hidden hb.level
    obtain ⟨b, h1, h2, h3⟩ := (layout_ranP hbx h hm hh).ends L hb
    have kid : ∀ c ∈ cs, ∃ cb, c.layout = some cb ∧ cb.collapse.top = c.edgeTop fp d ∧ cb.collapse.bottom = c.edgeBottom fp d :=
      fun c hc => ih c hc (within_next hm hh h1 hc fun _ => (hb.kid hc).level)
    refine ⟨b, h1, h2.trans ?_, h3.trans ?_⟩
    · cases cs with
      | nil =>
        rw [Node.edgeTop]
        show max _ 0 = _
        simp only [Node.style]
        omega
      | cons c cs =>
        obtain ⟨cb, k1, k2, _⟩ := kid c List.mem_cons_self
        rw [Node.edgeTop, ← k2]
        show max _ ((Option.map _ c.layout).getD 0) = _
        rw [k1]; rfl
    · rw [Node.edgeBottom, lastBottom_getLast]
      have : finalBottom cs = ((cs.getLast?).map (Node.edgeBottom fp d)).getD 0 := by
        unfold finalBottom
        cases e : cs.getLast? with
        | none => rfl
        | some c =>
          obtain ⟨cb, k1, _, k3⟩ := kid c (List.mem_of_getLast? e)
          show (Option.map _ c.layout).getD 0 = c.edgeBottom fp d
          rw [k1, ← k3]; rfl
      show max _ (if (s.get .height).isKw "auto" then finalBottom cs else 0) = _
      rw [this]; rfl

end Colosseum
