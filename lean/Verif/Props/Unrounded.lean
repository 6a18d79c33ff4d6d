import Verif.Lemmas.Unrounded
import Verif.Props.Mild
import Verif.Props.Merged
import Verif.Props.Regroup

/-!
# C118: the arithmetic does not matter for documents of moderate size
-/

namespace Colosseum

theorem drawn_tame {fp : FP} {K B : Nat} (hK : K ≤ B) (n : Node) : AllSmall fp K B B B n → n.drawn.Tame fp B := by
  induction n using Node.ind with
  | h s z l cs ih =>
    intro h
    cases l with
    | none => exact .absent
    | some b =>
      obtain ⟨hb, hc⟩ := allSmall_some.1 h
      have hd : ∀ k ∈ drawnAll cs, ∃ c ∈ cs, k = c.drawn := by
        clear h ih hc hb
        induction cs with
        | nil => intro k hk; cases hk
        | cons c cs ih =>
          intro k hk
          rcases List.mem_cons.1 hk with rfl | hk
          · exact ⟨c, by simp, rfl⟩
          · obtain ⟨c', h1, h2⟩ := ih k hk
            exact ⟨c', by simp [h1], h2⟩
      refine .mk ⟨hb.width, hb.height, ⟨?_, ?_, ?_, ?_⟩, ⟨?_, ?_, ?_, ?_⟩, ⟨?_, ?_, ?_, ?_⟩, ?_⟩ (fun k hk => ?_) fun g js hg => ?_
      · exact fun x hx => (hb.ends .top (.inl rfl) x hx).mono hK
      · exact hb.sides .right (.inr rfl)
      · exact fun x hx => (hb.ends .bottom (.inr rfl) x hx).mono hK
      · exact hb.sides .left (.inl rfl)
      · exact (hb.border .top).mono hK
      · exact (hb.border .right).mono hK
      · exact (hb.border .bottom).mono hK
      · exact (hb.border .left).mono hK
      · exact (hb.padding .top).mono hK
      · exact (hb.padding .right).mono hK
      · exact (hb.padding .bottom).mono hK
      · exact (hb.padding .left).mono hK
      · exact (hb.collapse .bottom (.inr rfl)).mono hK
      · obtain ⟨c, hc1, rfl⟩ := hd k hk
        exact ih c hc1 (hc c hc1)
      · obtain ⟨c, hc1, e⟩ := hd _ hg
        obtain ⟨s', z', l', cs'⟩ := c
        cases l' with
        | none => cases e
        | some b' =>
          cases e
          exact (hc _ hc1 [] b' (.here rfl)).top

theorem agrees_size {fp gp : FP} {d : Display} {v : Val} {B : Nat} (hB : B ≤ 2 ^ 47) (h : v.Agrees fp gp d) {u : CUnit} (hu : v = .unit u) {size : Option Num}
    (hs : NearSize fp B size) : u.px gp ⟨d, dummyFont gp, size⟩ = u.px fp ⟨d, dummyFont fp, size⟩ := by
  refine (h u hu size fun x hx => ?_).symm
  have hn := (hs x hx).mono (k := 64 * 2 ^ 41) (by omega)
  obtain ⟨_, n, e, _⟩ := hs x hx
  have := hn.abs
  push_cast at this
  exact ⟨⟨n, e⟩, this⟩

theorem lengths_near {fp : FP} (L : fp.Laws) {d : Display} {M B : Nat} (hM : 64 * M ≤ B) (hB : B ≤ 2 ^ 47) {n : Node} (hn : n.Mild fp d M) (q : LH) (hq : q.Measure)
    {size : Option Num} (hs : NearSize fp B size) {u : CUnit} (hu : n.style.get q = .unit u) {x : Num} (hx : u.px fp ⟨d, dummyFont fp, size⟩ = .ok x) : Near fp B x := by
  have hpx : (n.style.get q).px fp ⟨d, dummyFont fp, size⟩ = .ok x := by rw [hu]; exact hx
  have mild : (n.style.get q).Mild fp d M → Near fp B x := fun h => (mild_px L h hpx).mono hM
  have share : (n.style.get q).Share → Near fp B x := fun h => by
    cases size with
    | none =>
      obtain ⟨a, e, _⟩ := h
      rw [e] at hpx
      cases hpx
    | some y => exact share_near L h (hs y rfl) (by omega) hpx
  cases q with
  | margin t => exact (hn.margin t).elim mild fun h => share h.2.share
  | borderWidth t => exact mild (hn.border t)
  | padding t => exact mild (hn.padding t)
  | width => exact (hn.width .width (.inl rfl)).elim mild fun h => share h.2
  | minWidth => exact (hn.width .minWidth (.inr (.inl rfl))).elim mild fun h => share h.2
  | maxWidth => exact (hn.width .maxWidth (.inr (.inr rfl))).elim mild fun h => share h.2
  | height => exact mild (hn.height .height (.inl rfl))
  | minHeight => exact mild (hn.height .minHeight (.inr (.inl rfl)))
  | maxHeight => exact mild (hn.height .maxHeight (.inr (.inr rfl)))
  | left => exact mild (hn.offset .left (.inl rfl)).1
  | right => exact mild (hn.offset .right (.inr (.inl rfl))).1
  | top => exact mild (hn.offset .top (.inr (.inr (.inl rfl)))).1
  | bottom => exact mild (hn.offset .bottom (.inr (.inr (.inr rfl)))).1
  | _ => cases hq

theorem moderate_tame {fp gp : FP} (L : fp.Laws) {d : Display} {M B : Nat} (hM : 64 * M ≤ B) (hB : B ≤ 2 ^ 47) {n : Node} (hn : n.MildDoc fp d M) (ha : n.Agrees fp gp d) :
    n.Tame fp gp d B ∧ d.Tame fp B := by
  refine ⟨fun m hm => ⟨⟨fun q hq size hs u hu => agrees_size hB (ha m hm q hq) hu hs, fun q hq size hs u hu x hx => lengths_near L hM hB (hn.2 m hm) q hq hs hu hx, ?_⟩, ?_⟩, ?_⟩
  · intro q hq
    cases q with
    | left => exact ((hn.2 m hm).offset .left (.inl rfl)).2
    | right => exact ((hn.2 m hm).offset .right (.inr (.inl rfl))).2
    | top => exact ((hn.2 m hm).offset .top (.inr (.inr (.inl rfl)))).2
    | bottom => exact ((hn.2 m hm).offset .bottom (.inr (.inr (.inr rfl)))).2
    | _ => cases hq
  · have h := hn.2 m hm
    exact ⟨fun x hx => ((h.grid.1 x hx).near L (h.content.1 x hx)).mono hM, fun x hx => ((h.grid.2.1 x hx).near L (h.content.2 x hx)).mono hM, h.grid.2.2⟩
  · have h := hn.1
    exact ⟨(h.grid.2.2.1.near L h.border.1).mono hM, (h.grid.2.2.2.1.near L h.border.2.1).mono hM, (h.grid.2.2.2.2.near L h.border.2.2).mono hM⟩

theorem agrees_blueprint {fp gp : FP} (L : fp.Laws) (G : gp.Laws) {d : Display} {M : Nat} {html5 : Bool} {p : Option CSS} {n : Node} (hn : n.Moderate fp d M)
    (ha : n.Agrees fp gp d) (hp : ∀ s, p = some s → (s.get .height).Mild fp d M ∧ (s.get .height).Agrees fp gp d) {k : Blueprint} (h : n.blueprint fp d html5 p = some k) :
    n.blueprint gp d html5 p = some k := by
  have hsz := hn.size
  have hpos := moderate_pos (fp := fp) (d := d) (M := M) (n := n)
  obtain ⟨B, hBdef⟩ : ∃ B, B = 64 * (16 * (M * n.count)) := ⟨_, rfl⟩
  have hM : 64 * M ≤ B := by omega
  have hB : B ≤ 2 ^ 47 := by omega
  obtain ⟨hT, hdT⟩ := moderate_tame (gp := gp) L hM hB hn.mild ha
  have hpT : ∀ s, p = some s → s.TameHeight fp gp d B := by
    intro s hs H hH
    obtain ⟨h1, h2⟩ := hp s hs
    have a : ∀ u, s.get .height = .unit u → u.px gp ⟨d, dummyFont gp, H⟩ = u.px fp ⟨d, dummyFont fp, H⟩ := fun u hu => agrees_size hB h2 hu hH
    have b : ∀ x, (s.get .height).px fp ⟨d, dummyFont fp, H⟩ = .ok x → Near fp B x := fun x hx => (mild_px L h1 hx).mono hM
    generalize s.get .height = v at a b
    cases v with
    | unit u =>
      simp only [Val.inPixels, a u rfl]
      refine ⟨trivial, fun x hx => b x ?_⟩
      cases hq : u.px fp ⟨d, dummyFont fp, H⟩ with
      | error e => rw [hq] at hx; cases hx
      | ok y => rw [hq] at hx; cases hx; exact hq
    | _ => exact ⟨rfl, fun x hx => by cases hx⟩
  have hW : NearSize fp B (some d.contentWidth) := by rintro _ ⟨⟩; exact (hn.mild.1.grid.1.near L hn.mild.1.size.1).mono hM
  have hH : NearSize fp B (some d.contentHeight) := by rintro _ ⟨⟩; exact (hn.mild.1.grid.2.1.near L hn.mild.1.size.2).mono hM
  unfold Node.blueprint at h ⊢
  cases hpl : n.plan fp d p ⟨some d.contentWidth, some d.contentHeight, none⟩ with
  | none => rw [hpl] at h; cases h
  | some k0 =>
  cases k0 with
  | absent => rw [hpl] at h; cases h
  | mk f ks =>
  -- without the stretching of HTML5
  have h0 : n.blueprint fp d false p = some (.mk (f.moved fp (.int f.above)) ks) := by
    unfold Node.blueprint
    rw [hpl]
    rfl
  rw [← C91_blueprint hn.boxed] at h0
  cases hl : layout fp d false p n with
  | error e => rw [hl] at h0; cases h0
  | ok n' =>
  rw [hl] at h0
  have hdr : n'.drawn = .mk (f.moved fp (.int f.above)) ks := Option.some.inj h0
  have hsm := moderate_small L hn hl
  rw [← hBdef] at hsm
  have ht := drawn_tame hM n' hsm
  have habove : Near fp B (.int f.above) := by
    obtain ⟨s', z', l', cs'⟩ := n'
    cases l' with
    | none => cases hdr
    | some b =>
      have e : b.figures = f.moved fp (.int f.above) := by
        simp only [Node.drawn, Blueprint.mk.injEq] at hdr
        exact hdr.1
      have e' : b.collapse.top = f.above := by
        have := congrArg Figures.above e
        exact this
      rw [← e']
      exact ((hsm [] b (.here rfl)).collapse .top (.inl rfl)).mono hM
  rw [hdr] at ht
  cases ht with
  | mk hf hk hky =>
  have hf' := moved_tame hf
  obtain ⟨hpl', hy⟩ := un_plan L G hB hdT n p _ _ hT hpT hW hH hpl (.mk hf' hk hky)
  have hy := hy f ks rfl
  rw [hpl] at h
  rw [hpl']
  have e1 : f.moved gp (.int f.above) = f.moved fp (.int f.above) := by simp only [Figures.moved, un_add G hy habove (by omega)]
  have e2 : d.contentHeight.less gp [.int f.above, .int f.below] = d.contentHeight.less fp [.int f.above, .int f.below] :=
    (un_less G (B := B) [.int f.above, .int f.below] (hH _ rfl) (by simp [habove, hf'.below]) (by simp; omega)).1
  dsimp only at h ⊢
  rw [e1]
  have e2' : d.contentHeight.less gp [.int (f.moved fp (.int f.above)).above, .int (f.moved fp (.int f.above)).below] =
      d.contentHeight.less fp [.int (f.moved fp (.int f.above)).above, .int (f.moved fp (.int f.above)).below] := e2
  rw [e2']
  exact h

theorem val_agrees_symm {fp gp : FP} {d : Display} {v : Val} (h : v.Agrees fp gp d) : v.Agrees gp fp d := fun u hu size hs => (h u hu size hs).symm

theorem val_mild_other {fp gp : FP} {d : Display} {M : Nat} {v : Val} (h : v.Agrees fp gp d) (hm : v.Mild fp d M) : v.Mild gp d M := fun u hu =>
  ⟨(hm u hu).1, fun x hx => (hm u hu).2 x (by rw [h u hu none nofun]; exact hx)⟩

/-- Being of moderate size does not depend on the arithmetic. -/
theorem moderate_other {fp gp : FP} {d : Display} {M : Nat} {n : Node} (ha : n.Agrees fp gp d) (hn : n.Moderate fp d M) : n.Moderate gp d M := by
  refine ⟨hn.boxed, ⟨hn.mild.1, fun m hm => ?_⟩, hn.least, hn.size, hn.spread⟩
  have h := hn.mild.2 m hm
  have v : ∀ q : LH, q.Measure → (m.style.get q).Mild fp d M → (m.style.get q).Mild gp d M := fun q hq => val_mild_other (ha m hm q hq)
  refine ⟨fun t => (h.margin t).imp_left (v _ trivial), fun t => v _ trivial (h.border t), fun t => v _ trivial (h.padding t), fun q hq => ?_, fun q hq => ?_, fun q hq => ?_,
    h.grid, h.content⟩
  · refine (h.width q hq).imp_left (v q ?_)
    rcases hq with rfl | rfl | rfl <;> trivial
  · refine v q ?_ (h.height q hq)
    rcases hq with rfl | rfl | rfl <;> trivial
  · refine ⟨v q ?_ (h.offset q hq).1, (h.offset q hq).2⟩
    rcases hq with rfl | rfl | rfl | rfl <;> trivial

/-- The layouts are the same. -/
theorem agrees_blueprints {fp gp : FP} (L : fp.Laws) (G : gp.Laws) {d : Display} {M : Nat} {html5 : Bool} {p : Option CSS} {n : Node} (hn : n.Moderate fp d M) (ha : n.Agrees fp gp d)
    (hp : ∀ s, p = some s → (s.get .height).Mild fp d M ∧ (s.get .height).Agrees fp gp d) : n.blueprint fp d html5 p = n.blueprint gp d html5 p := by
  cases h : n.blueprint fp d html5 p with
  | some k => rw [agrees_blueprint L G hn ha hp h]
  | none =>
    cases h' : n.blueprint gp d html5 p with
    | none => rfl
    | some k =>
      have := agrees_blueprint G L (moderate_other ha hn) (fun m hm q hq => val_agrees_symm (ha m hm q hq))
        (fun s hs => ⟨val_mild_other (hp s hs).2 (hp s hs).1, val_agrees_symm (hp s hs).2⟩) h'
      rw [h] at this
      cases this

/-- **C118.** A document of moderate size is laid out alike in all arithmetics that obey the laws of rounding and agree on its lengths: either it cannot be laid out in any of
them, or all numbers of all boxes are the same. -/
theorem C118_boxes (fp gp : FP) (L : fp.Laws) (G : gp.Laws) (d : Display) (M : Nat) (html5 : Bool) (p : Option CSS) (n : Node) (hn : n.Moderate fp d M) (ha : n.Agrees fp gp d)
    (hp : ∀ s, p = some s → (s.get .height).Mild fp d M ∧ (s.get .height).Agrees fp gp d) :
    Paired (fun m m' => ∀ q, (m.boxAt q).map Box.figures = (m'.boxAt q).map Box.figures) (layout fp d html5 p n).toOption (layout gp d html5 p n).toOption := by
  have e : n.blueprint fp d html5 p = n.blueprint gp d html5 p := agrees_blueprints L G hn ha hp
  rw [← C91_blueprint hn.boxed, ← C91_blueprint hn.boxed] at e
  generalize (layout fp d html5 p n).toOption = x at e ⊢
  generalize (layout gp d html5 p n).toOption = y at e ⊢
  cases x with
  | none =>
    cases y with
    | none => trivial
    | some _ => cases e
  | some m =>
    cases y with
    | none => cases e
    | some m' =>
      intro q
      rw [← drawn_at, ← drawn_at, Option.some.inj e]

/-- **C118.** So nothing is rounded: the boxes are those of exact arithmetic. -/
theorem C118_exact (fp : FP) (L : fp.Laws) (d : Display) (M : Nat) (html5 : Bool) (n n' : Node) (hn : n.Moderate fp d M) (ha : n.Agrees fp .exact d)
    (h : layout fp d html5 none n = .ok n') : ∃ m', layout .exact d html5 none n = .ok m' ∧ ∀ q, (n'.boxAt q).map Box.figures = (m'.boxAt q).map Box.figures := by
  have := C118_boxes fp .exact L exact_laws d M html5 none n hn ha nofun
  rw [h] at this
  cases hl : layout .exact d html5 none n with
  | error e => rw [hl] at this; exact False.elim this
  | ok m' => rw [hl] at this; exact ⟨m', rfl, this⟩

theorem recut_figures {b b' c c' : Box} (h : b.Recut .exact b') (e : c.figures = b.figures) (e' : c'.figures = b'.figures) : c.Recut .exact c' := by
  simp only [Box.figures, Figures.mk.injEq] at e e'
  obtain ⟨a1, a2, a3, a4, a5, a6, a7, a8, a9⟩ := e
  obtain ⟨b1, b2, b3, b4, b5, b6, b7, b8, b9⟩ := e'
  refine ⟨by rw [a3, b3]; exact h.width, by rw [a4, b4]; exact h.height, fun a => ?_, by rw [a5, b5]; exact h.margin, by rw [a8, b8]; exact h.above, by rw [a9, b9]; exact h.below,
    fun t => by rw [a6, a7, b6, b7]; exact h.rim t⟩
  cases a
  · exact a2.trans ((h.place .v).trans b2.symm)
  · exact a1.trans ((h.place .h).trans b1.symm)

theorem Paired.chain {α β γ δ : Type} {R : α → β → Prop} {S : γ → δ → Prop} {T : β → δ → Prop} {U : α → γ → Prop} {a : Option α} {b : Option β} {c : Option γ} {e : Option δ}
    (h1 : Paired R a b) (h2 : Paired S c e) (h3 : Paired T b e) (h : ∀ a b c e, R a b → S c e → T b e → U a c) : Paired U a c := by
  cases a <;> cases b <;> cases c <;> cases e <;> first | trivial | exact False.elim h1 | exact False.elim h2 | exact False.elim h3 | exact h _ _ _ _ h1 h2 h3

theorem paired_figures {x y : Option Box} (h : x.map Box.figures = y.map Box.figures) : Paired (fun b c => b.figures = c.figures) x y := by
  cases x <;> cases y <;> first | trivial | (cases h; done) | exact Option.some.inj h

/-- **C118, C117.** For documents of moderate size, only border and padding together matter in floating point too. -/
theorem C118_traded (fp : FP) (L : fp.Laws) (d : Display) (M M' : Nat) (html5 : Bool) (n n' : Node) (hn : n.Moderate fp d M) (hn' : n'.Moderate fp d M')
    (ha : n.Agrees fp .exact d) (ha' : n'.Agrees fp .exact d) (h : Traded .exact d n n') :
    Paired (fun m m' => ∀ q, Paired (Box.Recut .exact) (m.boxAt q) (m'.boxAt q)) (layout fp d html5 none n).toOption (layout fp d html5 none n').toOption := by
  have h1 := C118_boxes fp .exact L exact_laws d M html5 none n hn ha nofun
  have h2 := C118_boxes fp .exact L exact_laws d M' html5 none n' hn' ha' nofun
  have h3 := C117_boxes .exact FP.exact_exact d html5 none none n n' hn.boxed hn'.boxed h trivial
  exact h1.chain h2 h3 fun a a' b b' h1 h2 h3 q =>
    (paired_figures (h1 q)).chain (paired_figures (h2 q)) (h3 q) fun _ _ _ _ e1 e2 e3 => recut_figures e3 e1 e2

/-! ## Lengths on which all arithmetics agree -/

theorem pxOfLu_agrees {fp gp : FP} (L : fp.Laws) (G : gp.Laws) {l : Int} (h : l.natAbs ≤ 2 ^ 53) : pxOfLu fp l = pxOfLu gp l := by
  simp only [pxOfLu, L.grid l h, G.grid l h]

/-- Pixels, in whole numbers of layout units. -/
theorem C118_pixels (fp gp : FP) (L : fp.Laws) (G : gp.Laws) (d : Display) (a : Num) (ha : a.OnGrid) (hb : |a.val| ≤ 2 ^ 47) : (Val.unit ⟨.len .px, .fin a⟩).Agrees fp gp d := by
  rintro _ ⟨⟩ size _
  obtain ⟨n, hn⟩ := ha
  have hle : n.natAbs ≤ 2 ^ 53 := by
    rw [hn, abs_div, abs_of_pos (by norm_num : (0 : Rat) < 64), div_le_iff₀ (by norm_num)] at hb
    have : ((n.natAbs : Nat) : Rat) ≤ ((2 ^ 53 : Nat) : Rat) := by
      rw [Nat.cast_natAbs, Int.cast_abs]
      push_cast
      linarith
    exact_mod_cast this
  have hl : ∀ {p : FP} (P : p.Laws) (c : PxCtx), luOf p .px (.fin a) c = .ok n := by
    intro p P c
    cases a with
    | int i =>
      have : (i : Rat) = (n : Rat) / 64 := hn
      have e : n = 64 * i := by
        have : (n : Rat) = ((64 * i : Int) : Rat) := by push_cast; linarith
        exact_mod_cast this
      rw [e]; rfl
    | flt q =>
      have hq : q = (n : Rat) / 64 := hn
      simp only [luOf]
      rw [luPx_flt P, show 64 * q = (n : Rat) by rw [hq]; ring, P.small n hle, pyRound_int]
  show pxOf fp .px (.fin a) ⟨d, dummyFont fp, size⟩ = pxOf gp .px (.fin a) ⟨d, dummyFont gp, size⟩
  unfold pxOf
  rw [hl L, hl G]
  simp only [pxOfLu_agrees L G hle]

/-- Percentages that are multiples of 25. -/
theorem C118_quarters (fp gp : FP) (L : fp.Laws) (G : gp.Laws) (d : Display) (i : Int) (hi : i.natAbs ≤ 4) : (Val.unit ⟨.len .percent, .fin (.int (25 * i))⟩).Agrees fp gp d := by
  rintro _ ⟨⟩ size hs
  show pxOf fp .percent (.fin (.int (25 * i))) ⟨d, dummyFont fp, size⟩ = pxOf gp .percent (.fin (.int (25 * i))) ⟨d, dummyFont gp, size⟩
  unfold pxOf
  cases size with
  | none => rfl
  | some s =>
    obtain ⟨⟨n, hn⟩, hb⟩ := hs s rfl
    have hle : n.natAbs ≤ 2 ^ 47 := by
      rw [hn, abs_div, abs_of_pos (by norm_num : (0 : Rat) < 64), div_le_iff₀ (by norm_num)] at hb
      have : ((n.natAbs : Nat) : Rat) ≤ ((2 ^ 47 : Nat) : Rat) := by
        rw [Nat.cast_natAbs, Int.cast_abs]
        push_cast
        linarith
      exact_mod_cast this
    have hl : ∀ {p : FP} (P : p.Laws) (f : Font), luOf p .percent (.fin (.int (25 * i))) ⟨d, f, some s⟩ = .ok (pyRound ((i : Rat) * n / 4)) := by
      intro p P f
      simp only [luOf]
      rw [luPercent_fin P]
      have hsf : s.toFloat p = (n : Rat) / 64 := by
        cases s with
        | int j =>
          show p.rnd (j : Rat) = _
          rw [show (j : Rat) = (n : Rat) / 64 from hn, P.grid n (by omega)]
        | flt q => exact hn
      have e1 : p.rnd (64 * (Num.int (25 * i)).val) = ((1600 * i : Int) : Rat) := by
        rw [Num.val_int, show (64 * ((25 * i : Int) : Rat)) = ((1600 * i : Int) : Rat) by push_cast; ring, P.small _ (by omega)]
      have e2 : p.rnd (((1600 * i : Int) : Rat) / 100) = ((16 * i : Int) : Rat) := by
        rw [show (((1600 * i : Int) : Rat) / 100) = ((16 * i : Int) : Rat) by push_cast; ring, P.small _ (by omega)]
      have hin : (16 * (i * n)).natAbs ≤ 2 ^ 53 := by
        rw [Int.natAbs_mul, Int.natAbs_mul]
        calc (16 : Int).natAbs * (i.natAbs * n.natAbs) ≤ 16 * (4 * 2 ^ 47) := Nat.mul_le_mul (by decide) (Nat.mul_le_mul hi hle)
          _ ≤ 2 ^ 53 := by norm_num
      have e3 : p.rnd (((16 * i : Int) : Rat) * ((n : Rat) / 64)) = (i : Rat) * n / 4 := by
        have := P.grid (16 * (i * n)) hin
        rw [show (((16 * i : Int) : Rat) * ((n : Rat) / 64)) = ((16 * (i * n) : Int) : Rat) / 64 by push_cast; ring, this]
        push_cast; ring
      rw [e1, e2, hsf, e3]
    rw [hl L, hl G]
    have hr : (pyRound ((i : Rat) * n / 4)).natAbs ≤ 2 ^ 53 := by
      have hin : (i * n).natAbs ≤ 2 ^ 49 := by
        rw [Int.natAbs_mul]
        calc i.natAbs * n.natAbs ≤ 4 * 2 ^ 47 := Nat.mul_le_mul hi hle
          _ ≤ 2 ^ 49 := by norm_num
      have hin' : |(i : Rat) * n| ≤ 2 ^ 49 := by
        have : (((i * n).natAbs : Nat) : Rat) ≤ ((2 ^ 49 : Nat) : Rat) := by exact_mod_cast hin
        rw [Nat.cast_natAbs, Int.cast_abs] at this
        push_cast at this
        exact this
      obtain ⟨z1, z2⟩ := _root_.abs_le.1 hin'
      have r1 := pyRound_mono (show (((-(2 ^ 49) : Int) : Rat)) ≤ (i : Rat) * n / 4 by push_cast; linarith)
      have r2 := pyRound_mono (show (i : Rat) * n / 4 ≤ (((2 ^ 49 : Int) : Rat)) by push_cast; linarith)
      rw [pyRound_int] at r1 r2
      omega
    simp only [pxOfLu_agrees L G hr]

/-! ## Examples and limits -/

/-- The properties of `LH.Measure`. -/
def measures : List LH :=
  [Side.top, .right, .bottom, .left].flatMap (fun t => [LH.margin t, .borderWidth t, .padding t]) ++
  [.width, .minWidth, .maxWidth, .height, .minHeight, .maxHeight, .top, .right, .bottom, .left]

theorem measures_all {q : LH} (h : q.Measure) : q ∈ measures := by
  cases q <;> first | (cases h; done) | decide | (rename_i t; cases t <;> decide)

/-- A test for values on which all arithmetics agree. -/
def Val.agreeTest : Val → Bool
  | .unit ⟨.len .px, .fin (.int i)⟩ => decide (i.natAbs ≤ 2 ^ 40)
  | .unit ⟨.len .percent, .fin (.int i)⟩ => decide (i = 25 * (i / 25)) && decide ((i / 25).natAbs ≤ 4)
  | .unit _ => false
  | _ => true

theorem agreeTest_sound {fp gp : FP} (L : fp.Laws) (G : gp.Laws) {d : Display} {v : Val} (h : v.agreeTest = true) : v.Agrees fp gp d := by
  unfold Val.agreeTest at h
  split at h
  · rename_i i
    refine C118_pixels fp gp L G d (.int i) (onGrid_int i) ?_
    have h : i.natAbs ≤ 2 ^ 40 := of_decide_eq_true h
    have : ((i.natAbs : Nat) : Rat) ≤ ((2 ^ 40 : Nat) : Rat) := by exact_mod_cast h
    rw [Nat.cast_natAbs, Int.cast_abs] at this
    rw [Num.val_int]
    refine this.trans ?_
    norm_num
  · rename_i i
    simp only [Bool.and_eq_true, decide_eq_true_eq] at h
    rw [h.1]
    exact C118_quarters fp gp L G d _ h.2
  · cases h
  · rename_i h1 h2 h3
    rintro u rfl
    exact absurd rfl (h3 u)

mutual
/-- A test for documents. -/
def Node.agreeTest : Node → Bool
  | .mk s _ _ cs => measures.all (fun q => (s.get q).agreeTest) && agreeTests cs
/-- The test for lists. -/
def agreeTests : List Node → Bool
  | [] => true
  | c :: cs => c.agreeTest && agreeTests cs
end

theorem agreeTests_mem {cs : List Node} (h : agreeTests cs = true) {c : Node} (hc : c ∈ cs) : c.agreeTest = true := by
  induction cs with
  | nil => cases hc
  | cons x cs ih =>
    simp only [agreeTests, Bool.and_eq_true] at h
    rcases List.mem_cons.1 hc with rfl | hc
    · exact h.1
    · exact ih h.2 hc

theorem agreeTest_all {fp gp : FP} (L : fp.Laws) (G : gp.Laws) {d : Display} {n : Node} (h : n.agreeTest = true) : n.Agrees fp gp d := by
  intro m hm q hq
  induction hm with
  | @here _ =>
    obtain ⟨s, z, l, cs⟩ := m
    simp only [Node.agreeTest, Bool.and_eq_true, List.all_eq_true] at h
    exact agreeTest_sound L G (h.1 q (measures_all hq))
  | @step c n _ hc _ ih =>
    obtain ⟨s, z, l, cs⟩ := n
    simp only [Node.agreeTest, Bool.and_eq_true] at h
    exact ih (agreeTests_mem h.2 hc)

/-- Blocks with lengths, percentages and automatic margins, one relatively positioned, inline elements and a picture. -/
def leaflet : Node :=
  block [(.margin .top, px 8), (.padding .left, px 5)] [
    block [(.width, pct 25), (.margin .left, kw "auto"), (.margin .right, kw "auto")] [span [(.margin .top, px 3), (.padding .top, px 2)] 20 10, picture [(.margin .top, px 4)] 30 40],
    block [(.height, px 7), (.margin .top, px 9), (.margin .bottom, px 5), (.position, kw "relative"), (.left, px 6)] [],
    block [(.margin .top, px 2), (.width, pct 75), (.maxWidth, px 200)] [block [(.height, px 1000), (.width, pct 25), (.borderWidth .left, kw "thick")] []]]

theorem leaflet_moderate : leaflet.Moderate .b64 screen 1000 := moderate_test (k := 7) (by decide +kernel) (by decide +kernel) (by norm_num)

/-- It is laid out in floating point as in exact arithmetic. -/
example (n' : Node) (h : layout .b64 screen true none leaflet = .ok n') :
    ∃ m', layout .exact screen true none leaflet = .ok m' ∧ ∀ q, (n'.boxAt q).map Box.figures = (m'.boxAt q).map Box.figures :=
  C118_exact .b64 b64_laws screen 1000 true leaflet n' leaflet_moderate (agreeTest_all b64_laws exact_laws (by decide +kernel)) h

/-- It can be laid out, and some of its numbers are not whole. -/
example : (laidBox .b64 screen leaflet [0]).map (fun b => (b.contentWidth, b.h.content)) = some (some (.flt (635 / 4)), .flt 238) := by decide +kernel

/-- A block with a border around one with a percentage, and the same with a padding. -/
def rimmed (q : LH) : Node := block [(q, px 7)] [block [(.width, pct 25), (.margin .left, kw "auto"), (.height, px 3)] []]

/-- In floating point too, what is border in one and padding in the other does not matter. -/
example : Paired (fun m m' => ∀ q, Paired (Box.Recut .exact) (m.boxAt q) (m'.boxAt q)) (layout .b64 screen true none (rimmed (.borderWidth .left))).toOption
    (layout .b64 screen true none (rimmed (.padding .left))).toOption := by
  refine C118_traded .b64 b64_laws screen 1000 1000 true _ _ (moderate_test (k := 2) (by decide +kernel) (by decide +kernel) (by norm_num))
    (moderate_test (k := 2) (by decide +kernel) (by decide +kernel) (by norm_num)) (agreeTest_all b64_laws exact_laws (by decide +kernel))
    (agreeTest_all b64_laws exact_laws (by decide +kernel)) (.mk ⟨fun p hp h1 h2 => ?_, fun t size => ?_⟩ rfl rfl fun x hx => ?_)
  · cases p <;> first | rfl | exact absurd rfl (h1 _) | exact absurd rfl (h2 _)
  · cases t
    · rfl
    · rfl
    · rfl
    · exact rim_swap rfl rfl
  · simp only [List.zip_cons_cons, List.zip_nil_right, List.mem_cons, List.not_mem_nil, or_false] at hx
    subst hx
    exact .mk ⟨fun _ _ _ _ => rfl, fun _ _ => rfl⟩ rfl rfl fun x hx => nomatch hx

/-- Both can be laid out, and the inner block is 158.25 pixels wide. -/
example : (laidBox .b64 screen (rimmed (.padding .left)) [0]).map Box.contentWidth = some (some (.flt (633 / 4))) := by decide +kernel

/-- Where exact arithmetic has a tie, floats need not: in a container of 75/32 pixels, 7 percent are 11 layout units in floating point, and 10 in exact arithmetic.
So the arithmetics have to agree on the lengths. -/
theorem C118_ties : ∃ n : Node, n.Moderate .b64 { screen with contentWidth := .flt (75 / 32) } 1000 ∧
    (laidBox .b64 { screen with contentWidth := .flt (75 / 32) } n []).map Box.contentWidth = some (some (.flt (11 / 64))) ∧
    (laidBox .exact { screen with contentWidth := .flt (75 / 32) } n []).map Box.contentWidth = some (some (.flt (10 / 64))) := by
  refine ⟨block [(.width, pct 7)] [], ?_, by decide +kernel, by decide +kernel⟩
  have h : (block [(.width, pct 7)] []).mildTest .b64 { screen with contentWidth := .flt (75 / 32) } 1000 = true := by decide +kernel
  have hc : (block [(.width, pct 7)] []).count = 1 := by decide +kernel
  refine ⟨fun m hm => (mildTest_all h hm).1, ⟨⟨⟨⟨150, by norm_num⟩, onGrid_int _, onGrid_int _, onGrid_int _, onGrid_int _⟩, ?_, by norm_num [screen]⟩,
    fun m hm => (mildTest_all h hm).2⟩, by norm_num, ?_, ?_⟩
  · constructor
    · show |(75 / 32 : Rat)| ≤ _
      rw [abs_of_pos (by norm_num)]; norm_num
    · norm_num [screen]
  · rw [hc]; norm_num
  · rw [hc]; norm_num

/-- Large documents are rounded: on a display that is 2^54 pixels wide, a padding of a pixel makes no difference in floating point. -/
theorem C118_large : ∃ (d : Display) (n : Node), n.Agrees .b64 .exact d ∧
    (laidBox .b64 d n []).map Box.contentWidth = some (some (.flt (2 ^ 54))) ∧ (laidBox .exact d n []).map Box.contentWidth = some (some (.flt (2 ^ 54 - 1))) :=
  ⟨{ screen with contentWidth := .flt (2 ^ 54) }, block [(.padding .left, px 1)] [], agreeTest_all b64_laws exact_laws (by decide +kernel), by decide +kernel, by decide +kernel⟩

end Colosseum
