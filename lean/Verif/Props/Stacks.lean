import Verif.Lemmas.Stack
import Verif.Lemmas.Sample

/-!
# Stacks of blocks
-/

namespace Colosseum

/-- A run from a document that was just reset. -/
theorem layout_ranP {fp : FP} {d : Display} {html5 : Bool} {p ps : Option CSS} {n n' m : Node} {w : Option Num} (hbx : AllBoxed n)
    (h : layout fp d html5 p n = .ok n') (hm : Within (some d.contentWidth) p n' w ps m) (hh : ¬ m.Hidden) : RanQ Pristine fp d false w ps m := by
  have q := layout_ranQ pristine_passes (pristine_reset fp hbx) h
  cases hm with
  | here =>
    cases html5 with
    | true => exact q.1 hh
    | false => exact (q.1 hh).weaken
  | step hn hl hc hb hw => exact (q.2 _ hc _ hl hn hb _ _ _ hw hh).weaken

/-! ## C45: blocks are stacked -/

/-- C45. In a node that stacks its children, the block-level ones come first; the border boxes of those that are not relatively
positioned start where `flowTops` says: the first at 0, every other one at the end of the border box before it plus the larger of the
collapsed bottom margin there and its own top margin. Collapsed margins are not negative. (A relatively positioned block takes up the
space of its border box in the stack, but is itself elsewhere.) -/
theorem C45_stack_partial (fp : FP) (d : Display) (html5 : Bool) (p ps : Option CSS) (n n' m : Node) (w : Option Num) (hbx : AllBoxed n)
    (h : layout fp d html5 p n = .ok n') (hm : Within (some d.contentWidth) p n' w ps m) (hh : ¬ m.Hidden) (hc : m.BlockContext) :
    ∃ ks rest xs, m.children = ks ++ rest ∧ (∀ c ∈ ks, c.BlockLevel) ∧ (∀ c ∈ rest, ¬ c.BlockLevel) ∧
      List.Forall₂ (fun c x => ∃ b, c.layout = some b ∧ b.Stands x) ks xs ∧ (∀ x ∈ xs, 0 ≤ x.cb) ∧
      ∀ k, fp.Exact ∨ fp.Laws → (∀ x ∈ xs, x.AllFit fp k) → 8 * k * ks.length ≤ 2 ^ 53 →
        List.Forall₂ (fun c t => ¬ c.Relative → ∃ b, c.layout = some b ∧ (b.borderBoxTop fp).val = t) ks (flowTops 0 none xs) :=
  (layout_ranP hbx h hm hh).stack hc hh

/-- Three blocks with margins 5 and 8, 3 and 2, 4 and 0; the second has a border and a padding. -/
example : [0, 1, 2].map (fun i => (laidBox .b64 screen (block [] [block [(.height, px 10), (.margin .top, px 5), (.margin .bottom, px 8)] [],
      block [(.height, px 20), (.margin .top, px 3), (.margin .bottom, px 2), (.borderWidth .top, px 1), (.padding .top, px 6)] [],
      block [(.height, px 30), (.margin .top, px 4)] []]) [i]).map (fun b => (b.borderBoxTop .b64, b.borderBoxBottom .b64))) =
    [some (.int 0, some (.int 10)), some (.int 18, some (.int 45)), some (.int 49, some (.int 79))] := by decide +kernel

theorem flowTops_next (xs : List Down) : ∀ (off : Rat) (bm : Option Int) (i : Nat) (t : Rat) (x x' : Down), xs[i]? = some x → xs[i + 1]? = some x' →
    (flowTops off bm xs)[i]? = some t → (flowTops off bm xs)[i + 1]? = some (t + x.height + max (x.cb : Rat) x'.mt.val) := by
  induction xs with
  | nil => intro off bm i t x x' h; simp at h
  | cons y xs ih =>
    intro off bm i t x x' h h' ht
    cases i with
    | zero =>
      simp only [List.getElem?_cons_zero, flowTops, Option.some.injEq] at h ht
      subst h ht
      cases xs with
      | nil => simp at h'
      | cons y' xs =>
        simp only [List.getElem?_cons_succ, List.getElem?_cons_zero, Option.some.injEq] at h'
        subst h'
        simp [flowTops, Down.gap]
    | succ i =>
      simp only [List.getElem?_cons_succ, flowTops] at h h' ht ⊢
      exact ih _ _ _ _ _ _ h h' ht

theorem flowTops_length (xs : List Down) : ∀ (off : Rat) (bm : Option Int), (flowTops off bm xs).length = xs.length := by
  induction xs with
  | nil => intros; rfl
  | cons x xs ih => intro off bm; simp [flowTops, ih]

theorem flowTops_le (xs : List Down) : ∀ (off : Rat) (bm : Option Int) (i j : Nat) (t t' : Rat) (x x' : Down), (∀ y ∈ xs, 0 ≤ y.height ∧ 0 ≤ y.cb) →
    i ≤ j → xs[i]? = some x → xs[j]? = some x' → (flowTops off bm xs)[i]? = some t → (flowTops off bm xs)[j]? = some t' →
    t + x.height ≤ t' + x'.height := by
  intro off bm i j
  induction j with
  | zero =>
    intro t t' x x' _ hij h h' ht ht'
    have : i = 0 := by omega
    subst this
    rw [h] at h'; rw [ht] at ht'
    cases h'; cases ht'; exact le_rfl
  | succ j ih =>
    intro t t' x x' hy hij h h' ht ht'
    rcases Nat.lt_or_ge j i with hlt | hge
    · have : i = j + 1 := by omega
      subst this
      rw [h] at h'; rw [ht] at ht'
      cases h'; cases ht'; exact le_rfl
    · have hj : j < xs.length := by
        have := (List.getElem?_eq_some_iff.1 h').1; omega
      have e1 : xs[j]? = some xs[j] := List.getElem?_eq_getElem hj
      have hj' : j < (flowTops off bm xs).length := by rw [flowTops_length]; exact hj
      have e2 : (flowTops off bm xs)[j]? = some (flowTops off bm xs)[j] := List.getElem?_eq_getElem hj'
      have a := ih t _ x _ hy hge h e1 ht e2
      have b := flowTops_next xs off bm j _ _ _ e1 h' e2
      rw [b] at ht'
      cases ht'
      have c1 := hy x' (List.mem_of_getElem? h')
      have c2 : (0 : Rat) ≤ ((xs[j]).cb : Rat) := by exact_mod_cast (hy _ (List.getElem_mem hj)).2
      have c3 := le_max_left (((xs[j]).cb : Rat)) x'.mt.val
      linarith [c1.1]

theorem forall₂_at {α β : Type} {P : α → β → Prop} {xs : List α} {ys : List β} (h : List.Forall₂ P xs ys) :
    ∀ {i : Nat} {x : α}, xs[i]? = some x → ∃ y, ys[i]? = some y ∧ P x y := by
  induction h with
  | nil => intro i x h; simp at h
  | cons hp _ ih =>
    intro i x h
    cases i with
    | zero => simp only [List.getElem?_cons_zero, Option.some.injEq] at h; subst h; exact ⟨_, rfl, hp⟩
    | succ i => simp only [List.getElem?_cons_succ] at h ⊢; exact ih h

theorem fits_of_grid {fp : FP} (L : fp.Laws) {x : Num} {q : Nat} (h : x.OnGrid) (hx : |x.val| ≤ (q : Rat)) : Fits fp (64 * q) x := h.fits L hx

theorem stands_fit {fp : FP} (L : fp.Laws) {b : Box} {x : Down} {q : Nat} (hg : b.OnGrid) (hb : b.Below q) (h : b.Stands x) : x.AllFit fp (64 * q) := by
  obtain ⟨e1, e2, e3, e4, e5, e6, e7⟩ := h
  refine ⟨fits_of_grid L (hg.margin .top _ e1) (hb.margin .top _ e1), ?_, ?_, fits_of_grid L (hg.height _ e4) (hb.height _ e4), ?_, ?_, ?_⟩
  · rw [← e2]; exact fits_of_grid L (hg.border .top) (hb.border .top)
  · rw [← e3]; exact fits_of_grid L (hg.padding .top) (hb.padding .top)
  · rw [← e5]; exact fits_of_grid L (hg.padding .bottom) (hb.padding .bottom)
  · rw [← e6]; exact fits_of_grid L (hg.border .bottom) (hb.border .bottom)
  · rw [← e7]; exact fits_of_grid L (onGrid_int _) (by rw [Num.val_int]; exact hb.collapse .bottom)

/-- Where the border box starts and ends. -/
theorem bottom_of_top {fp : FP} {b : Box} {x : Down} {k : Nat} (h : b.Stands x) (hx : x.AllFit fp k) (hc : Fits fp k b.v.content) (hk : 8 * k ≤ 2 ^ 53) :
    ∃ y, b.borderBoxBottom fp = some y ∧ y.val = (b.borderBoxTop fp).val + x.height := by
  obtain ⟨e1, e2, e3, e4, e5, e6, e7⟩ := h
  obtain ⟨f1, f2, f3, f4, f5, f6, f7⟩ := hx
  refine ⟨_, by unfold Box.borderBoxBottom; rw [e4]; rfl, ?_⟩
  unfold Box.borderBoxTop
  rw [e2, e3, e5, e6]
  obtain ⟨a1, a2⟩ := hc.sub f3 (by omega)
  obtain ⟨b1, b2⟩ := a2.sub f2 (by omega)
  obtain ⟨c1, c2⟩ := hc.add f4 (by omega)
  obtain ⟨d1, d2⟩ := c2.add f5 (by omega)
  obtain ⟨g1, g2⟩ := d2.add f6 (by omega)
  rw [g1, d1, c1, b1, a1]
  unfold Down.height
  ring

theorem within_kids {w w' : Option Num} {ps ps' : Option CSS} {n m : Node} {b : Box} (h : Within w ps n w' ps' m) (hl : m.layout = some b) :
    ∀ c ∈ m.children, ∀ cb, c.layout = some cb → ∃ bs, Shown n bs cb := by
  intro c hc cb hcb
  have : ∃ bs, Shown m bs cb := ⟨_, .step hl hc (.here hcb)⟩
  revert this
  clear hcb hc
  induction h with
  | here => exact id
  | step _ hn hc _ _ ih =>
    intro hm
    obtain ⟨bs, h⟩ := ih hl hm
    exact ⟨_, .step hn hc h⟩

/-- The stack in terms of layout units: all numbers of the boxes of the children are at most `q` pixels. -/
theorem grid_stack (fp : FP) (L : fp.Laws) (d : Display) (html5 : Bool) (p ps : Option CSS) (n n' m : Node) (w : Option Num) (q : Nat)
    (hd : d.OnGrid) (hbx : AllBoxed n) (hz : ∀ k, Visible k n → k.intrinsic.OnGrid)
    (h : layout fp d html5 p n = .ok n') (hm : Within (some d.contentWidth) p n' w ps m) (hh : ¬ m.Hidden) (hc : m.BlockContext)
    (hq : ∀ c ∈ m.children, ∀ b, c.layout = some b → b.Below q) (hlen : q * m.children.length ≤ 2 ^ 44) :
    ∃ ks rest xs, m.children = ks ++ rest ∧ (∀ c ∈ ks, c.BlockLevel) ∧ (∀ c ∈ rest, ¬ c.BlockLevel) ∧
      List.Forall₂ (fun c x => ∃ b, c.layout = some b ∧ b.Stands x ∧ ∃ y, b.borderBoxBottom fp = some y ∧ y.val = (b.borderBoxTop fp).val + x.height) ks xs ∧
      (∀ x ∈ xs, 0 ≤ x.cb) ∧
      List.Forall₂ (fun c t => ¬ c.Relative → ∃ b, c.layout = some b ∧ (b.borderBoxTop fp).val = t) ks (flowTops 0 none xs) := by
  obtain ⟨ks, rest, xs, e, h1, h2, h3, h4, h5⟩ := C45_stack_partial fp d html5 p ps n n' m w hbx h hm hh hc
  have g := layout_onGrid L hd hbx hz h
  obtain ⟨b, hb, _⟩ := layout_ranP hbx h hm hh
  have gk : ∀ c ∈ m.children, ∀ b, c.layout = some b → b.OnGrid := by
    intro c hc cb hcb
    obtain ⟨bs, hs⟩ := within_kids hm hb c hc cb hcb
    exact g bs cb hs
  have fit : ∀ c ∈ ks, ∀ x, (∃ b, c.layout = some b ∧ b.Stands x) → x.AllFit fp (64 * q) ∧ ∃ b, c.layout = some b ∧ b.Stands x ∧ Fits fp (64 * q) b.v.content := by
    rintro c hc x ⟨b, hb, hx⟩
    have hc' : c ∈ m.children := by rw [e]; exact List.mem_append_left _ hc
    exact ⟨stands_fit L (gk c hc' b hb) (hq c hc' b hb) hx, b, hb, hx, fits_of_grid L ((gk c hc' b hb).content .v) ((hq c hc' b hb).content .v)⟩
  have hk0 : ks ≠ [] → 8 * (64 * q) ≤ 2 ^ 53 := by
    intro hne
    have : 1 ≤ m.children.length := by
      rw [e, List.length_append]
      have := List.length_pos_iff.2 hne
      omega
    have : q ≤ q * m.children.length := Nat.le_mul_of_pos_right _ this
    omega
  refine ⟨ks, rest, xs, e, h1, h2, ?_, h4, ?_⟩
  · have : List.Forall₂ (fun c x => c ∈ ks ∧ ∃ b, c.layout = some b ∧ b.Stands x) ks xs := by
      have key : ∀ {ks' : List Node} {xs' : List Down}, List.Forall₂ (fun c x => ∃ b, c.layout = some b ∧ b.Stands x) ks' xs' → (∀ c ∈ ks', c ∈ ks) →
          List.Forall₂ (fun c x => c ∈ ks ∧ ∃ b, c.layout = some b ∧ b.Stands x) ks' xs' := by
        intro ks' xs' h
        induction h with
        | nil => intro _; exact .nil
        | cons hp _ ih => intro hin; exact .cons ⟨hin _ List.mem_cons_self, hp⟩ (ih fun c hc => hin c (List.mem_cons_of_mem _ hc))
      exact key h3 fun c hc => hc
    refine this.imp ?_
    rintro c x ⟨hcm, hx⟩
    obtain ⟨f1, b, hb, hs, f2⟩ := fit c hcm x hx
    exact ⟨b, hb, hs, bottom_of_top hs f1 f2 (hk0 fun e => by rw [e] at hcm; cases hcm)⟩
  · refine h5 (64 * q) (Or.inr L) ?_ ?_
    · intro x hx
      obtain ⟨c, hc, hp⟩ := forall₂_left h3.flip hx
      exact (fit c hc x hp).1
    · have : q * ks.length ≤ q * m.children.length := by
        refine Nat.mul_le_mul_left q ?_
        rw [e, List.length_append]; omega
      have e2 : 8 * (64 * q) * ks.length = 512 * (q * ks.length) := by ring
      rw [e2]; omega

/-- C45, for two neighbours. Where sizes are in layout units and not too large, the first child starts at 0 if it is not positioned, and of two
neighbouring block-level children that are not positioned, the second starts exactly the larger of the collapsed bottom margin of the first
and its own top margin below the end of the first; so they do not overlap. -/
theorem C45_next_partial (fp : FP) (L : fp.Laws) (d : Display) (html5 : Bool) (p ps : Option CSS) (n n' m : Node) (w : Option Num) (q : Nat)
    (hd : d.OnGrid) (hbx : AllBoxed n) (hz : ∀ k, Visible k n → k.intrinsic.OnGrid)
    (h : layout fp d html5 p n = .ok n') (hm : Within (some d.contentWidth) p n' w ps m) (hh : ¬ m.Hidden) (hc : m.BlockContext)
    (hq : ∀ c ∈ m.children, ∀ b, c.layout = some b → b.Below q) (hlen : q * m.children.length ≤ 2 ^ 44) :
    (∃ c b, m.children[0]? = some c ∧ c.layout = some b ∧ c.BlockLevel ∧ (¬ c.Relative → (b.borderBoxTop fp).val = 0)) ∧
    ∀ i c c', m.children[i]? = some c → m.children[i + 1]? = some c' → c'.BlockLevel → ¬ c.Relative → ¬ c'.Relative →
      ∃ b b' y mt, c.layout = some b ∧ c'.layout = some b' ∧ b.borderBoxBottom fp = some y ∧ b'.margin.top = .num mt ∧ 0 ≤ b.collapse.bottom ∧
        (b'.borderBoxTop fp).val = y.val + max (b.collapse.bottom : Rat) mt.val ∧ y.val ≤ (b'.borderBoxTop fp).val := by
  obtain ⟨ks, rest, xs, e, h1, h2, h3, h4, h5⟩ := grid_stack fp L d html5 p ps n n' m w q hd hbx hz h hm hh hc hq hlen
  constructor
  · cases ks with
    | nil =>
      obtain ⟨_, _, c, hcm, hcb⟩ := hc
      rw [e] at hcm
      exact absurd hcb (h2 c hcm)
    | cons c ks =>
      obtain ⟨x, hx, b, hb, _⟩ := forall₂_at h3 (i := 0) (x := c) rfl
      obtain ⟨t, ht, hr⟩ := forall₂_at h5 (i := 0) (x := c) rfl
      refine ⟨c, b, by rw [e]; rfl, hb, h1 c List.mem_cons_self, fun hrel => ?_⟩
      obtain ⟨b', hb', e'⟩ := hr hrel
      rw [hb] at hb'
      cases hb'
      rw [e']
      cases xs with
      | nil => cases hx
      | cons x' xs =>
        simp only [flowTops, List.getElem?_cons_zero, Option.some.injEq] at ht
        rw [← ht]; simp [Down.gap]
  · intro i c c' hi hi' hbl hr hr'
    have hlt : i + 1 < ks.length := by
      by_contra hge
      rw [e, List.getElem?_append_right (by omega)] at hi'
      exact h2 c' (List.mem_of_getElem? hi') hbl
    rw [e, List.getElem?_append_left (by omega)] at hi
    rw [e, List.getElem?_append_left hlt] at hi'
    obtain ⟨x, hx, b, hb, hs, y, hy, hyv⟩ := forall₂_at h3 hi
    obtain ⟨x', hx', b', hb', hs', _⟩ := forall₂_at h3 hi'
    obtain ⟨t, ht, k⟩ := forall₂_at h5 hi
    obtain ⟨t', ht', k'⟩ := forall₂_at h5 hi'
    obtain ⟨b2, hb2, e2⟩ := k hr
    obtain ⟨b3, hb3, e3⟩ := k' hr'
    rw [hb] at hb2; rw [hb'] at hb3
    cases hb2; cases hb3
    have := flowTops_next xs 0 none i t x x' hx hx' ht
    rw [ht'] at this
    have e4 : t' = t + x.height + max (x.cb : Rat) x'.mt.val := by simpa using this
    have hcb : b.collapse.bottom = x.cb := hs.2.2.2.2.2.2
    have h0 : 0 ≤ x.cb := h4 x (List.mem_of_getElem? hx)
    have h0' : (0 : Rat) ≤ (x.cb : Rat) := by exact_mod_cast h0
    refine ⟨b, b', y, x'.mt, hb, hb', hy, hs'.1, by rw [hcb]; exact h0, ?_, ?_⟩
    · rw [e3, e4, hyv, e2, hcb]
    · rw [e3, e4, hyv, e2]
      have := le_max_left (x.cb : Rat) x'.mt.val
      linarith

/-- Fractional margins are never collapsed: the bottom margin of 7.5 pixels has no effect. -/
theorem C45_false_fraction : [0, 1].map (fun i => (laidBox .b64 screen (block [] [
      block [(.height, px 10), (.margin .bottom, .unit ⟨.len .px, .fin (.flt (15 / 2))⟩)] [], block [(.height, px 10)] []]) [i]).map
      (fun b => (b.margin.bottom, b.borderBoxTop .b64, b.borderBoxBottom .b64))) =
    [some (.num (.flt (15 / 2)), .int 0, some (.int 10)), some (.num (.int 0), .int 10, some (.int 20))] := by decide +kernel

/-! ## C46: automatic heights -/

/-- C46. The content height of a block with `height: auto` and children is the end of the border box of the last child. -/
theorem C46_end_partial (fp : FP) (d : Display) (html5 : Bool) (p ps : Option CSS) (n n' m last : Node) (w : Option Num)
    (h : layout fp d html5 p n = .ok n') (hm : Inside html5 (some d.contentWidth) p n' w ps m) (hb : m.BlockLevel)
    (ha : m.style.get .height = kw "auto") (hl : m.children.getLast? = some last) :
    ∃ b lb y, m.layout = some b ∧ last.layout = some lb ∧ lb.borderBoxBottom fp = some y ∧ b.contentHeight = some y := by
  have hh : ¬ m.Hidden := blockLevel_display ((blockLevel_iff m).2 hb)
  obtain ⟨b, sz, b4, cs4, b5, cs5, h1, h2, h3, h4⟩ := (layout_ran_inside h hm hh).high
  obtain ⟨x, b6, h5, h6⟩ := blockHeight_content (heightAndMargins_block h2 ((blockLevel_iff m).2 hb))
  unfold blockContentHeight at h6
  rw [if_pos ((isKw_iff _ _).2 ha)] at h6
  have hlast : cs4.getLast?.map Node.noOrigin = some last.noOrigin := by
    rw [← List.getLast?_map, h4, List.getLast?_map, hl]; rfl
  cases hc : cs4.getLast? with
  | none => rw [hc] at hlast; cases hlast
  | some c =>
    rw [hc] at hlast h6
    have hlast : c.noOrigin = last.noOrigin := by simpa using hlast
    simp only at h6
    cases hcl : c.layout with
    | none => rw [hcl] at h6; cases h6
    | some cb =>
      rw [hcl] at h6
      simp only at h6
      obtain ⟨y, hy, h6⟩ := bind_eq_ok.1 h6
      cases h6
      obtain ⟨lb, e1, e2⟩ := noOrigin_boxOf hlast hcl
      refine ⟨b, lb, x, h1, e1, ?_, h3.trans h5⟩
      have : lb.noOrigin.borderBoxBottom fp = some x := by rw [← e2]; exact need_ok hy
      exact this

/-- C46. So where sizes are in layout units and not too large, no border box has a negative height and the last child is an unpositioned
block, the content box encloses all unpositioned block-level children. -/
theorem C46_encloses_partial (fp : FP) (L : fp.Laws) (d : Display) (html5 : Bool) (p ps : Option CSS) (n n' m : Node) (w : Option Num) (q : Nat)
    (hd : d.OnGrid) (hbx : AllBoxed n) (hz : ∀ k, Visible k n → k.intrinsic.OnGrid)
    (h : layout fp d html5 p n = .ok n') (hm : Inside html5 (some d.contentWidth) p n' w ps m) (hb : m.BlockLevel) (hc : m.BlockContext)
    (ha : m.style.get .height = kw "auto") (hlast : ∀ c, m.children.getLast? = some c → c.BlockLevel ∧ ¬ c.Relative)
    (hq : ∀ c ∈ m.children, ∀ b, c.layout = some b → b.Below q) (hlen : q * m.children.length ≤ 2 ^ 44)
    (hpos : ∀ c ∈ m.children, ∀ b x, c.layout = some b → b.Stands x → 0 ≤ x.height) :
    ∃ b y, m.layout = some b ∧ b.contentHeight = some y ∧ ∀ c ∈ m.children, c.BlockLevel → ¬ c.Relative →
      ∃ cb z, c.layout = some cb ∧ cb.borderBoxBottom fp = some z ∧ 0 ≤ (cb.borderBoxTop fp).val ∧ (cb.borderBoxTop fp).val ≤ z.val ∧ z.val ≤ y.val := by
  have hh : ¬ m.Hidden := blockLevel_display ((blockLevel_iff m).2 hb)
  obtain ⟨ks, rest, xs, e, h1, h2, h3, h4, h5⟩ := grid_stack fp L d html5 p ps n n' m w q hd hbx hz h (inside_within hm) hh hc hq hlen
  have hne : m.children ≠ [] := by
    obtain ⟨_, _, c, hcm, _⟩ := hc
    exact List.ne_nil_of_mem hcm
  obtain ⟨last, hl⟩ : ∃ last, m.children.getLast? = some last := ⟨_, List.getLast?_eq_some_getLast hne⟩
  obtain ⟨lb1, lb2⟩ := hlast last hl
  have hrest : rest = [] := by
    by_contra hr
    rw [e, List.getLast?_append_of_ne_nil _ hr] at hl
    exact h2 last (List.mem_of_getLast? hl) lb1
  subst hrest
  rw [List.append_nil] at e
  obtain ⟨b, lb, y, k1, k2, k3, k4⟩ := C46_end_partial fp d html5 p ps n n' m last w h hm hb ha hl
  refine ⟨b, y, k1, k4, fun c hcm hbl hr => ?_⟩
  rw [e] at hl hcm hpos
  obtain ⟨i, hi⟩ := List.getElem?_of_mem hcm
  have hi' := (List.getElem?_eq_some_iff.1 hi).1
  have hll : ks[ks.length - 1]? = some last := by rw [← List.getLast?_eq_getElem?]; exact hl
  obtain ⟨x, hx, cb, hcb, hs, z, hz', hzv⟩ := forall₂_at h3 hi
  obtain ⟨xl, hxl, cbl, hcbl, hsl, zl, hzl, hzlv⟩ := forall₂_at h3 hll
  rw [k2] at hcbl
  cases hcbl
  rw [k3] at hzl
  cases hzl
  obtain ⟨t, ht, k⟩ := forall₂_at h5 hi
  obtain ⟨tl, htl, kl⟩ := forall₂_at h5 hll
  obtain ⟨b2, hb2, e2⟩ := k hr
  obtain ⟨b3, hb3, e3⟩ := kl lb2
  rw [hcb] at hb2; rw [k2] at hb3
  cases hb2; cases hb3
  have hpos' : ∀ v ∈ xs, 0 ≤ v.height ∧ 0 ≤ v.cb := by
    intro v hv
    obtain ⟨c', hc', b', hb', hs', _⟩ := forall₂_left h3.flip hv
    exact ⟨hpos c' hc' b' v hb' hs', h4 v hv⟩
  have hle := flowTops_le xs 0 none i (ks.length - 1) t tl x xl hpos' (by omega) hx hxl ht htl
  have h0 : 0 ≤ t := by
    have hks : 0 < ks.length := by omega
    obtain ⟨x0, hx0, _⟩ := forall₂_at h3 (i := 0) (x := ks[0]) (List.getElem?_eq_getElem hks)
    cases i with
    | zero =>
      cases xs with
      | nil => cases hx0
      | cons v xs =>
        simp only [flowTops, List.getElem?_cons_zero, Option.some.injEq] at ht
        rw [← ht]; simp [Down.gap]
    | succ i =>
      have hlx : i < xs.length := by
        have := (List.getElem?_eq_some_iff.1 hx).1; omega
      have hlf : i < (flowTops 0 none xs).length := by rw [flowTops_length]; exact hlx
      have a1 : xs[i]? = some xs[i] := List.getElem?_eq_getElem hlx
      have a2 : (flowTops 0 none xs)[i]? = some (flowTops 0 none xs)[i] := List.getElem?_eq_getElem hlf
      have a3 := flowTops_next xs 0 none i _ _ _ a1 hx a2
      rw [ht] at a3
      have a3 := Option.some.inj a3
      have hx0l : 0 < xs.length := by omega
      have b1 : xs[0]? = some xs[0] := List.getElem?_eq_getElem hx0l
      have hf0 : 0 < (flowTops 0 none xs).length := by rw [flowTops_length]; exact hx0l
      have b2 : (flowTops 0 none xs)[0]? = some (flowTops 0 none xs)[0] := List.getElem?_eq_getElem hf0
      have b3 := flowTops_le xs 0 none 0 i _ _ _ _ hpos' (by omega) b1 a1 b2 a2
      have b4 : (flowTops 0 none xs)[0] = 0 := by
        cases xs with
        | nil => cases hx0
        | cons v xs => simp [flowTops, Down.gap]
      have b5 := (hpos' _ (List.getElem_mem hx0l)).1
      have c2 : (0 : Rat) ≤ ((xs[i]).cb : Rat) := by exact_mod_cast (hpos' _ (List.getElem_mem hlx)).2
      have c3 := le_max_left (((xs[i]).cb : Rat)) x.mt.val
      linarith
  refine ⟨cb, z, hcb, hz', by rw [e2]; exact h0, ?_, ?_⟩
  · rw [hzv]
    have := (hpos' x (List.mem_of_getElem? hx)).1
    linarith
  · rw [hzv, e2, hzlv, e3]; exact hle

/-- C46. Without children the content height is `min-height`, or 0. -/
theorem C46_empty_partial (fp : FP) (d : Display) (html5 : Bool) (p ps : Option CSS) (n n' m : Node) (w : Option Num)
    (h : layout fp d html5 p n = .ok n') (hm : Inside html5 (some d.contentWidth) p n' w ps m) (hb : m.BlockLevel)
    (ha : m.style.get .height = kw "auto") (hc : m.children = []) :
    ∃ b x, m.layout = some b ∧ b.contentHeight = some x ∧ (m.style.get .minHeight = kw "auto" → x.val = 0) ∧
      ∀ lo, (m.style.get .minHeight).Length fp d (dummyFont fp) lo → x = lo := by
  have hh : ¬ m.Hidden := blockLevel_display ((blockLevel_iff m).2 hb)
  obtain ⟨b, sz, b4, cs4, b5, cs5, h1, h2, h3, h4⟩ := (layout_ran_inside h hm hh).high
  obtain ⟨x, b6, h5, h6⟩ := blockHeight_content (heightAndMargins_block h2 ((blockLevel_iff m).2 hb))
  refine ⟨b, x, h1, h3.trans h5, ?_⟩
  rw [hc] at h4
  have : cs4 = [] := by simpa using h4
  subst this
  unfold blockContentHeight at h6
  rw [if_pos ((isKw_iff _ _).2 ha)] at h6
  simp only [List.getLast?_nil] at h6
  constructor
  · intro ha
    rw [if_pos ((isKw_iff _ _).2 ha)] at h6
    cases h6
    exact Num.val_int 0
  · intro lo hlo
    rw [if_neg fun e => length_ne_kw hlo "auto" ((isKw_iff _ _).1 e)] at h6
    obtain ⟨y, hy, h6⟩ := bind_eq_ok.1 h6
    cases h6
    rw [length_px hlo] at hy
    exact (Except.ok.inj hy).symm

/-- An outer block around an inner one around three blocks. -/
example : [[], [0]].map (fun p => (laidBox .b64 screen (block [] [block [(.padding .bottom, px 6)] [block [(.height, px 10), (.margin .bottom, px 8)] [],
      block [(.height, px 20), (.borderWidth .bottom, px 1)] [], block [(.height, px 30)] []]]) p).map Box.contentHeight) =
    [some (some (.int 75)), some (some (.int 69))] := by decide +kernel

/-- A last child that is shifted up makes its parent shorter than the children before it. -/
theorem C46_false_relative : [[], [0], [1]].map (fun p => (laidBox .b64 screen (block [] [block [(.height, px 50)] [],
      block [(.height, px 10), (.position, kw "relative"), (.top, px (-40))] []]) p).map (fun b => (b.borderBoxTop .b64, b.borderBoxBottom .b64))) =
    [some (.int 0, some (.int 20)), some (.int 0, some (.int 50)), some (.int 10, some (.int 20))] := by decide +kernel

/-- Inline content after blocks is dropped from the layout, but its box, of height 0 at the top, is taken for the last child. -/
theorem C46_false_trailing : [[], [0], [1]].map (fun p => (laidBox .b64 screen (block [] [block [(.height, px 50)] [], node [] []]) p).map
      (fun b => (b.borderBoxTop .b64, b.borderBoxBottom .b64))) =
    [some (.int 0, some (.int 0)), some (.int 0, some (.int 50)), some (.int 0, some (.int 0))] := by decide +kernel

end Colosseum
