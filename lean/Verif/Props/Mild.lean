import Verif.Lemmas.Mild
import Verif.Props.Widths
import Verif.Props.Margins
import Verif.Props.Stacks
import Verif.Props.Root
import Verif.Props.Inline
import Verif.Props.Siblings
import Verif.Lemmas.Alike

/-!
# C80: documents of moderate size are laid out without rounding errors
-/

namespace Colosseum

/-! ## What follows from the bounds -/

theorem moderate_small {fp : FP} (L : fp.Laws) {d : Display} {M : Nat} {html5 : Bool} {p : Option CSS} {n n' : Node} (hn : n.Moderate fp d M)
    (h : layout fp d html5 p n = .ok n') :
    AllSmall fp (64 * M) (64 * (16 * (M * n.count))) (64 * (16 * (M * n.count))) (64 * (16 * (M * n.count))) n' := by
  have e : 64 * (16 * (M * n.count)) = 16 * (64 * M * n.count) := by ring
  rw [e]
  refine layout_small L hn.least hn.boxed hn.mild ?_ h
  have := hn.size
  have e : 17 * (64 * M * n.count) = 1088 * (M * n.count) := by ring
  omega

theorem moderate_pos {fp : FP} {d : Display} {M : Nat} {n : Node} : M ≤ 16 * (M * n.count) := by
  have := Nat.le_mul_of_pos_right M (count_pos n)
  omega

theorem small_below {fp : FP} {M q : Nat} {b : Box} (hM : M ≤ q) (h : b.Small fp (64 * M) (64 * q) (64 * q) (64 * q) (64 * q)) : b.Below q where
  width x hx := (h.width x hx).abs
  height x hx := (h.height x hx).abs
  content a := by cases a; exacts [h.top.abs, h.left.abs]
  margin t x hx := by
    cases t
    · exact ((h.ends .top (Or.inl rfl) x hx).mono (by omega)).abs
    · exact (h.sides .right (Or.inr rfl) x hx).abs
    · exact ((h.ends .bottom (Or.inr rfl) x hx).mono (by omega)).abs
    · exact (h.sides .left (Or.inl rfl) x hx).abs
  border t := ((h.border t).mono (by omega)).abs
  padding t := ((h.padding t).mono (by omega)).abs
  collapse t := by
    cases t
    · exact ((h.collapse .top (Or.inl rfl)).mono (by omega)).abs
    · exact (h.walls .right (Or.inr rfl)).abs
    · exact ((h.collapse .bottom (Or.inr rfl)).mono (by omega)).abs
    · exact (h.walls .left (Or.inl rfl)).abs

/-- C80. No number in the layout of such a document is larger than 16 times the largest length times the number of elements. -/
theorem C80_bound (fp : FP) (L : fp.Laws) (d : Display) (M : Nat) (html5 : Bool) (p : Option CSS) (n n' : Node) (hn : n.Moderate fp d M)
    (h : layout fp d html5 p n = .ok n') (bs : List Box) (b : Box) (hs : Shown n' bs b) : b.Below (16 * (M * n.count)) :=
  small_below (moderate_pos (fp := fp) (d := d)) (moderate_small L hn h bs b hs)

theorem moderate_below {fp : FP} (L : fp.Laws) {d : Display} {M : Nat} {html5 : Bool} {p : Option CSS} {n n' : Node} (hn : n.Moderate fp d M)
    (h : layout fp d html5 p n = .ok n') {w : Option Num} {ps : Option CSS} {m : Node} (hm : Within (some d.contentWidth) p n' w ps m) :
    (∀ b, m.layout = some b → b.Small fp (64 * M) (64 * (16 * (M * n.count))) (64 * (16 * (M * n.count))) (64 * (16 * (M * n.count))) (64 * (16 * (M * n.count)))) ∧
      ∀ y, w = some y → |y.val| ≤ 2 ^ 44 := by
  obtain ⟨h1, h2⟩ := within_shown hm
  have hs := hn.size
  refine ⟨fun b hb => ?_, fun y hy => ?_⟩
  · obtain ⟨bs, hb⟩ := h1 b hb
    exact moderate_small L hn h bs b hb
  · rcases h2 with rfl | ⟨bs, b, hb, rfl⟩
    · cases hy
      have hp := moderate_pos (fp := fp) (d := d) (M := M) (n := n)
      have h3 := hn.mild.1.size.1
      have h4 : (M : Rat) ≤ ((2 ^ 44 : Nat) : Rat) := by exact_mod_cast (by omega : M ≤ 2 ^ 44)
      push_cast at h4
      linarith
    · have h3 := ((moderate_small L hn h bs b hb).width y hy).abs
      have h4 : ((16 * (M * n.count) : Nat) : Rat) ≤ ((2 ^ 44 : Nat) : Rat) := by exact_mod_cast (by omega : 16 * (M * n.count) ≤ 2 ^ 44)
      push_cast at h4 h3
      linarith

theorem moderate_grid {fp : FP} {d : Display} {M : Nat} {n : Node} (hn : n.Moderate fp d M) : ∀ k, Visible k n → k.intrinsic.OnGrid :=
  fun k hk => (hn.mild.2 k hk).grid

theorem near_44 {fp : FP} {q : Nat} (hq : q ≤ 2 ^ 44) {x : Num} (h : Near fp (64 * q) x) : |x.val| ≤ 2 ^ 44 := by
  have h3 := h.abs
  have h4 : (q : Rat) ≤ ((2 ^ 44 : Nat) : Rat) := by exact_mod_cast hq
  push_cast at h4
  linarith

theorem small_across {fp : FP} {K q : Nat} (hK : K ≤ 64 * q) (hq : q ≤ 2 ^ 44) {b : Box} (h : b.Small fp K (64 * q) (64 * q) (64 * q) (64 * q)) {x : Across}
    (hx : b.Measures x) : ∀ y ∈ [x.ml, x.bl, x.pl, x.w, x.pr, x.br, x.mr], |y.val| ≤ 2 ^ 44 := by
  obtain ⟨h1, h2, h3, h4, h5, h6, h7⟩ := hx
  intro y hy
  simp only [List.mem_cons, List.not_mem_nil, or_false] at hy
  rcases hy with rfl | rfl | rfl | rfl | rfl | rfl | rfl
  · exact near_44 hq (h.sides .left (Or.inl rfl) _ h1)
  · rw [← h2]; exact near_44 hq ((h.border .left).mono hK)
  · rw [← h3]; exact near_44 hq ((h.padding .left).mono hK)
  · exact near_44 hq (h.width _ h4)
  · rw [← h5]; exact near_44 hq ((h.padding .right).mono hK)
  · rw [← h6]; exact near_44 hq ((h.border .right).mono hK)
  · exact near_44 hq (h.sides .right (Or.inr rfl) _ h7)

/-! ## Horizontally -/

/-- C80. The seven horizontal measures of a block add up exactly to the width of its containing block, or both margins are automatic and the sum is less
than two pixels short, because of the halving. -/
theorem C80_across (fp : FP) (L : fp.Laws) (d : Display) (M : Nat) (html5 : Bool) (p ps : Option CSS) (n n' m : Node) (w : Option Num)
    (hn : n.Moderate fp d M) (h : layout fp d html5 p n = .ok n') (hm : Within (some d.contentWidth) p n' w ps m) (hb : m.BlockLevel) :
    ∃ b x size, m.layout = some b ∧ b.Measures x ∧ w = some size ∧
      (x.sum = size.val ∨ m.style.get .width ≠ kw "auto" ∧ m.style.get (.margin .left) = kw "auto" ∧
        m.style.get (.margin .right) = kw "auto" ∧ x.sum ≤ size.val ∧ size.val < x.sum + 2) := by
  obtain ⟨b, x, size, h1, h2, h3, h4⟩ := C44_grid_partial fp L d html5 p ps n n' m w hn.mild.1.grid hn.boxed (moderate_grid hn) h hm hb
  obtain ⟨g1, g2⟩ := moderate_below L hn h hm
  have hs := hn.size
  have hp := moderate_pos (fp := fp) (d := d) (M := M) (n := n)
  exact ⟨b, x, size, h1, h2, h3, h4 (g2 _ h3) (small_across (by omega) (by omega) (g1 b h1) h2)⟩

theorem margin_mild {fp : FP} (L : fp.Laws) {v : Val} {d : Display} {M : Nat} (hv : v.Mild fp d M) {w l : Option Num} (h : v.Margin fp ⟨d, dummyFont fp, w⟩ l) :
    ∀ y, l = some y → Near fp (64 * M) y := by
  rintro y rfl
  obtain ⟨u, rfl, hu⟩ := h
  exact mild_px L hv hu

/-- A horizontal margin is no wider than the bound for the containers. -/
theorem margin_part {fp : FP} (L : fp.Laws) {v : Val} {d : Display} {M S : Nat} {B : Prop} (hv : v.Mild fp d M ∨ B ∧ v.Part) {w l : Option Num}
    (hw : ∀ y, w = some y → Near fp S y) (hS : 64 * M ≤ S) (hk : S ≤ 2 ^ 49) (h : v.Margin fp ⟨d, dummyFont fp, w⟩ l) : ∀ y, l = some y → Near fp S y := by
  rintro y rfl
  obtain ⟨u, rfl, hu⟩ := h
  exact wide_px L (B := B) (hv.imp id fun h => ⟨h.1, h.2.share⟩) hw hS hk hu

theorem moderate_container {fp : FP} (L : fp.Laws) {d : Display} {M : Nat} {html5 : Bool} {p : Option CSS} {n n' : Node} (hn : n.Moderate fp d M)
    (h : layout fp d html5 p n = .ok n') {w : Option Num} {ps : Option CSS} {m : Node} (hm : Within (some d.contentWidth) p n' w ps m) :
    ∀ y, w = some y → Near fp (64 * (16 * (M * n.count))) y := by
  intro y hy
  rcases (within_shown hm).2 with rfl | ⟨bs, b, hb, rfl⟩
  · cases hy
    have hp := moderate_pos (fp := fp) (d := d) (M := M) (n := n)
    exact (hn.mild.1.grid.1.near L hn.mild.1.size.1).mono (by omega)
  · exact (moderate_small L hn h bs b hb).width y hy

theorem within_visible {w w' : Option Num} {ps ps' : Option CSS} {n m : Node} (h : Within w ps n w' ps' m) (hm : ¬ m.Hidden) : Visible m n := by
  induction h with
  | here => exact .here hm
  | step hn _ hc _ _ ih => exact .step hn hc (ih hm)

theorem blockLevel_not_hidden {m : Node} (h : m.BlockLevel) : ¬ m.Hidden := by
  intro e
  have h1 := block_not_hidden ((blockLevel_iff m).2 h)
  have e : m.style.get .display = .none := e
  rw [e] at h1
  cases h1

/-- Every element that the layout came to is mild. -/
theorem moderate_mild {fp : FP} {d : Display} {M : Nat} {html5 : Bool} {p : Option CSS} {n n' : Node} (hn : n.Moderate fp d M)
    (h : layout fp d html5 p n = .ok n') {w : Option Num} {ps : Option CSS} {m : Node} (hm : Within (some d.contentWidth) p n' w ps m) (hh : ¬ m.Hidden) :
    m.Mild fp d M := by
  obtain ⟨m', h1, h2⟩ := visible_strip (layout_strip h) (within_visible hm hh)
  exact mild_strip h2 (hn.mild.2 m' h1)

/-- C80. The horizontal margins of a block are those of CSS 2.1, section 10.3.3; two automatic margins are rounded down to whole pixels. -/
theorem C80_margins (fp : FP) (L : fp.Laws) (d : Display) (M : Nat) (html5 : Bool) (p ps : Option CSS) (n n' m : Node) (w l r : Option Num)
    (hn : n.Moderate fp d M) (h : layout fp d html5 p n = .ok n') (hm : Within (some d.contentWidth) p n' w ps m) (hb : m.BlockLevel)
    (hl : (m.style.get (.margin .left)).Margin fp ⟨d, dummyFont fp, w⟩ l) (hr : (m.style.get (.margin .right)).Margin fp ⟨d, dummyFont fp, w⟩ r) :
    ∃ b x size, m.layout = some b ∧ b.Measures x ∧ w = some size ∧
      ∀ u, u = usedMargins ((m.style.get .direction).isKw "ltr") ((m.style.get .width).isKw "auto") size.val x.inner (l.map Num.val) (r.map Num.val) →
        (l ≠ none ∨ r ≠ none ∨ m.style.get .width = kw "auto" ∨ size.val < x.inner) ∧ x.ml.val = u.1 ∧ x.mr.val = u.2 ∨
        l = none ∧ r = none ∧ m.style.get .width ≠ kw "auto" ∧ x.inner ≤ size.val ∧ x.ml.val = ⌊u.1⌋ ∧ x.mr.val = ⌊u.2⌋ := by
  obtain ⟨b, x, size, h1, h2, h3, h4⟩ := C64_grid_partial fp L d html5 p ps n n' m w l r hn.mild.1.grid hn.boxed (moderate_grid hn) h hm hb hl hr
  obtain ⟨g1, g2⟩ := moderate_below L hn h hm
  have hs := hn.size
  have hp := moderate_pos (fp := fp) (d := d) (M := M) (n := n)
  have hq := moderate_mild hn h hm (blockLevel_not_hidden hb)
  refine ⟨b, x, size, h1, h2, h3, fun u hu => h4 u (g2 _ h3) (small_across (by omega) (by omega) (g1 b h1) h2) ?_ ?_ hu⟩
  · exact fun y hy => near_44 (q := 16 * (M * n.count)) (by omega) (margin_part L (hq.margin .left) (moderate_container L hn h hm) (by omega) (by omega) hl y hy)
  · exact fun y hy => near_44 (q := 16 * (M * n.count)) (by omega) (margin_part L (hq.margin .right) (moderate_container L hn h hm) (by omega) (by omega) hr y hy)

/-- C80. The content of a block that is not relatively positioned starts right of its left margin, border and padding. -/
theorem C80_left (fp : FP) (L : fp.Laws) (d : Display) (M : Nat) (html5 : Bool) (p ps : Option CSS) (n n' m : Node) (w : Option Num)
    (hn : n.Moderate fp d M) (h : layout fp d html5 p n = .ok n') (hm : Within (some d.contentWidth) p n' w ps m) (hb : m.BlockLevel) (hr : ¬ m.Relative) :
    ∃ b ml, m.layout = some b ∧ b.margin.left = .num ml ∧ (b.pos .h).content.val = ml.val + b.border.left.val + b.padding.left.val := by
  obtain ⟨b, ml, h1, h2, h3⟩ := C65_left_partial fp d html5 p ps n n' m w h hm hb hr
  have g := (moderate_below L hn h hm).1 b h1
  have hs := hn.size
  have hp := moderate_pos (fp := fp) (d := d) (M := M) (n := n)
  exact ⟨b, ml, h1, h2, h3 (64 * (16 * (M * n.count))) (by omega) (g.sides .left (Or.inl rfl) _ h2).fits ((g.border .left).mono (by omega)).fits
    ((g.padding .left).mono (by omega)).fits⟩

/-- C80. A relatively positioned block is moved from there exactly by its offset; two offsets only where the direction `ltr` of the container is from left to right. -/
theorem C80_moved (fp : FP) (L : fp.Laws) (d : Display) (M : Nat) (html5 ltr : Bool) (p ps : Option CSS) (n n' m : Node) (w l r : Option Num)
    (hn : n.Moderate fp d M) (h : layout fp d html5 p n = .ok n') (hm : Within (some d.contentWidth) p n' w ps m) (hb : m.BlockLevel) (hr : m.Relative)
    (hl : (m.style.get .left).Margin fp ⟨d, dummyFont fp, w⟩ l) (hrt : (m.style.get .right).Margin fp ⟨d, dummyFont fp, w⟩ r)
    (hd : l = none ∨ r = none ∨ ltr = true) :
    ∃ b ml, m.layout = some b ∧ b.margin.left = .num ml ∧
      (b.pos .h).content.val = ml.val + b.border.left.val + b.padding.left.val +
        relativeShift ltr (l.map Num.val) (r.map Num.val) := by
  obtain ⟨b, ml, h1, h2, h3⟩ := C50_left_partial fp d html5 ltr p ps n n' m w l r h hm hb hr hl hrt hd
  have g := (moderate_below L hn h hm).1 b h1
  have hs := hn.size
  have hp := moderate_pos (fp := fp) (d := d) (M := M) (n := n)
  have hq := moderate_mild hn h hm (blockLevel_not_hidden hb)
  exact ⟨b, ml, h1, h2, h3 (64 * (16 * (M * n.count))) (by omega) (g.sides .left (Or.inl rfl) _ h2).fits ((g.border .left).mono (by omega)).fits
    ((g.padding .left).mono (by omega)).fits (fun y hy => ((margin_mild L (hq.offset .left (by simp)).1 hl y hy).mono (by omega)).fits)
    (fun y hy => ((margin_mild L (hq.offset .right (by simp)).1 hrt y hy).mono (by omega)).fits)⟩

/-! ## Vertically -/

theorem children_count (m : Node) : m.children.length + 1 ≤ m.count := by
  obtain ⟨s, z, l, cs⟩ := m
  rw [count_mk]
  show cs.length + 1 ≤ _
  have : cs.length ≤ (cs.map Node.count).sum := by
    induction cs with
    | nil => exact le_rfl
    | cons c cs ih =>
      have := count_pos c
      rw [List.map_cons, List.sum_cons, List.length_cons]
      omega
  omega

theorem child_count {n c : Node} (h : c ∈ n.children) : c.count + 1 ≤ n.count := by
  obtain ⟨s, z, l, cs⟩ := n
  rw [count_mk]
  have := count_le (show c ∈ cs from h)
  omega

theorem within_count {w w' : Option Num} {ps ps' : Option CSS} {n m : Node} (h : Within w ps n w' ps' m) : m.count ≤ n.count := by
  induction h with
  | here => exact le_rfl
  | step _ _ hc _ _ ih => have := child_count hc; omega

theorem shown_count {n : Node} {bs : List Box} {b : Box} (h : Shown n bs b) : bs.length + 1 ≤ n.count := by
  induction h with
  | @here n b h => exact count_pos n
  | step h hc _ ih =>
    have := child_count hc
    rw [List.length_cons]; omega

theorem moderate_stack {fp : FP} {d : Display} {M : Nat} {html5 : Bool} {p ps : Option CSS} {n n' m : Node} {w : Option Num}
    (hn : n.Moderate fp d M) (h : layout fp d html5 p n = .ok n') (hm : Within (some d.contentWidth) p n' w ps m) :
    16 * (M * n.count) * m.children.length ≤ 2 ^ 44 := by
  have h1 := children_count m
  have h2 := within_count hm
  rw [count_same (layout_strip h)] at h2
  have h3 : M * n.count * m.children.length ≤ M * n.count * n.count := Nat.mul_le_mul_left _ (by omega)
  have h4 := hn.spread
  have e : 16 * (M * n.count) * m.children.length = 16 * (M * n.count * m.children.length) := by ring
  omega

theorem within_kid {w w' : Option Num} {ps ps' : Option CSS} {n m : Node} (h : Within w ps n w' ps' m) {mb b : Box} {c : Node} (hm : m.layout = some mb)
    (hc : c ∈ m.children) (hb : c.layout = some b) : ∃ bs, Shown n bs b := by
  induction h with
  | here => exact ⟨[mb], .step hm hc (.here hb)⟩
  | step _ hl hc' _ _ ih =>
    obtain ⟨bs, hs⟩ := ih hm hc
    exact ⟨_, .step hl hc' hs⟩

theorem moderate_kids {fp : FP} (L : fp.Laws) {d : Display} {M : Nat} {html5 : Bool} {p ps : Option CSS} {n n' m : Node} {w : Option Num}
    (hn : n.Moderate fp d M) (h : layout fp d html5 p n = .ok n') (hm : Within (some d.contentWidth) p n' w ps m) (hh : ¬ m.Hidden) :
    ∀ c ∈ m.children, ∀ b, c.layout = some b → b.Below (16 * (M * n.count)) := by
  obtain ⟨mb, hmb, _⟩ := layout_ranP hn.boxed h hm hh
  intro c hc b hb
  obtain ⟨bs, hs⟩ := within_kid hm hmb hc hb
  exact C80_bound fp L d M html5 p n n' hn h bs b hs

/-- C80. The border box of the first block in a stack starts at the top, and every other one exactly the collapsed margin below the one before. -/
theorem C80_stack (fp : FP) (L : fp.Laws) (d : Display) (M : Nat) (html5 : Bool) (p ps : Option CSS) (n n' m : Node) (w : Option Num)
    (hn : n.Moderate fp d M) (h : layout fp d html5 p n = .ok n') (hm : Within (some d.contentWidth) p n' w ps m) (hh : ¬ m.Hidden) (hc : m.BlockContext) :
    (∃ c b, m.children[0]? = some c ∧ c.layout = some b ∧ c.BlockLevel ∧ (¬ c.Relative → (b.borderBoxTop fp).val = 0)) ∧
    ∀ i c c', m.children[i]? = some c → m.children[i + 1]? = some c' → c'.BlockLevel → ¬ c.Relative → ¬ c'.Relative →
      ∃ b b' y mt, c.layout = some b ∧ c'.layout = some b' ∧ b.borderBoxBottom fp = some y ∧ b'.margin.top = .num mt ∧ 0 ≤ b.collapse.bottom ∧
        (b'.borderBoxTop fp).val = y.val + max (b.collapse.bottom : Rat) mt.val ∧ y.val ≤ (b'.borderBoxTop fp).val :=
  C45_next_partial fp L d html5 p ps n n' m w (16 * (M * n.count)) hn.mild.1.grid hn.boxed (moderate_grid hn) h hm hh hc
    (moderate_kids L hn h hm hh) (moderate_stack hn h hm)

/-- C80. A block of automatic height contains the blocks in it. -/
theorem C80_encloses (fp : FP) (L : fp.Laws) (d : Display) (M : Nat) (html5 : Bool) (p ps : Option CSS) (n n' m : Node) (w : Option Num)
    (hn : n.Moderate fp d M) (h : layout fp d html5 p n = .ok n') (hm : Inside html5 (some d.contentWidth) p n' w ps m) (hb : m.BlockLevel) (hc : m.BlockContext)
    (ha : m.style.get .height = kw "auto") (hlast : ∀ c, m.children.getLast? = some c → c.BlockLevel ∧ ¬ c.Relative)
    (hpos : ∀ c ∈ m.children, ∀ b x, c.layout = some b → b.Stands x → 0 ≤ x.height) :
    ∃ b y, m.layout = some b ∧ b.contentHeight = some y ∧ ∀ c ∈ m.children, c.BlockLevel → ¬ c.Relative →
      ∃ cb z, c.layout = some cb ∧ cb.borderBoxBottom fp = some z ∧ 0 ≤ (cb.borderBoxTop fp).val ∧ (cb.borderBoxTop fp).val ≤ z.val ∧ z.val ≤ y.val :=
  C46_encloses_partial fp L d html5 p ps n n' m w (16 * (M * n.count)) hn.mild.1.grid hn.boxed (moderate_grid hn) h hm hb hc ha hlast
    (moderate_kids L hn h (inside_within hm) (blockLevel_not_hidden hb)) (moderate_stack hn h (inside_within hm)) hpos

/-- C80. An inline element that is not relatively positioned starts below its top margin, border and padding. -/
theorem C80_inline (fp : FP) (L : fp.Laws) (d : Display) (M : Nat) (html5 : Bool) (p ps : Option CSS) (n n' m : Node) (w : Option Num)
    (hn : n.Moderate fp d M) (h : layout fp d html5 p n = .ok n') (hm : Inside true (some d.contentWidth) p n' w ps m)
    (hi : m.style.get .display = kw "inline") (hs : ¬ m.Relative) :
    ∃ b mt, m.layout = some b ∧ b.margin.top = .num mt ∧ (b.pos .v).content.val = mt.val + b.border.top.val + b.padding.top.val := by
  obtain ⟨b, mt, h1, h2, h3⟩ := C72_top_partial fp d html5 p ps n n' m w hn.boxed h hm hi hs
  have g := (moderate_below L hn h (inside_within hm)).1 b h1
  have hz := hn.size
  have hp := moderate_pos (fp := fp) (d := d) (M := M) (n := n)
  exact ⟨b, mt, h1, h2, h3 (64 * M) (by omega) (g.ends .top (Or.inl rfl) _ h2).fits (g.border .top).fits (g.padding .top).fits⟩

/-- C80. The border box of the root starts below its collapsed top margin. -/
theorem C80_root (fp : FP) (L : fp.Laws) (d : Display) (M : Nat) (html5 : Bool) (p : Option CSS) (n n' : Node)
    (hn : n.Moderate fp d M) (h : layout fp d html5 p n = .ok n') (hbl : n'.BlockLevel) (hr : ¬ n'.Relative) :
    ∃ b, n'.layout = some b ∧ (b.borderBoxTop fp).val = b.collapse.top := by
  have hz := hn.size
  have hp := moderate_pos (fp := fp) (d := d) (M := M) (n := n)
  refine C51_top_partial fp d html5 p n n' (64 * M) hn.boxed h hbl hr (fun b hb => ?_) (by omega)
  have g := moderate_small L hn h [] b (.here hb)
  exact ⟨(g.collapse .top (Or.inl rfl)).fits, (g.border .top).fits, (g.padding .top).fits⟩

/-- C80. By the rules of HTML5 the root with its collapsed margins is exactly as high as the display. -/
theorem C80_display (fp : FP) (L : fp.Laws) (d : Display) (M : Nat) (p : Option CSS) (n n' : Node) (hn : n.Moderate fp d M) (h : layout fp d true p n = .ok n') :
    ∃ b y, n'.layout = some b ∧ b.contentHeight = some y ∧ y.val + b.collapse.top + b.collapse.bottom = d.contentHeight.val := by
  have hz := hn.size
  have hp := moderate_pos (fp := fp) (d := d) (M := M) (n := n)
  refine C51_height_partial fp d p n n' (64 * M) h (hn.mild.1.grid.2.1.near L hn.mild.1.size.2).fits (fun b hb => ?_) (by omega)
  have g := moderate_small L hn h [] b (.here hb)
  exact ⟨(g.collapse .top (Or.inl rfl)).fits, (g.collapse .bottom (Or.inr rfl)).fits⟩

/-! ## On the screen -/

theorem moderate_deep {fp : FP} {d : Display} {M k : Nat} {n : Node} (hn : n.Moderate fp d M) (hk : k + 1 ≤ n.count) :
    (k + 2) * (64 * (16 * (M * n.count))) ≤ 2 ^ 53 := by
  have h1 : M * n.count * (k + 1) ≤ M * n.count * n.count := Nat.mul_le_mul_left _ hk
  have h2 := hn.spread
  have h3 := hn.size
  have e : (k + 2) * (64 * (16 * (M * n.count))) = 1024 * (M * n.count * (k + 1)) + 1024 * (M * n.count) := by ring
  omega

theorem shown_mem {n : Node} {bs : List Box} {b x : Box} (h : Shown n bs b) (hx : x ∈ bs) : ∃ bs', Shown n bs' x := by
  induction h with
  | here => cases hx
  | step hl hc _ ih =>
    rcases List.mem_cons.1 hx with rfl | hx
    · exact ⟨[], .here hl⟩
    · obtain ⟨bs', hs⟩ := ih hx
      exact ⟨_, .step hl hc hs⟩

/-- C80. The absolute position of an element is exactly the sum of the relative positions from the root down to it. -/
theorem C80_place (fp : FP) (L : fp.Laws) (d : Display) (M : Nat) (html5 : Bool) (p : Option CSS) (n n' : Node) (hn : n.Moderate fp d M)
    (h : layout fp d html5 p n = .ok n') (a : Axis) (bs : List Box) (b : Box) (hs : Shown n' bs b) :
    (b.absContent fp a).val = ((bs ++ [b]).map fun x => (x.pos a).content.val).sum := by
  have hc := shown_count hs
  rw [count_same (layout_strip h)] at hc
  refine C49_sum_partial fp d html5 p n n' hn.boxed h a bs b hs (64 * (16 * (M * n.count))) (Or.inr L) (fun x hx => ?_) (moderate_deep hn hc)
  have : ∃ bs', Shown n' bs' x := by
    rcases List.mem_cons.1 hx with rfl | hx
    · exact ⟨_, hs⟩
    · exact shown_mem hs hx
  obtain ⟨bs', hx⟩ := this
  have g := moderate_small L hn h bs' x hx
  cases a
  · exact g.top.fits
  · exact g.left.fits

/-- C80. Nothing that comes later in the document moves an element on the screen. -/
theorem C80_later (fp : FP) (L : fp.Laws) (d : Display) (M : Nat) (html5 : Bool) (p : Option CSS) (n m n' m' : Node) (q : List Nat) (hn : n.Moderate fp d M)
    (hm : AllBoxed m) (hb : UpTo n m q) (h : layout fp d html5 p n = .ok n') (h' : layout fp d html5 p m = .ok m') (a : Axis) (b b' : Box)
    (e : n'.boxAt q = some b) (e' : m'.boxAt q = some b') : (b.absContent fp a).val = (b'.absContent fp a).val := by
  obtain ⟨bs, s1, s2, _⟩ := boxAt_shown q e
  have hc := shown_count s1
  rw [count_same (layout_strip h), s2] at hc
  refine C54_place_partial fp d html5 p n m n' m' q hn.boxed hm hb h h' a (64 * (16 * (M * n.count))) (Or.inr L) (fun r x _ hx => ?_) (moderate_deep hn hc) b b' e e'
  obtain ⟨bs', hx, _⟩ := boxAt_shown r hx
  have g := moderate_small L hn h bs' x hx
  cases a
  · exact g.top.fits
  · exact g.left.fits

/-! ## An example -/

/-- A test for lengths that are not too large. -/
def Val.mildTest (fp : FP) (d : Display) (M : Nat) (v : Val) : Bool :=
  match v with
  | .unit u =>
    (match u.kind with
      | .len .percent => false
      | _ => true) &&
    (match u.px fp ⟨d, dummyFont fp, Option.none⟩ with
      | .ok x => decide (|x.val| ≤ M)
      | .error _ => true)
  | _ => true

theorem mildTest_sound {fp : FP} {d : Display} {M : Nat} {v : Val} (h : v.mildTest fp d M = true) : v.Mild fp d M := by
  rintro u rfl
  simp only [Val.mildTest, Bool.and_eq_true] at h
  refine ⟨fun e => ?_, fun x hx => ?_⟩
  · rw [e] at h; cases h.1
  · rw [hx] at h; exact of_decide_eq_true h.2

/-- A test for percentages up to 100. -/
def Val.shareTest (v : Val) : Bool :=
  match v with
  | .unit ⟨.len .percent, .fin a⟩ => decide (|a.val| ≤ 100)
  | _ => false

theorem shareTest_sound {v : Val} (h : v.shareTest = true) : v.Share := by
  unfold Val.shareTest at h
  split at h
  · rename_i a; exact ⟨a, rfl, of_decide_eq_true h⟩
  · cases h

/-- A test for numbers of layout units. -/
def Num.gridTest (M : Nat) (x : Num) : Bool := (x.val * 64).den == 1 && decide (|x.val| ≤ M)

theorem gridTest_sound {M : Nat} {x : Num} (h : x.gridTest M = true) : x.OnGrid ∧ |x.val| ≤ M := by
  simp only [Num.gridTest, Bool.and_eq_true, beq_iff_eq] at h
  refine ⟨⟨(x.val * 64).num, ?_⟩, of_decide_eq_true h.2⟩
  have := Rat.num_div_den (x.val * 64)
  rw [h.1] at this
  field_simp
  rw [← this]
  simp

/-- A test for percentages from 0 to 100. -/
def Val.partTest : Val → Bool
  | .unit ⟨.len .percent, .fin a⟩ => 0 ≤ a.val && a.val ≤ 100
  | _ => false

theorem partTest_sound {v : Val} (h : v.partTest = true) : v.Part := by
  unfold Val.partTest at h
  split at h
  · simp only [Bool.and_eq_true, decide_eq_true_eq] at h
    exact ⟨_, rfl, h.1, h.2⟩
  · cases h

/-- A test for elements. -/
def mildStyle (fp : FP) (d : Display) (M : Nat) (s : CSS) (z : Intrinsic) : Bool :=
  [Side.top, .bottom].all (fun t => (s.get (.margin t)).mildTest fp d M) && [Side.left, .right].all (fun t => (s.get (.margin t)).mildTest fp d M || (s.get (.margin t)).partTest) &&
  [Side.top, .right, .bottom, .left].all (fun t => (s.get (.borderWidth t)).mildTest fp d M && (s.get (.padding t)).mildTest fp d M) &&
  [LH.width, .minWidth, .maxWidth].all (fun p => (s.get p).mildTest fp d M || isBlockLevel s && (s.get p).shareTest) &&
  [LH.height, .minHeight, .maxHeight].all (fun p => (s.get p).mildTest fp d M) &&
  [LH.left, .right, .top, .bottom].all (fun p => (s.get p).mildTest fp d M && !(s.get p).isKw "inherit") &&
  z.ratio.isNone && z.width.all (Num.gridTest M) && z.height.all (Num.gridTest M)

theorem mildStyle_sound {fp : FP} {d : Display} {M : Nat} {s : CSS} {z : Intrinsic} {l : Option Box} {cs : List Node} (h : mildStyle fp d M s z = true) :
    (Node.mk s z l cs).Mild fp d M := by
  simp only [mildStyle, Bool.and_eq_true, Bool.or_eq_true, List.all_cons, List.all_nil, Bool.not_eq_true'] at h
  obtain ⟨⟨⟨⟨⟨⟨⟨⟨m1, m2⟩, h1⟩, h2⟩, h3⟩, h4⟩, h5⟩, h6⟩, h7⟩ := h
  have wd : ∀ {v : Val}, v.mildTest fp d M = true ∨ isBlockLevel s = true ∧ v.shareTest = true → v.Mild fp d M ∨ (Node.mk s z l cs).BlockLevel ∧ v.Share := by
    rintro v (h | ⟨ha, hb⟩)
    · exact Or.inl (mildTest_sound h)
    · exact Or.inr ⟨(blockLevel_iff (.mk s z l cs)).1 ha, shareTest_sound hb⟩
  have of : ∀ {v : Val}, v.mildTest fp d M = true ∧ v.isKw "inherit" = false → v.Mild fp d M ∧ v ≠ kw "inherit" := by
    rintro v ⟨ha, hb⟩
    refine ⟨mildTest_sound ha, fun e => ?_⟩
    rw [(isKw_iff v _).2 e] at hb
    cases hb
  have g6 : ∀ x, z.width = some x → x.OnGrid ∧ |x.val| ≤ M := fun x e => by rw [e] at h6; exact gridTest_sound h6
  have g7 : ∀ x, z.height = some x → x.OnGrid ∧ |x.val| ≤ M := fun x e => by rw [e] at h7; exact gridTest_sound h7
  have g5 : z.ratio = none := by
    cases e : z.ratio with
    | none => rfl
    | some r => rw [e] at h5; cases h5
  refine ⟨?_, ?_, ?_, ?_, ?_, ?_, ⟨fun x e => (g6 x e).1, fun x e => (g7 x e).1, g5⟩, fun x e => (g6 x e).2, fun x e => (g7 x e).2⟩
  · rintro (_ | _ | _ | _)
    exacts [.inl (mildTest_sound m1.1), m2.2.1.imp mildTest_sound fun h => ⟨.inr rfl, partTest_sound h⟩, .inl (mildTest_sound m1.2.1),
      m2.1.imp mildTest_sound fun h => ⟨.inl rfl, partTest_sound h⟩]
  · rintro (_ | _ | _ | _)
    exacts [mildTest_sound h1.1.1, mildTest_sound h1.2.1.1, mildTest_sound h1.2.2.1.1, mildTest_sound h1.2.2.2.1.1]
  · rintro (_ | _ | _ | _)
    exacts [mildTest_sound h1.1.2, mildTest_sound h1.2.1.2, mildTest_sound h1.2.2.1.2, mildTest_sound h1.2.2.2.1.2]
  · rintro p (rfl | rfl | rfl)
    exacts [wd h2.1, wd h2.2.1, wd h2.2.2.1]
  · rintro p (rfl | rfl | rfl)
    exacts [mildTest_sound h3.1, mildTest_sound h3.2.1, mildTest_sound h3.2.2.1]
  · rintro p (rfl | rfl | rfl | rfl)
    exacts [of h4.1, of h4.2.1, of h4.2.2.1, of h4.2.2.2.1]

mutual
/-- A test for documents in which every element is mild and has a box. -/
def Node.mildTest (fp : FP) (d : Display) (M : Nat) : Node → Bool
  | .mk s z l cs => l.isSome && mildStyle fp d M s z && mildTests fp d M cs
/-- The test for lists. -/
def mildTests (fp : FP) (d : Display) (M : Nat) : List Node → Bool
  | [] => true
  | c :: cs => c.mildTest fp d M && mildTests fp d M cs
end

theorem mildTests_mem {fp : FP} {d : Display} {M : Nat} {cs : List Node} (h : mildTests fp d M cs = true) {c : Node} (hc : c ∈ cs) : c.mildTest fp d M = true := by
  induction cs with
  | nil => cases hc
  | cons x cs ih =>
    simp only [mildTests, Bool.and_eq_true] at h
    rcases List.mem_cons.1 hc with rfl | hc
    · exact h.1
    · exact ih h.2 hc

theorem mildTest_all {fp : FP} {d : Display} {M : Nat} {n m : Node} (h : n.mildTest fp d M = true) (hm : Visible m n) : m.layout ≠ none ∧ m.Mild fp d M := by
  induction hm with
  | @here hn =>
    obtain ⟨s, z, l, cs⟩ := m
    simp only [Node.mildTest, Bool.and_eq_true] at h
    refine ⟨fun e => ?_, mildStyle_sound h.1.2⟩
    have e : l = none := e
    rw [e] at h
    cases h.1.1
  | @step c n hn hc _ ih =>
    obtain ⟨s, z, l, cs⟩ := n
    simp only [Node.mildTest, Bool.and_eq_true] at h
    exact ih (mildTests_mem h.2 hc)

/-- Blocks with lengths, percentages and automatic margins, one relatively positioned, inline elements and a picture. -/
def page : Node :=
  block [(.margin .top, px 8), (.padding .left, px 5)] [
    block [(.width, pct 33), (.margin .left, kw "auto"), (.margin .right, kw "auto")] [span [(.margin .top, px 3), (.padding .top, px 2)] 20 10, picture [(.margin .top, px 4)] 30 40],
    block [(.height, px 7), (.margin .top, px 9), (.margin .bottom, px 5), (.position, kw "relative"), (.left, px 6)] [],
    block [(.margin .top, px 2), (.width, pct 50), (.maxWidth, px 200)] [block [(.height, px 1000), (.borderWidth .left, kw "thick")] []]]

theorem screen_mild : screen.Mild 1000 :=
  ⟨⟨onGrid_int _, onGrid_int _, onGrid_int _, onGrid_int _, onGrid_int _⟩, by norm_num [screen], by norm_num [screen]⟩

/-- It meets the hypotheses in IEEE double arithmetic, and it can be laid out. -/
theorem page_moderate : page.Moderate .b64 screen 1000 := by
  have h : page.mildTest .b64 screen 1000 = true := by decide +kernel
  have hc : page.count = 7 := by decide +kernel
  refine ⟨fun m hm => (mildTest_all h hm).1, ⟨screen_mild, fun m hm => (mildTest_all h hm).2⟩, by norm_num, ?_, ?_⟩ <;> rw [hc] <;> norm_num

example : (layout .b64 screen false none page).isOk = true := by decide +kernel

/-- So every number of its layout is at most 112000 pixels; really at most 1065, the height of the root. -/
example (n' : Node) (h : layout .b64 screen false none page = .ok n') (bs : List Box) (b : Box) (hs : Shown n' bs b) : b.Below 112000 := by
  have := C80_bound .b64 b64_laws screen 1000 false none page n' page_moderate h bs b hs
  have hc : page.count = 7 := by decide +kernel
  rw [hc] at this
  exact this

/-- 33% of 635 pixels is rounded to the grid; the margins get whole pixels. The blocks are stacked and the third one is at most 200 pixels wide. -/
example : [[0], [1], [2]].map (fun q => (laidBox .b64 screen page q).map fun b => (b.contentWidth, b.h.content, b.v.content)) =
    [some (some (.flt (13411 / 64)), .flt 212, .int 0), some (some (.int 635), .int 6, .int 53), some (some (.int 200), .int 0, .int 65)] := by decide +kernel

end Colosseum
