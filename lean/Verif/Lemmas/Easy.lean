import Verif.Lemmas.Reference
import Verif.Props.Relative

/-!
# Documents that are laid out without rounding errors

What the proofs about the reference layout need: all the numbers that the layout adds and subtracts fit. They do in documents of moderate size, and in exact
arithmetic in all documents.
-/

namespace Colosseum

/-- Sums of the numbers in the layout are exact. -/
structure Easy (fp : FP) (d : Display) (p : Option CSS) (n : Node) (K : Nat) : Prop where
  boxed : AllBoxed n
  bound : 16 * K ≤ 2 ^ 53
  display : Fits fp K d.contentWidth ∧ Fits fp K d.contentHeight
  whole : ∀ {html5 n' bs b}, layout fp d html5 p n = .ok n' → Shown n' bs b → b.Fits fp (2 ^ 50)
  width : ∀ {html5 n' bs b}, layout fp d html5 p n = .ok n' → Shown n' bs b → ∀ x, b.contentWidth = some x → Fits fp K x
  height : ∀ {html5 n' bs b}, layout fp d html5 p n = .ok n' → Shown n' bs b → ∀ x, b.contentHeight = some x → Fits fp K x
  margin : ∀ {html5 n' bs b}, layout fp d html5 p n = .ok n' → Shown n' bs b → ∀ t x, b.margin.get t = .num x → Fits fp K x
  border : ∀ {html5 n' bs b}, layout fp d html5 p n = .ok n' → Shown n' bs b → ∀ t, Fits fp K (b.border.get t)
  padding : ∀ {html5 n' bs b}, layout fp d html5 p n = .ok n' → Shown n' bs b → ∀ t, Fits fp K (b.padding.get t)
  collapse : ∀ {html5 n' bs b}, layout fp d html5 p n = .ok n' → Shown n' bs b → ∀ t, Fits fp K (.int (b.collapse.get t))
  long : ∀ {html5 n' w ps m}, layout fp d html5 p n = .ok n' → Within (some d.contentWidth) p n' w ps m → 8 * K * m.children.length ≤ 2 ^ 53
  declared : ∀ {html5 n' w ps m}, layout fp d html5 p n = .ok n' → Within (some d.contentWidth) p n' w ps m → ¬ m.Hidden →
    ∀ q, (∃ t, q = .margin t) ∨ q = .left ∨ q = .right ∨ q = .top ∨ q = .bottom →
      ∀ l, (m.style.get q).Margin fp ⟨d, dummyFont fp, w⟩ l → ∀ y, l = some y → Fits fp K y

/-- Documents of moderate size. -/
theorem moderate_easy {fp : FP} (L : fp.Laws) {d : Display} {M : Nat} (p : Option CSS) {n : Node} (hn : n.Moderate fp d M) :
    Easy fp d p n (64 * (16 * (M * n.count))) := by
  have hz := hn.size
  have hp := moderate_pos (fp := fp) (d := d) (M := M) (n := n)
  refine ⟨hn.boxed, by omega, ?_, ?_, ?_, ?_, ?_, ?_, ?_, ?_, ?_, ?_⟩
  · exact ⟨((hn.mild.1.grid.1.near L hn.mild.1.size.1).mono (by omega)).fits, ((hn.mild.1.grid.2.1.near L hn.mild.1.size.2).mono (by omega)).fits⟩
  · exact fun h hs => moderate_fits L hn h hs
  · exact fun h hs x hx => ((moderate_small L hn h _ _ hs).width x hx).fits
  · exact fun h hs x hx => ((moderate_small L hn h _ _ hs).height x hx).fits
  · intro html5 n' bs b h hs t x hx
    have g := moderate_small L hn h _ _ hs
    cases t
    · exact ((g.ends .top (Or.inl rfl) x hx).mono (by omega)).fits
    · exact (g.sides .right (Or.inr rfl) x hx).fits
    · exact ((g.ends .bottom (Or.inr rfl) x hx).mono (by omega)).fits
    · exact (g.sides .left (Or.inl rfl) x hx).fits
  · exact fun h hs t => (((moderate_small L hn h _ _ hs).border t).mono (by omega)).fits
  · exact fun h hs t => (((moderate_small L hn h _ _ hs).padding t).mono (by omega)).fits
  · intro html5 n' bs b h hs t
    have g := moderate_small L hn h _ _ hs
    cases t
    · exact ((g.collapse .top (Or.inl rfl)).mono (by omega)).fits
    · exact (g.walls .right (Or.inr rfl)).fits
    · exact ((g.collapse .bottom (Or.inr rfl)).mono (by omega)).fits
    · exact (g.walls .left (Or.inl rfl)).fits
  · intro html5 n' w ps m h hm
    have := moderate_stack hn h hm
    have e : 8 * (64 * (16 * (M * n.count))) * m.children.length = 512 * (16 * (M * n.count) * m.children.length) := by ring
    rw [e]; omega
  · intro html5 n' w ps m h hm hh q hq l hl y hy
    have g := moderate_mild hn h hm hh
    rcases hq with ⟨t, rfl⟩ | hq
    · exact (margin_part L (g.margin t) (moderate_container L hn h hm) (by omega) (by omega) hl y hy).fits
    · exact ((margin_mild L (g.offset q hq).1 hl y hy).mono (by omega)).fits

/-- In exact arithmetic all documents. -/
theorem exact_easy {fp : FP} (E : fp.Exact) (d : Display) (p : Option CSS) {n : Node} (hn : AllBoxed n) : Easy fp d p n 0 where
  boxed := hn
  bound := by norm_num
  display := ⟨.inl E, .inl E⟩
  whole _ _ := ⟨fun _ => ⟨.inl E, .inl E⟩, fun _ _ => .inl E, fun _ _ => .inl E, fun _ => .inl E, fun _ => .inl E⟩
  width _ _ _ _ := .inl E
  height _ _ _ _ := .inl E
  margin _ _ _ _ _ := .inl E
  border _ _ _ := .inl E
  padding _ _ _ := .inl E
  collapse _ _ _ := .inl E
  long _ _ := by simp
  declared _ _ _ _ _ _ _ _ _ := .inl E

variable {fp : FP} {d : Display} {p : Option CSS} {n n' : Node} {K : Nat} {html5 : Bool}

theorem easy_stands (hn : Easy fp d p n K) (h : layout fp d html5 p n = .ok n') {bs : List Box} {b : Box} (hs : Shown n' bs b) {x : Down} (hx : b.Stands x) :
    x.AllFit fp K := by
  obtain ⟨e1, e2, e3, e4, e5, e6, e7⟩ := hx
  refine ⟨hn.margin h hs .top _ e1, ?_, ?_, hn.height h hs _ e4, ?_, ?_, ?_⟩
  · rw [← e2]; exact hn.border h hs .top
  · rw [← e3]; exact hn.padding h hs .top
  · rw [← e5]; exact hn.padding h hs .bottom
  · rw [← e6]; exact hn.border h hs .bottom
  · rw [← e7]; exact hn.collapse h hs .bottom

theorem easy_measures (hn : Easy fp d p n K) (h : layout fp d html5 p n = .ok n') {bs : List Box} {b : Box} (hs : Shown n' bs b) {x : Across} (hx : b.Measures x) :
    x.AllFit fp K := by
  obtain ⟨e1, e2, e3, e4, e5, e6, e7⟩ := hx
  refine ⟨hn.margin h hs .left _ e1, ?_, ?_, hn.width h hs _ e4, ?_, ?_, hn.margin h hs .right _ e7⟩
  · rw [← e2]; exact hn.border h hs .left
  · rw [← e3]; exact hn.padding h hs .left
  · rw [← e5]; exact hn.padding h hs .right
  · rw [← e6]; exact hn.border h hs .right

/-- The width of the containing block. -/
theorem easy_size (hn : Easy fp d p n K) (h : layout fp d html5 p n = .ok n') {ps : Option CSS} {m : Node} {w : Option Num}
    (hm : Within (some d.contentWidth) p n' w ps m) : ∀ y, w = some y → Fits fp K y := by
  intro y hy
  rcases (within_shown hm).2 with rfl | ⟨bs, b, hb, rfl⟩
  · cases hy; exact hn.display.1
  · exact hn.width h hb y hy

theorem easy_across (hn : Easy fp d p n K) (h : layout fp d html5 p n = .ok n') {ps : Option CSS} {m : Node} {w : Option Num}
    (hm : Within (some d.contentWidth) p n' w ps m) (hb : m.BlockLevel) :
    ∃ b x size, m.layout = some b ∧ b.Measures x ∧ w = some size ∧
      (x.sum = size.val ∨ m.style.get .width ≠ kw "auto" ∧ m.style.get (.margin .left) = kw "auto" ∧
        m.style.get (.margin .right) = kw "auto" ∧ x.sum ≤ size.val ∧ size.val < x.sum + 2) := by
  obtain ⟨b, x, size, h1, h2, h3, h4⟩ := C44_fills_partial fp d html5 p ps n n' m w h hm hb
  obtain ⟨bs, hs⟩ := (within_shown hm).1 b h1
  have := hn.bound
  exact ⟨b, x, size, h1, h2, h3, h4 K (by omega) (easy_size hn h hm _ h3) (easy_measures hn h hs h2)⟩

theorem easy_margins (hn : Easy fp d p n K) (h : layout fp d html5 p n = .ok n') {ps : Option CSS} {m : Node} {w l r : Option Num}
    (hm : Within (some d.contentWidth) p n' w ps m) (hb : m.BlockLevel)
    (hl : (m.style.get (.margin .left)).Margin fp ⟨d, dummyFont fp, w⟩ l) (hr : (m.style.get (.margin .right)).Margin fp ⟨d, dummyFont fp, w⟩ r) :
    ∃ b x size, m.layout = some b ∧ b.Measures x ∧ w = some size ∧
      ∀ u, u = usedMargins ((m.style.get .direction).isKw "ltr") ((m.style.get .width).isKw "auto") size.val x.inner (l.map Num.val) (r.map Num.val) →
        (l ≠ none ∨ r ≠ none ∨ m.style.get .width = kw "auto" ∨ size.val < x.inner) ∧ x.ml.val = u.1 ∧ x.mr.val = u.2 ∨
        l = none ∧ r = none ∧ m.style.get .width ≠ kw "auto" ∧ x.inner ≤ size.val ∧ x.ml.val = ⌊u.1⌋ ∧ x.mr.val = ⌊u.2⌋ := by
  obtain ⟨b, x, size, h1, h2, h3, h4⟩ := C64_margins_partial fp d html5 p ps n n' m w l r h hm hb hl hr
  obtain ⟨bs, hs⟩ := (within_shown hm).1 b h1
  have := hn.bound
  have hh := blockLevel_not_hidden hb
  exact ⟨b, x, size, h1, h2, h3, fun u hu => h4 K u (by omega) (easy_size hn h hm _ h3) (easy_measures hn h hs h2)
    (hn.declared h hm hh _ (.inl ⟨_, rfl⟩) _ hl) (hn.declared h hm hh _ (.inl ⟨_, rfl⟩) _ hr) hu⟩

theorem easy_left (hn : Easy fp d p n K) (h : layout fp d html5 p n = .ok n') {ps : Option CSS} {m : Node} {w : Option Num}
    (hm : Within (some d.contentWidth) p n' w ps m) (hb : m.BlockLevel) (hr : ¬ m.Relative) :
    ∃ b ml, m.layout = some b ∧ b.margin.left = .num ml ∧ (b.pos .h).content.val = ml.val + b.border.left.val + b.padding.left.val := by
  obtain ⟨b, ml, h1, h2, h3⟩ := C65_left_partial fp d html5 p ps n n' m w h hm hb hr
  obtain ⟨bs, hs⟩ := (within_shown hm).1 b h1
  have := hn.bound
  exact ⟨b, ml, h1, h2, h3 K (by omega) (hn.margin h hs .left _ h2) (hn.border h hs .left) (hn.padding h hs .left)⟩

theorem easy_display (hn : Easy fp d p n K) (h : layout fp d true p n = .ok n') :
    ∃ b y, n'.layout = some b ∧ b.contentHeight = some y ∧ y.val + b.collapse.top + b.collapse.bottom = d.contentHeight.val := by
  have := hn.bound
  exact C51_height_partial fp d p n n' K h hn.display.2 (fun b hb => ⟨hn.collapse h (.here hb) .top, hn.collapse h (.here hb) .bottom⟩) (by omega)

/-- A number that fits is not changed by the conversion to a float. -/
theorem fits_float {x : Num} {k : Nat} (hk : k ≤ 2 ^ 53) (h : Fits fp k x) : x.toFloat fp = x.val := by
  cases x with
  | flt q => rfl
  | int i =>
    rcases h with E | ⟨L, j, hj, hm⟩
    · exact E _
    · refine L.small i ?_
      have hj : (i : Rat) = j / 64 := hj
      have e : j = 64 * i := by
        have : (j : Rat) = 64 * i := by rw [hj]; ring
        exact_mod_cast this
      omega

end Colosseum
