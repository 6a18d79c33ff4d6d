import Verif.Lemmas.Collapse
import Verif.Props.Flow

/-!
# C82: which vertical margins collapse
-/

namespace Colosseum

/-- C82. `collapse_top` of a block is the largest of its top margin and those of the first descendants, `collapse_bottom` that of its bottom margin and
those of the last descendants as far as the heights are automatic. Only margins that are a positive whole number of pixels count. -/
theorem C82_ends (fp : FP) (L : fp.Laws) (d : Display) (html5 : Bool) (p ps : Option CSS) (n n' m : Node) (w : Option Num) (hbx : AllBoxed n)
    (hn : n.Blocky fp d) (h : layout fp d html5 p n = .ok n') (hm : Within (some d.contentWidth) p n' w ps m) :
    ∃ b, m.layout = some b ∧ b.collapse.top = m.edgeTop fp d ∧ b.collapse.bottom = m.edgeBottom fp d := blocky_ends L hbx hn h hm

/-- C82. The root is as far below the top of the display as the largest of these top margins. -/
theorem C82_root (fp : FP) (L : fp.Laws) (d : Display) (M : Nat) (html5 : Bool) (p : Option CSS) (n n' : Node) (hn : n.Moderate fp d M) (hb : n.Blocky fp d)
    (h : layout fp d html5 p n = .ok n') (hr : ¬ n'.Relative) : ∃ b, n'.layout = some b ∧ (b.borderBoxTop fp).val = n'.edgeTop fp d := by
  obtain ⟨b, h1, h2⟩ := C80_root fp L d M html5 p n n' hn h (blocky_strip (layout_strip h) hb).level hr
  obtain ⟨b', h3, h4, _⟩ := blocky_ends L hn.boxed hb h (.here ..)
  cases h1.symm.trans h3
  exact ⟨b, h1, by rw [h2, h4]⟩

/-- C82. The first block in a block touches the top of the content box, whatever its margin is; the distance between a block and the next one is the
larger of the bottom margin of the block, collapsed with those of its last descendants, and the top margin of the next one by itself. -/
theorem C82_gap (fp : FP) (L : fp.Laws) (d : Display) (M : Nat) (html5 : Bool) (p ps : Option CSS) (n n' m : Node) (w : Option Num)
    (hn : n.Moderate fp d M) (hb : n.Blocky fp d) (h : layout fp d html5 p n = .ok n') (hm : Within (some d.contentWidth) p n' w ps m) :
    (∀ c, m.children[0]? = some c → ¬ c.Relative → ∃ b, c.layout = some b ∧ (b.borderBoxTop fp).val = 0) ∧
    ∀ (i : Nat) (c c' : Node), m.children[i]? = some c → m.children[i + 1]? = some c' → ¬ c.Relative → ¬ c'.Relative →
      ∃ b b' y, c.layout = some b ∧ c'.layout = some b' ∧ b.borderBoxBottom fp = some y ∧
        (∀ x, (c'.style.get (.margin .top)).Length fp d (dummyFont fp) x → (b'.borderBoxTop fp).val = y.val + max (c.edgeBottom fp d : Rat) x.val) ∧
        (c'.style.get (.margin .top) = kw "auto" → (b'.borderBoxTop fp).val = y.val + c.edgeBottom fp d) := by
  have hm' : m.Blocky fp d := fun k hk => blocky_strip (layout_strip h) hb k (sub_trans hk (within_sub hm))
  have hh := blockLevel_not_hidden hm'.level
  constructor
  · intro c hc hr
    have hne : m.children ≠ [] := by intro e; rw [e] at hc; cases hc
    obtain ⟨⟨c0, b, h1, h2, _, h3⟩, _⟩ := C80_stack fp L d M html5 p ps n n' m w hn h hm hh (blocky_context hm' hne)
    cases hc.symm.trans h1
    exact ⟨b, h2, h3 hr⟩
  · intro i c c' hc hc' hr hr'
    have hmem := List.mem_of_getElem? hc
    have hmem' := List.mem_of_getElem? hc'
    have hcx := blocky_context hm' (List.ne_nil_of_mem hmem)
    obtain ⟨mb, hmb, _⟩ := blocky_ends L hn.boxed hb h hm
    have wc := within_next hm hh hmb hmem fun _ => (hm'.kid hmem).level
    have wc' := within_next hm hh hmb hmem' fun _ => (hm'.kid hmem').level
    obtain ⟨b, b', y, mt, h1, h2, h3, h4, h5, h6, _⟩ := (C80_stack fp L d M html5 p ps n n' m w hn h hm hh hcx).2 i c c' hc hc' (hm'.kid hmem').level hr hr'
    obtain ⟨b1, e1, _, e2⟩ := blocky_ends L hn.boxed hb h wc
    cases h1.symm.trans e1
    obtain ⟨b2, v1, v2, v3⟩ := C79_vertical fp L d html5 p _ n n' c' _ .top (Or.inl rfl) h wc' (blockLevel_not_hidden (hm'.kid hmem').level)
    cases h2.symm.trans v1
    rw [e2] at h5 h6
    refine ⟨b, b', y, h1, h2, h3, fun x hx => ?_, fun ha => ?_⟩
    · obtain ⟨z, z1, z2⟩ := v2 x hx
      cases MVal.num.inj (h4.symm.trans z1)
      rw [h6, z2]
    · obtain ⟨z, z1, z2⟩ := v3 ha (Or.inl (hm'.kid hmem').level)
      cases MVal.num.inj (h4.symm.trans z1)
      rw [h6, z2, max_eq_left (by exact_mod_cast h5)]

/-! ## An example -/

/-- A test for lengths. -/
def Val.lengthTest (fp : FP) (d : Display) (v : Val) : Bool :=
  match v with
  | .unit ⟨.len k, x⟩ => k != .percent && match pxOf fp k x ⟨d, dummyFont fp, Option.none⟩ with
    | .ok _ => true
    | .error _ => false
  | _ => false

theorem lengthTest_sound {fp : FP} {d : Display} {v : Val} (h : v.lengthTest fp d = true) : ∃ x, v.Length fp d (dummyFont fp) x := by
  unfold Val.lengthTest at h
  split at h
  · rename_i k x
    rw [Bool.and_eq_true] at h
    obtain ⟨h1, h2⟩ := h
    split at h2
    · rename_i y hy
      exact ⟨y, ⟨k, x, rfl, by simpa using h1, hy⟩⟩
    · cases h2
  · cases h

mutual
/-- A test for documents of blocks. -/
def Node.blockyTest (fp : FP) (d : Display) : Node → Bool
  | .mk s z _ cs => ((s.get .display).isKw "block" || (s.get .display).isKw "list-item") && !z.isReplaced &&
    [Side.top, .bottom].all (fun t => (s.get (.margin t)).isKw "auto" || (s.get (.margin t)).lengthTest fp d) && blockyTests fp d cs
/-- The test for lists. -/
def blockyTests (fp : FP) (d : Display) : List Node → Bool
  | [] => true
  | c :: cs => c.blockyTest fp d && blockyTests fp d cs
end

theorem blockyTests_mem {fp : FP} {d : Display} {cs : List Node} (h : blockyTests fp d cs = true) {c : Node} (hc : c ∈ cs) : c.blockyTest fp d = true := by
  induction cs with
  | nil => cases hc
  | cons x cs ih =>
    simp only [blockyTests, Bool.and_eq_true] at h
    rcases List.mem_cons.1 hc with rfl | hc
    · exact h.1
    · exact ih h.2 hc

theorem blockyTest_sound {fp : FP} {d : Display} {n : Node} (h : n.blockyTest fp d = true) : n.Blocky fp d := by
  intro m hm
  induction hm with
  | refl =>
    obtain ⟨s, z, l, cs⟩ := m
    simp only [Node.blockyTest, Bool.and_eq_true, Bool.or_eq_true, List.all_cons, List.all_nil, Bool.not_eq_true', isKw_iff] at h
    obtain ⟨⟨⟨h1, h2⟩, h3⟩, _⟩ := h
    have mg : ∀ {v : Val}, v = kw "auto" ∨ v.lengthTest fp d = true → v = kw "auto" ∨ ∃ x, v.Length fp d (dummyFont fp) x := fun h => h.imp id lengthTest_sound
    refine ⟨h1, h2, fun t ht => ?_⟩
    rcases ht with rfl | rfl
    · exact mg h3.1
    · exact mg h3.2.1
  | @child c n hc _ ih =>
    obtain ⟨s, z, l, cs⟩ := n
    simp only [Node.blockyTest, Bool.and_eq_true] at h
    exact ih (blockyTests_mem h.2 hc)

/-- Blocks with all kinds of vertical margins. -/
def spaces : Node :=
  block [(.margin .top, px 8)] [
    block [(.height, px 10), (.margin .top, px 20), (.margin .bottom, px 5)] [],
    block [(.margin .top, px 2)] [block [(.height, px 10), (.margin .top, px 30), (.margin .bottom, px 12)] []],
    block [(.height, px 50), (.margin .top, kw "auto")] [block [(.height, px 10), (.margin .bottom, px 40)] []],
    block [(.height, px 10), (.margin .top, px (-9)), (.margin .bottom, px 7)] []]

theorem spaces_moderate : spaces.Moderate .b64 screen 1000 := by
  have h : spaces.mildTest .b64 screen 1000 = true := by decide +kernel
  have hc : spaces.count = 7 := by decide +kernel
  refine ⟨fun m hm => (mildTest_all h hm).1, ⟨screen_mild, fun m hm => (mildTest_all h hm).2⟩, by norm_num, ?_, ?_⟩ <;> rw [hc] <;> norm_num

theorem spaces_blocky : spaces.Blocky .b64 screen := blockyTest_sound (by decide +kernel)

/-- The top margins of the root and of the first block collapse (20), so do the bottom margins of the second block and of the block in it (12, above the
third block); the top margin of the block in the second one (30) is lost, and the bottom margin in the third one (40) is kept in it by its height. -/
example : [[], [0], [1], [1, 0], [2], [2, 0], [3]].map (fun q => (laidBox .b64 screen spaces q).map fun b =>
      (b.absBorderBoxTop .b64, b.absBorderBoxBottom .b64, b.collapse.top, b.collapse.bottom)) =
    [some (.int 20, some (.int 117), 20, 7), some (.int 20, some (.int 30), 20, 5), some (.int 35, some (.int 45), 30, 12),
      some (.int 35, some (.int 45), 30, 12), some (.int 57, some (.int 107), 0, 0), some (.int 57, some (.int 67), 0, 40),
      some (.int 107, some (.int 117), 0, 7)] := by decide +kernel

/-! ## Differences from CSS 2.1, section 8.3.1 -/

/-- A negative margin does not bring two blocks closer to each other: the second block should start at 10 - 4. -/
theorem C82_false_negative : [0, 1].map (fun i => (laidBox .b64 screen (block [] [
      block [(.height, px 10)] [], block [(.height, px 10), (.margin .top, px (-4))] []]) [i]).map
      (fun b => (b.margin.top, b.borderBoxTop .b64, b.borderBoxBottom .b64))) =
    [some (.num (.int 0), .int 0, some (.int 10)), some (.num (.int (-4)), .int 10, some (.int 20))] := by decide +kernel

/-- The top margin of a first child is lost, unless its parent is also a first child, and so on up to the root: the second block should start at 10 + 30. -/
theorem C82_false_nested : [[0], [1], [1, 0]].map (fun q => (laidBox .b64 screen (block [] [
      block [(.height, px 10)] [], block [] [block [(.height, px 10), (.margin .top, px 30)] []]]) q).map
      (fun b => (b.margin.top, b.absBorderBoxTop .b64, b.absBorderBoxBottom .b64))) =
    [some (.num (.int 0), .int 0, some (.int 10)), some (.num (.int 0), .int 10, some (.int 20)), some (.num (.int 30), .int 10, some (.int 20))] := by
  decide +kernel

/-- The margin of a block collapses through the border and the padding of its parent: the root should start at 0, and the block at 5 + 6 + 30. -/
theorem C82_false_border : [[], [0]].map (fun q => (laidBox .b64 screen (block [(.borderWidth .top, px 5), (.padding .top, px 6)] [
      block [(.height, px 10), (.margin .top, px 30)] []]) q).map (fun b => (b.absBorderBoxTop .b64, b.absBorderBoxBottom .b64))) =
    [some (.int 30, some (.int 51)), some (.int 41, some (.int 51))] := by decide +kernel

/-- The margins of an empty block do not collapse with each other: the third block should start at 10 + 20. -/
theorem C82_false_empty : [0, 1, 2].map (fun i => (laidBox .b64 screen (block [] [
      block [(.height, px 10)] [], block [(.margin .top, px 20), (.margin .bottom, px 20)] [], block [(.height, px 10)] []]) [i]).map
      (fun b => (b.borderBoxTop .b64, b.borderBoxBottom .b64))) =
    [some (.int 0, some (.int 10)), some (.int 30, some (.int 30)), some (.int 50, some (.int 60))] := by decide +kernel

end Colosseum
