import Verif.Lemmas.Causal
import Verif.Lemmas.Grid
import Verif.Lemmas.Sample
import Verif.Props.Layout

/-!
# C54: what comes later in a document does not affect what comes earlier
-/

namespace Colosseum

theorem same_of_noOrigin {x y : Option Box} (h : x.map Box.noOrigin = y.map Box.noOrigin) : Both Box.Same x y := by
  cases x <;> cases y
  · trivial
  · cases h
  · cases h
  · rename_i b b'
    have h : b.noOrigin = b'.noOrigin := Option.some.inj h
    refine ⟨same_content h, same_width h, same_height h, same_margin h, same_border h, same_padding h, same_collapse h, ?_⟩
    have := congrArg Box.dirty h; exact this

theorem sameAbove_of_front {x y : Option Box} (h : x.map Box.front = y.map Box.front) : Both Box.SameAbove x y := by
  cases x <;> cases y
  · trivial
  · cases h
  · cases h
  · rename_i b b'
    have h : b.front = b'.front := Option.some.inj h
    refine ⟨front_content h, front_width h, front_margin h, front_border h, front_padding h, ?_, front_dirty h⟩
    intro t ht
    have h := congrArg (fun b => b.collapse.get t) h
    cases t with
    | bottom => exact absurd rfl ht
    | top => exact h
    | left => exact h
    | right => exact h

/-- C54. Two documents in which every displayed node has a box, that agree up to the end of the node at the path `q` and can both be laid out:
the node gets the same box, and its ancestors' boxes agree but for their heights and their collapsed bottom margins.
Missing: documents with nodes that have lost their boxes, `C54_false_stale`. -/
theorem C54_before_partial (fp : FP) (d : Display) (html5 : Bool) (p : Option CSS) (n m n' m' : Node) (q : List Nat) (hn : AllBoxed n) (hm : AllBoxed m)
    (hb : UpTo n m q) (h : layout fp d html5 p n = .ok n') (h' : layout fp d html5 p m = .ok m') :
    Both Box.Same (n'.boxAt q) (m'.boxAt q) ∧ ∀ r, r <+: q → Both Box.SameAbove (n'.boxAt r) (m'.boxAt r) := by
  have hc := layout_causal hn hm hb h h'
  exact ⟨same_of_noOrigin (match_boxAt hc), fun r hr => sameAbove_of_front (match_prefix hc r hr)⟩

/-- C54 as it is stated: adding children at the end of a node's children changes nothing about the children it had and what is below them
(`C54_before_partial` says it of nodes anywhere in the document). Missing: as above. -/
theorem C54_append_partial (fp : FP) (d : Display) (html5 : Bool) (p : Option CSS) (s : CSS) (z : Intrinsic) (l : Option Box) (cs ds : List Node)
    (n' m' : Node) (hn : AllBoxed (.mk s z l cs)) (hm : AllBoxed (.mk s z l (cs ++ ds))) (h : layout fp d html5 p (.mk s z l cs) = .ok n')
    (h' : layout fp d html5 p (.mk s z l (cs ++ ds)) = .ok m') (i : Nat) (hi : i < cs.length) (q : List Nat) :
    Both Box.Same (n'.boxAt (i :: q)) (m'.boxAt (i :: q)) := by
  refine (C54_before_partial fp d html5 p _ _ n' m' (i :: q) hn hm ?_ h h').1
  have := UpTo.here (s := s) (z := z) (l := l) (cs := []) (ks := ds) (q := q) hi
  rwa [List.append_nil] at this

/-- C54, the absolute positions: they are the same where the positions on the way are multiples of 1/64 that are not too large for their sums to be
exact. Missing: as above, and larger numbers. -/
theorem C54_place_partial (fp : FP) (d : Display) (html5 : Bool) (p : Option CSS) (n m n' m' : Node) (q : List Nat) (hn : AllBoxed n) (hm : AllBoxed m)
    (hb : UpTo n m q) (h : layout fp d html5 p n = .ok n') (h' : layout fp d html5 p m = .ok m') (a : Axis) (k : Nat) (hL : fp.Exact ∨ fp.Laws)
    (hf : ∀ r b, r <+: q → n'.boxAt r = some b → Fits fp k (b.pos a).content) (hk : (q.length + 2) * k ≤ 2 ^ 53) (b b' : Box)
    (e : n'.boxAt q = some b) (e' : m'.boxAt q = some b') : (b.absContent fp a).val = (b'.absContent fp a).val := by
  have hc := layout_causal hn hm hb h h'
  obtain ⟨bs, s1, s2, s3⟩ := boxAt_shown q e
  obtain ⟨bs', s1', s2', s3'⟩ := boxAt_shown q e'
  have hbb : (b.pos a).content = (b'.pos a).content := by
    have := match_boxAt hc
    rw [e, e'] at this
    exact same_content (Option.some.inj this) a
  have hfit : ∀ x ∈ bs, Fits fp k (x.pos a).content := by
    intro x hx
    obtain ⟨i, hi⟩ := List.mem_iff_getElem?.1 hx
    have hlt : i < q.length := by rw [← s2]; exact (List.getElem?_eq_some_iff.1 hi).1
    rw [s3 i hlt] at hi
    exact hf _ _ (List.take_prefix i q) hi
  have hmap : bs.map (fun x => (x.pos a).content) = bs'.map (fun x => (x.pos a).content) := by
    apply List.ext_getElem?
    intro i
    rw [List.getElem?_map, List.getElem?_map]
    by_cases hi : i < q.length
    · rw [s3 i hi, s3' i hi]
      have := match_prefix hc (q.take i) (List.take_prefix i q)
      revert this
      cases n'.boxAt (q.take i) <;> cases m'.boxAt (q.take i) <;> intro this
      · rfl
      · cases this
      · cases this
      · exact congrArg some (front_content (Option.some.inj this) a)
    · rw [List.getElem?_eq_none (by omega), List.getElem?_eq_none (by omega)]
  have hfit' : ∀ x ∈ bs', Fits fp k (x.pos a).content := by
    intro x hx
    have : (x.pos a).content ∈ bs'.map (fun x => (x.pos a).content) := List.mem_map.2 ⟨x, hx, rfl⟩
    rw [← hmap] at this
    obtain ⟨y, hy, ey⟩ := List.mem_map.1 this
    rw [← ey]
    exact hfit y hy
  have hfb := hf q b (List.prefix_refl q) e
  rw [C49_sum_partial fp d html5 p n n' hn h a bs b s1 k hL (by
      intro x hx
      rcases List.mem_cons.1 hx with rfl | hx
      · exact hfb
      · exact hfit x hx) (by rw [s2]; exact hk),
    C49_sum_partial fp d html5 p m m' hm h' a bs' b' s1' k hL (by
      intro x hx
      rcases List.mem_cons.1 hx with rfl | hx
      · rw [← hbb]; exact hfb
      · exact hfit' x hx) (by rw [s2']; exact hk)]
  have e1 : ∀ l : List Box, l.map (fun x => (x.pos a).content.val) = (l.map fun x => (x.pos a).content).map Num.val := by intro l; simp
  rw [List.map_append, List.map_append, e1 bs, e1 bs', hmap]
  simp only [List.map_cons, List.map_nil, hbb]

/-- C54, the absolute positions, in IEEE double arithmetic: they are the same where the relative positions on the way are below 2^40. Missing: as
above, and larger numbers. -/
theorem C54_grid_partial (fp : FP) (L : fp.Laws) (d : Display) (html5 : Bool) (p : Option CSS) (n m n' m' : Node) (q : List Nat) (hn : AllBoxed n)
    (hm : AllBoxed m) (hb : UpTo n m q) (h : layout fp d html5 p n = .ok n') (h' : layout fp d html5 p m = .ok m') (a : Axis) (hd : d.OnGrid)
    (hz : ∀ k, Visible k n → k.intrinsic.OnGrid) (hf : ∀ r b, r <+: q → n'.boxAt r = some b → |(b.pos a).content.val| ≤ 2 ^ 40)
    (hk : q.length ≤ 100) (b b' : Box) (e : n'.boxAt q = some b) (e' : m'.boxAt q = some b') :
    (b.absContent fp a).val = (b'.absContent fp a).val := by
  refine C54_place_partial fp d html5 p n m n' m' q hn hm hb h h' a (64 * 2 ^ 40) (Or.inr L) ?_ ?_ b b' e e'
  · intro r x hr hx
    obtain ⟨bs, s1, _⟩ := boxAt_shown r hx
    have g := layout_onGrid L hd hn hz h bs x s1
    exact Num.OnGrid.fits L (g.content a) (by exact_mod_cast hf r x hr hx)
  · calc (q.length + 2) * (64 * 2 ^ 40) ≤ 102 * (64 * 2 ^ 40) := Nat.mul_le_mul_right _ (by omega)
      _ ≤ 2 ^ 53 := by norm_num

/-- A document of two blocks in a block, the second with a block inside. -/
def short : Node :=
  block [(.padding .top, px 3)] [block [(.height, px 10), (.margin .bottom, px 7)] [], block [(.margin .top, px 9), (.width, pct 50)] [
    block [(.margin .left, px 2), (.height, px 5)] []]]

/-- More follows inside the second block and after it. -/
def long : Node :=
  block [(.padding .top, px 3)] [block [(.height, px 10), (.margin .bottom, px 7)] [], block [(.margin .top, px 9), (.width, pct 50)] [
    block [(.margin .left, px 2), (.height, px 5)] [], block [(.margin .bottom, px 40), (.height, px 77)] []], block [(.height, px 1000)] []]

/-- The innermost block of the first document and what precedes it are the same in the second. -/
example : UpTo short long [1, 0] :=
  .deep (xs := [block [(.height, px 10), (.margin .bottom, px 7)] []]) (.here (xs := [block [(.margin .left, px 2), (.height, px 5)] []]) (by decide))

/-- The blocks get the same boxes, their parents differ in height. -/
example : laidBox .b64 screen short [1, 0] = laidBox .b64 screen long [1, 0] ∧
    (laidBox .b64 screen short [1, 0]).map (fun b => (b.v.origin, b.h.content, b.contentWidth)) = some (.int 22, .int 2, some (.int 318)) ∧
    (laidBox .b64 screen short [1]).map (fun b => b.contentHeight) = some (some (.int 5)) ∧
    (laidBox .b64 screen long [1]).map (fun b => b.contentHeight) = some (some (.int 82)) := by decide +kernel

/-- What is left of a block 60 pixels high from an earlier layout. -/
def left60 : Box := { Box.fresh with contentHeight := some (.int 60) }

/-- A relatively positioned block that was hidden for a time and has lost its box, while the boxes of its children are those of an earlier layout. -/
def shownAgain (more : List Node) : Node :=
  block [] [.mk (styled [(.display, kw "block"), (.position, kw "relative")]) .initial none
    ([block [(.height, pct 50)] [], .mk (styled [(.display, kw "block"), (.height, px 60)]) .initial (some left60) []] ++ more)]

/-- C54 does not hold for every document: the boxes below an element without a box are not reset, so that the last child's box left over from an earlier
layout decides about the height percentages of its siblings refer to, unless another child follows. -/
theorem C54_false_stale : ∃ n m n' m' : Node, UpTo n m [0, 0] ∧ layout .b64 screen false none n = .ok n' ∧ layout .b64 screen false none m = .ok m' ∧
    (n'.boxAt [0, 0]).map Box.contentHeight = some (some (.int 30)) ∧ (m'.boxAt [0, 0]).map Box.contentHeight = some (some (.int 0)) := by
  refine ⟨shownAgain [], shownAgain [block [(.height, px 8)] []], laidDoc .b64 screen (shownAgain []),
    laidDoc .b64 screen (shownAgain [block [(.height, px 8)] []]), ?_, laidDoc_ok (by decide +kernel), laidDoc_ok (by decide +kernel), by decide +kernel,
    by decide +kernel⟩
  exact .deep (xs := []) (.here (xs := [block [(.height, pct 50)] [], .mk (styled [(.display, kw "block"), (.height, px 60)]) .initial (some left60) []])
    (by decide))

end Colosseum
