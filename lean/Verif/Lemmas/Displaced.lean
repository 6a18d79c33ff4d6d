import Verif.Lemmas.Regroup

/-!
# What moves when a block is put around or between others
-/

namespace Colosseum

variable {fp : FP} {d : Display}

/-- A region moved down. -/
def Region.down (t : Rat) (f : Region) : Region := { f with top := f.top + t, contentTop := f.contentTop + t }

theorem regionAt_down (t : Rat) : ∀ (q : List Nat) (n : Node) (W x y : Rat),
    n.regionAt fp d W x (y + t) q = (n.regionAt fp d W x y q).map (Region.down t)
  | [], n, W, x, y => by
    rw [Node.regionAt, Node.regionAt]
    simp only [Option.map_some, Region.down, Node.region]
    rw [add_right_comm y t]
  | i :: q, n, W, x, y => by
    rw [Node.regionAt, Node.regionAt]
    cases n.children[i]? with
    | none => rfl
    | some c =>
      simp only [Option.bind_some]
      rw [← regionAt_down t q c]
      congr 1
      ring

theorem topAt_modify {g : Node → Node} (hg : ∀ c, (g c).style = c.style) : ∀ (cs : List Node) (i : Nat),
    topAt fp d (cs.modify i g) i = topAt fp d cs i
  | [], i => by rw [List.modify_nil]
  | c :: cs, 0 => by rw [topAt_zero, topAt_zero]
  | [c], i + 1 => by rw [List.modify_succ_cons, List.modify_nil]
  | c :: c' :: cs, i + 1 => by
    have ih := topAt_modify hg (c' :: cs) i
    rw [List.modify_succ_cons]
    cases i with
    | zero =>
      rw [List.modify_zero_cons, topAt, topAt, topAt_zero, topAt_zero]
      unfold between
      rw [hg]
    | succ i =>
      rw [List.modify_succ_cons] at ih ⊢
      rw [topAt, topAt, ih]

theorem atPath_style {f : Node → Node} (hf : ∀ m, (f m).style = m.style) : ∀ (q : List Nat) (n : Node), (n.atPath f q).style = n.style
  | [], n => hf n
  | _ :: _, .mk _ _ _ _ => rfl

/-- A change below an element that keeps the margins at its top: its descendants are placed as if nothing else had changed. -/
theorem regionAt_below {f : Node → Node} (hf : ∀ m, (f m).style = m.style) : ∀ {q : List Nat} {n m : Node} (W x y : Rat), n.find q = some m →
    (f m).edgeTop fp d = m.edgeTop fp d →
    (n.atPath f q).edgeTop fp d = n.edgeTop fp d ∧ ∃ W' x' y', ∀ r, n.regionAt fp d W x y (q ++ r) = m.regionAt fp d W' x' y' r ∧
      (n.atPath f q).regionAt fp d W x y (q ++ r) = (f m).regionAt fp d W' x' y' r
  | [], n, m, W, x, y, hm, he => by
    cases hm
    exact ⟨he, W, x, y, fun r => ⟨rfl, rfl⟩⟩
  | i :: q, .mk s z l cs, m, W, x, y, hm, he => by
    rw [Node.find] at hm
    obtain ⟨c, hc, hm⟩ := Option.bind_eq_some_iff.1 hm
    have hc : cs[i]? = some c := hc
    obtain ⟨h1, W', x', y', h2⟩ := regionAt_below hf (s.contentWide fp d W) (x + s.shift fp d W + s.edge fp d .left)
      (y + s.edge fp d .top + topAt fp d cs i) hm he
    refine ⟨?_, W', x', y', fun r => ⟨?_, ?_⟩⟩
    · rw [Node.atPath, edgeTop_mk, edgeTop_mk]
      congr 1
      cases cs with
      | nil => cases hc
      | cons c0 cs =>
        cases i with
        | zero =>
          cases hc
          rw [List.modify_zero_cons, headEdge, headEdge, h1]
        | succ i => rw [List.modify_succ_cons, headEdge, headEdge]
    · rw [← (h2 r).1, List.cons_append, Node.regionAt]
      show (cs[i]?).bind _ = _
      rw [hc]
      rfl
    · rw [← (h2 r).2, Node.atPath, List.cons_append, Node.regionAt]
      show ((cs.modify i (Node.atPath f q))[i]?).bind _ = _
      rw [List.getElem?_modify, hc]
      simp only [if_pos, Option.map_eq_map, Option.map_some, Option.bind_some]
      show Node.regionAt fp d (s.contentWide fp d W) (x + s.shift fp d W + s.edge fp d .left)
        (y + s.edge fp d .top + topAt fp d (cs.modify i (Node.atPath f q)) i) _ _ = _
      rw [topAt_modify (atPath_style hf q)]

/-- Likewise in the reference layout. -/
theorem reference_below {f : Node → Node} (hf : ∀ m, (f m).style = m.style) {html5 : Bool} {q : List Nat} {n m : Node} (hm : n.find q = some m)
    (he : (f m).edgeTop fp d = m.edgeTop fp d) :
    ∃ W x y, ∀ j r, n.reference fp d html5 (q ++ j :: r) = m.regionAt fp d W x y (j :: r) ∧
      (n.atPath f q).reference fp d html5 (q ++ j :: r) = (f m).regionAt fp d W x y (j :: r) := by
  obtain ⟨h1, W, x, y, h2⟩ := regionAt_below (fp := fp) (d := d) hf d.contentWidth.val 0 (n.edgeTop fp d) hm he
  refine ⟨W, x, y, fun j r => ?_⟩
  have e : ∀ b : Bool, ¬ (b = true ∧ q ++ j :: r = []) := fun b k => by simp at k
  unfold Node.reference
  simp only [if_neg (e html5), Option.map_id']
  rw [h1]
  exact h2 (j :: r)

/-! ## A block around some children -/

section group
variable {s : CSS} {z : Intrinsic} {l : Option Box} {run : List Node}

theorem group_start (L : fp.Laws) (hu : (Node.mk s z l run).Undecorated) {pre : List Node} (post : List Node) (hp : pre ≠ []) (hr : run ≠ []) :
    startOf fp d pre (.mk s z l run :: post) = startOf fp d pre (run ++ post) + -max 0 (headTop fp d run - lastBottom fp d pre) := by
  rw [startOf_append post hr]
  unfold startOf
  rw [if_neg hp, if_neg hp]
  have h0 : (0 : Rat) ≤ lastBottom fp d pre := by exact_mod_cast lastBottom_nonneg pre
  have e : headTop fp d (.mk s z l run :: post) = 0 := bare_marginTop L hu
  rw [e, max_eq_left h0]
  rcases le_total (headTop fp d run) (lastBottom fp d pre) with h | h
  · rw [max_eq_left h, max_eq_left (by linarith)]; ring
  · rw [max_eq_right h, max_eq_right (by linarith)]; ring

theorem group_moves (L : fp.Laws) (hu : (Node.mk s z l run).Undecorated) {pre : List Node} (post : List Node) (hp : pre ≠ []) (hr : run ≠ []) (s' : CSS)
    (z' : Intrinsic) (l' : Option Box) (W x y : Rat) (j : Nat) (r : List Nat) :
    (Node.mk s' z' l' (pre ++ .mk s z l run :: post)).regionAt fp d W x y (groupPath pre.length run.length (j :: r)) =
      ((Node.mk s' z' l' (pre ++ (run ++ post))).regionAt fp d W x y (j :: r)).map
        (Region.down (if j < pre.length then 0 else -max 0 (headTop fp d run - lastBottom fp d pre))) := by
  rw [groupPath]
  by_cases h1 : j < pre.length
  · rw [if_pos h1, if_pos h1, regionAt_kid, regionAt_kid, kidAt_left h1, kidAt_left h1]
    have : Region.down 0 = id := by
      funext f
      simp [Region.down]
    rw [this, Option.map_id, id_eq]
  · rw [if_neg h1, if_neg h1]
    have down : ∀ (b : List Node) (W x y t : Rat) (j : Nat), kidAt fp d W x (y + t) b j r = (kidAt fp d W x y b j r).map (Region.down t) := by
      intro b W x y t j
      unfold kidAt
      cases b[j]? with
      | none => rfl
      | some c =>
        simp only [Option.bind_some]
        rw [← regionAt_down t r c, add_right_comm]
    by_cases h2 : j < pre.length + run.length
    · obtain ⟨t, rfl⟩ : ∃ t, j = pre.length + t := ⟨j - pre.length, by omega⟩
      have ht : t < run.length := by omega
      rw [if_pos h2, regionAt_kid, regionAt_kid, kidAt_right]
      have e := kidAt_right (fp := fp) (d := d) pre (.mk s z l run :: post) 0 (s'.contentWide fp d W) (x + s'.shift fp d W + s'.edge fp d .left)
        (y + s'.edge fp d .top) ((pre.length + t - pre.length) :: r)
      rw [Nat.add_zero] at e
      rw [e, kidAt_zero, Nat.add_sub_cancel_left, regionAt_kid, kidAt_left ht]
      have h3 : s.contentWide fp d (s'.contentWide fp d W) = s'.contentWide fp d W := bare_contentWide L hu _
      have h4 : s.shift fp d (s'.contentWide fp d W) = 0 := bare_shift L hu _
      have h5 : s.edge fp d .left = 0 := bare_edge L hu .left
      have h6 : s.edge fp d .top = 0 := bare_edge L hu .top
      rw [h3, h4, h5, h6, add_zero, add_zero, add_zero, group_start L hu post hp hr, ← add_assoc, down]
    · obtain ⟨t, rfl⟩ : ∃ t, j = pre.length + (run.length + t) := ⟨j - pre.length - run.length, by omega⟩
      rw [if_neg h2, show pre.length + (run.length + t) + 1 - run.length = pre.length + (1 + t) by omega, regionAt_kid, regionAt_kid, kidAt_right, kidAt_right,
        kidAt_right run post]
      have e := kidAt_right (fp := fp) (d := d) [.mk s z l run] post t (s'.contentWide fp d W) (x + s'.shift fp d W + s'.edge fp d .left)
        (y + s'.edge fp d .top + startOf fp d pre (.mk s z l run :: post)) r
      rw [List.singleton_append, List.length_singleton] at e
      rw [e, group_start L hu post hp hr, group_start_right L hu post hr, ← down]
      congr 1
      ring

end group

/-! ## An empty block -/

section insert
variable {s : CSS} {z : Intrinsic} {l : Option Box}

theorem insert_moves (L : fp.Laws) (hu : (Node.mk s z l []).Undecorated) {pre post : List Node} (hp : pre ≠ []) (s' : CSS)
    (z' : Intrinsic) (l' : Option Box) (W x y : Rat) (j : Nat) (r : List Nat) :
    (Node.mk s' z' l' (pre ++ .mk s z l [] :: post)).regionAt fp d W x y (insertPath pre.length (j :: r)) =
      ((Node.mk s' z' l' (pre ++ post)).regionAt fp d W x y (j :: r)).map
        (Region.down (if j < pre.length then 0 else min (lastBottom fp d pre : Rat) (max 0 (headTop fp d post)))) := by
  rw [insertPath]
  by_cases h1 : j < pre.length
  · rw [if_pos h1, if_pos h1, regionAt_kid, regionAt_kid, kidAt_left h1, kidAt_left h1]
    have : Region.down 0 = id := by
      funext f
      simp [Region.down]
    rw [this, Option.map_id, id_eq]
  · rw [if_neg h1, if_neg h1]
    have down : ∀ (b : List Node) (W x y t : Rat) (j : Nat), kidAt fp d W x (y + t) b j r = (kidAt fp d W x y b j r).map (Region.down t) := by
      intro b W x y t j
      unfold kidAt
      cases b[j]? with
      | none => rfl
      | some c =>
        simp only [Option.bind_some]
        rw [← regionAt_down t r c, add_right_comm]
    obtain ⟨t, rfl⟩ : ∃ t, j = pre.length + t := ⟨j - pre.length, by omega⟩
    rw [show pre.length + t + 1 = pre.length + (1 + t) by omega, regionAt_kid, regionAt_kid, kidAt_right, kidAt_right]
    have e := kidAt_right (fp := fp) (d := d) [.mk s z l []] post t (s'.contentWide fp d W) (x + s'.shift fp d W + s'.edge fp d .left)
      (y + s'.edge fp d .top + startOf fp d pre (.mk s z l [] :: post)) r
    rw [List.singleton_append, List.length_singleton] at e
    rw [e, ← down]
    congr 1
    have h0 : (0 : Rat) ≤ lastBottom fp d pre := by exact_mod_cast lastBottom_nonneg pre
    have e1 : headTop fp d (.mk s z l [] :: post) = 0 := bare_marginTop L hu
    have e2 : startOf fp d [.mk s z l []] post = max 0 (headTop fp d post) := by
      rw [startOf, if_neg (List.cons_ne_nil _ _), stackTall, lastBottom, bare_tall L hu, bare_edgeBottom L hu, stackTall, lastBottom]
      simp
    rw [e2]
    unfold startOf
    rw [if_neg hp, if_neg hp, e1, max_eq_left h0]
    generalize (lastBottom fp d pre : Rat) = a at h0
    generalize headTop fp d post = b
    have : a + max 0 b = max a b + min a (max 0 b) := by
      rcases le_total 0 b with h | h
      · rw [max_eq_right h]; rw [max_add_min]
      · rw [max_eq_left h, max_eq_left (le_trans h h0), min_eq_right h0]
    linarith

end insert

end Colosseum
