import Verif.Spec.Regroup
import Verif.Lemmas.Reference
import Verif.Lemmas.Notation

/-!
# Blocks that should not matter
-/

namespace Colosseum

variable {fp : FP} {d : Display}

/-! ## Stacks in two parts -/

/-- The top margin of the first block. -/
def headTop (fp : FP) (d : Display) : List Node → Rat
  | [] => 0
  | c :: _ => c.marginTop fp d

/-- The collapsed top margin of the first block. -/
def headEdge (fp : FP) (d : Display) : List Node → Int
  | [] => 0
  | c :: _ => c.edgeTop fp d

/-- Where the second part of a stack begins. -/
def startOf (fp : FP) (d : Display) (a b : List Node) : Rat :=
  if a = [] then 0 else stackTall fp d a + max (lastBottom fp d a : Rat) (headTop fp d b)

theorem lastBottom_append : ∀ {a b : List Node}, b ≠ [] → lastBottom fp d (a ++ b) = lastBottom fp d b
  | [], _, _ => rfl
  | [_], [], h => absurd rfl h
  | [_], _ :: _, _ => by rw [List.singleton_append, lastBottom]
  | _ :: c :: a, b, h => by
    rw [List.cons_append, List.cons_append, lastBottom, ← List.cons_append]
    exact lastBottom_append h

theorem lastBottom_nonneg : ∀ a : List Node, 0 ≤ lastBottom fp d a
  | [] => by rw [lastBottom]
  | [c] => by rw [lastBottom]; exact edgeBottom_nonneg c
  | _ :: c :: a => by rw [lastBottom]; exact lastBottom_nonneg (c :: a)

theorem stackTall_append : ∀ {a b : List Node}, b ≠ [] → stackTall fp d (a ++ b) = startOf fp d a b + stackTall fp d b
  | [], b, _ => by simp [startOf]
  | [_], [], h => absurd rfl h
  | [c], c' :: b, _ => by
    rw [List.singleton_append, stackTall, startOf, if_neg (List.cons_ne_nil _ _), stackTall, lastBottom]
    rfl
  | c :: c' :: a, b, h => by
    have := stackTall_append (a := c' :: a) h
    rw [List.cons_append, List.cons_append, stackTall, ← List.cons_append, this]
    simp only [startOf, if_neg (List.cons_ne_nil _ _)]
    rw [stackTall, lastBottom]
    ring

theorem topAt_left : ∀ {a b : List Node} {j : Nat}, j < a.length → topAt fp d (a ++ b) j = topAt fp d a j
  | [], _, _, h => absurd h (Nat.not_lt_zero _)
  | _ :: _, _, 0, _ => by rw [topAt_zero, topAt_zero]
  | [_], _, j + 1, h => absurd h (by simp)
  | c :: c' :: a, b, j + 1, h => by
    have := topAt_left (a := c' :: a) (b := b) (j := j) (by simpa using h)
    rw [List.cons_append, List.cons_append, topAt, topAt, ← List.cons_append, this]

theorem topAt_right : ∀ {a b : List Node} {j : Nat}, b ≠ [] → topAt fp d (a ++ b) (a.length + j) = startOf fp d a b + topAt fp d b j
  | [], b, j, _ => by simp [startOf]
  | [_], [], _, h => absurd rfl h
  | [c], c' :: b, j, _ => by
    rw [List.singleton_append, List.length_singleton, Nat.add_comm 1 j, topAt, startOf, if_neg (List.cons_ne_nil _ _), stackTall, lastBottom]
    rfl
  | c :: c' :: a, b, j, h => by
    have := topAt_right (a := c' :: a) (j := j) h
    rw [List.length_cons, show (c' :: a).length + 1 + j = ((c' :: a).length + j) + 1 by omega, List.cons_append, List.cons_append, topAt,
      ← List.cons_append, this]
    simp only [startOf, if_neg (List.cons_ne_nil _ _)]
    rw [stackTall, lastBottom]
    ring

theorem startOf_append {a b : List Node} (c : List Node) (hb : b ≠ []) : startOf fp d a (b ++ c) = startOf fp d a b := by
  unfold startOf
  cases b with
  | nil => exact absurd rfl hb
  | cons x b => rfl

/-! ## Nodes that are the same for those around them -/

/-- The same style, height and collapsed margins. -/
structure Equi (fp : FP) (d : Display) (m m' : Node) : Prop where
  style : m'.style = m.style
  tall : m'.tall fp d = m.tall fp d
  top : m'.edgeTop fp d = m.edgeTop fp d
  bottom : m'.edgeBottom fp d = m.edgeBottom fp d

theorem Equi.refl (m : Node) : Equi fp d m m := ⟨rfl, rfl, rfl, rfl⟩

/-- The same for lists. -/
inductive Equis (fp : FP) (d : Display) : List Node → List Node → Prop
  | nil : Equis fp d [] []
  | cons {c c' : Node} {cs cs' : List Node} : Equi fp d c c' → Equis fp d cs cs' → Equis fp d (c :: cs) (c' :: cs')

theorem Equis.refl : ∀ cs : List Node, Equis fp d cs cs
  | [] => .nil
  | c :: cs => .cons (.refl c) (.refl cs)

theorem equis_modify {g : Node → Node} : ∀ {cs : List Node} {i : Nat}, (∀ c, cs[i]? = some c → Equi fp d c (g c)) → Equis fp d cs (cs.modify i g)
  | [], i, _ => by simpa using Equis.nil
  | c :: cs, 0, h => by
    rw [List.modify_zero_cons]
    exact .cons (h c rfl) (.refl cs)
  | c :: cs, i + 1, h => by
    rw [List.modify_succ_cons]
    exact .cons (.refl c) (equis_modify fun c hc => h c (by simpa using hc))

theorem Equi.between {c c' e e' : Node} (h : Equi fp d c c') (k : Equi fp d e e') : between fp d c' e' = between fp d c e := by
  unfold Colosseum.between
  rw [h.bottom, k.style]

theorem Equis.stack {cs cs' : List Node} (h : Equis fp d cs cs') : stackTall fp d cs' = stackTall fp d cs := by
  induction h with
  | nil => rfl
  | cons h t ih =>
    cases t with
    | nil => rw [stackTall, stackTall, h.tall]
    | cons k t => rw [stackTall, stackTall, ih, h.tall, h.between k]

theorem Equis.topAt {cs cs' : List Node} (h : Equis fp d cs cs') (j : Nat) : topAt fp d cs' j = topAt fp d cs j := by
  induction h generalizing j with
  | nil => rfl
  | cons h t ih =>
    cases j with
    | zero => rw [topAt_zero, topAt_zero]
    | succ j =>
      cases t with
      | nil => rfl
      | cons k t => rw [Colosseum.topAt, Colosseum.topAt, ih j, h.tall, h.between k]

theorem Equis.last {cs cs' : List Node} (h : Equis fp d cs cs') : lastBottom fp d cs' = lastBottom fp d cs := by
  induction h with
  | nil => rfl
  | cons h t ih =>
    cases t with
    | nil => rw [lastBottom, lastBottom, h.bottom]
    | cons k t => rw [lastBottom, lastBottom, ih]

theorem Equis.head {cs cs' : List Node} (h : Equis fp d cs cs') : headEdge fp d cs' = headEdge fp d cs := by
  cases h with
  | nil => rfl
  | cons h t => exact h.top

theorem Equis.empty {cs cs' : List Node} (h : Equis fp d cs cs') : cs'.isEmpty = cs.isEmpty := by
  cases h <;> rfl

theorem edgeTop_mk (s : CSS) (z : Intrinsic) (l : Option Box) (cs : List Node) :
    (Node.mk s z l cs).edgeTop fp d = max (max 0 ((s.get (.margin .top)).whole fp d)) (headEdge fp d cs) := by
  cases cs with
  | nil => rw [Node.edgeTop, headEdge, max_eq_left (le_max_left _ _)]
  | cons c cs => rw [Node.edgeTop, headEdge]

/-- Changed children that take the same place. -/
theorem equi_mk {s : CSS} {z z' : Intrinsic} {l l' : Option Box} {cs cs' : List Node}
    (e : (s.get .height).pixels fp d = none → (if cs'.isEmpty then ((s.get .minHeight).pixels fp d).getD 0 else stackTall fp d cs') =
      if cs.isEmpty then ((s.get .minHeight).pixels fp d).getD 0 else stackTall fp d cs)
    (t : headEdge fp d cs' = headEdge fp d cs) (b : lastBottom fp d cs' = lastBottom fp d cs) : Equi fp d (.mk s z l cs) (.mk s z' l' cs') where
  style := rfl
  tall := by
    rw [Node.tall, Node.tall]
    cases h : (s.get .height).pixels fp d with
    | some x => rfl
    | none => rw [e h]
  top := by rw [edgeTop_mk, edgeTop_mk, t]
  bottom := by rw [Node.edgeBottom, Node.edgeBottom, b]

theorem equi_children {s : CSS} {z z' : Intrinsic} {l l' : Option Box} {cs cs' : List Node} (h : Equis fp d cs cs') :
    Equi fp d (.mk s z l cs) (.mk s z' l' cs') :=
  equi_mk (fun _ => by rw [h.empty, h.stack]) h.head h.last

theorem Equi.region {m m' : Node} (h : Equi fp d m m') (W x y : Rat) : m'.region fp d W x y = m.region fp d W x y := by
  unfold Node.region
  rw [h.style, h.tall]

/-- A change of the node at a path that others do not notice, with `σ` telling where its descendants are afterwards. -/
theorem regionAt_change {f : Node → Node} {σ : List Nat → List Nat} : ∀ {q : List Nat} {n m : Node}, n.find q = some m → Equi fp d m (f m) →
    (∀ W x y r, (f m).regionAt fp d W x y (σ r) = m.regionAt fp d W x y r) →
    Equi fp d n (n.atPath f q) ∧ (∀ W x y r, (n.atPath f q).regionAt fp d W x y (q ++ σ r) = n.regionAt fp d W x y (q ++ r)) ∧
    ∀ W x y r, ¬ q <+: r → (n.atPath f q).regionAt fp d W x y r = n.regionAt fp d W x y r
  | [], n, m, hm, he, hf => by
    cases hm
    exact ⟨he, hf, fun _ _ _ r hr => absurd (List.nil_prefix) hr⟩
  | i :: q, .mk s z l cs, m, hm, he, hf => by
    rw [Node.find] at hm
    obtain ⟨c, hc, hm⟩ := Option.bind_eq_some_iff.1 hm
    have hc : cs[i]? = some c := hc
    obtain ⟨h1, h2, h3⟩ := regionAt_change hm he hf
    have eqs : Equis fp d cs (cs.modify i (Node.atPath f q)) := equis_modify fun c' hc' => by
      cases hc.symm.trans hc'
      exact h1
    have here : Equi fp d (.mk s z l cs) (.mk s z l (cs.modify i (Node.atPath f q))) := equi_children eqs
    refine ⟨here, ?_, ?_⟩
    · intro W x y r
      rw [Node.atPath, List.cons_append, List.cons_append, Node.regionAt, Node.regionAt]
      show ((cs.modify i (Node.atPath f q))[i]?).bind _ = (cs[i]?).bind _
      rw [List.getElem?_modify, hc]
      simp only [if_pos, Option.map_eq_map, Option.map_some, Option.bind_some]
      show Node.regionAt fp d (s.contentWide fp d W) (x + s.shift fp d W + s.edge fp d .left)
        (y + s.edge fp d .top + Colosseum.topAt fp d (cs.modify i (Node.atPath f q)) i) _ _ = _
      rw [eqs.topAt, h2]
      rfl
    · intro W x y r hr
      cases r with
      | nil =>
        rw [Node.regionAt, Node.regionAt, Node.atPath, here.region]
      | cons j r =>
        rw [Node.atPath, Node.regionAt, Node.regionAt]
        show ((cs.modify i (Node.atPath f q))[j]?).bind _ = (cs[j]?).bind _
        rw [List.getElem?_modify]
        by_cases e : i = j
        · subst e
          rw [hc]
          simp only [if_pos, Option.map_eq_map, Option.map_some, Option.bind_some]
          show Node.regionAt fp d (s.contentWide fp d W) (x + s.shift fp d W + s.edge fp d .left)
            (y + s.edge fp d .top + Colosseum.topAt fp d (cs.modify i (Node.atPath f q)) i) _ _ = _
          rw [eqs.topAt, h3 _ _ _ _ fun k => hr ((List.prefix_cons_inj i).2 k)]
          rfl
        · simp only [if_neg e, Option.map_eq_map, Option.map_id', id_eq]
          cases cs[j]? with
          | none => rfl
          | some c' =>
            simp only [Option.bind_some]
            show Node.regionAt fp d (s.contentWide fp d W) (x + s.shift fp d W + s.edge fp d .left)
              (y + s.edge fp d .top + Colosseum.topAt fp d (cs.modify i (Node.atPath f q)) j) _ _ = _
            rw [eqs.topAt]
            rfl

/-! ## Undecorated blocks -/

theorem zeroPx_px (L : fp.Laws) (c : PxCtx) : zeroPx.px fp c = .ok (.int 0) := zero_px (x := .fin (.int 0)) L (by decide) c

theorem bare_get {m : Node} (h : m.Undecorated) {p : LH} (hp : p ≠ .display) : m.style.get p = p.constInit := by
  unfold CSS.get
  rw [h.bare p hp]
  rfl

theorem zeroPx_length (L : fp.Laws) : zeroPx.Length fp d (dummyFont fp) (.int 0) := ⟨_, _, rfl, by decide, zero_px L (by decide) _⟩

theorem bare_regular (L : fp.Laws) {m : Node} (h : m.Undecorated) : m.Regular fp d where
  block := .inl h.block
  content := h.content
  float := bare_get h (by decide)
  position := bare_get h (by decide)
  margin t := .inr (by rw [bare_get h (by simp)]; exact ⟨_, zeroPx_length L⟩)
  border t := .inr (.inr (.inr (by rw [bare_get h (by simp)]; exact ⟨_, zeroPx_length L⟩)))
  padding t := by rw [bare_get h (by simp)]; exact ⟨_, zeroPx_length L⟩
  size p hp := by rcases hp with rfl | rfl | rfl | rfl <;> exact .inl (bare_get h (by decide))
  most p hp := by rcases hp with rfl | rfl <;> exact .inl (bare_get h (by decide))

theorem bare_edge (L : fp.Laws) {m : Node} (h : m.Undecorated) (t : Side) : m.style.edge fp d t = 0 := by
  unfold CSS.edge CSS.bordered CSS.padded
  rw [bare_get h (p := .borderWidth t) (by simp), bare_get h (p := .padding t) (by simp)]
  show (zeroPx.pixels fp d).getD 0 + (zeroPx.pixels fp d).getD 0 = 0
  rw [pixels_length (zeroPx_length L), Num.val_int]
  simp

theorem bare_outside (L : fp.Laws) {m : Node} (h : m.Undecorated) (t : Side) : m.style.outside fp d t = some 0 := by
  unfold CSS.outside
  rw [bare_get h (p := .margin t) (by simp)]
  show zeroPx.pixels fp d = _
  rw [pixels_length (zeroPx_length L), Num.val_int]
  simp

theorem bare_contentWide (L : fp.Laws) {m : Node} (h : m.Undecorated) (W : Rat) : m.style.contentWide fp d W = W := by
  unfold CSS.contentWide
  rw [bare_get h (p := .width) (by simp)]
  show W - _ - _ - _ - _ = W
  rw [bare_edge L h, bare_edge L h, bare_outside L h, bare_outside L h]
  simp

theorem bare_shift (L : fp.Laws) {m : Node} (h : m.Undecorated) (W : Rat) : m.style.shift fp d W = 0 := by
  unfold CSS.shift
  rw [bare_get h (p := .width) (by simp), bare_outside L h, bare_outside L h]
  simp only [reduceCtorEq, false_and, if_false]
  rfl

theorem bare_marginTop (L : fp.Laws) {m : Node} (h : m.Undecorated) : m.marginTop fp d = 0 := by
  unfold Node.marginTop
  rw [bare_outside L h]
  rfl

theorem bare_whole (L : fp.Laws) {m : Node} (h : m.Undecorated) (t : Side) : (m.style.get (.margin t)).whole fp d = 0 := by
  rw [bare_get h (p := .margin t) (by simp)]
  show zeroPx.whole fp d = 0
  unfold Val.whole
  rw [zeroPx_px L]

theorem bare_edgeTop (L : fp.Laws) {s : CSS} {z : Intrinsic} {l : Option Box} {cs : List Node} (h : (Node.mk s z l cs).Undecorated) :
    (Node.mk s z l cs).edgeTop fp d = max 0 (headEdge fp d cs) := by
  rw [edgeTop_mk]
  have : (s.get (.margin .top)).whole fp d = 0 := bare_whole L h .top
  rw [this, max_self]

theorem bare_edgeBottom (L : fp.Laws) {s : CSS} {z : Intrinsic} {l : Option Box} {cs : List Node} (h : (Node.mk s z l cs).Undecorated) :
    (Node.mk s z l cs).edgeBottom fp d = lastBottom fp d cs := by
  rw [Node.edgeBottom]
  have : (s.get (.margin .bottom)).whole fp d = 0 := bare_whole L h .bottom
  have e : s.get .height = kw "auto" := bare_get h (by simp)
  rw [this, max_self, e, if_pos (by decide), max_eq_right (lastBottom_nonneg _)]

theorem bare_tall (L : fp.Laws) {s : CSS} {z : Intrinsic} {l : Option Box} {cs : List Node} (h : (Node.mk s z l cs).Undecorated) :
    (Node.mk s z l cs).tall fp d = stackTall fp d cs := by
  rw [Node.tall]
  have e : s.get .height = kw "auto" := bare_get h (by simp)
  have e' : s.get .minHeight = kw "auto" := bare_get h (by simp)
  have e1 : s.edge fp d .top = 0 := bare_edge L h .top
  have e2 : s.edge fp d .bottom = 0 := bare_edge L h .bottom
  rw [e, e', e1, e2, pixels_kw]
  cases cs with
  | nil => rw [stackTall]; simp
  | cons c cs => simp

theorem undecorated_children {s : CSS} {z : Intrinsic} {l : Option Box} {cs : List Node} (cs' : List Node) (h : (Node.mk s z l cs).Undecorated) :
    (Node.mk s z l cs').Undecorated := ⟨h.block, h.bare, h.content, h.boxed⟩

/-! ## The regions of children -/

/-- The region of a descendant of a list of blocks. -/
def kidAt (fp : FP) (d : Display) (W x y : Rat) (cs : List Node) (j : Nat) (r : List Nat) : Option Region :=
  (cs[j]?).bind fun c => c.regionAt fp d W x (y + topAt fp d cs j) r

theorem regionAt_kid (s : CSS) (z : Intrinsic) (l : Option Box) (cs : List Node) (W x y : Rat) (j : Nat) (r : List Nat) :
    (Node.mk s z l cs).regionAt fp d W x y (j :: r) =
      kidAt fp d (s.contentWide fp d W) (x + s.shift fp d W + s.edge fp d .left) (y + s.edge fp d .top) cs j r := by
  rw [Node.regionAt]
  rfl

theorem kidAt_left {a b : List Node} {j : Nat} (h : j < a.length) (W x y : Rat) (r : List Nat) :
    kidAt fp d W x y (a ++ b) j r = kidAt fp d W x y a j r := by
  unfold kidAt
  rw [topAt_left h, List.getElem?_append_left h]

theorem kidAt_right (a b : List Node) (j : Nat) (W x y : Rat) (r : List Nat) :
    kidAt fp d W x y (a ++ b) (a.length + j) r = kidAt fp d W x (y + startOf fp d a b) b j r := by
  unfold kidAt
  rw [List.getElem?_append_right (Nat.le_add_right _ _), Nat.add_sub_cancel_left]
  by_cases h : b = []
  · subst h; rfl
  · rw [topAt_right h, add_assoc]

theorem kidAt_zero (c : Node) (b : List Node) (W x y : Rat) (r : List Nat) : kidAt fp d W x y (c :: b) 0 r = c.regionAt fp d W x y r := by
  unfold kidAt
  rw [topAt_zero, add_zero]
  rfl

/-! ## A block around some children -/

section group
variable {s : CSS} {z : Intrinsic} {l : Option Box} {run : List Node}

theorem group_start_left (L : fp.Laws) (hu : (Node.mk s z l run).Undecorated) {pre : List Node} (post : List Node) (hr : run ≠ [])
    (hf : pre = [] ∨ headTop fp d run ≤ lastBottom fp d pre) : startOf fp d pre (.mk s z l run :: post) = startOf fp d pre (run ++ post) := by
  rw [startOf_append post hr]
  unfold startOf
  split
  · rfl
  · next h =>
    have h0 : (0 : Rat) ≤ lastBottom fp d pre := by exact_mod_cast lastBottom_nonneg pre
    have e : headTop fp d (.mk s z l run :: post) = 0 := bare_marginTop L hu
    rw [e, max_eq_left h0, max_eq_left (hf.resolve_left h)]

theorem group_start_right (L : fp.Laws) (hu : (Node.mk s z l run).Undecorated) (post : List Node) (hr : run ≠ []) :
    startOf fp d [.mk s z l run] post = startOf fp d run post := by
  unfold startOf
  rw [if_neg hr, if_neg (List.cons_ne_nil _ _), stackTall, lastBottom, bare_tall L hu, bare_edgeBottom L hu]

theorem group_stack (L : fp.Laws) (hu : (Node.mk s z l run).Undecorated) (post : List Node) (hr : run ≠ []) :
    stackTall fp d (.mk s z l run :: post) = stackTall fp d (run ++ post) := by
  by_cases hp : post = []
  · subst hp
    rw [stackTall, bare_tall L hu, List.append_nil]
  · rw [← List.singleton_append, stackTall_append hp, stackTall_append hp, group_start_right L hu post hr]

theorem group_last (L : fp.Laws) (hu : (Node.mk s z l run).Undecorated) (post : List Node) :
    lastBottom fp d (.mk s z l run :: post) = lastBottom fp d (run ++ post) := by
  by_cases hp : post = []
  · subst hp
    rw [lastBottom, bare_edgeBottom L hu, List.append_nil]
  · rw [← List.singleton_append, lastBottom_append hp, lastBottom_append hp]

theorem headEdge_nonneg (cs : List Node) : 0 ≤ headEdge fp d cs := by
  cases cs with
  | nil => exact le_rfl
  | cons c cs =>
    obtain ⟨s, z, l, cs⟩ := c
    rw [headEdge, edgeTop_mk]
    exact le_max_of_le_left (le_max_left _ _)

theorem group_head (L : fp.Laws) (hu : (Node.mk s z l run).Undecorated) (pre post : List Node) (hr : run ≠ []) :
    headEdge fp d (pre ++ .mk s z l run :: post) = headEdge fp d (pre ++ (run ++ post)) := by
  cases pre with
  | cons c pre => rfl
  | nil =>
    rw [List.nil_append, List.nil_append, headEdge, bare_edgeTop L hu, max_eq_right (headEdge_nonneg _)]
    cases run with
    | nil => exact absurd rfl hr
    | cons c run => rfl

theorem group_equi (L : fp.Laws) (hu : (Node.mk s z l run).Undecorated) {pre : List Node} (post : List Node) (hr : run ≠ [])
    (hf : pre = [] ∨ headTop fp d run ≤ lastBottom fp d pre) (s' : CSS) (z' : Intrinsic) (l' : Option Box) :
    Equi fp d (.mk s' z' l' (pre ++ (run ++ post))) (.mk s' z' l' (pre ++ .mk s z l run :: post)) := by
  have h1 : Node.mk s z l run :: post ≠ [] := List.cons_ne_nil _ _
  have h2 : run ++ post ≠ [] := by simp [hr]
  refine equi_mk (fun _ => ?_) (group_head L hu pre post hr) ?_
  · rw [if_neg (by simp), if_neg (by simp [hr]), stackTall_append h1, stackTall_append h2, group_stack L hu post hr, group_start_left L hu post hr hf]
  · rw [lastBottom_append h1, lastBottom_append h2, group_last L hu]

theorem group_kids (L : fp.Laws) (hu : (Node.mk s z l run).Undecorated) {pre : List Node} (post : List Node) (hr : run ≠ [])
    (hf : pre = [] ∨ headTop fp d run ≤ lastBottom fp d pre) (s' : CSS) (z' : Intrinsic) (l' : Option Box) (W x y : Rat) (r : List Nat) :
    (Node.mk s' z' l' (pre ++ .mk s z l run :: post)).regionAt fp d W x y (groupPath pre.length run.length r) =
      (Node.mk s' z' l' (pre ++ (run ++ post))).regionAt fp d W x y r := by
  cases r with
  | nil =>
    rw [groupPath, Node.regionAt, Node.regionAt, (group_equi L hu post hr hf s' z' l').region]
  | cons j r =>
    rw [groupPath]
    by_cases h1 : j < pre.length
    · rw [if_pos h1, regionAt_kid, regionAt_kid, kidAt_left h1, kidAt_left h1]
    · rw [if_neg h1]
      by_cases h2 : j < pre.length + run.length
      · obtain ⟨t, rfl⟩ : ∃ t, j = pre.length + t := ⟨j - pre.length, by omega⟩
        have ht : t < run.length := by omega
        rw [if_pos h2, Nat.add_sub_cancel_left, regionAt_kid, regionAt_kid, kidAt_right, kidAt_left ht]
        have := kidAt_right (fp := fp) (d := d) pre (Node.mk s z l run :: post) 0 (s'.contentWide fp d W) (x + s'.shift fp d W + s'.edge fp d .left)
          (y + s'.edge fp d .top) (t :: r)
        rw [Nat.add_zero] at this
        rw [this, kidAt_zero, regionAt_kid, group_start_left L hu post hr hf]
        have e1 := bare_contentWide (d := d) L hu (s'.contentWide fp d W)
        have e2 := bare_shift (d := d) L hu (s'.contentWide fp d W)
        have e3 := bare_edge (d := d) L hu .left
        have e4 := bare_edge (d := d) L hu .top
        simp only [Node.style] at e1 e2 e3 e4
        rw [e1, e2, e3, e4, add_zero, add_zero, add_zero]
      · obtain ⟨t, rfl⟩ : ∃ t, j = pre.length + (run.length + t) := ⟨j - pre.length - run.length, by omega⟩
        have hl : 0 < run.length := List.length_pos_iff.2 hr
        rw [if_neg h2, show pre.length + (run.length + t) + 1 - run.length = pre.length + (1 + t) by omega, regionAt_kid, regionAt_kid, kidAt_right,
          kidAt_right, kidAt_right, group_start_left L hu post hr hf]
        have := kidAt_right (fp := fp) (d := d) [Node.mk s z l run] post t (s'.contentWide fp d W) (x + s'.shift fp d W + s'.edge fp d .left)
          (y + s'.edge fp d .top + startOf fp d pre (run ++ post)) r
        rw [List.length_singleton, List.singleton_append] at this
        rw [this, group_start_right L hu post hr]

end group

/-! ## An empty block -/

section insert
variable {s : CSS} {z : Intrinsic} {l : Option Box}

/-- What `Node.Open` says about the two parts of the children. -/
structure Gap (fp : FP) (d : Display) (pre post : List Node) : Prop where
  middle : pre ≠ [] → post ≠ [] → lastBottom fp d pre = 0 ∨ headTop fp d post ≤ 0
  last : pre ≠ [] → post = [] → lastBottom fp d pre = 0
  first : pre = [] → post ≠ [] → headEdge fp d post = 0 ∧ headTop fp d post ≤ 0

theorem insert_start (L : fp.Laws) (hu : (Node.mk s z l []).Undecorated) {pre post : List Node} (h : Gap fp d pre post) (hp : post ≠ []) :
    startOf fp d pre (.mk s z l [] :: post) + startOf fp d [.mk s z l []] post = startOf fp d pre post := by
  have e1 : headTop fp d (.mk s z l [] :: post) = 0 := bare_marginTop L hu
  have e2 : startOf fp d [.mk s z l []] post = max 0 (headTop fp d post) := by
    rw [startOf, if_neg (List.cons_ne_nil _ _), stackTall, lastBottom, bare_tall L hu, bare_edgeBottom L hu, stackTall, lastBottom]
    simp
  rw [e2]
  unfold startOf
  by_cases hq : pre = []
  · rw [if_pos hq, if_pos hq, max_eq_left (h.first hq hp).2, add_zero]
  · rw [if_neg hq, if_neg hq, e1]
    have h0 : (0 : Rat) ≤ lastBottom fp d pre := by exact_mod_cast lastBottom_nonneg pre
    rcases h.middle hq hp with h | h
    · rw [h]; simp
    · rw [max_eq_left h, max_eq_left h0, max_eq_left (h.trans h0), add_zero]

theorem insert_equi (L : fp.Laws) (hu : (Node.mk s z l []).Undecorated) {pre post : List Node} (h : Gap fp d pre post) (s' : CSS) (z' : Intrinsic)
    (l' : Option Box) (he : pre = [] → post = [] → (s'.get .height).pixels fp d = none → (s'.get .minHeight).pixels fp d = none) :
    Equi fp d (.mk s' z' l' (pre ++ post)) (.mk s' z' l' (pre ++ .mk s z l [] :: post)) := by
  have h1 : Node.mk s z l [] :: post ≠ [] := List.cons_ne_nil _ _
  have et : (Node.mk s z l []).tall fp d = 0 := by rw [bare_tall L hu, stackTall]
  have eb : (Node.mk s z l []).edgeBottom fp d = 0 := by rw [bare_edgeBottom L hu, lastBottom]
  have ee : (Node.mk s z l []).edgeTop fp d = 0 := by rw [bare_edgeTop L hu, headEdge, max_self]
  refine equi_mk (fun hh => ?_) ?_ ?_
  · rw [if_neg (by simp), stackTall_append h1]
    by_cases hp : post = []
    · subst hp
      rw [stackTall, et, add_zero, List.append_nil]
      by_cases hq : pre = []
      · subst hq
        rw [if_pos (by simp), he rfl rfl hh, startOf, if_pos rfl]
        rfl
      · have e1 : headTop fp d [.mk s z l []] = 0 := bare_marginTop L hu
        rw [if_neg (by simpa using hq), startOf, if_neg hq, h.last hq rfl, e1]
        simp
    · rw [if_neg (by simp [hp]), stackTall_append hp, ← insert_start L hu h hp]
      conv_lhs => rw [← List.singleton_append]
      rw [stackTall_append hp, List.singleton_append, add_assoc]
  · cases pre with
    | cons c pre => rfl
    | nil =>
      rw [List.nil_append, List.nil_append]
      show (Node.mk s z l []).edgeTop fp d = _
      rw [ee]
      by_cases hp : post = []
      · subst hp; rfl
      · exact (h.first rfl hp).1.symm
  · rw [lastBottom_append h1]
    by_cases hp : post = []
    · subst hp
      rw [lastBottom, eb, List.append_nil]
      by_cases hq : pre = []
      · subst hq; rw [lastBottom]
      · rw [h.last hq rfl]
    · rw [← List.singleton_append, lastBottom_append hp, lastBottom_append hp]

theorem insert_kids (L : fp.Laws) (hu : (Node.mk s z l []).Undecorated) {pre post : List Node} (h : Gap fp d pre post) (s' : CSS) (z' : Intrinsic)
    (l' : Option Box) (he : pre = [] → post = [] → (s'.get .height).pixels fp d = none → (s'.get .minHeight).pixels fp d = none) (W x y : Rat)
    (r : List Nat) :
    (Node.mk s' z' l' (pre ++ .mk s z l [] :: post)).regionAt fp d W x y (insertPath pre.length r) =
      (Node.mk s' z' l' (pre ++ post)).regionAt fp d W x y r := by
  cases r with
  | nil =>
    rw [insertPath, Node.regionAt, Node.regionAt, (insert_equi L hu h s' z' l' he).region]
  | cons j r =>
    rw [insertPath]
    by_cases h1 : j < pre.length
    · rw [if_pos h1, regionAt_kid, regionAt_kid, kidAt_left h1, kidAt_left h1]
    · rw [if_neg h1]
      obtain ⟨t, rfl⟩ : ∃ t, j = pre.length + t := ⟨j - pre.length, by omega⟩
      rw [show pre.length + t + 1 = pre.length + (1 + t) by omega, regionAt_kid, regionAt_kid, kidAt_right, kidAt_right]
      have := kidAt_right (fp := fp) (d := d) [Node.mk s z l []] post t (s'.contentWide fp d W) (x + s'.shift fp d W + s'.edge fp d .left)
        (y + s'.edge fp d .top + startOf fp d pre (.mk s z l [] :: post)) r
      rw [List.length_singleton, List.singleton_append] at this
      rw [this]
      by_cases hp : post = []
      · subst hp; rfl
      · rw [← insert_start L hu h hp, ← add_assoc (y + s'.edge fp d .top)]

end insert

/-! ## The changed document -/

theorem allRegular_mk {s : CSS} {z : Intrinsic} {l : Option Box} {cs cs' : List Node} (h : (Node.mk s z l cs).Regular fp d)
    (hc : ∀ c ∈ cs', c.AllRegular fp d) : (Node.mk s z l cs').AllRegular fp d := by
  intro m hm
  cases hm with
  | refl => exact ⟨h.block, h.content, h.float, h.position, h.margin, h.border, h.padding, h.size, h.most⟩
  | child hk hm => exact hc _ hk m hm

theorem allRegular_find : ∀ {q : List Nat} {n m : Node}, n.AllRegular fp d → n.find q = some m → m.AllRegular fp d
  | [], _, _, hn, h => by cases h; exact hn
  | i :: q, n, m, hn, h => by
    rw [Node.find] at h
    obtain ⟨c, hc, h⟩ := Option.bind_eq_some_iff.1 h
    exact allRegular_find (allRegular_kid hn (List.mem_of_getElem? hc)) h

theorem allRegular_atPath {f : Node → Node} : ∀ {q : List Nat} {n m : Node}, n.AllRegular fp d → n.find q = some m → (f m).AllRegular fp d →
    (n.atPath f q).AllRegular fp d
  | [], _, _, _, h, hf => by cases h; exact hf
  | i :: q, .mk s z l cs, m, hn, h, hf => by
    rw [Node.find] at h
    obtain ⟨c, hc, h⟩ := Option.bind_eq_some_iff.1 h
    have hc : cs[i]? = some c := hc
    rw [Node.atPath]
    refine allRegular_mk (hn _ (.refl _)) fun c' hc' => ?_
    rcases mem_modify hc' with k | ⟨c0, k, rfl⟩
    · exact allRegular_kid hn k
    · cases hc.symm.trans k
      exact allRegular_atPath (allRegular_kid hn (List.mem_of_getElem? hc)) h hf

theorem reference_change {f : Node → Node} {σ : List Nat → List Nat} {html5 : Bool} {q : List Nat} {n m : Node} (hm : n.find q = some m)
    (he : Equi fp d m (f m)) (hf : ∀ W x y r, (f m).regionAt fp d W x y (σ r) = m.regionAt fp d W x y r) (hs : ∀ r, σ r = [] ↔ r = []) :
    (∀ r, (n.atPath f q).reference fp d html5 (q ++ σ r) = n.reference fp d html5 (q ++ r)) ∧
    ∀ r, ¬ q <+: r → (n.atPath f q).reference fp d html5 r = n.reference fp d html5 r := by
  obtain ⟨h1, h2, h3⟩ := regionAt_change hm he hf
  unfold Node.reference
  rw [h1.style, h1.top, h1.bottom]
  refine ⟨fun r => ?_, fun r hr => ?_⟩
  · rw [h2]
    simp only [List.append_eq_nil_iff, hs]
  · rw [h3 _ _ _ _ hr]

end Colosseum
