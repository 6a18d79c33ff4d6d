import Verif.Props.Layout
import Verif.Lemmas.Sample

/-!
# Elements of documents after layout, for the examples
-/

namespace Colosseum

/-- The element at a path, the node itself where there is none. -/
def Node.at (n : Node) (q : List Nat) : Node := (n.find q).getD n

/-- Layout comes to the element at this path: those on the way have boxes and are not hidden, and at each step the child is block-level or no child is. -/
def Node.route : Node → List Nat → Bool
  | _, [] => true
  | n, i :: q => (match n.style.get .display with | .none => false | _ => true) && n.layout.isSome &&
    (match n.children[i]? with
      | none => false
      | some c => (isBlockLevel c.style || !n.children.any fun c => isBlockLevel c.style) && c.route q)

theorem route_step {n : Node} {i : Nat} {q : List Nat} (h : n.route (i :: q) = true) :
    ∃ b c, ¬ n.Hidden ∧ n.layout = some b ∧ n.children[i]? = some c ∧ (n.BlockContext → c.BlockLevel) ∧ c.route q = true := by
  rw [Node.route] at h
  simp only [Bool.and_eq_true] at h
  obtain ⟨⟨h1, h2⟩, h3⟩ := h
  obtain ⟨b, hb⟩ := Option.isSome_iff_exists.1 h2
  cases hc : n.children[i]? with
  | none => rw [hc] at h3; cases h3
  | some c =>
    rw [hc] at h3
    simp only [Bool.and_eq_true, Bool.or_eq_true, Bool.not_eq_true', List.any_eq_false] at h3
    refine ⟨b, c, (fun e => by rw [show n.style.get .display = .none from e] at h1; exact nomatch h1), hb, rfl, ?_, h3.2⟩
    rintro ⟨_, _, k, hk, hl⟩
    rcases h3.1 with e | e
    · exact (blockLevel_iff c).1 e
    · exact absurd ((blockLevel_iff k).2 hl) (e k hk)

theorem route_find : ∀ (r : List Nat) (k : Node), k.route r = true → ∃ m, k.find r = some m
  | [], k, _ => ⟨k, rfl⟩
  | a :: r, k, hk => by
    obtain ⟨_, x, _, _, hx, _, hr⟩ := route_step hk
    obtain ⟨m, hm⟩ := route_find r x hr
    exact ⟨m, by rw [Node.find, hx, Option.bind_some, hm]⟩

theorem route_init {i : Nat} : ∀ (r : List Nat) (k : Node), k.route (r ++ [i]) = true → k.route r = true
  | [], _, _ => rfl
  | a :: r, k, hk => by
    rw [List.cons_append, Node.route] at hk
    rw [Node.route]
    simp only [Bool.and_eq_true] at hk ⊢
    refine ⟨hk.1, ?_⟩
    have hk2 := hk.2
    split at hk2
    · cases hk2
    · simp only [Bool.and_eq_true] at hk2 ⊢
      exact ⟨hk2.1, route_init r _ hk2.2⟩

theorem at_cons {n c : Node} {j : Nat} {r : List Nat} (h3 : n.children[j]? = some c) (h : c.route r = true) : n.at (j :: r) = c.at r := by
  obtain ⟨m, hr⟩ := route_find _ _ h
  unfold Node.at
  rw [Node.find, h3, Option.bind_some, hr]
  rfl

/-- What an element is laid out in. -/
theorem route_within : ∀ {q : List Nat} {i : Nat} {n : Node} (w : Option Num) (ps : Option CSS), n.route (q ++ [i]) = true →
    Within w ps n (((n.at q).layout).bind Box.contentWidth) (some (n.at q).style) (n.at (q ++ [i]))
  | [], i, n, w, ps, h => by
    obtain ⟨b, c, h1, h2, h3, h4, h5⟩ := route_step h
    have e : n.at ([] ++ [i]) = c := at_cons h3 h5
    have e' : ((n.at []).layout).bind Box.contentWidth = b.contentWidth := by
      show (n.layout).bind _ = _
      rw [h2]
      rfl
    rw [e, e']
    exact .step h1 h2 (List.mem_of_getElem? h3) h4 (.here _ _ _)
  | j :: q, i, n, w, ps, h => by
    obtain ⟨b, c, h1, h2, h3, h4, h5⟩ := route_step h
    have h5 : c.route (q ++ [i]) = true := h5
    have ih := route_within b.contentWidth (some n.style) h5
    rw [List.cons_append, at_cons h3 h5, at_cons h3 (route_init _ _ h5)]
    exact .step h1 h2 (List.mem_of_getElem? h3) h4 ih

/-- Likewise, leaving out the root if need be. -/
theorem route_inside (html5 : Bool) {q : List Nat} {i : Nat} {n : Node} (w : Option Num) (ps : Option CSS) (h : n.route (q ++ [i]) = true) :
    Inside html5 w ps n (((n.at q).layout).bind Box.contentWidth) (some (n.at q).style) (n.at (q ++ [i])) := by
  cases html5 with
  | false => exact route_within w ps h
  | true =>
    cases q with
    | nil =>
      obtain ⟨b, c, h1, h2, h3, h4, h5⟩ := route_step h
      have e : n.at ([] ++ [i]) = c := at_cons h3 h5
      have e' : ((n.at []).layout).bind Box.contentWidth = b.contentWidth := by
        show (n.layout).bind _ = _
        rw [h2]
        rfl
      rw [e, e']
      exact ⟨b, c, h1, h2, List.mem_of_getElem? h3, h4, .here _ _ _⟩
    | cons j q =>
      obtain ⟨b, c, h1, h2, h3, h4, h5⟩ := route_step h
      have h5 : c.route (q ++ [i]) = true := h5
      rw [List.cons_append, at_cons h3 h5, at_cons h3 (route_init _ _ h5)]
      exact ⟨b, c, h1, h2, List.mem_of_getElem? h3, h4, route_within _ _ h5⟩

/-- Layout changes neither styles nor intrinsic sizes. -/
theorem at_same {fp : FP} {d : Display} {html5 : Bool} {p : Option CSS} {n n' : Node} (h : layout fp d html5 p n = .ok n') {q : List Nat}
    (hq : (n.find q).isSome = true) : (n'.at q).style = (n.at q).style ∧ (n'.at q).intrinsic = (n.at q).intrinsic := by
  have := C42_paths fp d html5 p n n' h q
  unfold Node.at
  cases e : n.find q with
  | none => rw [e] at hq; cases hq
  | some m =>
    rw [e] at this
    cases e' : n'.find q with
    | none => rw [e'] at this; cases this
    | some m' =>
      rw [e'] at this
      simp only [Option.map_some, Option.some.injEq, Prod.mk.injEq] at this
      exact ⟨this.1, this.2.1⟩

mutual
/-- All elements have boxes. -/
def Node.boxedTest : Node → Bool
  | .mk _ _ l cs => l.isSome && boxedTests cs
/-- The test for lists. -/
def boxedTests : List Node → Bool
  | [] => true
  | c :: cs => c.boxedTest && boxedTests cs
end

theorem boxedTests_mem {cs : List Node} (h : boxedTests cs = true) {c : Node} (hc : c ∈ cs) : c.boxedTest = true := by
  induction cs with
  | nil => cases hc
  | cons x cs ih =>
    simp only [boxedTests, Bool.and_eq_true] at h
    rcases List.mem_cons.1 hc with rfl | hc
    · exact h.1
    · exact ih h.2 hc

theorem boxedTest_sound {n : Node} (h : n.boxedTest = true) : AllBoxed n := by
  intro m hm
  induction hm with
  | @here hn =>
    obtain ⟨s, z, l, cs⟩ := m
    simp only [Node.boxedTest, Bool.and_eq_true] at h
    intro e
    have e : l = none := e
    rw [e] at h
    cases h.1
  | @step c n hn hc _ ih =>
    obtain ⟨s, z, l, cs⟩ := n
    simp only [Node.boxedTest, Bool.and_eq_true] at h
    exact ih (boxedTests_mem h.2 hc)

/-- Nothing, or a whole number. -/
def integralTest : Option Num → Bool
  | none => true
  | some (.int _) => true
  | _ => false

mutual
/-- The intrinsic sizes are whole numbers, and there are no ratios. -/
def Node.gridTests : Node → Bool
  | .mk _ z _ cs => integralTest z.width && integralTest z.height && z.ratio.isNone && gridTestAll cs
/-- The test for lists. -/
def gridTestAll : List Node → Bool
  | [] => true
  | c :: cs => c.gridTests && gridTestAll cs
end

theorem gridTestAll_mem {cs : List Node} (h : gridTestAll cs = true) {c : Node} (hc : c ∈ cs) : c.gridTests = true := by
  induction cs with
  | nil => cases hc
  | cons x cs ih =>
    simp only [gridTestAll, Bool.and_eq_true] at h
    rcases List.mem_cons.1 hc with rfl | hc
    · exact h.1
    · exact ih h.2 hc

theorem integralTest_sound {o : Option Num} (h : integralTest o = true) {x : Num} (e : o = some x) : x.OnGrid := by
  subst e
  cases x with
  | int n => exact ⟨64 * n, by show (n : Rat) = _; push_cast; ring⟩
  | flt q => cases h

theorem gridTests_sound {n : Node} (h : n.gridTests = true) : ∀ k, Visible k n → k.intrinsic.OnGrid := by
  intro m hm
  induction hm with
  | @here hn =>
    obtain ⟨s, z, l, cs⟩ := m
    simp only [Node.gridTests, Bool.and_eq_true] at h
    exact ⟨fun x e => integralTest_sound h.1.1.1 e, fun x e => integralTest_sound h.1.1.2 e, Option.isNone_iff_eq_none.1 h.1.2⟩
  | @step c n hn hc _ ih =>
    obtain ⟨s, z, l, cs⟩ := n
    simp only [Node.gridTests, Bool.and_eq_true] at h
    exact ih (gridTestAll_mem h.2 hc)

/-- The last child, found by its number. -/
theorem last_at {n : Node} {q : List Nat} {i : Nat} (h : (n.find (q ++ [i])).isSome = true ∧ (n.at q).children.length = i + 1) :
    (n.at q).children.getLast? = some (n.at (q ++ [i])) := by
  obtain ⟨h1, h2⟩ := h
  rw [List.getLast?_eq_getElem?, h2, Nat.add_sub_cancel]
  have key : ∀ (q : List Nat) (n : Node), n.find (q ++ [i]) = (n.find q).bind fun m => m.children[i]? := by
    intro q
    induction q with
    | nil => intro n; show ((n.children[i]?).bind fun c => some c) = n.children[i]?; cases n.children[i]? <;> rfl
    | cons a q ih =>
      intro n
      show ((n.children[a]?).bind fun c => c.find (q ++ [i])) = ((n.children[a]?).bind fun c => c.find q).bind _
      rw [Option.bind_assoc]
      cases n.children[a]? with
      | none => rfl
      | some c => exact ih c
  unfold Node.at at h2 ⊢
  rw [key] at h1 ⊢
  cases e : n.find q with
  | none => rw [e] at h1; cases h1
  | some m =>
    rw [e] at h1
    show m.children[i]? = some ((m.children[i]?).getD n)
    cases e' : m.children[i]? with
    | none => rw [Option.bind_some, e'] at h1; cases h1
    | some c => rfl

/-- At most `q` away from zero. -/
def Num.belowTest (q : Nat) (x : Num) : Bool := decide (x.val ≤ q) && decide (-x.val ≤ q)

theorem Num.belowTest_sound {q : Nat} {x : Num} (h : x.belowTest q = true) : |x.val| ≤ q := by
  simp only [Num.belowTest, Bool.and_eq_true, decide_eq_true_eq] at h
  exact abs_le.2 ⟨by linarith [h.2], h.1⟩

/-- The test for margins. -/
def MVal.belowTest (q : Nat) : MVal → Bool
  | .num x => x.belowTest q
  | _ => true

/-- All numbers of a box are at most `q` away from zero. -/
def Box.belowTest (q : Nat) (b : Box) : Bool :=
  b.contentWidth.all (·.belowTest q) && b.contentHeight.all (·.belowTest q) && [Axis.h, Axis.v].all (fun a => (b.pos a).content.belowTest q) &&
    [Side.top, .right, .bottom, .left].all fun t => (b.margin.get t).belowTest q && (b.border.get t).belowTest q && (b.padding.get t).belowTest q &&
      (Num.int (b.collapse.get t)).belowTest q

theorem Box.belowTest_sound {q : Nat} {b : Box} (h : b.belowTest q = true) : b.Below q := by
  unfold Box.belowTest at h
  obtain ⟨h, h4⟩ := Bool.and_eq_true_iff.1 h
  obtain ⟨h, h3⟩ := Bool.and_eq_true_iff.1 h
  obtain ⟨h1, h2⟩ := Bool.and_eq_true_iff.1 h
  have side : ∀ t : Side, (b.margin.get t).belowTest q = true ∧ (b.border.get t).belowTest q = true ∧ (b.padding.get t).belowTest q = true ∧
      (Num.int (b.collapse.get t)).belowTest q = true := by
    intro t
    have := List.all_eq_true.1 h4 t (by cases t <;> decide)
    obtain ⟨this, c4⟩ := Bool.and_eq_true_iff.1 this
    obtain ⟨this, c3⟩ := Bool.and_eq_true_iff.1 this
    obtain ⟨c1, c2⟩ := Bool.and_eq_true_iff.1 this
    exact ⟨c1, c2, c3, c4⟩
  constructor
  · intro x e; rw [e] at h1; exact Num.belowTest_sound h1
  · intro x e; rw [e] at h2; exact Num.belowTest_sound h2
  · intro a; exact Num.belowTest_sound (List.all_eq_true.1 h3 a (by cases a <;> decide))
  · intro t x e; have := (side t).1; rw [e] at this; exact Num.belowTest_sound this
  · intro t; exact Num.belowTest_sound (side t).2.1
  · intro t; exact Num.belowTest_sound (side t).2.2.1
  · intro t
    have := Num.belowTest_sound (side t).2.2.2
    rw [Num.val] at this
    exact this

theorem belows {cs : List Node} {q : Nat} (h : (cs.all fun c => c.layout.all (·.belowTest q)) = true) : ∀ c ∈ cs, ∀ b, c.layout = some b → b.Below q := by
  intro c hc b e
  have := List.all_eq_true.1 h c hc
  rw [e] at this
  exact Box.belowTest_sound this

/-- The border box is not upside down. -/
def Box.uprightTest (b : Box) : Bool :=
  match b.contentHeight with
  | none => true
  | some y => decide (0 ≤ b.border.top.val + b.padding.top.val + y.val + b.padding.bottom.val + b.border.bottom.val)

theorem standing {cs : List Node} (h : (cs.all fun c => c.layout.all (·.uprightTest)) = true) :
    ∀ c ∈ cs, ∀ b x, c.layout = some b → b.Stands x → 0 ≤ x.height := by
  rintro c hc b x e ⟨_, e1, e2, e3, e4, e5, _⟩
  have := List.all_eq_true.1 h c hc
  rw [e] at this
  change b.uprightTest = true at this
  rw [Box.uprightTest, e3] at this
  have := of_decide_eq_true this
  rw [e1, e2, e4, e5] at this
  exact this

end Colosseum
