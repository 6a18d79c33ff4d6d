import Verif.Lemmas.Blueprint

/-!
# Lemmas: a blueprint in which one element is moved
-/

namespace Colosseum

/-- If both are there, they are related. -/
def Sim {α β : Type} (R : α → β → Prop) (o : Option α) (o' : Option β) : Prop := ∀ a b, o = some a → o' = some b → R a b

theorem Sim.bind {α β γ δ : Type} {R : α → β → Prop} {S : γ → δ → Prop} {o : Option α} {o' : Option β} {f : α → Option γ} {g : β → Option δ}
    (h : Sim R o o') (hf : ∀ a b, R a b → Sim S (f a) (g b)) : Sim S (o >>= f) (o' >>= g) := by
  intro c e hc he
  obtain ⟨a, rfl, hc⟩ := Option.bind_eq_some_iff.1 hc
  obtain ⟨b, rfl, he⟩ := Option.bind_eq_some_iff.1 he
  exact hf a b (h a b rfl rfl) c e hc he

theorem Sim.same {α β γ : Type} {S : β → γ → Prop} {o : Option α} {f : α → Option β} {g : α → Option γ}
    (hf : ∀ a, Sim S (f a) (g a)) : Sim S (o >>= f) (o >>= g) :=
  Sim.bind (R := Eq) (fun a b h h' => by rw [h] at h'; exact Option.some.inj h') (fun a b h => h ▸ hf a)

theorem Sim.known {α β γ : Type} {S : β → γ → Prop} {o : Option α} {f : α → Option β} {g : α → Option γ}
    (hf : ∀ a, o = Option.some a → Sim S (f a) (g a)) : Sim S (o >>= f) (o >>= g) := by
  cases o with
  | none => exact fun _ _ h => nomatch h
  | some a => exact hf a rfl

theorem Sim.some {α β : Type} {R : α → β → Prop} {a : α} {b : β} (h : R a b) : Sim R (some a) (some b) := by
  intro a' b' h1 h2; cases h1; cases h2; exact h

theorem Sim.none {α β : Type} {R : α → β → Prop} {o : Option β} : Sim R Option.none o := nofun

theorem Sim.refl {α : Type} {R : α → α → Prop} {o : Option α} (h : ∀ a, R a a) : Sim R o o := by
  intro a b h1 h2; rw [h1] at h2; cases h2; exact h a

/-- Two lists that differ in one place. -/
inductive Kin {α : Type} (R : α → α → Prop) : Nat → List α → List α → Prop
  | nil (i : Nat) : Kin R i [] []
  | here {k k' : α} (ks : List α) : R k k' → Kin R 0 (k :: ks) (k' :: ks)
  | there {i : Nat} (k : α) {ks ks' : List α} : Kin R i ks ks' → Kin R (i + 1) (k :: ks) (k :: ks')

theorem Kin.refl {α : Type} {R : α → α → Prop} (h : ∀ a, R a a) : ∀ (i : Nat) (ks : List α), Kin R i ks ks
  | _, [] => .nil _
  | 0, k :: _ => .here _ (h k)
  | i + 1, k :: ks => .there k (Kin.refl h i ks)

theorem Kin.get {α : Type} {R : α → α → Prop} {i : Nat} {ks ks' : List α} (h : Kin R i ks ks') :
    ∀ j, Option.Rel (fun k k' => if j = i then R k k' else k' = k) ks[j]? ks'[j]? := by
  induction h with
  | nil i => intro j; simp only [List.getElem?_nil]; exact .none
  | here ks h =>
    intro j
    cases j with
    | zero => exact .some (by simpa using h)
    | succ j =>
      simp only [List.getElem?_cons_succ]
      cases ks[j]? with
      | none => exact .none
      | some x => exact .some (by simp)
  | there k h ih =>
    intro j
    cases j with
    | zero => exact .some (by simp)
    | succ j => simpa using ih j

theorem Kin.length {α : Type} {R : α → α → Prop} {i : Nat} {ks ks' : List α} (h : Kin R i ks ks') : ks'.length = ks.length := by
  induction h with
  | nil i => rfl
  | here ks h => rfl
  | there k h ih => simp [ih]

theorem Kin.last {α : Type} {R : α → α → Prop} {i : Nat} {ks ks' : List α} (h : Kin R i ks ks') :
    Option.Rel (fun k k' => i + 1 = ks.length ∧ R k k' ∨ k' = k) ks.getLast? ks'.getLast? := by
  rw [List.getLast?_eq_getElem?, List.getLast?_eq_getElem?, h.length]
  have := h.get (ks.length - 1)
  cases ks with
  | nil => cases h; exact .none
  | cons k ks =>
    cases h1 : (k :: ks)[(k :: ks).length - 1]? with
    | none => rw [h1] at this; cases h2 : ks'[(k :: ks).length - 1]? with
      | none => exact .none
      | some x => rw [h2] at this; cases this
    | some x => rw [h1] at this; cases h2 : ks'[(k :: ks).length - 1]? with
      | none => rw [h2] at this; cases this
      | some y =>
        rw [h2] at this
        cases this with
        | some this =>
          refine .some ?_
          split at this
          · rename_i e
            exact .inl ⟨by simp only [List.length_cons] at e ⊢; omega, this⟩
          · exact .inr this

theorem Kin.head {α : Type} {R : α → α → Prop} {i : Nat} {ks ks' : List α} (h : Kin R i ks ks') : Option.Rel (fun k k' => R k k' ∨ k' = k) ks.head? ks'.head? := by
  cases h with
  | nil i => exact .none
  | here ks h => exact .some (.inl h)
  | there k h => exact .some (.inr rfl)

/-- Two blueprints that differ in the figures of one element. -/
def Blueprint.ButFor (E : Figures → Figures → Prop) : List Nat → Blueprint → Blueprint → Prop
  | _, .absent, .absent => True
  | [], .mk f ks, .mk f' ks' => E f f' ∧ ks' = ks
  | i :: q, .mk f ks, .mk f' ks' => f' = f ∧ Kin (Blueprint.ButFor E q) i ks ks'
  | _, _, _ => False

theorem Blueprint.ButFor.refl {E : Figures → Figures → Prop} (h : ∀ f, E f f) : ∀ (q : List Nat) (k : Blueprint), k.ButFor E q k
  | [], .absent => trivial
  | _ :: _, .absent => trivial
  | [], .mk f _ => ⟨h f, rfl⟩
  | i :: q, .mk _ ks => ⟨rfl, Kin.refl (Blueprint.ButFor.refl h q) i ks⟩

/-- What the change of the figures leaves alone. -/
structure Slight (fp : FP) (E : Figures → Figures → Prop) : Prop where
  refl : ∀ f, E f f
  moved : ∀ f f' dy, E f f' → E (f.moved fp dy) (f'.moved fp dy)
  height : ∀ f f', E f f' → f'.height = f.height
  margin : ∀ f f', E f f' → f'.margin = f.margin
  border : ∀ f f', E f f' → f'.border = f.border
  padding : ∀ f f', E f f' → f'.padding = f.padding
  above : ∀ f f', E f f' → f'.above = f.above
  below : ∀ f f', E f f' → f'.below = f.below

/-- The height of the parent is not that of the element. -/
def Secure (fp : FP) (E : Figures → Figures → Prop) (n : Node) (q : List Nat) : Prop :=
  (∀ f f', E f f' → f'.end fp = f.end fp) ∨
  ∀ q0 i m, q = q0 ++ [i] → n.find q0 = some m → i + 1 < m.children.length ∨ m.style.get .height ≠ kw "auto" ∨ m.manner ≠ some .block

theorem Secure.child {fp : FP} {E : Figures → Figures → Prop} {n c : Node} {i : Nat} {q : List Nat} (h : Secure fp E n (i :: q)) (hc : n.children[i]? = some c) :
    Secure fp E c q := by
  rcases h with h | h
  · exact .inl h
  · refine .inr fun q0 j m e hm => h (i :: q0) j m (by rw [e]; rfl) ?_
    simp only [Node.find, hc, Option.bind_some]
    exact hm

theorem plan_parent {fp : FP} {d : Display} {s s' : CSS} (h : s'.get .height = s.get .height) (r : Surround) (n : Node) :
    n.plan fp d (some s') r = n.plan fp d (some s) r := by
  obtain ⟨t, z, l, cs⟩ := n
  have e : ∀ (n : Node) H w kids k, n.along fp d (some s') H w kids k = n.along fp d (some s) H w kids k := by
    intro n H w kids k
    cases k <;> simp only [Node.along, CSS.givenHeight, h]
  simp only [Node.plan, e]

theorem flowPlans_parent {fp : FP} {d : Display} {s s' : CSS} (h : s'.get .height = s.get .height) (r : Surround) (cs : List Node) :
    flowPlans fp d s' r cs = flowPlans fp d s r cs := by
  induction cs with
  | nil => rfl
  | cons c cs ih => simp only [flowPlans, plan_parent h, ih]

theorem stackPlans_parent {fp : FP} {d : Display} {s s' : CSS} (h : s'.get .height = s.get .height) (r : Surround) (cs : List Node) :
    ∀ y below, stackPlans fp d s' r y below cs = stackPlans fp d s r y below cs := by
  induction cs with
  | nil => intro y below; rfl
  | cons c cs ih => intro y below; simp only [stackPlans, plan_parent h, ih]

/-- The styles differ in these offsets only. -/
def ButOffsets (P : LH → Prop) (s s' : CSS) : Prop := ∀ p, ¬ P p → s'.get p = s.get p

theorem blankAll_modify {g : Node → Node} : ∀ {i : Nat} {cs : List Node}, (∀ c, cs[i]? = some c → (g c).blank = c.blank) → blankAll (cs.modify i g) = blankAll cs
  | _, [], _ => by simp [blankAll]
  | 0, c :: cs, h => by simp only [List.modify_zero_cons, blankAll, h c rfl]
  | i + 1, c :: cs, h => by simp only [List.modify_succ_cons, blankAll, blankAll_modify (i := i) (cs := cs) (fun c hc => h c (by simpa using hc))]

theorem any_modify {g : Node → Node} {p : Node → Bool} : ∀ {i : Nat} {cs : List Node}, (∀ c, cs[i]? = some c → p (g c) = p c) → (cs.modify i g).any p = cs.any p
  | _, [], _ => by simp
  | 0, c :: cs, h => by simp only [List.modify_zero_cons, List.any_cons, h c rfl]
  | i + 1, c :: cs, h => by simp only [List.modify_succ_cons, List.any_cons, any_modify (i := i) (cs := cs) (fun c hc => h c (by simpa using hc))]

/-- The element is changed in its offsets. -/
def ReOffset (P : LH → Prop) (f : Node → Node) (m : Node) : Prop :=
  ∃ s s' z l cs, m = .mk s z l cs ∧ f m = .mk s' z l cs ∧ ButOffsets P s s'

variable {fp : FP} {d : Display} {E : Figures → Figures → Prop} {P : LH → Prop} {f : Node → Node}

theorem reOffset_blockish (hP : ¬ P .display) : ∀ {q : List Nat} {n m : Node}, n.find q = some m → ReOffset P f m →
    (n.atPath f q).blockish = n.blockish
  | [], n, m, h, h' => by
    cases h
    obtain ⟨s, s', z, l, cs, e1, e2, hs⟩ := h'
    simp only [Node.atPath, e2]
    simp only [e1, Node.blockish, Node.style, hs _ hP]
  | i :: q, .mk s z l cs, m, h, h' => rfl

theorem reOffset_blank : ∀ {q : List Nat} {n m : Node}, n.find q = some m → ReOffset P f m → (n.atPath f q).blank = n.blank
  | [], n, m, h, h' => by
    cases h
    obtain ⟨s, s', z, l, cs, e1, e2, hs⟩ := h'
    simp only [Node.atPath, e2]
    rw [e1]
    cases l <;> rfl
  | i :: q, .mk s z l cs, m, h, h' => by
    have e : blankAll (cs.modify i (Node.atPath f q)) = blankAll cs := by
      refine blankAll_modify fun c hc => reOffset_blank (m := m) ?_ h'
      simp only [Node.find, Node.children, hc, Option.bind_some] at h
      exact h
    cases l with
    | none => rfl
    | some b => simp only [Node.atPath, Node.blank, e]

/-- The changed element itself. -/
theorem plan_moved {s s' : CSS} (hE : ∀ f, E f f) (hs : ∀ p, p ≠ .left → p ≠ .right → p ≠ .top → p ≠ .bottom → s'.get p = s.get p)
    (hm : ∀ r dx dy dx' dy', s.moves fp d r = some (dx, dy) → s'.moves fp d r = some (dx', dy') → ∀ (f : Figures) (x y : Num),
      E { f with x := x.replacing (x.add fp dx), y := y.replacing (y.add fp dy) } { f with x := x.replacing (x.add fp dx'), y := y.replacing (y.add fp dy') })
    (parent : Option CSS) (r : Surround) (z : Intrinsic) (l : Option Box) (cs : List Node) :
    Sim (Blueprint.ButFor E []) ((Node.mk s z l cs).plan fp d parent r) ((Node.mk s' z l cs).plan fp d parent r) := by
  have e1 : (Node.mk s' z l cs).manner = (Node.mk s z l cs).manner := by
    simp only [Node.manner, Node.blockish, Node.style, Node.intrinsic, hs, ne_eq, reduceCtorEq, not_false_eq_true]
    rfl
  have e2 : s'.edges fp d = s.edges fp d := by
    funext W H
    simp only [CSS.edges, hs, ne_eq, reduceCtorEq, not_false_eq_true]
  have e3 : (Node.mk s' z l cs).across fp d = (Node.mk s z l cs).across fp d := by
    funext W m b p k
    cases k <;> simp only [Node.across, CSS.imageWidth, CSS.givenWidth, Node.style, Node.intrinsic, hs, ne_eq, reduceCtorEq, not_false_eq_true] <;> rfl
  have e4 : (Node.mk s' z l cs).along fp d = (Node.mk s z l cs).along fp d := by
    funext p H w kids k
    cases k <;> simp only [Node.along, CSS.imageHeight, CSS.givenHeight, Node.style, Node.intrinsic, hs, ne_eq, reduceCtorEq, not_false_eq_true] <;> rfl
  have e5 : (Node.mk s' z l cs).piles = (Node.mk s z l cs).piles := by
    simp only [Node.piles, Node.style, Node.intrinsic, Node.children, hs, ne_eq, reduceCtorEq, not_false_eq_true]
  have hh : s'.get .height = s.get .height := hs _ (by simp) (by simp) (by simp) (by simp)
  simp only [Node.plan, e1, e2, e3, e4, e5, stackPlans_parent hh, flowPlans_parent hh, hh, hs .display (by simp) (by simp) (by simp) (by simp),
    hs .position (by simp) (by simp) (by simp) (by simp)]
  split
  · exact .some trivial
  refine Sim.same fun k => Sim.same fun ⟨m, b, p⟩ => Sim.same fun ⟨w, left, right⟩ => Sim.same fun ⟨top, bottom⟩ => Sim.same fun guess =>
    Sim.same fun kids => Sim.same fun h => ?_
  split
  · intro a a' ha ha'
    obtain ⟨⟨x1, y1⟩, h1, h2⟩ := Option.bind_eq_some_iff.1 ha
    obtain ⟨⟨x2, y2⟩, h3, h4⟩ := Option.bind_eq_some_iff.1 ha'
    obtain ⟨⟨dx, dy⟩, h5, h6⟩ := Option.map_eq_some_iff.1 h1
    obtain ⟨⟨dx', dy'⟩, h7, h8⟩ := Option.map_eq_some_iff.1 h3
    cases h2; cases h4; cases h6; cases h8
    exact ⟨hm r dx dy dx' dy' h5 h7 ⟨.int 0, .int 0, _, _, _, _, _, _, _⟩ _ _, rfl⟩
  · exact Sim.same fun ⟨x, y⟩ => .some ⟨hE _, rfl⟩

theorem ButFor.step {i : Nat} {q : List Nat} {f : Figures} {ks ks' : List Blueprint} (h : Kin (Blueprint.ButFor E q) i ks ks') :
    Blueprint.ButFor E (i :: q) (.mk f ks) (.mk f ks') := ⟨rfl, h⟩

theorem flow_moved {f : Node → Node} {q : List Nat} {s : CSS} {r : Surround} : ∀ {i : Nat} {cs : List Node},
    (∀ c, cs[i]? = some c → Sim (Blueprint.ButFor E q) (c.plan fp d (some s) r) ((c.atPath f q).plan fp d (some s) r)) →
    Sim (Kin (Blueprint.ButFor E q) i) (flowPlans fp d s r cs) (flowPlans fp d s r (cs.modify i (Node.atPath f q)))
  | _, [], _ => by simp only [List.modify_nil, flowPlans]; exact .some (.nil _)
  | 0, c :: cs, h => by
    simp only [List.modify_zero_cons, flowPlans]
    exact Sim.bind (h c rfl) fun k k' hk => Sim.same fun ks => .some (.here ks hk)
  | i + 1, c :: cs, h => by
    simp only [List.modify_succ_cons, flowPlans]
    exact Sim.same fun k => Sim.bind (flow_moved fun c hc => h c (by simpa using hc)) fun ks ks' hk => .some (.there k hk)

theorem butFor_figures (hE : Slight fp E) : ∀ {q : List Nat} {g g' : Figures} {ks ks' : List Blueprint}, Blueprint.ButFor E q (.mk g ks) (.mk g' ks') → E g g'
  | [], _, _, _, _, h => h.1
  | _ :: _, _, _, _, _, h => by rw [h.1]; exact hE.refl _

theorem butFor_moved (hE : Slight fp E) {q : List Nat} {g g' : Figures} {ks ks' : List Blueprint} (h : Blueprint.ButFor E q (.mk g ks) (.mk g' ks')) (y : Num) :
    Blueprint.ButFor E q (.mk (g.moved fp y) ks) (.mk (g'.moved fp y) ks') := by
  cases q with
  | nil => exact ⟨hE.moved _ _ _ h.1, h.2⟩
  | cons i q => exact ⟨by rw [h.1], h.2⟩

theorem stack_moved (hE : Slight fp E) {f : Node → Node} {q : List Nat} {s : CSS} {r : Surround} : ∀ {i : Nat} {cs : List Node},
    (∀ c, cs[i]? = some c → (c.atPath f q).blockish = c.blockish ∧ (c.atPath f q).blank = c.blank ∧
      Sim (Blueprint.ButFor E q) (c.plan fp d (some s) r) ((c.atPath f q).plan fp d (some s) r)) → ∀ y below,
    Sim (Kin (Blueprint.ButFor E q) i) (stackPlans fp d s r y below cs) (stackPlans fp d s r y below (cs.modify i (Node.atPath f q)))
  | _, [], _ => by intro y below; simp only [List.modify_nil, stackPlans]; exact .some (.nil _)
  | 0, c :: cs, h => by
    intro y below
    obtain ⟨h1, h2, h3⟩ := h c rfl
    simp only [List.modify_zero_cons, stackPlans, h1, blankAll, h2]
    split
    · refine Sim.bind h3 fun k k' hk => ?_
      cases k with
      | absent => exact .none
      | mk g ks => cases k' with
        | absent => cases q <;> exact hk.elim
        | mk g' ks' =>
          have e := butFor_figures hE hk
          have e1 : gapAbove below g' = gapAbove below g := by simp only [gapAbove, hE.margin _ _ e]
          have e2 : g'.tall fp = g.tall fp := by simp only [Figures.tall, hE.height _ _ e, hE.border _ _ e, hE.padding _ _ e]
          simp only [e1, e2, hE.below _ _ e]
          exact Sim.same fun gap => Sim.same fun h => Sim.same fun rest => .some (.here _ (butFor_moved hE hk _))
    · split
      · exact .none
      · exact .some (Kin.refl (Blueprint.ButFor.refl hE.refl q) _ _)
  | i + 1, c :: cs, h => by
    intro y below
    have h' : ∀ c, cs[i]? = some c → _ := fun c hc => h c (by simpa using hc)
    simp only [List.modify_succ_cons, stackPlans, blankAll, any_modify fun c hc => (h' c hc).1, blankAll_modify fun c hc => (h' c hc).2.1]
    split
    · refine Sim.same fun k => ?_
      cases k with
      | absent => exact .none
      | mk g ks => exact Sim.same fun gap => Sim.same fun _ => Sim.bind (stack_moved hE h' _ _) fun ks ks' hk => .some (.there _ hk)
    · split
      · exact .none
      · exact .some (Kin.refl (Blueprint.ButFor.refl hE.refl q) _ _)

theorem firstAbove_kin (hE : Slight fp E) {q : List Nat} {i : Nat} {ks ks' : List Blueprint} (h : Kin (Blueprint.ButFor E q) i ks ks') (b : Bool) (o : Int) :
    firstAbove b ks' o = firstAbove b ks o := by
  cases h with
  | nil => rfl
  | @here k k' ks h =>
    cases b with
    | false => rfl
    | true =>
      cases k with
      | absent => cases k' with
        | absent => rfl
        | mk => cases q <;> exact h.elim
      | mk g js => cases k' with
        | absent => cases q <;> exact h.elim
        | mk g' js' => simp only [firstAbove, hE.above _ _ (butFor_figures hE h)]
  | there k h => cases b <;> cases k <;> rfl

theorem lastBelow_kin (hE : Slight fp E) {q : List Nat} {i : Nat} {ks ks' : List Blueprint} (h : Kin (Blueprint.ButFor E q) i ks ks') (b : Bool) (o : Int) :
    lastBelow b ks' o = lastBelow b ks o := by
  cases b with
  | false => rfl
  | true =>
    have := h.last
    unfold lastBelow
    revert this
    cases ks.getLast? <;> cases ks'.getLast? <;> intro this
    · rfl
    · cases this
    · cases this
    · rename_i k k'
      cases this with
      | some this =>
        rcases this with ⟨_, this⟩ | rfl
        · cases k with
          | absent => cases k' with
            | absent => rfl
            | mk => cases q <;> exact this.elim
          | mk g js => cases k' with
            | absent => cases q <;> exact this.elim
            | mk g' js' => simp only [hE.below _ _ (butFor_figures hE this)]
        · rfl

theorem along_kin (hE : Slight fp E) {n : Node} {q : List Nat} {i : Nat} {ks ks' : List Blueprint} (hS : Secure fp E n (i :: q))
    (hl : ks.length = n.children.length) (h : Kin (Blueprint.ButFor E q) i ks ks') (parent : Option CSS) (H w : Option Num) {k : Manner}
    (hk : n.manner = some k) : n.along fp d parent H w ks' k = n.along fp d parent H w ks k := by
  cases k with
  | inline => rfl
  | image => rfl
  | block =>
    simp only [Node.along]
    split
    · rfl
    · rename_i ha
      have := h.last
      revert this
      cases ks.getLast? <;> cases ks'.getLast? <;> intro this
      · rfl
      · cases this
      · cases this
      · rename_i k k'
        cases this with
        | some this =>
          rcases this with ⟨hi, this⟩ | rfl
          · cases k with
            | absent => cases k' with
              | absent => rfl
              | mk => cases q <;> exact this.elim
            | mk g js => cases k' with
              | absent => cases q <;> exact this.elim
              | mk g' js' =>
                suffices e : g'.end fp = g.end fp by simp only [e]
                cases q with
                | cons j q => rw [this.1]
                | nil =>
                  rcases hS with hS | hS
                  · exact hS _ _ this.1
                  · exfalso
                    rcases hS [] i n rfl rfl with h1 | h1 | h1
                    · omega
                    · refine h1 ((isKw_iff _ _).1 ?_)
                      simpa using ha
                    · exact h1 hk
          · rfl

theorem blankAll_length : ∀ cs : List Node, (blankAll cs).length = cs.length
  | [] => rfl
  | c :: cs => by simp only [blankAll, List.length_cons, blankAll_length cs]

theorem flowPlans_length {s : CSS} {r : Surround} : ∀ {cs : List Node} {ks : List Blueprint}, flowPlans fp d s r cs = some ks → ks.length = cs.length
  | [], ks, h => by cases h; rfl
  | c :: cs, ks, h => by
    simp only [flowPlans] at h
    obtain ⟨k, _, h⟩ := Option.bind_eq_some_iff.1 h
    obtain ⟨js, h1, h⟩ := Option.bind_eq_some_iff.1 h
    cases h
    simp only [List.length_cons, flowPlans_length h1]

theorem stackPlans_length {s : CSS} {r : Surround} : ∀ {cs : List Node} {ks : List Blueprint} {y : Num} {below : Option Int},
    stackPlans fp d s r y below cs = some ks → ks.length = cs.length
  | [], ks, _, _, h => by cases h; rfl
  | c :: cs, ks, _, _, h => by
    simp only [stackPlans] at h
    split at h
    · obtain ⟨k, _, h⟩ := Option.bind_eq_some_iff.1 h
      cases k with
      | absent => cases h
      | mk g js =>
        obtain ⟨_, _, h⟩ := Option.bind_eq_some_iff.1 h
        obtain ⟨_, _, h⟩ := Option.bind_eq_some_iff.1 h
        obtain ⟨_, h1, h⟩ := Option.bind_eq_some_iff.1 h
        cases h
        simp only [List.length_cons, stackPlans_length h1]
    · split at h
      · cases h
      · cases h
        exact blankAll_length _

/-- What a change of offsets does. -/
structure Shifts (fp : FP) (d : Display) (E : Figures → Figures → Prop) (P : LH → Prop) : Prop where
  slight : Slight fp E
  offsets : ∀ p, P p → p = .left ∨ p = .right ∨ p = .top ∨ p = .bottom
  moves : ∀ s s' : CSS, ButOffsets P s s' → ∀ r dx dy dx' dy', s.moves fp d r = some (dx, dy) → s'.moves fp d r = some (dx', dy') → ∀ (f : Figures) (x y : Num),
    E { f with x := x.replacing (x.add fp dx), y := y.replacing (y.add fp dy) } { f with x := x.replacing (x.add fp dx'), y := y.replacing (y.add fp dy') }

theorem plan_but (hE : Shifts fp d E P) : ∀ {q : List Nat} {n m : Node}, n.find q = some m → ReOffset P f m → Secure fp E n q →
    ∀ (parent : Option CSS) (r : Surround), Sim (Blueprint.ButFor E q) (n.plan fp d parent r) ((n.atPath f q).plan fp d parent r)
  | [], n, m, h, h', hS, parent, r => by
    cases h
    obtain ⟨s, s', z, l, cs, e1, e2, hs⟩ := h'
    simp only [Node.atPath, e2]
    rw [e1]
    exact plan_moved hE.slight.refl (fun p h1 h2 h3 h4 => hs p fun hp => by rcases hE.offsets p hp with h | h | h | h <;> contradiction)
      (hE.moves s s' hs) parent r z l cs
  | i :: q, .mk s z l cs, m, h, h', hS, parent, r => by
    have hd : ¬ P .display := fun hp => by rcases hE.offsets _ hp with h | h | h | h <;> cases h
    have kid : ∀ c, cs[i]? = some c → c.find q = some m := by
      intro c hc
      simp only [Node.find, Node.children, hc, Option.bind_some] at h
      exact h
    have ih : ∀ c, cs[i]? = some c → ∀ parent r, Sim (Blueprint.ButFor E q) (c.plan fp d parent r) ((c.atPath f q).plan fp d parent r) :=
      fun c hc => plan_but hE (kid c hc) h' (hS.child hc)
    have b1 : ∀ c, cs[i]? = some c → (c.atPath f q).blockish = c.blockish := fun c hc => reOffset_blockish hd (kid c hc) h'
    have b2 : ∀ c, cs[i]? = some c → (c.atPath f q).blank = c.blank := fun c hc => reOffset_blank (kid c hc) h'
    have e1 : (Node.mk s z l (cs.modify i (Node.atPath f q))).manner = (Node.mk s z l cs).manner := rfl
    have e5 : (Node.mk s z l (cs.modify i (Node.atPath f q))).piles = (Node.mk s z l cs).piles := by
      simp only [Node.piles, Node.style, Node.intrinsic, Node.children, any_modify b1]
    have e3 : (Node.mk s z l (cs.modify i (Node.atPath f q))).across fp d = (Node.mk s z l cs).across fp d := rfl
    have e4 : (Node.mk s z l (cs.modify i (Node.atPath f q))).along fp d = (Node.mk s z l cs).along fp d := rfl
    simp only [Node.atPath, Node.plan, e1, e3, e4, e5, blankAll_modify b2]
    split
    · exact .some trivial
    refine Sim.known fun k hk => Sim.same fun ⟨m, b, p⟩ => Sim.same fun ⟨w, left, right⟩ => Sim.same fun ⟨top, bottom⟩ => Sim.same fun guess => ?_
    intro a a' ha ha'
    obtain ⟨ks, hks, ha⟩ := Option.bind_eq_some_iff.1 ha
    obtain ⟨ks', hks', ha'⟩ := Option.bind_eq_some_iff.1 ha'
    have hkin : Kin (Blueprint.ButFor E q) i ks ks' ∧ ks.length = cs.length := by
      split at hks
      · rename_i hp
        rw [if_pos hp] at hks'
        exact ⟨stack_moved hE.slight (fun c hc => ⟨b1 c hc, b2 c hc, ih c hc _ _⟩) _ _ _ _ hks hks', stackPlans_length hks⟩
      · rename_i hp
        rw [if_neg hp] at hks'
        exact ⟨flow_moved (fun c hc => ih c hc _ _) _ _ hks hks', flowPlans_length hks⟩
    have el := along_kin (d := d) hE.slight hS hkin.2 hkin.1 parent r.height w hk
    simp only [el, firstAbove_kin hE.slight hkin.1, lastBelow_kin hE.slight hkin.1] at ha'
    refine Sim.same (fun h => Sim.same fun ⟨x, y⟩ => .some ⟨rfl, hkin.1⟩) a a' ha ha'

theorem blueprint_but (hE : Shifts fp d E P) {q : List Nat} {n m : Node} (h : n.find q = some m) (h' : ReOffset P f m) (hS : Secure fp E n q)
    (hr : ∀ f f' h, E f f' → E { f with height := h } { f' with height := h }) (html5 : Bool) (parent : Option CSS) :
    Sim (Blueprint.ButFor E q) (n.blueprint fp d html5 parent) ((n.atPath f q).blueprint fp d html5 parent) := by
  have := plan_but hE h h' hS parent ⟨some d.contentWidth, some d.contentHeight, none⟩
  unfold Node.blueprint
  revert this
  generalize n.plan fp d parent _ = o
  generalize (n.atPath f q).plan fp d parent _ = o'
  intro this
  cases o with
  | none => exact .none
  | some k => cases k with
    | absent => exact .none
    | mk g ks => cases o' with
      | none => exact fun _ _ _ h => nomatch h
      | some k' => cases k' with
        | absent => exact fun _ _ _ h => nomatch h
        | mk g' ks' =>
          refine .some ?_
          have hb := this _ _ rfl rfl
          have e := butFor_figures hE.slight hb
          rw [hE.slight.above _ _ e]
          have hb' := butFor_moved hE.slight hb (.int g.above)
          cases html5 with
          | false => exact hb'
          | true =>
            have e1 : (g'.moved fp (.int g.above)).above = (g.moved fp (.int g.above)).above := hE.slight.above _ _ (hE.slight.moved _ _ _ e)
            have e2 : (g'.moved fp (.int g.above)).below = (g.moved fp (.int g.above)).below := hE.slight.below _ _ (hE.slight.moved _ _ _ e)
            simp only [if_true, e1, e2]
            cases q with
            | nil =>
              have := hr _ _ (some (d.contentHeight.less fp [.int (g.moved fp (.int g.above)).above, .int (g.moved fp (.int g.above)).below])) hb'.1
              simp only [e1, e2] at this
              exact ⟨this, hb'.2⟩
            | cons i q =>
              have e3 : g'.moved fp (.int g.above) = g.moved fp (.int g.above) := hb'.1
              exact ⟨by rw [e3], hb'.2⟩

end Colosseum
