import Verif.Lemmas.Offsets

/-!
# Lemmas: a blueprint in which the content of one element is changed
-/

namespace Colosseum

/-- The figures of an element and, below it along the path `q`, the content that is changed: only the collapsed margin above may differ, and only if the
path goes through first children. -/
def Nearly (q : List Nat) (f f' : Figures) : Prop := f' = { f with above := f'.above } ∧ ((∃ j ∈ q, j ≠ 0) → f' = f)

theorem Nearly.refl (q : List Nat) (f : Figures) : Nearly q f f := ⟨rfl, fun _ => rfl⟩

theorem Nearly.moved {fp : FP} {q : List Nat} {f f' : Figures} (h : Nearly q f f') (dy : Num) : Nearly q (f.moved fp dy) (f'.moved fp dy) :=
  ⟨by rw [h.1]; rfl, fun e => by rw [h.2 e]⟩

theorem Nearly.end {fp : FP} {q : List Nat} {f f' : Figures} (h : Nearly q f f') : f'.end fp = f.end fp := by rw [h.1]; rfl
theorem Nearly.tall {fp : FP} {q : List Nat} {f f' : Figures} (h : Nearly q f f') : f'.tall fp = f.tall fp := by rw [h.1]; rfl
theorem Nearly.below {q : List Nat} {f f' : Figures} (h : Nearly q f f') : f'.below = f.below := by rw [h.1]
theorem Nearly.margin {q : List Nat} {f f' : Figures} (h : Nearly q f f') : f'.margin = f.margin := by rw [h.1]

/-- Two blueprints that differ in the content of one element. -/
def Blueprint.Around : List Nat → Blueprint → Blueprint → Prop
  | _, .absent, .absent => True
  | [], .mk f _, .mk f' _ => Nearly [] f f'
  | i :: q, .mk f ks, .mk f' ks' => Nearly (i :: q) f f' ∧ Kin (Blueprint.Around q) i ks ks'
  | _, _, _ => False

theorem Blueprint.Around.refl : ∀ (q : List Nat) (k : Blueprint), k.Around q k
  | [], .absent => trivial
  | _ :: _, .absent => trivial
  | [], .mk f _ => Nearly.refl _ f
  | i :: q, .mk f ks => ⟨Nearly.refl _ f, Kin.refl (Blueprint.Around.refl q) i ks⟩

theorem around_figures : ∀ {q : List Nat} {g g' : Figures} {ks ks' : List Blueprint}, Blueprint.Around q (.mk g ks) (.mk g' ks') → Nearly q g g'
  | [], _, _, _, _, h => h
  | _ :: _, _, _, _, _, h => h.1

theorem around_absent {q : List Nat} {k : Blueprint} (h : Blueprint.Around q .absent k) : k = .absent := by
  cases k with
  | absent => rfl
  | mk => cases q <;> exact h.elim

theorem around_mk {q : List Nat} {g : Figures} {ks : List Blueprint} {k : Blueprint} (h : Blueprint.Around q (.mk g ks) k) :
    ∃ g' ks', k = .mk g' ks' ∧ Nearly q g g' := by
  cases k with
  | absent => cases q <;> exact h.elim
  | mk g' ks' => exact ⟨g', ks', rfl, around_figures h⟩

theorem around_moved {fp : FP} {q : List Nat} {g g' : Figures} {ks ks' : List Blueprint} (h : Blueprint.Around q (.mk g ks) (.mk g' ks')) (y : Num) :
    Blueprint.Around q (.mk (g.moved fp y) ks) (.mk (g'.moved fp y) ks') := by
  cases q with
  | nil => exact Nearly.moved (q := []) h y
  | cons i q => exact ⟨h.1.moved y, h.2⟩

/-- The element is changed in its content. -/
def ReContent (f : Node → Node) (m : Node) : Prop :=
  ∃ s z l l' cs cs', m = .mk s z l cs ∧ f m = .mk s z l' cs' ∧ l'.isSome = l.isSome ∧ (s.get .height ≠ kw "auto" ∨ ¬ m.BlockLevel)

variable {fp : FP} {d : Display} {f : Node → Node}

theorem reContent_blockish : ∀ {q : List Nat} {n m : Node}, n.find q = some m → ReContent f m → (n.atPath f q).blockish = n.blockish
  | [], n, m, h, h' => by
    cases h
    obtain ⟨s, z, l, l', cs, cs', e1, e2, _⟩ := h'
    simp only [Node.atPath, e2]
    rw [e1]; rfl
  | i :: q, .mk s z l cs, m, h, h' => rfl

theorem blankAll_around {q : List Nat} : ∀ {i : Nat} {cs : List Node}, (∀ c, cs[i]? = some c → Blueprint.Around q c.blank (c.atPath f q).blank) →
    Kin (Blueprint.Around q) i (blankAll cs) (blankAll (cs.modify i (Node.atPath f q)))
  | _, [], _ => by simp only [List.modify_nil, blankAll]; exact .nil _
  | 0, c :: cs, h => by simp only [List.modify_zero_cons, blankAll]; exact .here _ (h c rfl)
  | i + 1, c :: cs, h => by simp only [List.modify_succ_cons, blankAll]; exact .there _ (blankAll_around fun c hc => h c (by simpa using hc))

theorem reContent_blank : ∀ {q : List Nat} {n m : Node}, n.find q = some m → ReContent f m → Blueprint.Around q n.blank (n.atPath f q).blank
  | [], n, m, h, h' => by
    cases h
    obtain ⟨s, z, l, l', cs, cs', e1, e2, e3, _⟩ := h'
    simp only [Node.atPath, e2]
    rw [e1]
    cases l with
    | none => cases l' with
      | none => trivial
      | some b => cases e3
    | some b => cases l' with
      | none => cases e3
      | some b' => exact Nearly.refl _ _
  | i :: q, .mk s z l cs, m, h, h' => by
    cases l with
    | none => exact trivial
    | some b =>
      refine ⟨Nearly.refl _ _, blankAll_around fun c hc => reContent_blank (m := m) ?_ h'⟩
      simp only [Node.find, Node.children, hc, Option.bind_some] at h
      exact h

/-- The changed element itself. -/
theorem plan_content {s : CSS} {z : Intrinsic} {l l' : Option Box} {cs cs' : List Node} (hh : s.get .height ≠ kw "auto" ∨ ¬ (Node.mk s z l cs).BlockLevel)
    (parent : Option CSS) (r : Surround) :
    Sim (Blueprint.Around []) ((Node.mk s z l cs).plan fp d parent r) ((Node.mk s z l' cs').plan fp d parent r) := by
  have e1 : (Node.mk s z l' cs').manner = (Node.mk s z l cs).manner := rfl
  have e3 : (Node.mk s z l' cs').across fp d = (Node.mk s z l cs).across fp d := rfl
  have e4 : (Node.mk s z l' cs').along fp d = (Node.mk s z l cs).along fp d := rfl
  have hk : ∀ k, (Node.mk s z l cs).manner = some k → k = .block → s.get .height ≠ kw "auto" := by
    rintro k hk rfl
    rcases hh with hh | hh
    · exact hh
    · refine absurd ?_ hh
      unfold Node.manner at hk
      split at hk
      · cases hk
      · split at hk
        · split at hk <;> cases hk
        · split at hk
          · rename_i h
            simp only [Node.blockish, Bool.and_eq_true, List.any_cons, List.any_nil, Bool.or_eq_true, Bool.or_false, isKw_iff] at h
            exact h.1
          · cases hk
  have ha : ∀ k, (Node.mk s z l cs).manner = some k → ∀ H w ks ks', (Node.mk s z l cs).along fp d parent H w ks' k = (Node.mk s z l cs).along fp d parent H w ks k := by
    intro k h H w ks ks'
    cases k with
    | inline => rfl
    | image => rfl
    | block =>
      have : (s.get .height).isKw "auto" = false := by
        rw [Bool.eq_false_iff]
        exact fun e => hk _ h rfl ((isKw_iff _ _).1 e)
      simp only [Node.along, Node.style, this, Bool.not_false, if_true]
  have hb : ∀ k, (Node.mk s z l cs).manner = some k → ∀ ks o, lastBelow (k = .block && (s.get .height).isKw "auto") ks o = o := by
    intro k h ks o
    have : (decide (k = .block) && (s.get .height).isKw "auto") = false := by
      by_cases e : k = .block
      · have := hk _ h e
        rw [Bool.and_eq_false_iff]
        right
        rw [Bool.eq_false_iff]
        exact fun e => this ((isKw_iff _ _).1 e)
      · simp [e]
    rw [this]
    rfl
  simp only [Node.plan, e1, e3, e4]
  split
  · exact .some trivial
  refine Sim.known fun k hk => Sim.same fun ⟨m, b, p⟩ => Sim.same fun ⟨w, left, right⟩ => Sim.same fun ⟨top, bottom⟩ => ?_
  rw [ha k hk _ _ (blankAll cs) (blankAll cs')]
  refine Sim.same fun guess => Sim.bind (R := fun _ _ => True) (fun _ _ _ _ => trivial) fun ks ks' _ => ?_
  rw [ha k hk _ _ ks ks']
  refine Sim.same fun h => Sim.same fun ⟨x, y⟩ => .some ?_
  rw [hb k hk, hb k hk]
  exact ⟨rfl, fun ⟨j, hj, _⟩ => nomatch hj⟩

theorem flow_content {q : List Nat} {s : CSS} {r : Surround} : ∀ {i : Nat} {cs : List Node},
    (∀ c, cs[i]? = some c → Sim (Blueprint.Around q) (c.plan fp d (some s) r) ((c.atPath f q).plan fp d (some s) r)) →
    Sim (Kin (Blueprint.Around q) i) (flowPlans fp d s r cs) (flowPlans fp d s r (cs.modify i (Node.atPath f q)))
  | _, [], _ => by simp only [List.modify_nil, flowPlans]; exact .some (.nil _)
  | 0, c :: cs, h => by
    simp only [List.modify_zero_cons, flowPlans]
    exact Sim.bind (h c rfl) fun k k' hk => Sim.same fun ks => .some (.here ks hk)
  | i + 1, c :: cs, h => by
    simp only [List.modify_succ_cons, flowPlans]
    exact Sim.same fun k => Sim.bind (flow_content fun c hc => h c (by simpa using hc)) fun ks ks' hk => .some (.there k hk)

theorem stack_content {q : List Nat} {s : CSS} {r : Surround} : ∀ {i : Nat} {cs : List Node},
    (∀ c, cs[i]? = some c → (c.atPath f q).blockish = c.blockish ∧ Blueprint.Around q c.blank (c.atPath f q).blank ∧
      Sim (Blueprint.Around q) (c.plan fp d (some s) r) ((c.atPath f q).plan fp d (some s) r)) → ∀ y below,
    Sim (Kin (Blueprint.Around q) i) (stackPlans fp d s r y below cs) (stackPlans fp d s r y below (cs.modify i (Node.atPath f q)))
  | _, [], _ => by intro y below; simp only [List.modify_nil, stackPlans]; exact .some (.nil _)
  | 0, c :: cs, h => by
    intro y below
    obtain ⟨h1, h2, h3⟩ := h c rfl
    simp only [List.modify_zero_cons, stackPlans, h1]
    split
    · refine Sim.bind h3 fun k k' hk => ?_
      cases k with
      | absent => exact .none
      | mk g ks =>
        obtain ⟨g', ks', rfl, e⟩ := around_mk hk
        have e1 : gapAbove below g' = gapAbove below g := by simp only [gapAbove, e.margin]
        simp only [e1, e.tall, e.below]
        exact Sim.same fun gap => Sim.same fun h => Sim.same fun rest => .some (.here _ (around_moved hk _))
    · split
      · exact .none
      · exact .some (.here _ h2)
  | i + 1, c :: cs, h => by
    intro y below
    have h' : ∀ c, cs[i]? = some c → _ := fun c hc => h c (by simpa using hc)
    simp only [List.modify_succ_cons, stackPlans, any_modify fun c hc => (h' c hc).1]
    split
    · refine Sim.same fun k => ?_
      cases k with
      | absent => exact .none
      | mk g ks => exact Sim.same fun gap => Sim.same fun _ => Sim.bind (stack_content h' _ _) fun ks ks' hk => .some (.there _ hk)
    · split
      · exact .none
      · exact .some (.there _ (blankAll_around fun c hc => (h' c hc).2.1))

theorem firstAbove_around {q : List Nat} {i : Nat} {ks ks' : List Blueprint} (h : Kin (Blueprint.Around q) i ks ks') (he : ∃ j ∈ i :: q, j ≠ 0) (b : Bool) (o : Int) :
    firstAbove b ks' o = firstAbove b ks o := by
  cases h with
  | nil => rfl
  | @here k k' ks h =>
    cases b with
    | false => rfl
    | true =>
      cases k with
      | absent => rw [around_absent h]
      | mk g js =>
        obtain ⟨g', js', rfl, e⟩ := around_mk h
        have : ∃ j ∈ q, j ≠ 0 := by
          obtain ⟨j, hj, hn⟩ := he
          rcases List.mem_cons.1 hj with rfl | hj
          · exact absurd rfl hn
          · exact ⟨j, hj, hn⟩
        rw [e.2 this]
        rfl
  | there k h => cases b <;> cases k <;> rfl

theorem lastBelow_around {q : List Nat} {i : Nat} {ks ks' : List Blueprint} (h : Kin (Blueprint.Around q) i ks ks') (b : Bool) (o : Int) :
    lastBelow b ks' o = lastBelow b ks o := by
  cases b with
  | false => rfl
  | true =>
    have := h.last
    unfold lastBelow
    revert this
    cases ks.getLast? <;> cases ks'.getLast? <;> intro this
    · rfl
    · cases this
    · cases this
    · rename_i k k'
      cases this with
      | some this =>
        rcases this with ⟨_, this⟩ | rfl
        · cases k with
          | absent => rw [around_absent this]
          | mk g js =>
            obtain ⟨g', js', rfl, e⟩ := around_mk this
            simp only [e.below]
        · rfl

theorem along_around (n : Node) {q : List Nat} {i : Nat} {ks ks' : List Blueprint} (h : Kin (Blueprint.Around q) i ks ks') (parent : Option CSS)
    (H w : Option Num) (k : Manner) : n.along fp d parent H w ks' k = n.along fp d parent H w ks k := by
  cases k with
  | inline => rfl
  | image => rfl
  | block =>
    simp only [Node.along]
    split
    · rfl
    · have := h.last
      revert this
      cases ks.getLast? <;> cases ks'.getLast? <;> intro this
      · rfl
      · cases this
      · cases this
      · rename_i k k'
        cases this with
        | some this =>
          rcases this with ⟨_, this⟩ | rfl
          · cases k with
            | absent => rw [around_absent this]
            | mk g js =>
              obtain ⟨g', js', rfl, e⟩ := around_mk this
              simp only [e.end]
          · rfl

theorem plan_around : ∀ {q : List Nat} {n m : Node}, n.find q = some m → ReContent f m → ∀ (parent : Option CSS) (r : Surround),
    Sim (Blueprint.Around q) (n.plan fp d parent r) ((n.atPath f q).plan fp d parent r)
  | [], n, m, h, h', parent, r => by
    cases h
    obtain ⟨s, z, l, l', cs, cs', e1, e2, _, hh⟩ := h'
    simp only [Node.atPath, e2]
    rw [e1] at hh ⊢
    exact plan_content hh parent r
  | i :: q, .mk s z l cs, m, h, h', parent, r => by
    have kid : ∀ c, cs[i]? = some c → c.find q = some m := by
      intro c hc
      simp only [Node.find, Node.children, hc, Option.bind_some] at h
      exact h
    have ih : ∀ c, cs[i]? = some c → ∀ parent r, Sim (Blueprint.Around q) (c.plan fp d parent r) ((c.atPath f q).plan fp d parent r) :=
      fun c hc => plan_around (kid c hc) h'
    have b1 : ∀ c, cs[i]? = some c → (c.atPath f q).blockish = c.blockish := fun c hc => reContent_blockish (kid c hc) h'
    have b2 : ∀ c, cs[i]? = some c → Blueprint.Around q c.blank (c.atPath f q).blank := fun c hc => reContent_blank (kid c hc) h'
    have e1 : (Node.mk s z l (cs.modify i (Node.atPath f q))).manner = (Node.mk s z l cs).manner := rfl
    have e5 : (Node.mk s z l (cs.modify i (Node.atPath f q))).piles = (Node.mk s z l cs).piles := by
      simp only [Node.piles, Node.style, Node.intrinsic, Node.children, any_modify b1]
    have e3 : (Node.mk s z l (cs.modify i (Node.atPath f q))).across fp d = (Node.mk s z l cs).across fp d := rfl
    have e4 : (Node.mk s z l (cs.modify i (Node.atPath f q))).along fp d = (Node.mk s z l cs).along fp d := rfl
    have e6 := fun H w k => along_around (fp := fp) (d := d) (Node.mk s z l cs) (blankAll_around b2) parent H w k
    simp only [Node.atPath, Node.plan, e1, e3, e4, e5, e6]
    split
    · exact .some trivial
    refine Sim.same fun k => Sim.same fun ⟨m, b, p⟩ => Sim.same fun ⟨w, left, right⟩ => Sim.same fun ⟨top, bottom⟩ => Sim.same fun guess => ?_
    refine Sim.bind (R := Kin (Blueprint.Around q) i) ?_ fun ks ks' hkin => ?_
    · split
      · exact stack_content (fun c hc => ⟨b1 c hc, b2 c hc, ih c hc _ _⟩) _ _
      · exact flow_content (fun c hc => ih c hc _ _)
    · rw [along_around _ hkin]
      refine Sim.same fun h => Sim.same fun ⟨x, y⟩ => .some ⟨⟨?_, fun e => ?_⟩, hkin⟩
      · simp only [lastBelow_around hkin]
      · simp only [lastBelow_around hkin, firstAbove_around hkin e]

end Colosseum
