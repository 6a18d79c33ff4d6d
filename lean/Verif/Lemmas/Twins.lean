import Verif.Lemmas.Offsets
import Verif.Props.Blueprint

/-!
# Helper lemmas: what the plan of an element depends on
-/

namespace Colosseum

variable {fp : FP} {d : Display}

/-- The part of a blueprint at a path. -/
def Blueprint.sub : Blueprint → List Nat → Option Blueprint
  | k, [] => some k
  | .absent, _ :: _ => none
  | .mk _ ks, i :: q => (ks[i]?).bind fun k => k.sub q

theorem sub_at (k : Blueprint) (q : List Nat) : k.at q = (k.sub q).bind fun j => j.at [] := by
  induction q generalizing k with
  | nil => rfl
  | cons i q ih =>
    cases k with
    | absent => rfl
    | mk f ks =>
      simp only [Blueprint.at, Blueprint.sub]
      cases ks[i]? with
      | none => rfl
      | some j => exact ih j

theorem sub_append (k : Blueprint) (q r : List Nat) : k.sub (q ++ r) = (k.sub q).bind fun j => j.sub r := by
  induction q generalizing k with
  | nil => rfl
  | cons i q ih =>
    cases k with
    | absent => rfl
    | mk f ks =>
      simp only [List.cons_append, Blueprint.sub]
      cases ks[i]? with
      | none => rfl
      | some j => exact ih j

theorem flowPlans_get {s : CSS} {r : Surround} : ∀ {cs : List Node} {ks : List Blueprint}, flowPlans fp d s r cs = some ks → ∀ {i : Nat} {c : Node},
    cs[i]? = some c → ∃ k, ks[i]? = some k ∧ c.plan fp d (some s) r = some k
  | [], _, _, _, _, hi => by cases hi
  | c :: cs, ks, h, i, c', hi => by
    simp only [flowPlans] at h
    obtain ⟨k, hk, h⟩ := Option.bind_eq_some_iff.1 h
    obtain ⟨js, h1, h⟩ := Option.bind_eq_some_iff.1 h
    cases h
    cases i with
    | zero => cases hi; exact ⟨k, rfl, hk⟩
    | succ i => exact flowPlans_get h1 (i := i) (by simpa using hi)

/-- What becomes of a block in a stack, and of what is left out after them. -/
inductive InStack (fp : FP) (d : Display) (s : CSS) (r : Surround) (c : Node) : Blueprint → Prop
  | block {f : Figures} {ks : List Blueprint} (y : Num) : c.blockish = true → c.plan fp d (some s) r = some (.mk f ks) → InStack fp d s r c (.mk (f.moved fp y) ks)
  | left : c.blockish = false → InStack fp d s r c c.blank

theorem blankAll_get {cs : List Node} {i : Nat} {c : Node} (h : cs[i]? = some c) : (blankAll cs)[i]? = some c.blank := by
  rw [Blue.blankAll_map, List.getElem?_map, h]
  rfl

theorem stackPlans_get {s : CSS} {r : Surround} : ∀ {cs : List Node} {ks : List Blueprint} {y : Num} {below : Option Int},
    stackPlans fp d s r y below cs = some ks → ∀ {i : Nat} {c : Node}, cs[i]? = some c → ∃ k, ks[i]? = some k ∧ InStack fp d s r c k
  | [], _, _, _, _, _, _, hi => by cases hi
  | c :: cs, ks, y, below, h, i, c', hi => by
    simp only [stackPlans] at h
    split at h
    · rename_i hb
      obtain ⟨k, hk, h⟩ := Option.bind_eq_some_iff.1 h
      cases k with
      | absent => cases h
      | mk f js =>
        simp only at h
        obtain ⟨g, _, h⟩ := Option.bind_eq_some_iff.1 h
        obtain ⟨t, _, h⟩ := Option.bind_eq_some_iff.1 h
        obtain ⟨rest, h1, h⟩ := Option.bind_eq_some_iff.1 h
        cases h
        cases i with
        | zero => cases hi; exact ⟨_, rfl, .block _ hb hk⟩
        | succ i => exact stackPlans_get h1 (i := i) (by simpa using hi)
    · rename_i hb
      split at h
      · cases h
      · rename_i ha
        cases h
        refine ⟨_, blankAll_get hi, .left ?_⟩
        cases i with
        | zero => cases hi; simpa using hb
        | succ i =>
          simp only [List.getElem?_cons_succ] at hi
          simp only [List.any_eq_true, not_exists, not_and, Bool.not_eq_true] at ha
          exact ha c' (List.mem_of_getElem? hi)

/-- The content of an element: the children in the surroundings it gives to them. -/
def Node.inside (fp : FP) (d : Display) (n : Node) (r : Surround) : Option (List Blueprint) :=
  if n.piles then stackPlans fp d n.style r (.int 0) none n.children else flowPlans fp d n.style r n.children

theorem plan_inside {parent : Option CSS} {r : Surround} {n : Node} {f : Figures} {ks : List Blueprint} (h : n.plan fp d parent r = some (.mk f ks)) :
    ∃ H c, n.inside fp d ⟨f.width, H, c⟩ = some ks ∧ ((n.style.get .position).isKw "relative" = false → H = some (.int 0)) := by
  obtain ⟨s, z, l, cs⟩ := n
  simp only [Node.plan] at h
  split at h
  · cases h
  · obtain ⟨k, _, h⟩ := Option.bind_eq_some_iff.1 h
    obtain ⟨⟨m, b, p⟩, _, h⟩ := Option.bind_eq_some_iff.1 h
    obtain ⟨⟨w, left, right⟩, _, h⟩ := Option.bind_eq_some_iff.1 h
    obtain ⟨⟨top, bottom⟩, _, h⟩ := Option.bind_eq_some_iff.1 h
    obtain ⟨guess, hg, h⟩ := Option.bind_eq_some_iff.1 h
    obtain ⟨kids, hk, h⟩ := Option.bind_eq_some_iff.1 h
    obtain ⟨hh, _, h⟩ := Option.bind_eq_some_iff.1 h
    obtain ⟨⟨x, y⟩, _, h⟩ := Option.bind_eq_some_iff.1 h
    cases h
    refine ⟨guess, _, hk, fun hr => ?_⟩
    have hr : (s.get .position).isKw "relative" = false := hr
    rw [hr] at hg
    cases hg
    rfl

theorem inside_get {n : Node} {r : Surround} {ks : List Blueprint} (h : n.inside fp d r = some ks) {i : Nat} {c : Node} (hi : n.children[i]? = some c) :
    ∃ k, ks[i]? = some k ∧ (if n.piles then InStack fp d n.style r c k else c.plan fp d (some n.style) r = some k) := by
  unfold Node.inside at h
  split at h
  · rename_i hp
    simp only [if_pos hp]
    exact stackPlans_get h hi
  · rename_i hp
    simp only [if_neg hp]
    exact flowPlans_get h hi

theorem blank_width : ∀ {q : List Nat} {n : Node} {f : Figures}, n.blank.at q = some f → f.width = some (.int 0) := by
  intro q
  induction q with
  | nil =>
    intro n f h
    obtain ⟨s, z, l, cs⟩ := n
    cases l with
    | none => cases h
    | some b => cases h; rfl
  | cons i q ih =>
    intro n f h
    obtain ⟨s, z, l, cs⟩ := n
    cases l with
    | none => cases h
    | some b =>
      simp only [Node.blank, Blueprint.at, Blue.blankAll_map, List.getElem?_map] at h
      cases hc : cs[i]? with
      | none => rw [hc] at h; cases h
      | some c => rw [hc] at h; exact ih h

/-- An element that is laid out, anywhere in a document: its children are as its width says. -/
theorem plan_deep : ∀ {q : List Nat} {n P : Node} {parent : Option CSS} {r : Surround} {K : Blueprint} {f : Figures} {ks : List Blueprint} {w : Num},
    n.plan fp d parent r = some K → n.find q = some P → K.sub q = some (.mk f ks) → f.width = some w → w.val ≠ 0 →
    ∃ H c, P.inside fp d ⟨some w, H, c⟩ = some ks ∧ ((P.style.get .position).isKw "relative" = false → H = some (.int 0)) := by
  intro q
  induction q with
  | nil =>
    intro n P parent r K f ks w h hP hK hw h0
    cases hP
    cases hK
    rw [← hw]
    exact plan_inside h
  | cons i q ih =>
    intro n P parent r K f ks w h hP hK hw h0
    cases K with
    | absent => cases hK
    | mk g js =>
      obtain ⟨H, c, h1, _⟩ := plan_inside h
      simp only [Node.find] at hP
      obtain ⟨c0, hc, hP⟩ := Option.bind_eq_some_iff.1 hP
      obtain ⟨k, hk, h2⟩ := inside_get h1 hc
      simp only [Blueprint.sub, hk, Option.bind_some] at hK
      split at h2
      · cases h2 with
        | @block f' ks' y _ hb =>
          cases q with
          | nil =>
            cases hK
            exact ih hb hP rfl hw h0
          | cons j q => exact ih hb hP hK hw h0
        | left _ =>
          have : c0.blank.at q = some f := by rw [sub_at, hK]; rfl
          rw [blank_width this] at hw
          cases hw
          exact absurd rfl h0
      · exact ih h2 hP hK hw h0

/-- An element that is not relatively positioned: of its parent only the height in its style, the width and the height of the content count. -/
theorem plan_context {s s' : CSS} {r r' : Surround} {n : Node} (hs : s'.get .height = s.get .height) (hw : r'.width = r.width) (hh : r'.height = r.height)
    (hr : (n.style.get .position).isKw "relative" = false) : n.plan fp d (some s') r' = n.plan fp d (some s) r := by
  rw [plan_parent hs]
  obtain ⟨t, z, l, cs⟩ := n
  have hr : (t.get .position).isKw "relative" = false := hr
  simp only [Node.plan, hw, hh, hr, Bool.false_eq_true, if_false]

/-- The same for a whole document. -/
theorem blueprint_deep {html5 : Bool} {p : Option CSS} {q : List Nat} {n P : Node} {K : Blueprint} {f : Figures} {ks : List Blueprint} {w : Num}
    (h : n.blueprint fp d html5 p = some K) (hP : n.find q = some P) (hK : K.sub q = some (.mk f ks)) (hw : f.width = some w) (h0 : w.val ≠ 0) :
    ∃ H c, P.inside fp d ⟨some w, H, c⟩ = some ks ∧ ((P.style.get .position).isKw "relative" = false → H = some (.int 0)) := by
  unfold Node.blueprint at h
  split at h
  · rename_i g js hg
    cases h
    cases q with
    | nil =>
      cases hK
      refine plan_deep (q := []) hg hP rfl (f := g) ?_ h0
      rw [← hw]
      split <;> rfl
    | cons i q => exact plan_deep hg hP hK hw h0
  · cases h

end Colosseum
