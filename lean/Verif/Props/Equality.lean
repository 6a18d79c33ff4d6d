import Verif.Lemmas.Survive
import Verif.Spec.Style

/-!
# C75: comparing values
-/

namespace Colosseum

theorem num_eq_iff (a b : Num) : a.pyEq b = true ↔ a.val = b.val := by
  show (a.val == b.val) = true ↔ _
  exact beq_iff_eq

theorem pynum_eq_symm (a b : PyNum) : a.pyEq b = b.pyEq a := by
  cases a <;> cases b <;> try rfl
  · rename_i a b
    show (a.val == b.val) = (b.val == a.val)
    exact Bool.beq_comm
  · exact Bool.beq_comm

theorem pynum_eq_trans {a b c : PyNum} (h : a.pyEq b = true) (g : b.pyEq c = true) : a.pyEq c = true := by
  cases a with
  | nan => cases b <;> cases h
  | inf s =>
    cases b with
    | fin _ => cases h
    | nan => cases h
    | inf t =>
      cases c with
      | fin _ => cases g
      | nan => cases g
      | inf u =>
        have h : (s == t) = true := h
        have g : (t == u) = true := g
        show (s == u) = true
        rw [beq_iff_eq] at h g ⊢
        exact h.trans g
  | fin x =>
    cases b with
    | inf _ => cases h
    | nan => cases h
    | fin y =>
      cases c with
      | inf _ => cases g
      | nan => cases g
      | fin z => exact (num_eq_iff ..).2 (((num_eq_iff ..).1 h).trans ((num_eq_iff ..).1 g))

theorem unit_eq_iff (a b : CUnit) : a.pyEq b = true ↔ a.kind = b.kind ∧ a.val.pyEq b.val = true := by
  unfold CUnit.pyEq
  rw [Bool.and_eq_true, beq_iff_eq]

theorem unit_eq_symm (a b : CUnit) : a.pyEq b = b.pyEq a := by
  unfold CUnit.pyEq
  rw [pynum_eq_symm, Bool.beq_comm]

theorem unit_eq_trans {a b c : CUnit} (h : a.pyEq b = true) (g : b.pyEq c = true) : a.pyEq c = true := by
  rw [unit_eq_iff] at h g ⊢
  exact ⟨h.1.trans g.1, pynum_eq_trans h.2 g.2⟩

theorem item_eq_symm (a b : CurItem) : a.pyEq b = b.pyEq a := by
  cases a <;> cases b <;> first | rfl | exact Bool.beq_comm

theorem curList_symm : ∀ xs ys : List CurItem, curListEq xs ys = curListEq ys xs := by
  intro xs
  induction xs with
  | nil => intro ys; cases ys <;> rfl
  | cons x xs ih =>
    intro ys
    cases ys with
    | nil => rfl
    | cons y ys => simp only [curListEq, ih, item_eq_symm]

theorem item_eq_trans {a b c : CurItem} (h : a.pyEq b = true) (g : b.pyEq c = true) : a.pyEq c = true := by
  cases a <;> cases b <;> cases c <;> first | (cases h; done) | (cases g; done) | skip
  all_goals
    simp only [CurItem.pyEq, beq_iff_eq] at h g ⊢
    exact h.trans g

theorem curList_trans : ∀ {xs ys zs : List CurItem}, curListEq xs ys = true → curListEq ys zs = true → curListEq xs zs = true := by
  intro xs
  induction xs with
  | nil =>
    intro ys zs h g
    cases ys with
    | nil => exact g
    | cons _ _ => cases h
  | cons x xs ih =>
    intro ys zs h g
    cases ys with
    | nil => cases h
    | cons y ys =>
      cases zs with
      | nil => cases g
      | cons z zs =>
        simp only [curListEq, Bool.and_eq_true] at h g ⊢
        exact ⟨item_eq_trans h.1 g.1, ih h.2 g.2⟩

/-- C75. Comparison is symmetric, for all values. -/
theorem C75_symmetric (v w : Val) : v.pyEq w = w.pyEq v := by
  cases v <;> cases w <;> first
    | rfl
    | exact Bool.beq_comm
    | exact pynum_eq_symm _ _
    | exact unit_eq_symm _ _
    | exact curList_symm _ _
    | skip
  rename_i a b c d a' b' c' d'
  show (a.pyEq a' && b.pyEq b' && c.pyEq c' && d.pyEq d') = (a'.pyEq a && b'.pyEq b && c'.pyEq c && d'.pyEq d)
  rw [unit_eq_symm a, unit_eq_symm b, unit_eq_symm c, unit_eq_symm d]

theorem held_int {p : LH} {x : PyNum} (h : Canonical p (.num x)) : x.isInt = true := by
  rcases h with h | ⟨k, hk, h⟩
  · have := keywords_code p _ h
    exact absurd rfl this
  · cases k <;> simp only [Kind.has, Val.num.injEq, reduceCtorEq, exists_false, false_and] at h
    obtain ⟨i, rfl⟩ := h
    rfl

theorem eq_trans {u v w : Val} (hu : ∀ x, u = .num x → x.isInt = true) (hw : ∀ x, w = .num x → x.isInt = true)
    (h : u.pyEq v = true) (g : v.pyEq w = true) : u.pyEq w = true := by
  cases u <;> cases v <;> first | (cases h; done) | skip
  all_goals cases w <;> first | (cases g; done) | skip
  case none.none.none => rfl
  case dflt.dflt.dflt => rfl
  case num.num.num => exact pynum_eq_trans h g
  case unit.unit.unit => exact unit_eq_trans h g
  case cursor.cursor.cursor => exact curList_trans h g
  case rect.rect.rect =>
    simp only [Val.pyEq, Bool.and_eq_true] at h g ⊢
    exact ⟨⟨⟨unit_eq_trans h.1.1.1 g.1.1.1, unit_eq_trans h.1.1.2 g.1.1.2⟩, unit_eq_trans h.1.2 g.1.2⟩, unit_eq_trans h.2 g.2⟩
  case num.num.unit =>
    simp only [Val.pyEq, Bool.and_eq_true, beq_iff_eq] at h g ⊢
    exact ⟨⟨g.1.1, hu _ rfl⟩, pynum_eq_trans g.2 (by rw [pynum_eq_symm]; exact h)⟩
  case num.unit.num =>
    simp only [Val.pyEq, Bool.and_eq_true, beq_iff_eq] at h g ⊢
    exact pynum_eq_trans (by rw [pynum_eq_symm]; exact h.2) g.2
  case num.unit.unit =>
    simp only [Val.pyEq, Bool.and_eq_true, beq_iff_eq, unit_eq_iff] at h g ⊢
    exact ⟨⟨g.1 ▸ h.1.1, h.1.2⟩, pynum_eq_trans (by rw [pynum_eq_symm]; exact g.2) h.2⟩
  case unit.num.num =>
    simp only [Val.pyEq, Bool.and_eq_true, beq_iff_eq] at h g ⊢
    exact ⟨⟨h.1.1, hw _ rfl⟩, pynum_eq_trans h.2 g⟩
  case unit.num.unit =>
    simp only [Val.pyEq, Bool.and_eq_true, beq_iff_eq, unit_eq_iff] at h g ⊢
    exact ⟨h.1.1.trans g.1.1.symm, pynum_eq_trans h.2 (by rw [pynum_eq_symm]; exact g.2)⟩
  case unit.unit.num =>
    simp only [Val.pyEq, Bool.and_eq_true, beq_iff_eq, unit_eq_iff] at h g ⊢
    exact ⟨⟨h.1.trans g.1.1, hw _ rfl⟩, pynum_eq_trans h.2 g.2⟩
  all_goals
    simp only [Val.pyEq, beq_iff_eq] at h g ⊢
    exact h.trans g

/-- C75. Comparison is transitive among the values properties hold, whichever properties. (It is not among plain `float`s, which no property holds:
`C75_plain_float`.) -/
theorem C75_transitive (p q r : LH) (u v w : Val) (hu : Canonical p u) (_ : Canonical q v) (hw : Canonical r w)
    (h : u.pyEq v = true) (g : v.pyEq w = true) : u.pyEq w = true :=
  eq_trans (fun _ e => held_int (e ▸ hu)) (fun _ e => held_int (e ▸ hw)) h g

example : Canonical .orphans (.num (.fin (.int 2))) ∧ Canonical .width (.unit ⟨.len .px, .fin (.int 2)⟩) ∧ Canonical .height (.unit ⟨.len .px, .fin (.flt 2)⟩) ∧
    (Val.num (.fin (.int 2))).pyEq (.unit ⟨.len .px, .fin (.int 2)⟩) = true ∧
    (Val.unit ⟨.len .px, .fin (.int 2)⟩).pyEq (.unit ⟨.len .px, .fin (.flt 2)⟩) = true :=
  ⟨Or.inr ⟨.integer, rfl, 2, rfl⟩, Or.inr ⟨.length, rfl, _, rfl⟩, Or.inr ⟨.length, rfl, _, rfl⟩, by decide +kernel, by decide +kernel⟩

/-- The bound of `C75_transitive`: `1.0 == 1` and `1 == 1 * px`, but `1.0 != 1 * px`. -/
theorem C75_plain_float : (Val.num (.fin (.flt 1))).pyEq (.num (.fin (.int 1))) = true ∧
    (Val.num (.fin (.int 1))).pyEq (.unit ⟨.len .px, .fin (.int 1)⟩) = true ∧ (Val.num (.fin (.flt 1))).pyEq (.unit ⟨.len .px, .fin (.int 1)⟩) = false := by
  decide +kernel

/-- A value without a `nan` in it. -/
def Val.NoNan : Val → Prop
  | .num x => x ≠ .nan
  | .unit u => u.val ≠ .nan
  | .rect a b c d => a.val ≠ .nan ∧ b.val ≠ .nan ∧ c.val ≠ .nan ∧ d.val ≠ .nan
  | _ => True

theorem unit_eq_self {u : CUnit} (h : u.val ≠ .nan) : u.pyEq u = true := (unit_eq_iff ..).2 ⟨rfl, PyNum.pyEq_self h⟩

theorem unit_eq_self_iff (u : CUnit) : u.pyEq u = true ↔ u.val ≠ .nan := by
  refine ⟨fun h e => ?_, unit_eq_self⟩
  have := ((unit_eq_iff ..).1 h).2
  rw [e] at this
  cases this

/-- C75. A value a property holds equals itself exactly if there is no `nan` in it. -/
theorem C75_reflexive (p : LH) (v : Val) (h : Canonical p v) : v.pyEq v = true ↔ v.NoNan := by
  rcases h with hk | ⟨k, hk, hv⟩
  · refine ⟨fun _ => ?_, fun _ => (pyEq_atom (keywords_code p v hk)).2 rfl⟩
    have := keywords_code p v hk
    cases v <;> first | trivial | exact absurd rfl this
  · cases k with
    | length => obtain ⟨u, rfl⟩ := hv; exact unit_eq_self_iff u
    | color => obtain ⟨r, c, rfl⟩ := hv; simp [Val.pyEq, Val.NoNan]
    | integer => obtain ⟨i, rfl⟩ := hv; simp [Val.pyEq, PyNum.pyEq, Num.pyEq, Val.NoNan]
    | spacing => obtain ⟨r, h, w, rfl⟩ := hv; simp [Val.pyEq, Val.NoNan]
    | rect =>
      obtain ⟨a, b, c, d, rfl⟩ := hv
      simp only [Val.pyEq, Bool.and_eq_true, unit_eq_self_iff, Val.NoNan, and_assoc]
    | quotes => obtain ⟨q, rfl, _⟩ := hv; simp [Val.pyEq, Val.NoNan]
    | cursor => obtain ⟨urls, kws, rfl, _⟩ := hv; exact ⟨fun _ => trivial, fun _ => curListEq_self _⟩

/-- A width that is not a number differs from itself, so that every assignment of it marks the box dirty. -/
example : Canonical .width (.unit ⟨.len .px, .nan⟩) ∧ ¬ (Val.unit ⟨.len .px, .nan⟩).NoNan ∧
    (Val.unit ⟨.len .px, .nan⟩).pyEq (.unit ⟨.len .px, .nan⟩) = false ∧ Canonical .width (.unit ⟨.len .px, .inf true⟩) ∧
    (Val.unit ⟨.len .px, .inf true⟩).NoNan ∧ (Val.unit ⟨.len .px, .inf true⟩).pyEq (.unit ⟨.len .px, .inf true⟩) = true :=
  ⟨Or.inr ⟨.length, rfl, _, rfl⟩, fun h => h rfl, by decide +kernel, Or.inr ⟨.length, rfl, _, rfl⟩, (nofun : PyNum.inf true ≠ .nan), by decide +kernel⟩

/-- C75. Lengths that compare equal have the same text. -/
theorem C75_text (reprFloat : Rat → PyStr) (a b : CUnit) (h : a.pyEq b = true) : a.repr reprFloat = b.repr reprFloat := by
  obtain ⟨k, x⟩ := a
  obtain ⟨k', y⟩ := b
  obtain ⟨rfl, h⟩ := (unit_eq_iff ..).1 h
  cases x with
  | nan => cases y <;> cases h
  | inf s =>
    cases y with
    | fin _ => cases h
    | nan => cases h
    | inf t => rfl
  | fin n =>
    cases y with
    | inf _ => cases h
    | nan => cases h
    | fin m =>
      have h : n.val = m.val := (num_eq_iff ..).1 h
      have ht : n.trunc = m.trunc := by
        cases n with
        | int i =>
          cases m with
          | int j =>
            have : (i : Rat) = j := h
            have : i = j := by exact_mod_cast this
            rw [this]
          | flt q =>
            obtain rfl : (i : Rat) = q := h
            exact (pyTrunc_int i).symm
        | flt q =>
          cases m with
          | int j =>
            obtain rfl : q = (j : Rat) := h
            exact pyTrunc_int j
          | flt r =>
            obtain rfl : q = r := h
            rfl
      unfold CUnit.repr
      simp only [ht, h]
      split
      · rfl
      · rename_i hne
        cases n with
        | int i =>
          cases m with
          | int j =>
            have : (i : Rat) = j := h
            have : i = j := by exact_mod_cast this
            rw [this]
          | flt q =>
            obtain rfl : (i : Rat) = q := h
            exact absurd (by show (i : Rat) = (pyTrunc (i : Rat) : Rat); rw [pyTrunc_int]) hne
        | flt q =>
          cases m with
          | int j => exact absurd (by rfl) hne
          | flt r =>
            obtain rfl : q = r := h
            rfl

example : (⟨.len .px, .fin (.int 12)⟩ : CUnit).pyEq ⟨.len .px, .fin (.flt 12)⟩ = true ∧
    (⟨.len .px, .fin (.flt 12)⟩ : CUnit).repr (fun _ => []) = .ok (lit "12px") := by decide +kernel

end Colosseum
