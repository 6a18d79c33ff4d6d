import Verif.Lemmas.Decl
import Verif.Lemmas.Accept

/-! # Helper lemmas on validating values again -/

namespace Colosseum

/-- The stored values that assigning them again leaves alone. -/
def Survives : Val → Prop
  | .none | .dflt | .str _ | .num _ | .color _ _ => True
  | .unit u => (∃ k, u.kind = .len k) ∧ u.val ≠ .nan
  | .cursor xs => ∀ x ∈ xs, ∃ s, x = .opt s
  | _ => False

theorem PyNum.pyEq_self {x : PyNum} (h : x ≠ .nan) : x.pyEq x = true := by
  cases x with
  | fin n => simp [PyNum.pyEq, Num.pyEq]
  | inf b => simp [PyNum.pyEq]
  | nan => exact absurd rfl h

theorem curListEq_self (xs : List CurItem) : curListEq xs xs = true := by
  induction xs with
  | nil => rfl
  | cons x xs ih => cases x <;> simp [curListEq, CurItem.pyEq, ih]

theorem cursor_options (at_ : List Nat) (xs : List CurItem)
    (ho : ∀ x ∈ xs, ∃ s, x = .opt s ∧ cursorOptions.contains s = true) (hl : xs.length ≤ 1) :
    cursor at_ (.cursor xs) = .ok (.cursor xs) := by
  match xs with
  | [] => rfl
  | [x] =>
    obtain ⟨s, rfl, hs⟩ := ho x (by simp)
    simp only [cursor, asSeq, List.map_cons, List.map_nil, cursorLoop, hs, if_true]
    rfl
  | _ :: _ :: _ => simp at hl

/-- A value a property can hold, and that survives, is accepted again as it is. -/
theorem survives_validate {E : Env} {at_ : List Nat} {p : LH} {v : Val} (hc : Canonical p v) (hs : Survives v) :
    p.choices.validate E at_ v = .ok v := by
  rcases hc with hk | ⟨k, hk, hv⟩
  · exact keyword_stable hk
  · refine (validate_iff ..).2 (Or.inr ⟨k, hk, ?_⟩)
    cases k with
    | length =>
      obtain ⟨⟨kd, x⟩, rfl⟩ := hv
      obtain ⟨⟨l, e⟩, _⟩ := hs
      cases e
      rfl
    | color => obtain ⟨r, c, rfl⟩ := hv; rfl
    | integer => obtain ⟨i, rfl⟩ := hv; rfl
    | spacing => obtain ⟨r, h, w, rfl⟩ := hv; exact hs.elim
    | rect => obtain ⟨a, b, c, d, rfl⟩ := hv; exact hs.elim
    | quotes => obtain ⟨q, rfl, _⟩ := hv; exact hs.elim
    | cursor =>
      obtain ⟨urls, kws, rfl, hl, hu, hw⟩ := hv
      have he : urls = [] := by
        cases urls with
        | nil => rfl
        | cons u us =>
          obtain ⟨r, x, rfl⟩ := hu u (by simp)
          obtain ⟨s, h⟩ := hs (.uri r x) (List.mem_append.2 (Or.inl (by simp)))
          cases h
      subst he
      exact cursor_options at_ kws (by
        intro x hx
        obtain ⟨w, hm, rfl⟩ := hw x hx
        exact ⟨_, rfl, (cursorOptions_iff _).2 ⟨w, hm, rfl⟩⟩) hl

theorem survives_eq {p : LH} {v : Val} (hc : Canonical p v) (hs : Survives v) : v.pyEq v = true := by
  rcases hc with hk | ⟨k, hk, hv⟩
  · exact (pyEq_atom (keywords_code p v hk)).2 rfl
  · cases k with
    | length =>
      obtain ⟨u, rfl⟩ := hv
      simp only [Val.pyEq, CUnit.pyEq, beq_self_eq_true, Bool.true_and]
      exact PyNum.pyEq_self hs.2
    | color => obtain ⟨r, c, rfl⟩ := hv; simp [Val.pyEq]
    | integer => obtain ⟨i, rfl⟩ := hv; simp [Val.pyEq, PyNum.pyEq, Num.pyEq]
    | spacing => obtain ⟨r, h, w, rfl⟩ := hv; exact hs.elim
    | rect => obtain ⟨a, b, c, d, rfl⟩ := hv; exact hs.elim
    | quotes => obtain ⟨q, rfl, _⟩ := hv; exact hs.elim
    | cursor =>
      obtain ⟨urls, kws, rfl, _⟩ := hv
      exact curListEq_self _

theorem mem_keywords_of {p : LH} {v : Val} (hv : v.code.1 ≠ 3) (h : v.code ∈ (keywords p).map Val.code) :
    v ∈ keywords p := by
  obtain ⟨w, hw, e⟩ := List.mem_map.1 h
  rw [← code_inj e hv]
  exact hw

/-- The initial values are canonical, except that they are computed for the followers. -/
theorem initial_canonical (f : LH → Val) (p : LH) (h : follows p = none) : Canonical p (cssInitial f p) := by
  have e : cssInitial f p = cssInitial (fun _ => .none) p := by
    cases p <;> first | rfl | cases h
  rw [e]
  have key : ∀ p ∈ allLH, (cssInitial (fun _ => .none) p).code.1 ≠ 3 → follows p = none →
      (cssInitial (fun _ => .none) p).code ∈ (keywords p).map Val.code := by decide +kernel
  by_cases hk : (cssInitial (fun _ => .none) p).code.1 ≠ 3
  · exact Or.inl (mem_keywords_of hk (key p (mem_allLH p) hk h))
  · cases p <;> first
      | (cases h; done)
      | exact absurd (by decide) hk
      | exact Or.inr ⟨.length, rfl, _, rfl⟩
      | exact Or.inr ⟨.integer, rfl, _, rfl⟩
      | exact Or.inr ⟨.spacing, rfl, _, _, _, rfl⟩
      | exact Or.inr ⟨.cursor, rfl, [], [.opt (lit "auto")], rfl, by simp, by simp, by
          intro k hk
          rw [List.mem_singleton.1 hk]
          exact ⟨"auto", by decide, rfl⟩⟩
      | (rename_i s; cases s <;> exact absurd (by decide) hk)

theorem initial_survives (f : LH → Val) (p : LH) (h : follows p = none) (hp : p ≠ .borderSpacing) :
    Survives (cssInitial f p) := by
  cases p <;> first
    | exact absurd rfl hp
    | (cases h; done)
    | trivial
    | exact ⟨⟨_, rfl⟩, by simp⟩
    | skip
  intro x hx
  exact ⟨_, List.mem_singleton.1 hx⟩

end Colosseum
