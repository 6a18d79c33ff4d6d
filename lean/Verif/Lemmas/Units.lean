import Verif.Lemmas.Str
import Verif.Model.Parser

/-! Facts about `units`: at most one suffix matches a string. -/

namespace Colosseum

theorem parseFloat_reverse_cons (fp : FP) (a t : PyStr) (c : Char) (x : PyNum)
    (h : parseFloat fp a = some x) (e : a.reverse = c :: t) : badEnd c = false := by
  cases hb : badEnd c with
  | false => rfl
  | true =>
    have : a = t.reverse ++ [c] := by rw [← List.reverse_reverse a, e]; simp
    rw [this, parseFloat_concat_bad fp _ c hb] at h
    cases h

/-- Two unit suffixes cannot both follow a float literal in the same string. -/
theorem suffix_unique (fp : FP) (a b : PyStr) (j k : UKind) (x y : PyNum)
    (ha : parseFloat fp a = some x) (hb : parseFloat fp b = some y)
    (h : a ++ j.suffix = b ++ k.suffix) : j = k := by
  have h' : j.suffix.reverse ++ a.reverse = k.suffix.reverse ++ b.reverse := by
    have := congrArg List.reverse h
    simpa using this
  have na := fun c t => parseFloat_reverse_cons fp a t c x ha
  have nb := fun c t => parseFloat_reverse_cons fp b t c y hb
  have m : badEnd 'm' = true := by decide
  have g : badEnd 'g' = true := by decide
  rcases j with j | j <;> rcases k with k | k <;> cases j <;> cases k <;>
    simp only [UKind.suffix, LKind.suffix, AKind.suffix, lit, List.reverse_cons, List.reverse_nil,
      List.nil_append, List.cons_append, String.reduceToList] at h' <;>
    first
    | rfl
    | (simp at h'; done)
    | (simp only [List.cons.injEq, true_and] at h'
       first
       | (have := na _ _ h'; simp_all; done)
       | (have := nb _ _ h'.symm; simp_all; done))

theorem register_foldl (us : List CUnit) (r : Registry) :
    us.foldl register r = r ++ us.map fun u => (u.kind.suffix, u) := by
  induction us generalizing r with
  | nil => simp
  | cons u us ih => simp [ih, register]

theorem baseRegistry_eq : baseRegistry = baseKinds.map fun k => (k.suffix, k.base) := by
  simp [baseRegistry, register_foldl, UKind.base, Function.comp_def]

theorem mem_baseKinds (k : UKind) : k ∈ baseKinds := by
  rcases k with k | k <;> cases k <;> decide

/-- An entry of a registry matches a string. -/
def hit (fp : FP) (s : PyStr) (k : UKind) (x : PyNum) : Prop :=
  ∃ n, s = n ++ k.suffix ∧ parseFloat fp n = some x

theorem hit_unique {fp : FP} {s : PyStr} {j k : UKind} {x y : PyNum} (h1 : hit fp s j x)
    (h2 : hit fp s k y) : j = k ∧ x = y := by
  obtain ⟨a, rfl, ha⟩ := h1
  obtain ⟨b, e, hb⟩ := h2
  have := suffix_unique fp a b j k x y ha hb e
  subst this
  refine ⟨rfl, ?_⟩
  have : a = b := List.append_cancel_right e
  subst this
  rw [ha] at hb
  cases hb
  rfl

/-- The loop over a registry whose entries are unit objects. -/
theorem unitsLoop_some (fp : FP) (s : PyStr) (us : List CUnit) (r : CUnit)
    (h : unitsLoop fp s (us.map fun u => (u.kind.suffix, u)) = some r) :
    ∃ u ∈ us, ∃ x, hit fp s u.kind x ∧ r = u.rmul fp x := by
  induction us with
  | nil => simp [unitsLoop] at h
  | cons u us ih =>
    simp only [List.map_cons, unitsLoop] at h
    split at h
    · rename_i he
      obtain ⟨t, rfl⟩ := (endsWith_iff _ _).1 he
      rw [dropSuffix_append] at h
      split at h
      · rename_i x hx
        cases h
        exact ⟨u, by simp, x, ⟨t, rfl, hx⟩, rfl⟩
      · obtain ⟨v, hv, rest⟩ := ih h
        exact ⟨v, by simp [hv], rest⟩
    · obtain ⟨v, hv, rest⟩ := ih h
      exact ⟨v, by simp [hv], rest⟩

theorem unitsLoop_none (fp : FP) (s : PyStr) (us : List CUnit)
    (h : unitsLoop fp s (us.map fun u => (u.kind.suffix, u)) = none) (u : CUnit) (hu : u ∈ us)
    (x : PyNum) : ¬ hit fp s u.kind x := by
  induction us with
  | nil => simp at hu
  | cons v us ih =>
    rintro ⟨n, rfl, hn⟩
    simp only [List.map_cons, unitsLoop] at h
    rcases List.mem_cons.1 hu with rfl | hu
    · rw [append_endsWith, dropSuffix_append, hn] at h
      simp at h
    · have : unitsLoop fp (n ++ u.kind.suffix) (us.map fun u => (u.kind.suffix, u)) = none := by
        split at h
        · split at h
          · cases h
          · exact h
        · exact h
      exact ih this hu ⟨n, rfl, hn⟩

theorem unitsLoop_append (fp : FP) (s : PyStr) (r1 r2 : Registry) :
    unitsLoop fp s (r1 ++ r2) = (unitsLoop fp s r1).or (unitsLoop fp s r2) := by
  induction r1 with
  | nil => simp [unitsLoop]
  | cons e r1 ih =>
    obtain ⟨suf, u⟩ := e
    simp only [List.cons_append, unitsLoop]
    split
    · split
      · simp
      · exact ih
    · exact ih

theorem baseRegistry_eq' :
    baseRegistry = (baseKinds.map UKind.base).map fun u => (u.kind.suffix, u) := by
  simp [baseRegistry_eq, UKind.base, Function.comp_def]

/-- The base registry finds exactly the matching suffix. -/
theorem unitsLoop_base (fp : FP) (s : PyStr) (k : UKind) (x : PyNum) (h : hit fp s k x) :
    unitsLoop fp s baseRegistry = some (k.base.rmul fp x) := by
  rw [baseRegistry_eq']
  cases hr : unitsLoop fp s ((baseKinds.map UKind.base).map fun u => (u.kind.suffix, u)) with
  | none =>
    exact absurd h (unitsLoop_none fp s _ hr k.base
      (List.mem_map.2 ⟨k, mem_baseKinds k, rfl⟩) x)
  | some r =>
    obtain ⟨u, hu, y, hy, rfl⟩ := unitsLoop_some fp s _ r hr
    obtain ⟨k', _, rfl⟩ := List.mem_map.1 hu
    obtain ⟨e, rfl⟩ := hit_unique hy h
    have e : k' = k := e
    subst e
    rfl

theorem unitsLoop_base_none (fp : FP) (s : PyStr) (h : ∀ k x, ¬ hit fp s k x) :
    unitsLoop fp s baseRegistry = none := by
  rw [baseRegistry_eq']
  cases hr : unitsLoop fp s ((baseKinds.map UKind.base).map fun u => (u.kind.suffix, u)) with
  | none => rfl
  | some r =>
    obtain ⟨u, _, y, hy, rfl⟩ := unitsLoop_some fp s _ r hr
    exact absurd hy (h _ _)

end Colosseum
