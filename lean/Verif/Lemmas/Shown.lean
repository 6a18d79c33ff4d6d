import Verif.Model.Shown
import Verif.Spec.Shown
import Verif.Lemmas.Print

/-!
# The text of a box
-/

namespace Colosseum

/-- Two texts that are ended by the same character, which does not occur in them. -/
theorem split_unique {c : Char} : ∀ {a b s t : PyStr}, c ∉ a → c ∉ b → a ++ c :: s = b ++ c :: t → a = b ∧ s = t
  | [], [], s, t, _, _, h => by
    simp only [List.nil_append, List.cons.injEq, true_and] at h
    exact ⟨rfl, h⟩
  | [], x :: b, s, t, _, hb, h => by
    simp only [List.nil_append, List.cons_append, List.cons.injEq] at h
    exact absurd (h.1 ▸ List.mem_cons_self) hb
  | x :: a, [], s, t, ha, _, h => by
    simp only [List.nil_append, List.cons_append, List.cons.injEq] at h
    exact absurd (h.1 ▸ List.mem_cons_self) ha
  | x :: a, y :: b, s, t, ha, hb, h => by
    simp only [List.cons_append, List.cons.injEq] at h
    obtain ⟨e, f⟩ := split_unique (fun k => ha (List.mem_cons_of_mem _ k)) (fun k => hb (List.mem_cons_of_mem _ k)) h.2
    exact ⟨by rw [h.1, e], f⟩

variable {P : Printer} (hP : P.reprFloat = pyRepr .b64)
include hP

theorem num_chars (x : Num) : FloatText (P.num (.fin x)) := by
  cases x with
  | int i =>
    intro c hc
    rcases intStr_mem i c hc with h | rfl
    · exact digit_floatText h
    · decide
  | flt q =>
    show FloatText (P.reprFloat q)
    rw [hP]
    exact pyRepr_chars _ q

theorem num_inj {x y : Num} (hx : x.Python) (hy : y.Python) (h : P.num (.fin x) = P.num (.fin y)) : x = y := by
  have point : ∀ {q : Rat} {i : Int}, round53 q = q → pyRepr .b64 q ≠ intStr i := by
    intro q i hq e
    have no : ∀ c ∈ intStr i, c ≠ '.' ∧ c ≠ 'e' := by
      intro c hc
      rcases intStr_mem i c hc with h | rfl
      · exact ⟨isDigit_ne c _ h (by decide), isDigit_ne c _ h (by decide)⟩
      · decide
    rcases pyRepr_point hq with k | k <;> rw [e] at k
    · exact (no _ k).1 rfl
    · exact (no _ k).2 rfl
  cases x with
  | int i =>
    cases y with
    | int j =>
      have h : intStr i = intStr j := h
      have := parseInt_intStr i
      rw [h, parseInt_intStr] at this
      rw [Option.some.inj this]
    | flt q =>
      have h : intStr i = P.reprFloat q := h
      rw [hP] at h
      exact absurd h.symm (point hy)
  | flt q =>
    cases y with
    | int j =>
      have h : P.reprFloat q = intStr j := h
      rw [hP] at h
      exact absurd h (point hx)
    | flt r =>
      have h : P.reprFloat q = P.reprFloat r := h
      rw [hP] at h
      have h1 := pyRepr_reads hx
      have h2 := pyRepr_reads hy
      rw [h] at h1
      have e1 := (parseFloat_iff (fp := .b64)).2 h1
      have e2 := (parseFloat_iff (fp := .b64)).2 h2
      rw [e1] at e2
      simpa using e2

theorem num_clean (x : Num) (c : Char) (h : c ∉ ['0', '1', '2', '3', '4', '5', '6', '7', '8', '9', '.', 'e', '+', '-']) : c ∉ P.num (.fin x) :=
  fun k => h (num_chars hP x c k)

theorem optNum_clean (x : Option Num) (c : Char) (h : c ∉ ['0', '1', '2', '3', '4', '5', '6', '7', '8', '9', '.', 'e', '+', '-', 'N', 'o', 'n']) :
    c ∉ P.optNum x := by
  cases x with
  | none =>
    show c ∉ ['N', 'o', 'n', 'e']
    intro k
    apply h
    simp only [List.mem_cons, List.not_mem_nil, or_false] at k ⊢
    rcases k with rfl | rfl | rfl | rfl <;> simp
  | some x =>
    refine num_clean hP x c fun k => h ?_
    exact List.mem_append_left ['N', 'o', 'n'] k

theorem optNum_inj {x y : Option Num} (hx : ∀ a, x = some a → a.Python) (hy : ∀ a, y = some a → a.Python) (h : P.optNum x = P.optNum y) : x = y := by
  have no : ∀ a, P.optNum (some a) ≠ lit "None" := by
    intro a e
    have : 'N' ∉ P.num (.fin a) := num_clean hP a _ (by decide)
    exact this (by rw [show P.num (.fin a) = lit "None" from e]; decide)
  cases x with
  | none =>
    cases y with
    | none => rfl
    | some y => exact absurd h.symm (no y)
  | some x =>
    cases y with
    | none => exact absurd h (no x)
    | some y => rw [num_inj hP (hx x rfl) (hy y rfl) h]

end Colosseum
