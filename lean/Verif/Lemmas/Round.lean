import Verif.Py.Num
import Mathlib.Data.Rat.Floor
import Mathlib.Tactic.Linarith
import Mathlib.Tactic.Ring
import Mathlib.Tactic.FieldSimp
import Mathlib.Tactic.NormNum

/-! Python's `round`, `int` and `// 2` on exact rationals. -/

namespace Colosseum

theorem floor_le (q : Rat) : ((q.floor : Int) : Rat) ≤ q := Int.floor_le q
theorem lt_floor (q : Rat) : q < (q.floor : Rat) + 1 := Int.lt_floor_add_one q
theorem floor_int (n : Int) : (n : Rat).floor = n := Int.floor_intCast (R := Rat) n

/-- `n` is a nearest integer of `q`, and even at a tie. -/
def NearestEven (q : Rat) (n : Int) : Prop :=
  (n : Rat) - 1 / 2 ≤ q ∧ q ≤ (n : Rat) + 1 / 2 ∧
    (q = (n : Rat) - 1 / 2 ∨ q = (n : Rat) + 1 / 2 → n % 2 = 0)

theorem pyRound_spec (q : Rat) : NearestEven q (pyRound q) := by
  have h1 := floor_le q
  have h2 := lt_floor q
  unfold pyRound NearestEven
  simp only
  split
  · refine ⟨by linarith, by linarith, ?_⟩
    rintro (h | h) <;> exfalso <;> linarith
  · split
    · push_cast
      refine ⟨by linarith, by linarith, ?_⟩
      rintro (h | h) <;> exfalso <;> linarith
    · have hd : q - (q.floor : Rat) = 1 / 2 := le_antisymm (by linarith) (by linarith)
      split
      · refine ⟨by linarith, by linarith, ?_⟩
        intro _; assumption
      · push_cast
        refine ⟨by linarith, by linarith, ?_⟩
        intro _; omega

theorem NearestEven.le {a b : Rat} {m n : Int} (hm : NearestEven a m) (hn : NearestEven b n)
    (h : a ≤ b) : m ≤ n := by
  by_contra hlt
  have h1 : n + 1 ≤ m := by omega
  have h1' : (n : Rat) + 1 ≤ m := by exact_mod_cast h1
  obtain ⟨m1, m2, m3⟩ := hm
  obtain ⟨n1, n2, n3⟩ := hn
  have e : (m : Rat) = n + 1 := by linarith
  have e' : m = n + 1 := by exact_mod_cast e
  have := m3 (Or.inl (by linarith))
  have := n3 (Or.inr (by linarith))
  omega

theorem NearestEven.unique {a : Rat} {m n : Int} (hm : NearestEven a m) (hn : NearestEven a n) :
    m = n :=
  le_antisymm (hm.le hn le_rfl) (hn.le hm le_rfl)

theorem pyRound_mono {a b : Rat} (h : a ≤ b) : pyRound a ≤ pyRound b :=
  (pyRound_spec a).le (pyRound_spec b) h

theorem pyRound_int (n : Int) : pyRound (n : Rat) = n := by
  refine (pyRound_spec _).unique ⟨by linarith, by linarith, ?_⟩
  rintro (h | h) <;> exfalso <;> linarith

theorem NearestEven.neg {a : Rat} {n : Int} (h : NearestEven a n) : NearestEven (-a) (-n) := by
  obtain ⟨h1, h2, h3⟩ := h
  refine ⟨by push_cast; linarith, by push_cast; linarith, ?_⟩
  push_cast
  rintro (h | h)
  · have := h3 (Or.inr (by linarith)); omega
  · have := h3 (Or.inl (by linarith)); omega

theorem pyRound_neg (q : Rat) : pyRound (-q) = -pyRound q :=
  (pyRound_spec _).unique (pyRound_spec q).neg

theorem pyTrunc_int (n : Int) : pyTrunc (n : Rat) = n := by
  unfold pyTrunc
  split
  · exact floor_int n
  · have : -(n : Rat) = ((-n : Int) : Rat) := by push_cast; rfl
    rw [this, floor_int]
    omega

theorem pyTrunc_eq_iff (q : Rat) : q = (pyTrunc q : Rat) ↔ ∃ n : Int, q = n := by
  constructor
  · intro h; exact ⟨_, h⟩
  · rintro ⟨n, rfl⟩; rw [pyTrunc_int]

theorem Num.trunc_int_val (n : Num) : n.val = (n.trunc : Rat) ↔ ∃ i : Int, n.val = i := by
  cases n with
  | int i => simp [Num.val, Num.trunc]
  | flt q => exact pyTrunc_eq_iff q

theorem Num.round_val (n : Num) : NearestEven n.val n.round := by
  cases n with
  | int i =>
    have := pyRound_spec (i : Rat)
    rw [pyRound_int] at this
    exact this
  | flt q => exact pyRound_spec q

theorem Num.round_mono {a b : Num} (h : a.val ≤ b.val) : a.round ≤ b.round :=
  a.round_val.le b.round_val h

theorem Num.neg_val (a : Num) : a.neg.val = -a.val := by
  cases a <;> simp [Num.neg, Num.val]

theorem Num.round_neg (a : Num) : a.neg.round = -a.round := by
  cases a with
  | int i => rfl
  | flt q => exact pyRound_neg q

end Colosseum
