import Verif.Lemmas.Units
import Verif.Lemmas.Digits
import Verif.Lemmas.Literals
import Verif.Spec.Units

/-!
# C01–C04: parsing and printing lengths
-/

namespace Colosseum

/-! ## C01 -/

theorem registryAfter_eq (fp : FP) (ops : List UnitOp) :
    ∃ us : List CUnit, registryAfter fp ops = baseRegistry ++ us.map fun u => (u.kind.suffix, u) := by
  suffices h : ∀ (us : List CUnit), ∃ us' : List CUnit,
      ops.foldl (UnitOp.step fp) (baseRegistry ++ us.map fun u => (u.kind.suffix, u))
        = baseRegistry ++ us'.map fun u => (u.kind.suffix, u) by
    have := h []
    simpa [registryAfter] using this
  induction ops with
  | nil => intro us; exact ⟨us, rfl⟩
  | cons op ops ih =>
    intro us
    have key : ∃ us' : List CUnit,
        UnitOp.step fp (baseRegistry ++ us.map fun u => (u.kind.suffix, u)) op
          = baseRegistry ++ us'.map fun u => (u.kind.suffix, u) := by
      cases op with
      | parse v =>
        simp only [UnitOp.step]
        split
        · rename_i u _; exact ⟨us ++ [u], by simp [register]⟩
        · exact ⟨us, rfl⟩
      | rmul x u => exact ⟨us ++ [u.rmul fp x], by simp [UnitOp.step, register]⟩
      | neg u => exact ⟨us ++ [u.neg fp], by simp [UnitOp.step, register]⟩
    obtain ⟨us', e⟩ := key
    simp only [List.foldl_cons, e]
    exact ih us'

theorem unitsLoop_registryAfter (fp : FP) (ops : List UnitOp) (s : PyStr) :
    unitsLoop fp s (registryAfter fp ops) = unitsLoop fp s baseRegistry := by
  obtain ⟨us, e⟩ := registryAfter_eq fp ops
  rw [e, unitsLoop_append]
  cases hb : unitsLoop fp s baseRegistry with
  | some u => rfl
  | none =>
    simp only [Option.none_or]
    cases hr : unitsLoop fp s (us.map fun u => (u.kind.suffix, u)) with
    | none => rfl
    | some r =>
      obtain ⟨u, _, x, hx, _⟩ := unitsLoop_some fp s us r hr
      rw [unitsLoop_base fp s u.kind x hx] at hb
      cases hb

/-- C01: parsing a length gives the same result after every history of operations that register
units. -/
theorem C01_units_history_independent (fp : FP) (ops : List UnitOp) (v : Val) :
    (unitsIn fp (registryAfter fp ops) v).1 = units fp v := by
  cases v with
  | str s => simp only [units, unitsIn, unitsStr, unitsLoop_registryAfter]
  | unit u => obtain ⟨k, x⟩ := u; cases k <;> rfl
  | _ => rfl

/-- A history that leaves a `7px`, an `-2px` and a `3in` object behind, and a parse after it. -/
example : (unitsIn .exact (registryAfter .exact [.parse (.str (lit "7px")),
    .neg ⟨.len .px, .fin (.int 2)⟩, .rmul (.fin (.int 3)) (UKind.len .inch).base])
      (.str (lit "5px"))).1 = .ok ⟨.len .px, .fin (.flt 5)⟩ := by
  rw [C01_units_history_independent]; decide +kernel

/-! ## C02 -/

theorem one_mul_inf (fp : FP) (b : Bool) : (PyNum.fin (.int 1)).mul fp (.inf b) = .inf b := by
  cases b <;> rfl

theorem one_mul_parsed {fp : FP} (L : fp.Laws) {s : PyStr} {x : PyNum}
    (h : parseFloat fp s = some x) : (PyNum.fin (.int 1)).mul fp x = x := by
  unfold parseFloat at h
  split at h
  · cases h
  · unfold floatBody at h
    split at h
    · cases h; exact one_mul_inf fp _
    · split at h
      · cases h; rfl
      · split at h
        · cases h
        · cases h
          simp only [PyNum.mul, Num.mul, Num.toFloat, Int.cast_one, L.one, one_mul]
          rw [L.idem]

theorem cssUnits_suffix {t : String} {k : UKind} (h : (t, k) ∈ cssUnits) : k.suffix = t.toList := by
  have : ∀ p ∈ cssUnits, p.2.suffix = p.1.toList := by decide
  exact this _ h

theorem mem_cssUnits (k : UKind) : ∃ t, (t, k) ∈ cssUnits := by
  rcases k with k | k <;> cases k <;> simp [cssUnits]

/-- C02: a float literal followed by a unit identifier denotes that many of that unit. -/
theorem C02_suffix_exact (fp : FP) (L : fp.Laws) (n : PyStr) (t : String) (k : UKind) (x : PyNum)
    (ht : (t, k) ∈ cssUnits) (hn : FloatLit fp n x) :
    units fp (.str (n ++ t.toList)) = .ok ⟨k, x⟩ := by
  have hn := parseFloat_iff.2 hn
  have hs := cssUnits_suffix ht
  have : unitsLoop fp (n ++ t.toList) baseRegistry = some (k.base.rmul fp x) :=
    unitsLoop_base fp _ k x ⟨n, by rw [hs], hn⟩
  simp only [units, unitsIn, unitsStr, this, CUnit.rmul, UKind.base, one_mul_parsed L hn]

/-- C02 for any floating point unit: the kind is right and the magnitude is `1 * float(n)`. -/
theorem C02_suffix_kind (fp : FP) (n : PyStr) (t : String) (k : UKind) (x : PyNum)
    (ht : (t, k) ∈ cssUnits) (hn : FloatLit fp n x) :
    units fp (.str (n ++ t.toList)) = .ok ⟨k, (PyNum.fin (.int 1)).mul fp x⟩ := by
  have hn := parseFloat_iff.2 hn
  have hs := cssUnits_suffix ht
  have : unitsLoop fp (n ++ t.toList) baseRegistry = some (k.base.rmul fp x) :=
    unitsLoop_base fp _ k x ⟨n, by rw [hs], hn⟩
  simp only [units, unitsIn, unitsStr, this]
  rfl

/-- `" -1_0.5e1vmin"` is minus 105 vmin, not a number of inches. -/
example : units .b64 (.str (lit " -1_0.5e1" ++ "vmin".toList)) = .ok ⟨.len .vmin, .fin (.flt (-105))⟩ :=
  C02_suffix_exact _ b64_laws _ _ _ _ (by simp [cssUnits]) (parseFloat_iff.1 (by decide +kernel))

/-! ## C03 -/

/-- A string that is a float literal does not end in a unit. -/
theorem parseFloat_no_hit (fp : FP) (s : PyStr) (x : PyNum) (h : parseFloat fp s = some x)
    (k : UKind) (y : PyNum) : ¬ hit fp s k y := by
  rintro ⟨n, rfl, _⟩
  have bad : ∀ (t : PyStr) (c : Char), badEnd c = true → parseFloat fp (n ++ (t ++ [c])) ≠ some x := by
    intro t c hc
    rw [← List.append_assoc, parseFloat_concat_bad fp _ c hc]
    simp
  have badn : ∀ (t : PyStr) (a : Char), a.toLower ≠ 'a' → (a ≠ '_' ∧ a ≠ '+' ∧ a ≠ '-') →
      parseFloat fp (n ++ (t ++ [a, 'n'])) ≠ some x := by
    intro t a h1 h2
    rw [← List.append_assoc, parseFloat_concat_n fp _ a h1 h2]
    simp
  revert h
  rcases k with k | k <;> cases k
  · exact bad ['p'] 'x' (by decide)
  · exact bad ['e'] 'm' (by decide)
  · exact bad ['e'] 'x' (by decide)
  · exact bad ['c'] 'h' (by decide)
  · exact bad ['p'] 't' (by decide)
  · exact bad ['p'] 'c' (by decide)
  · exact badn [] 'i' (by decide) (by decide)
  · exact bad ['c'] 'm' (by decide)
  · exact bad ['m'] 'm' (by decide)
  · exact bad ['v'] 'h' (by decide)
  · exact bad ['v', 'm', 'a'] 'x' (by decide)
  · exact badn ['v', 'm'] 'i' (by decide) (by decide)
  · exact bad ['v'] 'w' (by decide)
  · exact bad [] '%' (by decide)
  · exact bad ['d', 'e'] 'g' (by decide)
  · exact bad ['g', 'r', 'a'] 'd' (by decide)
  · exact bad ['r', 'a'] 'd' (by decide)
  · exact badn ['t', 'u'] 'r' (by decide) (by decide)

theorem one_mul_held {fp : FP} (L : fp.Laws) {x : PyNum} (h : x.Held fp) :
    (PyNum.fin (.int 1)).mul fp x = x := by
  rcases x with (i | q) | b | _
  · simp [PyNum.mul, Num.mul]
  · simp only [PyNum.Held] at h
    simp only [PyNum.mul, Num.mul, Num.toFloat, Int.cast_one, L.one, one_mul, h]
  · exact one_mul_inf fp b
  · rfl

/-- C03, acceptance: `units` returns a unit exactly when the value denotes it. -/
theorem C03_units_accepts (fp : FP) (L : fp.Laws) (v : Val) (hv : v.Held fp) (u : CUnit) :
    units fp v = .ok u ↔ Denotes fp v u := by
  constructor
  · intro h
    cases v with
    | unit w =>
      obtain ⟨k, x⟩ := w
      cases k with
      | len k => simp only [units, unitsIn] at h; cases h; exact .unit k x
      | ang k =>
        simp only [units, unitsIn, raiseFmt] at h
        split at h <;> cases h
    | num x =>
      simp only [units, unitsIn, CUnit.rmul, UKind.base, one_mul_held L hv] at h
      cases h
      exact .number x
    | str s =>
      simp only [units, unitsIn, unitsStr] at h
      cases hr : unitsLoop fp s baseRegistry with
      | some w =>
        rw [hr] at h
        cases h
        rw [baseRegistry_eq'] at hr
        obtain ⟨b, hb, x, ⟨n, rfl, hn⟩, rfl⟩ := unitsLoop_some fp s _ _ hr
        obtain ⟨k, _, rfl⟩ := List.mem_map.1 hb
        obtain ⟨t, ht⟩ := mem_cssUnits k
        have := Denotes.suffixed n t k x ht (parseFloat_iff.1 hn)
        rw [← cssUnits_suffix ht] at this
        simpa only [CUnit.rmul, UKind.base, one_mul_parsed L hn] using this
      | none =>
        rw [hr] at h
        cases hx : parseFloat fp s with
        | none => rw [hx] at h; cases h
        | some x =>
          rw [hx] at h
          simp only [CUnit.rmul, UKind.base, one_mul_parsed L hx] at h
          cases h
          exact .bare s x (parseFloat_iff.1 hx)
    | _ => simp only [units, unitsIn, raiseFmt] at h; split at h <;> cases h
  · intro h
    cases h with
    | unit k x => rfl
    | number x => simp only [units, unitsIn, CUnit.rmul, UKind.base, one_mul_held L hv]
    | bare s x hx =>
      replace hx := parseFloat_iff.2 hx
      have : unitsLoop fp s baseRegistry = none :=
        unitsLoop_base_none fp s (parseFloat_no_hit fp s x hx)
      simp only [units, unitsIn, unitsStr, this, hx, CUnit.rmul, UKind.base, one_mul_parsed L hx]
    | suffixed n t k x ht hn => exact C02_suffix_exact fp L n t k x ht hn

/-- C03, rejection. Full statement: a value that denotes no length raises `ValueError`. What is
missing: values whose text form itself raises while the error message is built (see
`C03_false_inf_angle`). -/
theorem C03_units_rejects_partial (fp : FP) (L : fp.Laws) (v : Val) (hv : v.Held fp)
    (hf : v.fmtErr = none) (h : ¬ ∃ u, Denotes fp v u) : units fp v = .error .value := by
  cases hu : units fp v with
  | ok u => exact absurd ⟨u, (C03_units_accepts fp L v hv u).1 hu⟩ h
  | error e =>
    cases v with
    | str s =>
      simp only [units, unitsIn] at hu
      split at hu <;> simp_all
    | unit w =>
      obtain ⟨k, x⟩ := w
      cases k <;> simp only [units, unitsIn, raiseFmt, hf] at hu <;> simp_all
    | num x => simp only [units, unitsIn] at hu; cases hu
    | _ => simp only [units, unitsIn, raiseFmt, hf] at hu; simp_all

/-- Every string is accepted or raises `ValueError`. -/
theorem C03_units_string_total (fp : FP) (s : PyStr) :
    (∃ u, units fp (.str s) = .ok u) ∨ units fp (.str s) = .error .value := by
  simp only [units, unitsIn]
  split
  · exact Or.inl ⟨_, rfl⟩
  · exact Or.inr rfl

/-- C03 is false for an angle object of infinite magnitude: building the message of the `ValueError`
raises `OverflowError`. -/
theorem C03_false_inf_angle (fp : FP) :
    units fp (.unit ⟨.ang .deg, .inf false⟩) = .error .overflow := rfl

example : ¬ ∃ u, Denotes .b64 .none u := by rintro ⟨u, h⟩; cases h
example : units .b64 .none = .error .value :=
  C03_units_rejects_partial _ b64_laws _ trivial rfl (by rintro ⟨u, h⟩; cases h)
example : Denotes .b64 (.str (lit "1e3")) ⟨.len .px, .fin (.flt 1000)⟩ :=
  .bare _ _ (parseFloat_iff.1 (by decide +kernel))

/-! ## C04 -/

/-- C04. Full statement: `units(str(u)) == u` for every unit object (lengths and angles) with a finite
magnitude. What is missing: integer
magnitudes that no float equals (see `C04_false_huge_int`). The hypothesis on `reprFloat` is Python's
guarantee that `float(repr(q)) == q`. -/
theorem C04_print_parse_partial (fp : FP) (L : fp.Laws) (reprFloat : Rat → PyStr) (k : UKind)
    (n : Num) (hn : fp.rnd n.val = n.val)
    (hr : ∀ q, n = .flt q → FloatLit fp (reprFloat q) (.fin (.flt q))) :
    ∃ s w, CUnit.repr reprFloat ⟨k, .fin n⟩ = .ok s ∧ units fp (.str s) = .ok w ∧
      w.pyEq ⟨k, .fin n⟩ = true := by
  obtain ⟨t, ht⟩ := mem_cssUnits k
  have hs := cssUnits_suffix ht
  by_cases hi : n.val = (n.trunc : Rat)
  · refine ⟨intStr n.trunc ++ t.toList, _, ?_,
      C02_suffix_exact fp L _ t _ _ ht (parseFloat_iff.1 (parseFloat_intStr fp n.trunc)), ?_⟩
    · simp only [CUnit.repr, hi, if_true, hs]
    · simp only [CUnit.pyEq, PyNum.pyEq, Num.pyEq, Num.val, beq_self_eq_true, Bool.true_and, beq_iff_eq]
      rw [← hi, hn]
      rfl
  · cases n with
    | int i => exact absurd rfl hi
    | flt q =>
      refine ⟨reprFloat q ++ t.toList, _, ?_, C02_suffix_exact fp L _ t _ _ ht (hr q rfl), ?_⟩
      · simp only [CUnit.repr, hi, if_false, hs]
      · simp [CUnit.pyEq, PyNum.pyEq, Num.pyEq]

/-- C04 is false for `9007199254740993px` (an `int` magnitude beyond 2^53): it comes back as
`9007199254740992px`. -/
theorem C04_false_huge_int (reprFloat : Rat → PyStr) :
    ∃ s w, CUnit.repr reprFloat ⟨.len .px, .fin (.int 9007199254740993)⟩ = .ok s ∧
      units .b64 (.str s) = .ok w ∧ w.pyEq ⟨.len .px, .fin (.int 9007199254740993)⟩ = false := by
  have h := C02_suffix_exact .b64 b64_laws (intStr 9007199254740993) "px" (.len .px) _
    (by simp [cssUnits]) (parseFloat_iff.1 (parseFloat_intStr _ _))
  refine ⟨_, _, ?_, h, ?_⟩
  · simp only [CUnit.repr, Num.val, Num.trunc, if_true]
    rfl
  · have e : FP.b64.rnd ((9007199254740993 : Int) : Rat) = 9007199254740992 := by decide +kernel
    rw [e]
    decide +kernel

/-- `0.5in` prints and parses. -/
example : FloatLit .b64 (lit "0.5") (.fin (.flt (1 / 2))) := parseFloat_iff.1 (by decide +kernel)
example : FP.b64.rnd (Num.flt (1 / 2)).val = (Num.flt (1 / 2)).val := by decide +kernel

end Colosseum
