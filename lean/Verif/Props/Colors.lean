import Verif.Spec.Colors
import Verif.Model.Parser
import Verif.Py.Float64
import Verif.Lemmas.Split
import Verif.Lemmas.Literals
import Verif.Lemmas.Pixels

/-!
# C10–C14: colours
-/

namespace Colosseum

/-! ## C10 -/

theorem toNat_ne_of_ne {c d : Char} (h : c ≠ d) : c.toNat ≠ d.toNat := by
  intro h'
  apply h
  rw [← Char.ofNat_toNat c, ← Char.ofNat_toNat d, h']

theorem hexVal_of_table {c : Char} {d : Nat} (h : (c, d) ∈ hexTable) : hexVal c = some d := by
  have : ∀ p ∈ hexTable, hexVal p.1 = some p.2 := by decide
  exact this _ h

/-- The hexadecimal digits of ASCII. -/
theorem hexTable_of_hexVal {c : Char} {d : Nat} (h : hexVal c = some d) (hlt : c.toNat < 128) : (c, d) ∈ hexTable := by
  have key : ∀ n ∈ List.range 128,
      (hexVal (Char.ofNat n)).all (fun d => hexTable.contains (Char.ofNat n, d)) = true := by
    decide +kernel
  have := key c.toNat (List.mem_range.2 hlt)
  rw [Char.ofNat_toNat, h] at this
  simpa using this

theorem hexChar_iff {c : Char} {d : Nat} : HexChar c d ↔ hexVal c = some d := by
  constructor
  · rintro (h | h)
    · exact hexVal_of_table h
    · obtain ⟨h1, h2⟩ := digitChar_iff.1 h
      unfold hexVal
      rw [if_pos h1, h2]
  · intro h
    by_cases hlt : c.toNat < 128
    · exact Or.inl (hexTable_of_hexVal h hlt)
    · unfold hexVal at h
      split at h
      · rename_i hd
        cases h
        exact Or.inr (digitChar_iff.2 ⟨hd, rfl⟩)
      · have ef : 'f'.toNat = 102 := rfl
        have eF : 'F'.toNat = 70 := rfl
        rw [if_neg (by rw [ef]; simp; omega), if_neg (by rw [eF]; simp; omega)] at h
        cases h

/-- Hexadecimal digits are neither blanks, signs nor underscores. -/
theorem hexVal_plain {c : Char} {d : Nat} (h : hexVal c = some d) :
    isSpaceC c = false ∧ c ≠ '+' ∧ c ≠ '-' ∧ c ≠ '_' ∧ d < 16 := by
  have : ∀ p ∈ hexTable, isSpaceC p.1 = false ∧ p.1 ≠ '+' ∧ p.1 ≠ '-' ∧ p.1 ≠ '_' ∧ p.2 < 16 := by decide
  rcases hexChar_iff.2 h with h | h
  · exact this _ h
  · obtain ⟨h1, h2⟩ := digitChar_iff.1 h
    exact ⟨isDecimal_not_space _ h1, isDecimal_ne _ _ h1 (by decide), isDecimal_ne _ _ h1 (by decide), isDecimal_ne _ _ h1 (by decide),
      by have := h.1; omega⟩

theorem hexOf_pair {a b : Char} {x y : Nat} (ha : hexVal a = some x) (hb : hexVal b = some y) :
    hexOf [a, b] = .ok ((16 * x + y : Nat) : Int) := by
  obtain ⟨a1, a2, a3, a4, _⟩ := hexVal_plain ha
  obtain ⟨b1, b2, b3, b4, _⟩ := hexVal_plain hb
  have hs : stripBy isSpaceC [a, b] = [a, b] := stripBy_all _ _ (by simp [a1, b1])
  have ht : takeSign [a, b] = (false, [a, b]) := by
    unfold takeSign
    split <;> simp_all
  have hh : hexDigits true 0 [a, b] = some (16 * x + y) := by
    simp [hexDigits, a4, b4, ha, hb]
  simp only [hexOf, parseHex, hs, ht, hh, Bool.false_eq_true, if_false]

/-- C10: `#RGB`. -/
theorem C10_hex_short (fp : FP) (ref : Ref) (cr cg cb : Char) (r g b : Nat)
    (hr : HexChar cr r) (hg : HexChar cg g) (hb : HexChar cb b) :
    colorStr fp ref ['#', cr, cg, cb] = .ok (.color ref
      (.rgb (16 * r + r : Nat) (16 * g + g : Nat) (16 * b + b : Nat) (.fin (.flt 1)))) := by
  simp only [colorStr, beq_self_eq_true, if_true, poundSignColor,
    hexOf_pair (hexChar_iff.1 hr) (hexChar_iff.1 hr),
    hexOf_pair (hexChar_iff.1 hg) (hexChar_iff.1 hg),
    hexOf_pair (hexChar_iff.1 hb) (hexChar_iff.1 hb)]
  rfl

/-- C10: `#RGBA`. -/
theorem C10_hex_short_alpha (fp : FP) (ref : Ref) (cr cg cb ca : Char) (r g b a : Nat)
    (hr : HexChar cr r) (hg : HexChar cg g) (hb : HexChar cb b)
    (ha : HexChar ca a) :
    colorStr fp ref ['#', cr, cg, cb, ca] = .ok (.color ref
      (.rgb (16 * r + r : Nat) (16 * g + g : Nat) (16 * b + b : Nat)
        (.fin (.flt (fp.rnd (((16 * a + a : Nat) : Rat) / 255)))))) := by
  simp only [colorStr, beq_self_eq_true, if_true, poundSignColor,
    hexOf_pair (hexChar_iff.1 hr) (hexChar_iff.1 hr),
    hexOf_pair (hexChar_iff.1 hg) (hexChar_iff.1 hg),
    hexOf_pair (hexChar_iff.1 hb) (hexChar_iff.1 hb),
    hexOf_pair (hexChar_iff.1 ha) (hexChar_iff.1 ha), Num.div, Int.cast_ofNat]
  rfl

/-- C10: `#RRGGBB`. -/
theorem C10_hex_long (fp : FP) (ref : Ref) (cr cr' cg cg' cb cb' : Char) (r r' g g' b b' : Nat)
    (hr : HexChar cr r) (hr' : HexChar cr' r') (hg : HexChar cg g)
    (hg' : HexChar cg' g') (hb : HexChar cb b) (hb' : HexChar cb' b') :
    colorStr fp ref ['#', cr, cr', cg, cg', cb, cb'] = .ok (.color ref
      (.rgb (16 * r + r' : Nat) (16 * g + g' : Nat) (16 * b + b' : Nat) (.fin (.flt 1)))) := by
  simp only [colorStr, beq_self_eq_true, if_true, poundSignColor,
    hexOf_pair (hexChar_iff.1 hr) (hexChar_iff.1 hr'),
    hexOf_pair (hexChar_iff.1 hg) (hexChar_iff.1 hg'),
    hexOf_pair (hexChar_iff.1 hb) (hexChar_iff.1 hb')]
  rfl

/-- C10: `#RRGGBBAA`. -/
theorem C10_hex_long_alpha (fp : FP) (ref : Ref) (cr cr' cg cg' cb cb' ca ca' : Char)
    (r r' g g' b b' a a' : Nat)
    (hr : HexChar cr r) (hr' : HexChar cr' r') (hg : HexChar cg g)
    (hg' : HexChar cg' g') (hb : HexChar cb b) (hb' : HexChar cb' b')
    (ha : HexChar ca a) (ha' : HexChar ca' a') :
    colorStr fp ref ['#', cr, cr', cg, cg', cb, cb', ca, ca'] = .ok (.color ref
      (.rgb (16 * r + r' : Nat) (16 * g + g' : Nat) (16 * b + b' : Nat)
        (.fin (.flt (fp.rnd (((16 * a + a' : Nat) : Rat) / 255)))))) := by
  simp only [colorStr, beq_self_eq_true, if_true, poundSignColor,
    hexOf_pair (hexChar_iff.1 hr) (hexChar_iff.1 hr'),
    hexOf_pair (hexChar_iff.1 hg) (hexChar_iff.1 hg'),
    hexOf_pair (hexChar_iff.1 hb) (hexChar_iff.1 hb'),
    hexOf_pair (hexChar_iff.1 ha) (hexChar_iff.1 ha'), Num.div, Int.cast_ofNat]
  rfl

/-- C10: a short colour is the long one with each digit doubled, with and without alpha. -/
theorem C10_short_eq_long (fp : FP) (ref : Ref) (cr cg cb ca : Char) (r g b a : Nat)
    (hr : HexChar cr r) (hg : HexChar cg g) (hb : HexChar cb b)
    (ha : HexChar ca a) :
    colorStr fp ref ['#', cr, cg, cb] = colorStr fp ref ['#', cr, cr, cg, cg, cb, cb] ∧
    colorStr fp ref ['#', cr, cg, cb, ca]
      = colorStr fp ref ['#', cr, cr, cg, cg, cb, cb, ca, ca] :=
  ⟨(C10_hex_short fp ref cr cg cb r g b hr hg hb).trans
      (C10_hex_long fp ref cr cr cg cg cb cb r r g g b b hr hr hg hg hb hb).symm,
    (C10_hex_short_alpha fp ref cr cg cb ca r g b a hr hg hb ha).trans
      (C10_hex_long_alpha fp ref cr cr cg cg cb cb ca ca r r g g b b a a hr hr hg hg hb hb ha ha).symm⟩

example : color .b64 [] (.str (lit "#fA3")) = .ok (.color (.heap []) (.rgb 255 170 51 (.fin (.flt 1)))) :=
  C10_hex_short .b64 _ 'f' 'A' '3' 15 10 3 (.inl (by decide)) (.inl (by decide)) (.inl (by decide))

/-! ## C11 -/

/-- `parseHex` after stripping. -/
def signedHex (t : PyStr) : Option Int :=
  (hexDigits true 0 (takeSign t).2).map fun (n : Nat) => if (takeSign t).1 = true then -(n : Int) else (n : Int)

theorem parseHex_eq (s : PyStr) : parseHex s = signedHex (stripBy isSpaceC s) := by
  unfold parseHex signedHex
  cases hexDigits true 0 (takeSign (stripBy isSpaceC s)).2 <;> rfl

/-- What `int(s, 16)` accepts for two characters. -/
theorem hexOf_pair_cases {a b : Char} {i : Int} (h : hexOf [a, b] = .ok i) :
    (∃ x y, hexVal a = some x ∧ hexVal b = some y ∧ i = ((16 * x + y : Nat) : Int)) ∨
    ((a = '+' ∨ a = '-' ∨ isSpaceC a = true) ∧ ∃ y, hexVal b = some y ∧ (i = y ∨ i = -(y : Int))) ∨
    (isSpaceC b = true ∧ ∃ x, hexVal a = some x ∧ i = x) := by
  have one : ∀ {c : Char} {n}, hexDigits true 0 [c] = some n → hexVal c = some n := by
    intro c n h
    simp only [hexDigits] at h
    split at h
    · simp at h
    · cases hc : hexVal c with
      | none => rw [hc] at h; cases h
      | some d => rw [hc] at h; simpa using h
  have sgn1 : ∀ {c : Char} {i : Int}, signedHex [c] = some i → ∃ y, hexVal c = some y ∧ i = y := by
    intro c i h
    by_cases h1 : c = '-'
    · subst h1; simp [signedHex, takeSign, hexDigits] at h
    · by_cases h2 : c = '+'
      · subst h2; simp [signedHex, takeSign, hexDigits] at h
      · have ht : takeSign [c] = (false, [c]) := by unfold takeSign; split <;> simp_all
        unfold signedHex at h
        rw [ht] at h
        cases hd : hexDigits true 0 [c] with
        | none => simp [hd] at h
        | some n =>
          simp only [hd, Option.map_some, Bool.false_eq_true, if_false, Option.some.injEq] at h
          exact ⟨n, one hd, h.symm⟩
  have h' : signedHex (stripBy isSpaceC [a, b]) = some i := by
    rw [← parseHex_eq]
    unfold hexOf at h
    split at h
    · rename_i heq; cases h; exact heq
    · cases h
  clear h
  by_cases ha : isSpaceC a = true
  · by_cases hb : isSpaceC b = true
    · have hs : stripBy isSpaceC [a, b] = [] := by simp [stripBy, ha, hb]
      rw [hs] at h'
      simp [signedHex, takeSign, hexDigits] at h'
    · have hs : stripBy isSpaceC [a, b] = [b] := by simp [stripBy, ha, hb]
      rw [hs] at h'
      obtain ⟨y, hy, rfl⟩ := sgn1 h'
      exact Or.inr (Or.inl ⟨Or.inr (Or.inr ha), y, hy, Or.inl rfl⟩)
  · by_cases hb : isSpaceC b = true
    · have hs : stripBy isSpaceC [a, b] = [a] := by simp [stripBy, ha, hb]
      rw [hs] at h'
      obtain ⟨x, hx, rfl⟩ := sgn1 h'
      exact Or.inr (Or.inr ⟨hb, x, hx, rfl⟩)
    · have hs : stripBy isSpaceC [a, b] = [a, b] := by simp [stripBy, ha, hb]
      rw [hs] at h'
      by_cases h1 : a = '-'
      · subst h1
        simp only [signedHex, takeSign] at h'
        cases hd : hexDigits true 0 [b] with
        | none => rw [hd] at h'; cases h'
        | some n =>
          rw [hd] at h'
          simp only [Option.map_some, if_true, Option.some.injEq] at h'
          exact Or.inr (Or.inl ⟨Or.inr (Or.inl rfl), n, one hd, Or.inr h'.symm⟩)
      · by_cases h2 : a = '+'
        · subst h2
          simp only [signedHex, takeSign] at h'
          cases hd : hexDigits true 0 [b] with
          | none => rw [hd] at h'; cases h'
          | some n =>
            rw [hd] at h'
            simp only [Option.map_some, Bool.false_eq_true, if_false, Option.some.injEq] at h'
            exact Or.inr (Or.inl ⟨Or.inl rfl, n, one hd, Or.inl h'.symm⟩)
        · have ht : takeSign [a, b] = (false, [a, b]) := by unfold takeSign; split <;> simp_all
          simp only [signedHex, ht, hexDigits] at h'
          by_cases hu : (a == '_') = true
          · simp [hu] at h'
          · simp only [hu, Bool.false_eq_true, if_false] at h'
            cases hx : hexVal a with
            | none => rw [hx] at h'; simp at h'
            | some x =>
              rw [hx] at h'
              by_cases hu' : (b == '_') = true
              · simp [hu'] at h'
              · simp only [hu', Bool.false_eq_true, if_false] at h'
                cases hy : hexVal b with
                | none => rw [hy] at h'; simp at h'
                | some y =>
                  rw [hy] at h'
                  simp only [Option.map_some, Option.some.injEq] at h'
                  refine Or.inl ⟨x, y, rfl, rfl, ?_⟩
                  rw [← h']; push_cast; ring

theorem hexOf_plain {a b : Char} {i : Int} (h : hexOf [a, b] = .ok i)
    (ha : a ≠ '+' ∧ a ≠ '-' ∧ isSpaceC a = false) (hb : isSpaceC b = false) :
    ∃ x y, HexChar a x ∧ HexChar b y ∧ i = ((16 * x + y : Nat) : Int) := by
  rcases hexOf_pair_cases h with ⟨x, y, hx, hy, e⟩ | ⟨h1, _⟩ | ⟨h1, _⟩
  · exact ⟨x, y, hexChar_iff.2 hx, hexChar_iff.2 hy, e⟩
  · simp_all
  · simp_all

theorem hexOf_double {a : Char} {i : Int} (h : hexOf [a, a] = .ok i) :
    ∃ x, HexChar a x ∧ i = ((16 * x + x : Nat) : Int) := by
  rcases hexOf_pair_cases h with ⟨x, y, hx, hy, e⟩ | ⟨h1, y, hy, _⟩ | ⟨h1, x, hx, _⟩
  · rw [hx] at hy; cases hy
    exact ⟨x, hexChar_iff.2 hx, e⟩
  · have := hexVal_plain hy; simp_all
  · have := hexVal_plain hx; simp_all

theorem hexOf_error {a b : Char} {e : Err} (h : hexOf [a, b] = .error e) : e = .value := by
  unfold hexOf at h
  split at h <;> cases h
  rfl

theorem hexChar_lt {c : Char} {d : Nat} (h : HexChar c d) : d < 16 :=
  (hexVal_plain (hexChar_iff.1 h)).2.2.2.2

/-- The components of an accepted pound sign colour. -/
def Color.inRange : Color → Prop
  | .rgb r g b _ => (0 ≤ r ∧ r ≤ 255) ∧ (0 ≤ g ∧ g ≤ 255) ∧ (0 ≤ b ∧ b ≤ 255)
  | .hsl .. => False

theorem bind_ok {α β : Type} {x : Res α} {f : α → Res β} {y : β} (h : x >>= f = .ok y) :
    ∃ a, x = .ok a ∧ f a = .ok y := by
  cases x with
  | error e => cases h
  | ok a => exact ⟨a, rfl, h⟩

/-- C11. Full statement: an accepted `#` string consists of hex digits and its components are bytes.
What is missing: strings with a sign or a blank among the digits, which `int(_, 16)` accepts (see
`C11_false_sign`), and hex digits here are those of any script (see `C11_false_script`). -/
theorem C11_hex_range_partial (fp : FP) (ref : Ref) (s : PyStr) (v : Val)
    (hs : ∀ c ∈ s, c ≠ '+' ∧ c ≠ '-' ∧ isSpaceC c = false)
    (h : colorStr fp ref ('#' :: s) = .ok v) :
    (∃ c, v = .color ref c ∧ c.inRange) ∧ (∀ c ∈ s, ∃ d, HexChar c d) ∧
      (s.length = 3 ∨ s.length = 4 ∨ s.length = 6 ∨ s.length = 8) := by
  simp only [colorStr, beq_self_eq_true, if_true] at h
  cases hp : poundSignColor fp ('#' :: s) with
  | error e => rw [hp] at h; cases h
  | ok c =>
    rw [hp] at h
    cases h
    have rng : ∀ {x y : Nat} {p q : Char}, HexChar p x → HexChar q y →
        (0 : Int) ≤ ((16 * x + y : Nat) : Int) ∧ ((16 * x + y : Nat) : Int) ≤ 255 := by
      intro x y p q h1 h2
      have := hexChar_lt h1
      have := hexChar_lt h2
      omega
    unfold poundSignColor at hp
    split at hp
    · rename_i x r g b heq
      simp only [List.cons.injEq] at heq
      obtain ⟨rfl, rfl⟩ := heq
      obtain ⟨r', hr, hp⟩ := bind_ok hp
      obtain ⟨g', hg, hp⟩ := bind_ok hp
      obtain ⟨b', hb, hp⟩ := bind_ok hp
      cases hp
      obtain ⟨xr, tr, rfl⟩ := hexOf_double hr
      obtain ⟨xg, tg, rfl⟩ := hexOf_double hg
      obtain ⟨xb, tb, rfl⟩ := hexOf_double hb
      exact ⟨⟨_, rfl, rng tr tr, rng tg tg, rng tb tb⟩, by simp; exact ⟨⟨_, tr⟩, ⟨_, tg⟩, _, tb⟩, by simp⟩
    · rename_i x r g b a heq
      simp only [List.cons.injEq] at heq
      obtain ⟨rfl, rfl⟩ := heq
      obtain ⟨r', hr, hp⟩ := bind_ok hp
      obtain ⟨g', hg, hp⟩ := bind_ok hp
      obtain ⟨b', hb, hp⟩ := bind_ok hp
      obtain ⟨a', ha, hp⟩ := bind_ok hp
      cases hp
      obtain ⟨xr, tr, rfl⟩ := hexOf_double hr
      obtain ⟨xg, tg, rfl⟩ := hexOf_double hg
      obtain ⟨xb, tb, rfl⟩ := hexOf_double hb
      obtain ⟨xa, ta, rfl⟩ := hexOf_double ha
      exact ⟨⟨_, rfl, rng tr tr, rng tg tg, rng tb tb⟩,
        by simp; exact ⟨⟨_, tr⟩, ⟨_, tg⟩, ⟨_, tb⟩, _, ta⟩, by simp⟩
    · rename_i x r1 r2 g1 g2 b1 b2 heq
      simp only [List.cons.injEq] at heq
      obtain ⟨rfl, rfl⟩ := heq
      obtain ⟨r', hr, hp⟩ := bind_ok hp
      obtain ⟨g', hg, hp⟩ := bind_ok hp
      obtain ⟨b', hb, hp⟩ := bind_ok hp
      cases hp
      obtain ⟨xr, yr, tr, ur, rfl⟩ := hexOf_plain hr (hs _ (by simp)) (hs _ (by simp)).2.2
      obtain ⟨xg, yg, tg, ug, rfl⟩ := hexOf_plain hg (hs _ (by simp)) (hs _ (by simp)).2.2
      obtain ⟨xb, yb, tb, ub, rfl⟩ := hexOf_plain hb (hs _ (by simp)) (hs _ (by simp)).2.2
      exact ⟨⟨_, rfl, rng tr ur, rng tg ug, rng tb ub⟩,
        by simp; exact ⟨⟨_, tr⟩, ⟨_, ur⟩, ⟨_, tg⟩, ⟨_, ug⟩, ⟨_, tb⟩, _, ub⟩, by simp⟩
    · rename_i x r1 r2 g1 g2 b1 b2 a1 a2 heq
      simp only [List.cons.injEq] at heq
      obtain ⟨rfl, rfl⟩ := heq
      obtain ⟨r', hr, hp⟩ := bind_ok hp
      obtain ⟨g', hg, hp⟩ := bind_ok hp
      obtain ⟨b', hb, hp⟩ := bind_ok hp
      obtain ⟨a', ha, hp⟩ := bind_ok hp
      cases hp
      obtain ⟨xr, yr, tr, ur, rfl⟩ := hexOf_plain hr (hs _ (by simp)) (hs _ (by simp)).2.2
      obtain ⟨xg, yg, tg, ug, rfl⟩ := hexOf_plain hg (hs _ (by simp)) (hs _ (by simp)).2.2
      obtain ⟨xb, yb, tb, ub, rfl⟩ := hexOf_plain hb (hs _ (by simp)) (hs _ (by simp)).2.2
      obtain ⟨xa, ya, ta, ua, rfl⟩ := hexOf_plain ha (hs _ (by simp)) (hs _ (by simp)).2.2
      exact ⟨⟨_, rfl, rng tr ur, rng tg ug, rng tb ub⟩,
        by simp; exact ⟨⟨_, tr⟩, ⟨_, ur⟩, ⟨_, tg⟩, ⟨_, ug⟩, ⟨_, tb⟩, ⟨_, ub⟩, ⟨_, ta⟩, _, ua⟩, by simp⟩
    · cases hp

/-- C11 for the short forms holds without exception but for digits of other scripts. -/
theorem C11_hex_short_range (fp : FP) (ref : Ref) (s : PyStr) (v : Val) (hl : s.length = 3 ∨ s.length = 4)
    (h : colorStr fp ref ('#' :: s) = .ok v) :
    (∃ c, v = .color ref c ∧ c.inRange) ∧ (∀ c ∈ s, ∃ d, HexChar c d) := by
  have hs : ∀ c ∈ s, c ≠ '+' ∧ c ≠ '-' ∧ isSpaceC c = false := by
    have pl : ∀ {c : Char} {i : Int}, hexOf [c, c] = .ok i → c ≠ '+' ∧ c ≠ '-' ∧ isSpaceC c = false := by
      intro c i h
      obtain ⟨x, hx, _⟩ := hexOf_double h
      have := hexVal_plain (hexChar_iff.1 hx)
      exact ⟨this.2.1, this.2.2.1, this.1⟩
    simp only [colorStr, beq_self_eq_true, if_true] at h
    cases hp : poundSignColor fp ('#' :: s) with
    | error e => rw [hp] at h; cases h
    | ok c =>
      match s, hl with
      | [r, g, b], _ =>
        simp only [poundSignColor] at hp
        obtain ⟨r', hr, hp⟩ := bind_ok hp
        obtain ⟨g', hg, hp⟩ := bind_ok hp
        obtain ⟨b', hb, hp⟩ := bind_ok hp
        intro c hc
        simp only [List.mem_cons, List.not_mem_nil, or_false] at hc
        rcases hc with rfl | rfl | rfl
        exacts [pl hr, pl hg, pl hb]
      | [r, g, b, a], _ =>
        simp only [poundSignColor] at hp
        obtain ⟨r', hr, hp⟩ := bind_ok hp
        obtain ⟨g', hg, hp⟩ := bind_ok hp
        obtain ⟨b', hb, hp⟩ := bind_ok hp
        obtain ⟨a', ha, hp⟩ := bind_ok hp
        intro c hc
        simp only [List.mem_cons, List.not_mem_nil, or_false] at hc
        rcases hc with rfl | rfl | rfl | rfl
        exacts [pl hr, pl hg, pl hb, pl ha]
  exact ⟨(C11_hex_range_partial fp ref s v hs h).1, (C11_hex_range_partial fp ref s v hs h).2.1⟩

/-- C11 is false for the long forms: `#-1-1-1` is accepted, with negative components. -/
theorem C11_false_sign (fp : FP) : colorStr fp (.heap []) (lit "#-1-1-1")
    = .ok (.color (.heap []) (.rgb (-1) (-1) (-1) (.fin (.flt 1)))) := by
  have h : hexOf ['-', '1'] = .ok (-1) := by decide
  simp [colorStr, poundSignColor, lit, h]
  rfl

/-- C11 is false also for the short forms, when a hex digit is one of ASCII: the digits of other scripts are accepted. -/
theorem C11_false_script (fp : FP) : colorStr fp (.heap []) ['#', '\u0661', '\u096b', 'f']
    = .ok (.color (.heap []) (.rgb 17 85 255 (.fin (.flt 1)))) ∧ (∀ x, ('\u0661', x) ∉ hexTable) ∧ ∀ x, ('\u096b', x) ∉ hexTable := by
  have no : ∀ c : Char, 128 ≤ c.toNat → ∀ x, (c, x) ∉ hexTable := fun c hc x hx => by
    have : ∀ p ∈ hexTable, p.1.toNat < 128 := by decide
    have := this _ hx
    simp only at this
    omega
  refine ⟨?_, no _ (by decide), no _ (by decide)⟩
  exact C10_hex_short fp _ _ _ _ 1 5 15 (.inr ⟨by decide, '\u0660', by decide +kernel, by decide +kernel⟩) (.inr ⟨by decide, '\u0966', by decide +kernel, by decide +kernel⟩)
    (.inl (by decide))

/-- C11: an accepted `#` string of three or four characters of ASCII has hex digits of ASCII only. -/
theorem C11_ascii_digits (fp : FP) (ref : Ref) (s : PyStr) (v : Val) (hl : s.length = 3 ∨ s.length = 4) (ha : ∀ c ∈ s, c.toNat < 128)
    (h : colorStr fp ref ('#' :: s) = .ok v) : ∀ c ∈ s, ∃ d, (c, d) ∈ hexTable := fun c hc => by
  obtain ⟨d, hd⟩ := (C11_hex_short_range fp ref s v hl h).2 c hc
  exact ⟨d, hexTable_of_hexVal (hexChar_iff.1 hd) (ha c hc)⟩

/-- C11: a `#` string that is not accepted raises `ValueError`. -/
theorem C11_hex_error (fp : FP) (ref : Ref) (s : PyStr) (e : Err)
    (h : colorStr fp ref ('#' :: s) = .error e) : e = .value := by
  simp only [colorStr, beq_self_eq_true, if_true] at h
  cases hp : poundSignColor fp ('#' :: s) with
  | ok c => rw [hp] at h; cases h
  | error e' =>
    rw [hp] at h
    cases h
    unfold poundSignColor at hp
    have step : ∀ {a b : Char} {f : Int → Res Color}, (hexOf [a, b] >>= f) = .error e →
        e = .value ∨ ∃ i, f i = .error e := by
      intro a b f h
      cases hx : hexOf [a, b] with
      | error e' => rw [hx] at h; cases h; exact Or.inl (hexOf_error hx)
      | ok i => rw [hx] at h; exact Or.inr ⟨i, h⟩
    split at hp
    · rcases step hp with h | ⟨_, hp⟩; · exact h
      rcases step hp with h | ⟨_, hp⟩; · exact h
      rcases step hp with h | ⟨_, hp⟩; · exact h
      cases hp
    · rcases step hp with h | ⟨_, hp⟩; · exact h
      rcases step hp with h | ⟨_, hp⟩; · exact h
      rcases step hp with h | ⟨_, hp⟩; · exact h
      rcases step hp with h | ⟨_, hp⟩; · exact h
      cases hp
    · rcases step hp with h | ⟨_, hp⟩; · exact h
      rcases step hp with h | ⟨_, hp⟩; · exact h
      rcases step hp with h | ⟨_, hp⟩; · exact h
      cases hp
    · rcases step hp with h | ⟨_, hp⟩; · exact h
      rcases step hp with h | ⟨_, hp⟩; · exact h
      rcases step hp with h | ⟨_, hp⟩; · exact h
      rcases step hp with h | ⟨_, hp⟩; · exact h
      cases hp
    · cases hp; rfl

example : ∃ v, colorStr .b64 (.heap []) (lit "#12aBfF") = .ok v :=
  ⟨_, C10_hex_long .b64 _ '1' '2' 'a' 'B' 'f' 'F' 1 2 10 11 15 15 (.inl (by decide)) (.inl (by decide)) (.inl (by decide))
    (.inl (by decide)) (.inl (by decide)) (.inl (by decide))⟩
example : colorStr .b64 (.heap []) (lit "#12") = .error .value := rfl

/-! ## C12 -/

theorem lookupIdx_some {α : Type} {k : PyStr} {i j : Nat} {v : α} {l : List (PyStr × α)}
    (h : lookupIdx k i l = some (j, v)) : (k, v) ∈ l := by
  induction l generalizing i with
  | nil => simp [lookupIdx] at h
  | cons p r ih =>
    obtain ⟨n, w⟩ := p
    simp only [lookupIdx] at h
    split at h
    · rename_i e; cases h; subst e; exact List.mem_cons_self ..
    · exact List.mem_cons_of_mem _ (ih h)

theorem lowerChar_iff {c d : Char} (hd : d ≠ '\u212a') : lowerChar c = d ↔ c.toLower = d ∨ c = '\u212a' ∧ d = 'k' := by
  unfold lowerChar
  split
  · rename_i h
    subst h
    rw [show Char.toLower '\u212a' = '\u212a' by decide]
    constructor
    · exact fun h => Or.inr ⟨rfl, h.symm⟩
    · rintro (h | h)
      · exact absurd h.symm hd
      · exact h.2.symm
  · rename_i h
    simp [h]

/-- `str.lower`, for words of ASCII. -/
theorem lower_iff {s w : PyStr} (hw : '\u212a' ∉ w) : lower s = w ↔ SpelledAs s w := by
  unfold SpelledAs lower
  induction s generalizing w with
  | nil => cases w <;> simp
  | cons c s ih =>
    cases w with
    | nil => simp
    | cons d w =>
      simp only [List.mem_cons, not_or] at hw
      simp only [List.map_cons, List.cons.injEq, ih hw.2, lowerChar_iff (Ne.symm hw.1), List.length_cons, Nat.add_right_cancel_iff, List.zip_cons_cons,
        List.mem_cons, forall_eq_or_imp]
      tauto

theorem cssColors_ascii : ∀ p ∈ cssColors, '\u212a' ∉ p.1.toList := by decide +kernel

theorem startsWith_lower {s p : PyStr} (hp : lower p = p) (h : startsWith s p = true) :
    startsWith (lower s) p = true := by
  obtain ⟨t, rfl⟩ := (startsWith_iff s p).1 h
  refine (startsWith_iff _ _).2 ⟨lower t, ?_⟩
  simp only [lower, List.map_append] at hp ⊢
  rw [hp]

/-- Every CSS keyword is in the code's table with the CSS components. -/
theorem cssColors_lookup : ∀ p ∈ cssColors,
    (lookupIdx p.1.toList 1 namedColors).any (fun c => c.2 == rgbBytes p.2) = true := by decide +kernel

/-- Every name in the code's table is a CSS keyword. -/
theorem namedColors_css : ∀ p ∈ namedColors, p.1 ∈ cssColors.map (fun c => c.1.toList) := by
  decide +kernel

theorem cssColors_plain : ∀ p ∈ cssColors, p.1.toList ≠ [] ∧ p.1.toList.head? ≠ some '#' ∧
    startsWith p.1.toList (lit "rgba") = false ∧ startsWith p.1.toList (lit "rgb") = false ∧
    startsWith p.1.toList (lit "hsla") = false ∧ startsWith p.1.toList (lit "hsl") = false := by
  decide +kernel

theorem startsWith_false_of_lower {s p : PyStr} (hp : lower p = p) (h : startsWith (lower s) p = false) :
    startsWith s p = false := by
  cases e : startsWith s p with
  | false => rfl
  | true => rw [startsWith_lower hp e] at h; cases h

theorem colorStr_named (fp : FP) (ref : Ref) (c : Char) (s : PyStr) (h1 : c ≠ '#')
    (h2 : startsWith (c :: s) (lit "rgba") = false) (h3 : startsWith (c :: s) (lit "rgb") = false)
    (h4 : startsWith (c :: s) (lit "hsla") = false) (h5 : startsWith (c :: s) (lit "hsl") = false) :
    colorStr fp ref (c :: s) = match namedColor (lower (c :: s)) with
      | some v => .ok v
      | none => .error .value := by
  have h1' : (c == '#') = false := by simpa using h1
  simp only [colorStr, h1', h2, h3, h4, h5, Bool.false_eq_true, if_false]
  rfl

theorem cssColors_lower : ∀ p ∈ cssColors, lower p.1.toList = p.1.toList := by decide +kernel

theorem named_lookup (fp : FP) (at_ : List Nat) (s : PyStr) (name : String) (n : Nat)
    (hn : (name, n) ∈ cssColors) (hs : SpelledAs s name.toList) :
    ∃ i, lookupIdx name.toList 1 namedColors = some (i, rgbBytes n) ∧ color fp at_ (.str s) = .ok (.color (.shared i)
      (.rgb (rgbBytes n).1 (rgbBytes n).2.1 (rgbBytes n).2.2 (.fin (.flt 1)))) := by
  obtain ⟨p1, p2, p3, p4, p5, p6⟩ := cssColors_plain _ hn
  simp only at p1 p2 p3 p4 p5 p6
  have hl : lower s = name.toList := (lower_iff (cssColors_ascii _ hn)).2 hs
  rw [← hl] at p1 p2 p3 p4 p5 p6
  cases s with
  | nil => exact absurd rfl p1
  | cons c s =>
    have hc : c ≠ '#' := by
      rintro rfl
      exact p2 rfl
    simp only [color]
    rw [colorStr_named fp _ c s hc (startsWith_false_of_lower (by decide) p3)
      (startsWith_false_of_lower (by decide) p4) (startsWith_false_of_lower (by decide) p5)
      (startsWith_false_of_lower (by decide) p6), hl]
    have := cssColors_lookup _ hn
    simp only at this
    cases hk : lookupIdx name.toList 1 namedColors with
    | none => rw [hk] at this; cases this
    | some q =>
      obtain ⟨i, r, g, b⟩ := q
      rw [hk] at this
      simp only [Option.any_some, beq_iff_eq] at this
      refine ⟨i, by rw [this], ?_⟩
      simp only [namedColor, hk, ← this]

theorem lookupIdx_index {α : Type} {k : PyStr} {i j : Nat} {v : α} {l : List (PyStr × α)}
    (h : lookupIdx k i l = some (j, v)) : i ≤ j ∧ l[j - i]? = some (k, v) := by
  induction l generalizing i with
  | nil => simp [lookupIdx] at h
  | cons p r ih =>
    obtain ⟨n, w⟩ := p
    simp only [lookupIdx] at h
    split at h
    · rename_i e; cases h; subst e; simp
    · obtain ⟨h1, h2⟩ := ih h
      refine ⟨by omega, ?_⟩
      rw [show j - i = (j - (i + 1)) + 1 by omega, List.getElem?_cons_succ]
      exact h2

/-- C12: a colour keyword in any mixture of cases is the colour CSS lists. -/
theorem C12_named_color (fp : FP) (at_ : List Nat) (s : PyStr) (name : String) (n : Nat)
    (hn : (name, n) ∈ cssColors) (hs : SpelledAs s name.toList) :
    ∃ i, color fp at_ (.str s) = .ok (.color (.shared i)
      (.rgb (rgbBytes n).1 (rgbBytes n).2.1 (rgbBytes n).2.2 (.fin (.flt 1)))) :=
  (named_lookup fp at_ s name n hn hs).imp fun _ h => h.2

/-- C12: there is one colour object for each keyword, the same for all its spellings, and different keywords have different objects, also where they name the same colour. -/
theorem C12_objects : ∃ obj : String → Nat, (∀ a b m n, (a, m) ∈ cssColors → (b, n) ∈ cssColors → obj a = obj b → a = b) ∧
    ∀ (fp : FP) (at_ : List Nat) (s : PyStr) (name : String) (n : Nat), (name, n) ∈ cssColors → SpelledAs s name.toList →
      color fp at_ (.str s) = .ok (.color (.shared (obj name)) (.rgb (rgbBytes n).1 (rgbBytes n).2.1 (rgbBytes n).2.2 (.fin (.flt 1)))) := by
  refine ⟨fun name => ((lookupIdx name.toList 1 namedColors).map Prod.fst).getD 0, fun a b m n ha hb h => ?_, fun fp at_ s name n hn hs => ?_⟩
  · have self : ∀ (name : String) (k : Nat), (name, k) ∈ cssColors → ∃ i, lookupIdx name.toList 1 namedColors = some (i, rgbBytes k) := fun name k hk =>
      (named_lookup .exact [] name.toList name k hk ((lower_iff (cssColors_ascii _ hk)).1 (cssColors_lower _ hk))).imp fun _ h => h.1
    obtain ⟨i, hi⟩ := self a m ha
    obtain ⟨j, hj⟩ := self b n hb
    simp only [hi, hj, Option.map_some, Option.getD_some] at h
    subst h
    have e := (lookupIdx_index hi).2.symm.trans (lookupIdx_index hj).2
    simp only [Option.some.injEq, Prod.mk.injEq] at e
    exact String.ext e.1
  · obtain ⟨i, h1, h2⟩ := named_lookup fp at_ s name n hn hs
    simp only [h1, Option.map_some, Option.getD_some]
    exact h2

/-- Two keywords for one colour. -/
example : ("aqua", 0x00FFFF) ∈ cssColors ∧ ("cyan", 0x00FFFF) ∈ cssColors := by decide +kernel

/-- C12: any other string that is not in one of the functional notations raises `ValueError`. -/
theorem C12_unknown_name (fp : FP) (at_ : List Nat) (s : PyStr) (hne : s ≠ [])
    (hs : ∀ p ∈ ["#", "rgb", "hsl"], ¬ p.toList <+: s)
    (hn : ∀ c ∈ cssColors, ¬ SpelledAs s c.1.toList) :
    color fp at_ (.str s) = .error .value := by
  have sw : ∀ p : String, ¬ p.toList <+: s → startsWith s p.toList = false := by
    intro p hp
    cases e : startsWith s p.toList with
    | false => rfl
    | true => exact absurd (List.isPrefixOf_iff_prefix.1 e) hp
  have h4 := hs "#" (by simp)
  have h5 := hs "rgb" (by simp)
  have h6 := hs "hsl" (by simp)
  have ha : ¬ ("rgba" : String).toList <+: s :=
    fun h => h5 (List.IsPrefix.trans ⟨['a'], rfl⟩ h)
  have hb : ¬ ("hsla" : String).toList <+: s :=
    fun h => h6 (List.IsPrefix.trans ⟨['a'], rfl⟩ h)
  cases s with
  | nil => exact absurd rfl hne
  | cons c s =>
    have hc : c ≠ '#' := by
      rintro rfl
      exact h4 ⟨s, rfl⟩
    simp only [color]
    rw [colorStr_named fp _ c s hc (sw _ ha) (sw _ h5) (sw _ hb) (sw _ h6)]
    cases hk : lookupIdx (lower (c :: s)) 1 namedColors with
    | none => simp only [namedColor, hk]
    | some q =>
      exfalso
      have := namedColors_css _ (lookupIdx_some hk)
      obtain ⟨p, hp, e⟩ := List.mem_map.1 this
      exact hn p hp ((lower_iff (cssColors_ascii _ hp)).1 e.symm)

/-- The empty string raises `IndexError`, not `ValueError`. -/
theorem C12_false_empty (fp : FP) (at_ : List Nat) : color fp at_ (.str []) = .error .index := rfl

example : ∃ i, color .b64 [] (.str (lit "RebeccaPurple"))
    = .ok (.color (.shared i) (.rgb 0x66 0x33 0x99 (.fin (.flt 1)))) :=
  C12_named_color .b64 [] _ "rebeccapurple" 0x663399 (by decide) (by decide)

/-- The sign of the unit kelvin is taken for a k. -/
example : ∃ i, color .b64 [] (.str (lit "blac\u212a"))
    = .ok (.color (.shared i) (.rgb 0 0 0 (.fin (.flt 1)))) :=
  C12_named_color .b64 [] _ "black" 0 (by decide) (by decide)

example : color .b64 [] (.str (lit "reddish")) = .error .value :=
  C12_unknown_name .b64 [] _ (by decide) (by decide +kernel) (by decide +kernel)

end Colosseum
