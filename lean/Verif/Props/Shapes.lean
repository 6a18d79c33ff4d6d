import Verif.Props.Urls
import Verif.Props.Units
import Verif.Lemmas.Rect

/-!
# C16, C17: border spacing and rect()
-/

namespace Colosseum

/-! ## C16 -/

/-- The items of a border spacing value: a number, the words of a string, the items of a sequence. -/
inductive SpacingItems : Val → List Val → Prop
  | num (x : PyNum) : SpacingItems (.num x) [.num x]
  | str (s : PyStr) (ws : List PyStr) : Words s ws → SpacingItems (.str s) (ws.map .str)
  | seq (t : Bool) (xs : List Val) : SpacingItems (.seq t xs) xs

/-- The items are numbers Python can hold. -/
def Val.HeldDeep (fp : FP) : Val → Prop
  | .seq _ xs => ∀ x ∈ xs, x.Held fp
  | v => v.Held fp

theorem SpacingItems.unique {v : Val} {a b : List Val} (ha : SpacingItems v a) (hb : SpacingItems v b) :
    a = b := by
  cases ha with
  | num x => cases hb; rfl
  | str s ws h =>
    cases hb with
    | str _ ws' h' => rw [← h.splitWs, ← h'.splitWs]
  | seq t xs => cases hb; rfl

theorem SpacingItems.held {fp : FP} {v : Val} {items : List Val} (h : SpacingItems v items)
    (hv : v.HeldDeep fp) : ∀ x ∈ items, x.Held fp := by
  cases h with
  | num x => intro y hy; simp at hy; subst hy; exact hv
  | str s ws _ =>
    intro y hy
    obtain ⟨w, _, rfl⟩ := List.mem_map.1 hy
    trivial
  | seq t xs => exact hv

/-- What `border_spacing` does with the items. -/
def spacingOf (fp : FP) (at_ : List Nat) (v : Val) (items : List Val) : Res Val :=
  match items with
  | [h] => do
    let h ← units fp h
    pure (.borderSpacing (.heap at_) h none)
  | [h, w] => do
    let h ← units fp h
    let w ← units fp w
    pure (.borderSpacing (.heap at_) h (some w))
  | _ => raiseFmt .value v

theorem borderSpacing_items (fp : FP) (at_ : List Nat) (v : Val) (items : List Val)
    (h : SpacingItems v items) : borderSpacing fp at_ v = spacingOf fp at_ v items := by
  cases h with
  | num x => rfl
  | seq t xs =>
    simp only [borderSpacing, asSeq, spacingOf]
    rcases items with _ | ⟨a, _ | ⟨b, _ | ⟨c, r⟩⟩⟩ <;> rfl
  | str s ws hw =>
    have e : (splitWs s).map (fun w => Val.str (strip w)) = ws.map .str := by
      have e2 := congrArg (List.map Val.str) (splitWs_map_strip s)
      rw [List.map_map] at e2
      rw [← hw.splitWs]
      exact e2
    simp only [borderSpacing, asSeq, e, spacingOf]
    rcases ws with _ | ⟨a, _ | ⟨b, _ | ⟨c, r⟩⟩⟩ <;> rfl

/-- C16: a value is accepted exactly when it has one or two items that are lengths; the result holds
them in order. -/
theorem C16_accepts (fp : FP) (L : fp.Laws) (at_ : List Nat) (v : Val) (items : List Val)
    (hi : SpacingItems v items) (hv : v.HeldDeep fp) (r : Val) :
    borderSpacing fp at_ v = .ok r ↔
      (∃ a h, items = [a] ∧ Denotes fp a h ∧ r = .borderSpacing (.heap at_) h none) ∨
      (∃ a b h w, items = [a, b] ∧ Denotes fp a h ∧ Denotes fp b w ∧
        r = .borderSpacing (.heap at_) h (some w)) := by
  rw [borderSpacing_items fp at_ v items hi]
  have hh := hi.held hv
  constructor
  · intro h
    rcases items with _ | ⟨a, _ | ⟨b, _ | ⟨c, rest⟩⟩⟩
    · simp only [spacingOf, raiseFmt] at h; split at h <;> cases h
    · obtain ⟨x, hx, h⟩ := bind_ok h
      cases h
      exact Or.inl ⟨a, x, rfl, (C03_units_accepts fp L a (hh a (by simp)) x).1 hx, rfl⟩
    · obtain ⟨x, hx, h⟩ := bind_ok h
      obtain ⟨y, hy, h⟩ := bind_ok h
      cases h
      exact Or.inr ⟨a, b, x, y, rfl, (C03_units_accepts fp L a (hh a (by simp)) x).1 hx,
        (C03_units_accepts fp L b (hh b (by simp)) y).1 hy, rfl⟩
    · simp only [spacingOf, raiseFmt] at h; split at h <;> cases h
  · rintro (⟨a, x, rfl, hx, rfl⟩ | ⟨a, b, x, y, rfl, hx, hy, rfl⟩)
    · simp only [spacingOf, (C03_units_accepts fp L a (hh a (by simp)) x).2 hx]; rfl
    · simp only [spacingOf, (C03_units_accepts fp L a (hh a (by simp)) x).2 hx,
        (C03_units_accepts fp L b (hh b (by simp)) y).2 hy]; rfl

/-- C16: `horizontal` is the first length, `vertical` the second or, if absent, the first. -/
theorem C16_directions (fp : FP) (L : fp.Laws) (at_ : List Nat) (v : Val) (items : List Val)
    (hi : SpacingItems v items) (hv : v.HeldDeep fp) (r : Val) (h : borderSpacing fp at_ v = .ok r) :
    ∃ first last x y, items.head? = some first ∧ items.getLast? = some last ∧ items.length ≤ 2 ∧
      Denotes fp first x ∧ Denotes fp last y ∧ r.horizontal = some x ∧ r.vertical = some y := by
  rcases (C16_accepts fp L at_ v items hi hv r).1 h with ⟨a, x, rfl, hx, rfl⟩ | ⟨a, b, x, y, rfl, hx, hy, rfl⟩
  · exact ⟨a, a, x, x, rfl, rfl, by simp, hx, hx, rfl, rfl⟩
  · exact ⟨a, b, x, y, rfl, rfl, by simp, hx, hy, rfl, rfl⟩

/-- C16. Full statement: any other number of items raises `ValueError`. What is missing: sequences
whose text form raises (see `C16_false_inf`). -/
theorem C16_wrong_count_partial (fp : FP) (at_ : List Nat) (v : Val) (items : List Val)
    (hi : SpacingItems v items) (hf : v.fmtErr = none) (hn : items.length ≠ 1 ∧ items.length ≠ 2) :
    borderSpacing fp at_ v = .error .value := by
  rw [borderSpacing_items fp at_ v items hi]
  rcases items with _ | ⟨a, _ | ⟨b, _ | ⟨c, rest⟩⟩⟩
  · simp only [spacingOf, raiseFmt, hf]
  · simp at hn
  · simp at hn
  · simp only [spacingOf, raiseFmt, hf]

/-- C16: every string with another number of words raises `ValueError`. -/
theorem C16_wrong_word_count (fp : FP) (at_ : List Nat) (s : PyStr) (ws : List PyStr) (hw : Words s ws)
    (hn : ws.length ≠ 1 ∧ ws.length ≠ 2) : borderSpacing fp at_ (.str s) = .error .value :=
  C16_wrong_count_partial fp at_ _ _ (.str s ws hw) rfl (by simpa using hn)

/-- C16: an item that is no length raises `ValueError`. -/
theorem C16_bad_string (fp : FP) (at_ : List Nat) (s : PyStr) (e : Err)
    (h : borderSpacing fp at_ (.str s) = .error e) : e = .value := by
  rw [borderSpacing_items fp at_ _ _ (.str s _ (words_splitWs s))] at h
  have ue : ∀ {w : PyStr}, units fp (.str w) = .error e → e = .value := by
    intro w hw
    rcases C03_units_string_total fp w with ⟨u, hu⟩ | hu <;> rw [hu] at hw <;> cases hw
    rfl
  generalize splitWs s = ws at h
  rcases ws with _ | ⟨a, _ | ⟨b, _ | ⟨c, rest⟩⟩⟩
  · cases h; rfl
  · rcases bind_error h with h | ⟨_, h⟩
    · exact ue h
    · cases h
  · rcases bind_error h with h | ⟨_, h⟩
    · exact ue h
    rcases bind_error h with h | ⟨_, h⟩
    · exact ue h
    · cases h
  · cases h; rfl

/-- C16 is false for three items of which one is infinite: `OverflowError`. -/
theorem C16_false_inf (fp : FP) (at_ : List Nat) :
    borderSpacing fp at_ (.seq true [.num (.fin (.int 1)), .unit ⟨.len .px, .inf false⟩, .num (.fin (.int 1))])
      = .error .overflow := rfl

/-- C16 is false for a length object: `5 * px` is a length, but raises `AttributeError`. -/
theorem C16_false_unit_object (fp : FP) (at_ : List Nat) (u : CUnit) :
    borderSpacing fp at_ (.unit u) = .error .attribute := rfl

example : borderSpacing .b64 [] (.str (lit " 1px  2px"))
    = .ok (.borderSpacing (.heap []) ⟨.len .px, .fin (.flt 1)⟩ (some ⟨.len .px, .fin (.flt 2)⟩)) := by
  refine (C16_accepts .b64 b64_laws [] _ _ (.str _ [lit "1px", lit "2px"] ((splitWs_iff _ _).1 rfl)) trivial _).2 ?_
  refine Or.inr ⟨_, _, _, _, rfl, ?_, ?_, rfl⟩
  · exact .suffixed (lit "1") "px" (.len .px) _ (by simp [cssUnits]) (by decide +kernel)
  · exact .suffixed (lit "2") "px" (.len .px) _ (by simp [cssUnits]) (by decide +kernel)

/-! ## C17 -/

/-- What `rect` does with four components. -/
theorem rect_of_text (fp : FP) (s : PyStr) (parts : List PyStr) (h : RectText s parts) :
    ∃ a b c d, parts = [a, b, c, d] ∧ rect fp (.str s) = (do
      let a ← units fp (.str a)
      let b ← units fp (.str b)
      let c ← units fp (.str c)
      let d ← units fp (.str d)
      pure (.rect a b c d)) := by
  have hl : parts.length = 4 := by
    obtain ⟨_, _, _, _, _, _, _, _, hl, _⟩ := h
    exact hl
  have e := (rectParts_iff s parts).2 h
  cases hp : rectParts s with
  | none => rw [hp] at e; cases e
  | some ps =>
    rw [hp, Option.map_some] at e
    cases e
    rcases ps with _ | ⟨a, _ | ⟨b, _ | ⟨c, _ | ⟨d, _ | ⟨x, r⟩⟩⟩⟩⟩ <;> simp at hl
    refine ⟨strip a, strip b, strip c, strip d, rfl, ?_⟩
    simp only [rect, hp]

/-- C17: the strings `rect(...)` with four lengths, separated by commas or by blanks, are exactly the
accepted ones; all four lengths are kept, in this order. -/
theorem C17_accepts (fp : FP) (L : fp.Laws) (s : PyStr) (v : Val) :
    rect fp (.str s) = .ok v ↔ ∃ a b c d ua ub uc ud, RectText s [a, b, c, d] ∧
      Denotes fp (.str a) ua ∧ Denotes fp (.str b) ub ∧ Denotes fp (.str c) uc ∧ Denotes fp (.str d) ud ∧
      v = .rect ua ub uc ud := by
  have un : ∀ x u, units fp (.str x) = .ok u ↔ Denotes fp (.str x) u :=
    fun x u => C03_units_accepts fp L (.str x) trivial u
  constructor
  · intro h
    have ht : ∃ parts, RectText s parts := by
      cases hp : rectParts s with
      | none => simp only [rect, hp] at h; cases h
      | some ps => exact ⟨ps.map strip, (rectParts_iff s _).1 (by rw [hp]; rfl)⟩
    obtain ⟨parts, ht⟩ := ht
    obtain ⟨a, b, c, d, rfl, e⟩ := rect_of_text fp s parts ht
    rw [e] at h
    obtain ⟨ua, ha, h⟩ := bind_ok h
    obtain ⟨ub, hb, h⟩ := bind_ok h
    obtain ⟨uc, hc, h⟩ := bind_ok h
    obtain ⟨ud, hd, h⟩ := bind_ok h
    cases h
    exact ⟨a, b, c, d, ua, ub, uc, ud, ht, (un _ _).1 ha, (un _ _).1 hb, (un _ _).1 hc, (un _ _).1 hd, rfl⟩
  · rintro ⟨a, b, c, d, ua, ub, uc, ud, ht, ha, hb, hc, hd, rfl⟩
    obtain ⟨a', b', c', d', e', e⟩ := rect_of_text fp s _ ht
    cases e'
    rw [e, (un _ _).2 ha, (un _ _).2 hb, (un _ _).2 hc, (un _ _).2 hd]
    rfl

/-- C17. Full statement: `rect(a, b, c, d)` has top `a`, right `b`, bottom `c` and left `d`. What is
missing: bottom and left, which the code exchanges (see `C17_false_bottom_left`). -/
theorem C17_top_right_partial (fp : FP) (L : fp.Laws) (s : PyStr) (a b c d : PyStr) (v : Val)
    (ht : RectText s [a, b, c, d]) (h : rect fp (.str s) = .ok v) :
    ∃ r, v.shape = some r ∧ Denotes fp (.str a) r.top ∧ Denotes fp (.str b) r.right ∧
      Denotes fp (.str c) r.left ∧ Denotes fp (.str d) r.bottom := by
  obtain ⟨a', b', c', d', e', e⟩ := rect_of_text fp s _ ht
  cases e'
  rw [e] at h
  have un : ∀ x u, units fp (.str x) = .ok u ↔ Denotes fp (.str x) u :=
    fun x u => C03_units_accepts fp L (.str x) trivial u
  obtain ⟨ua, ha, h⟩ := bind_ok h
  obtain ⟨ub, hb, h⟩ := bind_ok h
  obtain ⟨uc, hc, h⟩ := bind_ok h
  obtain ⟨ud, hd, h⟩ := bind_ok h
  cases h
  exact ⟨_, rfl, (un _ _).1 ha, (un _ _).1 hb, (un _ _).1 hc, (un _ _).1 hd⟩

/-- C17 is false for bottom and left: `rect(1px, 2px, 3px, 4px)` has bottom `4px` and left `3px`. -/
theorem C17_false_bottom_left :
    ∃ v r, rect .b64 (.str (lit "rect(1px, 2px, 3px, 4px)")) = .ok v ∧ v.shape = some r ∧
      r.bottom = ⟨.len .px, .fin (.flt 4)⟩ ∧ r.left = ⟨.len .px, .fin (.flt 3)⟩ := by
  refine ⟨.rect ⟨.len .px, .fin (.flt 1)⟩ ⟨.len .px, .fin (.flt 2)⟩ ⟨.len .px, .fin (.flt 3)⟩
    ⟨.len .px, .fin (.flt 4)⟩, _, ?_, rfl, rfl, rfl⟩
  refine (C17_accepts .b64 b64_laws _ _).2 ⟨lit "1px", lit "2px", lit "3px", lit "4px", _, _, _, _,
    (rectParts_iff _ _).1 (by rfl), ?_, ?_, ?_, ?_, rfl⟩
  · exact .suffixed (lit "1") "px" (.len .px) _ (by simp [cssUnits]) (by decide +kernel)
  · exact .suffixed (lit "2") "px" (.len .px) _ (by simp [cssUnits]) (by decide +kernel)
  · exact .suffixed (lit "3") "px" (.len .px) _ (by simp [cssUnits]) (by decide +kernel)
  · exact .suffixed (lit "4") "px" (.len .px) _ (by simp [cssUnits]) (by decide +kernel)

/-- C17: a string that is rejected raises `ValueError`; in particular one that is not `rect(...)` with
four components. -/
theorem C17_string_error (fp : FP) (s : PyStr) (e : Err) (h : rect fp (.str s) = .error e) : e = .value := by
  have ue : ∀ {w : PyStr}, units fp (.str w) = .error e → e = .value := by
    intro w hw
    rcases C03_units_string_total fp w with ⟨u, hu⟩ | hu <;> rw [hu] at hw <;> cases hw
    rfl
  simp only [rect] at h
  split at h
  · rcases bind_error h with h | ⟨_, h⟩
    · exact ue h
    rcases bind_error h with h | ⟨_, h⟩
    · exact ue h
    rcases bind_error h with h | ⟨_, h⟩
    · exact ue h
    rcases bind_error h with h | ⟨_, h⟩
    · exact ue h
    cases h
  · cases h; rfl

/-- C17: text that is not `rect(...)` with four components raises `ValueError`. -/
theorem C17_other_text (fp : FP) (L : fp.Laws) (s : PyStr) (h : ∀ parts, ¬ RectText s parts) :
    rect fp (.str s) = .error .value := by
  cases e : rect fp (.str s) with
  | error x => rw [C17_string_error fp s x e]
  | ok v =>
    obtain ⟨a, b, c, d, _, _, _, _, ht, _⟩ := (C17_accepts fp L s v).1 e
    exact absurd ht (h _)

/-- The text of a float: digits, a point, an exponent, signs. -/
def FloatText (s : PyStr) : Prop := ∀ c ∈ s, c ∈ ['0', '1', '2', '3', '4', '5', '6', '7', '8', '9', '.', 'e', '+', '-']

/-- A printed number comes back: what Python guarantees for `repr` of floats, and an integer small
enough for a float. -/
def Printable (fp : FP) (reprFloat : Rat → PyStr) (n : Num) : Prop :=
  fp.rnd n.val = n.val ∧
    ∀ q, n = .flt q → FloatLit fp (reprFloat q) (.fin (.flt q)) ∧ FloatText (reprFloat q)

theorem suffix_plain (k : UKind) : ∀ c ∈ k.suffix, isSpacePy c = false ∧ c ≠ ',' ∧ c ≠ '(' ∧ c ≠ ')' := by
  rcases k with k | k <;> cases k <;> decide

/-- The characters of a printed length. -/
theorem repr_chars (reprFloat : Rat → PyStr) (k : UKind) (n : Num) (s : PyStr)
    (hf : ∀ q, n = .flt q → FloatText (reprFloat q))
    (h : CUnit.repr reprFloat ⟨k, .fin n⟩ = .ok s) :
    ∀ c ∈ s, isSpacePy c = false ∧ c ≠ ',' ∧ c ≠ '(' ∧ c ≠ ')' := by
  have suf : ∀ c ∈ k.suffix, isSpacePy c = false ∧ c ≠ ',' ∧ c ≠ '(' ∧ c ≠ ')' := by
    exact suffix_plain k
  have dig : ∀ c ∈ ['0', '1', '2', '3', '4', '5', '6', '7', '8', '9', '.', 'e', '+', '-'],
      isSpacePy c = false ∧ c ≠ ',' ∧ c ≠ '(' ∧ c ≠ ')' := by decide
  have idig : ∀ c, isDigit c = true ∨ c = '-' → isSpacePy c = false ∧ c ≠ ',' ∧ c ≠ '(' ∧ c ≠ ')' := by
    intro c hc
    rcases hc with hc | rfl
    · have hc' : 48 ≤ c.toNat ∧ c.toNat ≤ 57 := by simpa [isDigit] using hc
      refine ⟨?_, ?_, ?_, ?_⟩
      · rw [isSpacePy_false_iff]
        intro hm
        have : ∀ d ∈ blankChars, ¬ (48 ≤ d.toNat ∧ d.toNat ≤ 57) := by decide
        exact this c hm hc'
      all_goals
        rintro rfl
        revert hc'
        decide
    · decide
  simp only [CUnit.repr] at h
  split at h
  · cases h
    intro c hc
    rcases List.mem_append.1 hc with hc | hc
    · exact idig c (intStr_mem _ c hc)
    · exact suf c hc
  · cases n with
    | int i => simp only [Num.val_int] at *; exact absurd rfl ‹_›
    | flt q =>
      cases h
      intro c hc
      rcases List.mem_append.1 hc with hc | hc
      · exact dig c (hf q rfl c hc)
      · exact suf c hc

/-- C17. Full statement: printing and re-parsing any rect gives an equal rect. What is missing: the
integer magnitudes no float equals, as for C04. -/
theorem C17_print_parse_partial (fp : FP) (L : fp.Laws) (reprFloat : Rat → PyStr) (ka kb kc kd : UKind)
    (a b c d : Num) (ha : Printable fp reprFloat a) (hb : Printable fp reprFloat b)
    (hc : Printable fp reprFloat c) (hd : Printable fp reprFloat d) :
    ∃ s v, rectStr reprFloat ⟨ka, .fin a⟩ ⟨kb, .fin b⟩ ⟨kc, .fin c⟩ ⟨kd, .fin d⟩ = .ok s ∧
      rect fp (.str s) = .ok v ∧
      v.pyEq (.rect ⟨ka, .fin a⟩ ⟨kb, .fin b⟩ ⟨kc, .fin c⟩ ⟨kd, .fin d⟩) = true := by
  obtain ⟨sa, wa, pa, qa, ra⟩ := C04_print_parse_partial fp L reprFloat ka a ha.1 fun q h => (ha.2 q h).1
  obtain ⟨sb, wb, pb, qb, rb⟩ := C04_print_parse_partial fp L reprFloat kb b hb.1 fun q h => (hb.2 q h).1
  obtain ⟨sc, wc, pc, qc, rc⟩ := C04_print_parse_partial fp L reprFloat kc c hc.1 fun q h => (hc.2 q h).1
  obtain ⟨sd, wd, pd, qd, rd⟩ := C04_print_parse_partial fp L reprFloat kd d hd.1 fun q h => (hd.2 q h).1
  have ca := repr_chars reprFloat ka a sa (fun q h => (ha.2 q h).2) pa
  have cb := repr_chars reprFloat kb b sb (fun q h => (hb.2 q h).2) pb
  have cc := repr_chars reprFloat kc c sc (fun q h => (hc.2 q h).2) pc
  have cd := repr_chars reprFloat kd d sd (fun q h => (hd.2 q h).2) pd
  have hs : rectStr reprFloat ⟨ka, .fin a⟩ ⟨kb, .fin b⟩ ⟨kc, .fin c⟩ ⟨kd, .fin d⟩
      = .ok (lit "rect(" ++ sa ++ lit ", " ++ sb ++ lit ", " ++ sc ++ lit ", " ++ sd ++ lit ")") := by
    simp only [rectStr, pa, pb, pc, pd]
    rfl
  have hcs : lit ", " = [',', ' '] := rfl
  have ht : RectText (lit "rect(" ++ sa ++ lit ", " ++ sb ++ lit ", " ++ sc ++ lit ", " ++ sd ++ lit ")")
      [sa, sb, sc, sd] := by
    refine ⟨[], sa ++ lit ", " ++ sb ++ lit ", " ++ sc ++ lit ", " ++ sd, [], by simp [AllBlank],
      by simp [AllBlank], by simp only [List.nil_append, List.append_nil, List.append_assoc], ?_, ?_, rfl, ?_⟩
    · simp only [hcs, List.mem_append, List.mem_cons, List.not_mem_nil, or_false]
      rintro (((((((h | h) | h) | h) | h) | h) | h))
      all_goals first
        | exact (ca _ h).2.2.2 rfl
        | exact (cb _ h).2.2.2 rfl
        | exact (cc _ h).2.2.2 rfl
        | exact (cd _ h).2.2.2 rfl
        | (revert h; decide)
    · intro hi
      have : '(' ∈ sa ++ lit ", " ++ sb ++ lit ", " ++ sc ++ lit ", " ++ sd :=
        List.IsInfix.subset hi (by decide)
      revert this
      simp only [hcs, List.mem_append, List.mem_cons, List.not_mem_nil, or_false]
      rintro (((((((h | h) | h) | h) | h) | h) | h))
      all_goals first
        | exact (ca _ h).2.2.1 rfl
        | exact (cb _ h).2.2.1 rfl
        | exact (cc _ h).2.2.1 rfl
        | exact (cd _ h).2.2.1 rfl
        | (revert h; decide)
    · refine Or.inl ⟨[sa, ' ' :: sb, ' ' :: sc, ' ' :: sd], ?_, ?_, ?_⟩
      · simp [List.intercalate, List.intersperse, hcs]
      · intro p hp
        simp only [List.mem_cons, List.not_mem_nil, or_false] at hp
        rcases hp with rfl | rfl | rfl | rfl
        · exact fun h => (ca _ h).2.1 rfl
        · intro h; rcases List.mem_cons.1 h with h | h
          · revert h; decide
          · exact (cb _ h).2.1 rfl
        · intro h; rcases List.mem_cons.1 h with h | h
          · revert h; decide
          · exact (cc _ h).2.1 rfl
        · intro h; rcases List.mem_cons.1 h with h | h
          · revert h; decide
          · exact (cd _ h).2.1 rfl
      · rw [forall2_tidy]
        have n1 : ∀ w : PyStr, (∀ c ∈ w, isSpacePy c = false ∧ c ≠ ',' ∧ c ≠ '(' ∧ c ≠ ')') →
            norm (' ' :: w) = w := by
          intro w hw
          have := norm_word [' '] w [] (by simp [Blank, isSpacePy_space]) (fun c hc => (hw c hc).1) Blank.nil
          simpa using this
        have n0 : norm sa = sa := by
          have := norm_word [] sa [] Blank.nil (fun c hc => (ca c hc).1) Blank.nil
          simpa using this
        simp only [List.map_cons, List.map_nil, n0, n1 sb cb, n1 sc cc, n1 sd cd]
  obtain ⟨_, _, _, _, e', e⟩ := rect_of_text fp _ _ ht
  cases e'
  refine ⟨_, .rect wa wb wc wd, hs, ?_, ?_⟩
  · rw [e, qa, qb, qc, qd]; rfl
  · simp only [Val.pyEq, ra, rb, rc, rd]; rfl

example : RectText (lit " rect( 1px 2px\t3em  4% ) ") [lit "1px", lit "2px", lit "3em", lit "4%"] :=
  (rectParts_iff _ _).1 (by rfl)
example : ∀ parts, ¬ RectText (lit "rect(1px, 2px, 3em)") parts := by
  intro parts h
  have := (rectParts_iff _ _).2 h
  cases this
example : Printable .exact (fun _ => lit "0.5") (.int 3) := ⟨rfl, by intro q h; cases h⟩

end Colosseum
