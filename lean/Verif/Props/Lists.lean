import Verif.Props.Shapes
import Verif.Props.Colors
import Verif.Spec.Lists

/-!
# C18, C19, C20: quotes, cursors, immutable lists
-/

namespace Colosseum

/-! ## C18 -/

theorem simpleEscape_iff {e c : Char} : simpleEscape e = some c ↔ (e, c) ∈ pyEscapes := by
  constructor
  · intro h
    unfold simpleEscape at h
    split at h <;> first | (cases h; decide) | cases h
  · have : ∀ p ∈ pyEscapes, simpleEscape p.1 = some p.2 := by decide
    intro h
    exact this _ h

theorem hexWidth_iff {e : Char} {k : Nat} : hexWidth e = some k ↔ (e, k) ∈ [('x', 2), ('u', 4), ('U', 8)] := by
  constructor
  · intro h
    unfold hexWidth at h
    split at h <;> first | (cases h; decide) | cases h
  · have : ∀ p ∈ [('x', 2), ('u', 4), ('U', 8)], hexWidth p.1 = some p.2 := by decide
    intro h
    exact this _ h

theorem escapeVal_iff {c : Char} {v : Nat} : escapeVal c = some v ↔ (c, v) ∈ hexTable := by
  unfold escapeVal
  constructor
  · intro h
    split at h
    · rename_i hc
      exact hexTable_of_hexVal h hc
    · cases h
  · intro h
    have : ∀ p ∈ hexTable, p.1.toNat < 128 := by decide
    rw [if_pos (this _ h)]
    exact hexVal_of_table h

theorem hexNumber_iff {ds : PyStr} : ∀ {n : Nat}, hexNumber ds = some n ↔ HexNumber ds n := by
  induction ds using List.reverseRecOn with
  | nil =>
    intro n
    constructor
    · intro h; cases h; exact .nil
    · intro h
      generalize e : ([] : PyStr) = l at h
      cases h with
      | nil => rfl
      | digit => simp at e
  | append_singleton ds c ih =>
    intro n
    have e : hexNumber (ds ++ [c]) = match hexNumber ds, escapeVal c with
        | some n, some v => some (16 * n + v)
        | _, _ => none := by
      unfold hexNumber
      rw [List.foldl_append]
      rfl
    rw [e]
    constructor
    · intro h
      split at h
      · rename_i m v h1 h2
        cases h
        exact .digit _ _ _ _ (ih.1 h1) (escapeVal_iff.1 h2)
      · cases h
    · intro h
      generalize e : ds ++ [c] = l at h
      cases h with
      | nil => simp at e
      | digit ds' m c' v h1 h2 =>
        obtain ⟨e1, e⟩ := List.append_inj' e rfl
        subst e1
        obtain ⟨rfl⟩ : c = c' := by simpa using e
        rw [ih.2 h1, escapeVal_iff.2 h2]

theorem litChar_iff {q c : Char} (hq : q ≠ '\\') {s r : PyStr} : litChar q s = some (c, r) ↔
    s = c :: r ∧ c ≠ q ∧ c ≠ '\\' ∧ c ≠ '\n' ∧ c ≠ '\r' ∧ c ≠ '\x00' ∨ (∃ e, s = '\\' :: e :: r ∧ (e, c) ∈ pyEscapes) ∨
    ∃ e k ds, s = '\\' :: e :: (ds ++ r) ∧ (e, k) ∈ [('x', 2), ('u', 4), ('U', 8)] ∧ ds.length = k ∧ HexNumber ds c.toNat := by
  have none_esc : ∀ p ∈ [('x', 2), ('u', 4), ('U', 8)], simpleEscape p.1 = none := by decide
  constructor
  · intro h
    cases s with
    | nil => cases h
    | cons d s =>
      simp only [litChar] at h
      split at h
      · cases h
      rename_i h1
      simp only [Bool.or_eq_true, beq_iff_eq, not_or] at h1
      split at h
      · rename_i h2
        cases h
        exact Or.inl ⟨rfl, h1.1.1.1, by simpa using h2, h1.1.1.2, h1.1.2, h1.2⟩
      rename_i h2
      have h2 : d = '\\' := by simpa using h2
      subst h2
      split at h
      · cases h
      rename_i e s
      split at h
      · rename_i x hx
        cases h
        exact Or.inr (Or.inl ⟨e, rfl, simpleEscape_iff.1 hx⟩)
      split at h
      · cases h
      rename_i k hk
      split at h
      · cases h
      rename_i hl
      split at h
      · cases h
      rename_i n hn
      split at h
      · rename_i hv
        cases h
        refine Or.inr (Or.inr ⟨e, k, s.take k, by rw [List.take_append_drop], hexWidth_iff.1 hk, ?_, ?_⟩)
        · rw [List.length_take]; omega
        · rw [show (Char.ofNat n).toNat = n from by simp [Char.ofNat, hv, Char.toNat, Char.ofNatAux]]
          exact hexNumber_iff.1 hn
      · cases h
  · rintro (⟨rfl, h1, h2, h3, h4, h5⟩ | ⟨e, rfl, he⟩ | ⟨e, k, ds, rfl, he, hl, hn⟩)
    · simp [litChar, h1, h2, h3, h4, h5]
    · have : ¬ '\\' = q := fun h => hq h.symm
      simp only [litChar, simpleEscape_iff.2 he]
      simp [this]
    · have : ¬ '\\' = q := fun h => hq h.symm
      simp only [litChar, none_esc _ he, hexWidth_iff.2 he]
      have h1 : ¬ (ds ++ r).length < k := by rw [List.length_append]; omega
      have h2 : (ds ++ r).take k = ds := by rw [← hl, List.take_left]
      have h3 : (ds ++ r).drop k = r := by rw [← hl, List.drop_left]
      simp only [h1, h2, h3, if_false, hexNumber_iff.2 hn]
      have hv : c.toNat.isValidChar := c.valid
      rw [if_pos hv]
      simp [this, Char.ofNat_toNat]

theorem litBody_iff {q : Char} (hq : q ≠ '\\') (k : Nat) : ∀ {s x : PyStr}, s.length ≤ k → (litBody q k s = some x ↔ Quoted q s x) := by
  induction k with
  | zero =>
    intro s x hk
    have : s = [] := List.length_eq_zero_iff.1 (by omega)
    subst this
    constructor
    · intro h; cases h; exact .nil
    · intro h; cases h; rfl
  | succ k ih =>
    intro s x hk
    cases s with
    | nil =>
      constructor
      · intro h; cases h; exact .nil
      · intro h; cases h; rfl
    | cons c r =>
      have hl : (c :: r).length = r.length + 1 := rfl
      constructor
      · intro h
        rw [litBody.eq_3 _ _ _ (by simp)] at h
        split at h
        · cases h
        rename_i d s' hs
        obtain ⟨x', h1, h2⟩ := Option.map_eq_some_iff.1 h
        subst h2
        rcases (litChar_iff hq).1 hs with ⟨e, h2, h3, h4, h5, h6⟩ | ⟨e, he, h2⟩ | ⟨e, w, ds, he, h2, h3, h4⟩
        · cases e
          exact .char _ _ _ h2 h3 h4 h5 h6 ((ih (by omega)).1 h1)
        · cases he
          exact .escape _ _ _ _ h2 ((ih (by simp only [List.length_cons] at hk; omega)).1 h1)
        · cases he
          exact .hex _ _ _ _ _ _ h2 h3 h4 ((ih (by simp only [List.length_cons, List.length_append] at hk; omega)).1 h1)
      · intro h
        have key : ∀ d s' x', litChar q (c :: r) = some (d, s') → s'.length ≤ k → Quoted q s' x' → litBody q (k + 1) (c :: r) = some (d :: x') := by
          intro d s' x' h1 h2 h3
          rw [litBody.eq_3 _ _ _ (by simp), h1]
          simp only [(ih h2).2 h3, Option.map_some]
        cases h with
        | char _ _ x h2 h3 h4 h5 h6 h7 => exact key _ _ _ ((litChar_iff hq).2 (Or.inl ⟨rfl, h2, h3, h4, h5, h6⟩)) (by omega) h7
        | escape e c t x h1 h2 =>
          exact key _ _ _ ((litChar_iff hq).2 (Or.inr (Or.inl ⟨e, rfl, h1⟩))) (by simp only [List.length_cons] at hk; omega) h2
        | hex e w ds c t x h1 h2 h3 h4 =>
          exact key _ _ _ ((litChar_iff hq).2 (Or.inr (Or.inr ⟨e, w, ds, rfl, h1, h2, h3⟩)))
            (by simp only [List.length_cons, List.length_append] at hk; omega) h4

/-- Which texts are string literals, and of which strings. -/
theorem simpleLit_iff (w x : PyStr) : simpleLit w = some x ↔ QuotedWord w x := by
  constructor
  · intro h
    unfold simpleLit at h
    split at h
    · rename_i q r
      split at h
      · rename_i hq
        have hq : q = '\'' ∨ q = '"' := by simpa using hq
        split at h
        · rename_i q' b hb
          split at h
          · rename_i e
            have e : q' = q := by simpa using e
            subst e
            refine ⟨q', b.reverse, hq, ?_, (litBody_iff (by rcases hq with rfl | rfl <;> decide) _ (by simp)).1 h⟩
            have := congrArg List.reverse hb
            rw [List.reverse_reverse, List.reverse_cons] at this
            rw [this]; rfl
          · cases h
        · cases h
      · cases h
    · cases h
  · rintro ⟨q, t, hq, rfl, h⟩
    have h1 : (q == '\'' || q == '"') = true := by
      rcases hq with rfl | rfl <;> rfl
    have e : (t ++ [q]).reverse = q :: t.reverse := by simp
    simp only [simpleLit, List.cons_append, h1, if_true, e, beq_self_eq_true, List.reverse_reverse]
    exact (litBody_iff (by rcases hq with rfl | rfl <;> decide) _ (by simp)).2 h

theorem simpleLit_quoted (w x : PyStr) (h : QuotedWord w x) : simpleLit w = some x := (simpleLit_iff w x).2 h

/-- The text of strings never raises. -/
theorem fmtErrList_strings (ys : List PyStr) : fmtErrList (ys.map .str) = none := by
  induction ys with
  | nil => rfl
  | cons y ys ih => simp [fmtErrList, Val.fmtErr, ih]

theorem QuoteGroups.flatten {xs : List Val} {items : List PyStr} (h : QuoteGroups xs items) :
    flatten2 xs = .ok (items.map .str) ∧ fmtErrList xs = none := by
  induction h with
  | nil => exact ⟨rfl, rfl⟩
  | group t ys xs items _ ih =>
    refine ⟨?_, ?_⟩
    · simp [flatten2, iterVal, asSeq, fmtErrList_strings, ih.1]
    · simp [fmtErrList, Val.fmtErr, fmtErrList_strings, ih.2]
  | char c xs items _ ih =>
    refine ⟨?_, ?_⟩
    · simp [flatten2, iterVal, fmtErrList, Val.fmtErr, ih.1]
    · simp [fmtErrList, Val.fmtErr, ih.2]

theorem quotes_items (E : Env) (v : Val) (items : List PyStr) (h : QuoteItems v items) :
    quotes E v = quotesOf v (items.map fun x => .ok (.str x)) ∧ v.fmtErr = none := by
  cases h with
  | words s ws items hw hq =>
    refine ⟨?_, rfl⟩
    simp only [quotes]
    congr 1
    have e := splitWs_map_strip s
    rw [hw.splitWs] at e
    rw [hw.splitWs]
    have e2 : (ws.map fun w => literalEval E (strip w)) = ws.map (literalEval E) := by
      conv_rhs => rw [← e]
      rw [List.map_map]; rfl
    rw [e2]
    clear e e2 hw
    induction hq with
    | nil => rfl
    | cons hab _ ih =>
      simp only [List.map_cons, ih, literalEval, simpleLit_quoted _ _ hab]
  | groups t xs items hg =>
    obtain ⟨h1, h2⟩ := hg.flatten
    refine ⟨?_, by simpa [Val.fmtErr] using h2⟩
    simp only [quotes, asSeq, h1, List.map_map]
    rfl

/-- Consecutive items in pairs. -/
theorem quotePairs_ok (v : Val) (items : List PyStr) (he : items.length % 2 = 0) (hn : ∀ x ∈ items, x ≠ []) :
    ∃ q, quotePairs v (items.map fun x => .ok (.str x)) = .ok q ∧ 2 * q.length = items.length ∧
      ∀ k, ∀ p, q[k]? = some p → ∃ a b, items[2 * k]? = some a ∧ items[2 * k + 1]? = some b ∧
        p = (.str a, .str b) := by
  match items with
  | [] => exact ⟨[], rfl, rfl, by simp⟩
  | [a] => simp at he
  | a :: b :: rest =>
    have hr : rest.length % 2 = 0 := by simp at he; omega
    obtain ⟨q, h1, h2, h3⟩ := quotePairs_ok v rest hr fun x hx => hn x (by simp [hx])
    have ha := hn a (by simp)
    have hb := hn b (by simp)
    have hc : checkQuoteLen v (.str a) (.str b) = .ok () := by
      unfold checkQuoteLen
      cases a with
      | nil => exact absurd rfl ha
      | cons c a =>
        cases b with
        | nil => exact absurd rfl hb
        | cons d b => rfl
    refine ⟨(.str a, .str b) :: q, ?_, by simp; omega, ?_⟩
    · simp only [List.map_cons, quotePairs, hc, h1]
    · intro k p hp
      cases k with
      | zero => simp at hp; exact ⟨a, b, rfl, rfl, hp.symm⟩
      | succ k =>
        obtain ⟨x, y, e1, e2, e3⟩ := h3 k p (by simpa using hp)
        refine ⟨x, y, ?_, ?_, e3⟩
        · rw [show 2 * (k + 1) = 2 * k + 1 + 1 by omega]; simpa using e1
        · rw [show 2 * (k + 1) + 1 = (2 * k + 1) + 1 + 1 by omega]; simpa using e2

theorem quotePairs_empty (v : Val) (hv : v.fmtErr = none) (items : List PyStr) (he : items.length % 2 = 0)
    (hn : [] ∈ items) : quotePairs v (items.map fun x => .ok (.str x)) = .error .value := by
  match items with
  | [] => simp at hn
  | [a] => simp at he
  | a :: b :: rest =>
    have hr : rest.length % 2 = 0 := by simp at he; omega
    simp only [List.map_cons, quotePairs]
    cases a with
    | nil => simp [checkQuoteLen, QVal.len, raiseFmt, hv]
    | cons c a =>
      cases b with
      | nil => simp [checkQuoteLen, QVal.len, raiseFmt, hv]
      | cons d b =>
        have := quotePairs_empty v hv rest hr (by simpa using hn)
        simp [checkQuoteLen, QVal.len, this]

/-- C18: an even, positive number of non-empty texts is accepted; `opening(i)` and `closing(i)` are
items `2i` and `2i+1`; negative levels count from the end. -/
theorem C18_pairs (E : Env) (v : Val) (items : List PyStr) (h : QuoteItems v items)
    (hpos : 0 < items.length) (heven : items.length % 2 = 0) (hne : ∀ x ∈ items, x ≠ []) :
    ∃ q, quotes E v = .ok (.quotes q) ∧
      (∀ (k : Nat) (a b : PyStr), items[2 * k]? = some a → items[2 * k + 1]? = some b →
        ∀ level : Int, level = k ∨ level = k - (items.length / 2 : Nat) →
          quotesOpening q level = .ok (.str a) ∧ quotesClosing q level = .ok (.str b)) ∧
      ∀ level : Int, (items.length / 2 : Nat) ≤ level ∨ level < -(items.length / 2 : Nat) →
        quotesOpening q level = .error .index ∧ quotesClosing q level = .error .index := by
  obtain ⟨hq, _⟩ := quotes_items E v items h
  obtain ⟨q, h1, h2, h3⟩ := quotePairs_ok v items heven hne
  have hlen : items.length / 2 = q.length := by omega
  refine ⟨q, ?_, ?_, ?_⟩
  · rw [hq, quotesOf, if_pos (by simp [hpos, heven]), h1]
  · intro k a b ha hb level hl
    have hk : k < q.length := by
      have := (List.getElem?_eq_some_iff.1 hb).1
      omega
    have hx : pyIndex q level = some (.str a, .str b) := by
      have hg : q[k]? = some q[k] := List.getElem?_eq_getElem hk
      obtain ⟨a', b', e1, e2, e3⟩ := h3 k _ hg
      rw [ha] at e1; rw [hb] at e2
      cases e1; cases e2
      rw [e3] at hg
      unfold pyIndex
      rcases hl with rfl | rfl
      · rw [if_pos (by omega)]; simpa using hg
      · rw [hlen, if_neg (by omega), if_pos (by omega)]
        rw [show ((q.length : Int) + ((k : Int) - (q.length : Nat))).toNat = k by omega]
        exact hg
    exact ⟨by simp only [quotesOpening, hx], by simp only [quotesClosing, hx]⟩
  · intro level hl
    rw [hlen] at hl
    have hx : pyIndex q level = none := by
      unfold pyIndex
      split
      · rw [List.getElem?_eq_none_iff]; omega
      · rw [if_neg (by omega)]
    exact ⟨by simp only [quotesOpening, hx], by simp only [quotesClosing, hx]⟩

/-- C18: an odd number of texts, no text, or an empty text raises `ValueError`. -/
theorem C18_rejects (E : Env) (v : Val) (items : List PyStr) (h : QuoteItems v items)
    (hbad : items.length = 0 ∨ items.length % 2 = 1 ∨ [] ∈ items) : quotes E v = .error .value := by
  obtain ⟨hq, hv⟩ := quotes_items E v items h
  rw [hq, quotesOf]
  by_cases hg : 0 < items.length ∧ items.length % 2 = 0
  · rw [if_pos (by simp [hg.1, hg.2])]
    have : [] ∈ items := by
      rcases hbad with h | h | h
      · omega
      · omega
      · exact h
    rw [quotePairs_empty v hv items hg.2 this]
  · rw [if_neg (by
      simp only [List.length_map, Bool.and_eq_true, decide_eq_true_eq, beq_iff_eq]
      exact hg)]

/-- C18: values other than strings and sequences raise `ValueError` unless their text raises. -/
theorem C18_other_values (E : Env) (v : Val) (hs : ∀ s, v ≠ .str s) (hv : asSeq v = none)
    (hf : v.fmtErr = none) : quotes E v = .error .value := by
  cases v <;> first
    | exact absurd rfl (hs _)
    | (simp only [quotes, hv, raiseFmt, hf])

/-- C18 is false for a plain sequence of longer strings: `("<<", ">>")` gives the pairs `<`,`<` and
`>`,`>`. -/
theorem C18_false_plain_sequence (E : Env) :
    quotes E (.seq true [.str (lit "<<"), .str (lit ">>")])
      = .ok (.quotes [(.str (lit "<"), .str (lit "<")), (.str (lit ">"), .str (lit ">"))]) := by
  have e : flatten2 [.str (lit "<<"), .str (lit ">>")]
      = .ok [.str ['<'], .str ['<'], .str ['>'], .str ['>']] := rfl
  simp only [quotes, asSeq, e, List.map_cons, List.map_nil, evalRepr]
  simp [quotesOf, quotePairs, checkQuoteLen, QVal.len]
  exact ⟨rfl, rfl⟩

/-- C18 is false for a text with a blank: `'a b' 'c'` has two texts but raises `ValueError`. -/
theorem C18_false_blank (E : Env) : quotes E (.str (lit "'a b' 'c'")) = .error .value := by
  have e : (splitWs (lit "'a b' 'c'")).map (fun w => literalEval E (strip w))
      = [literalEval E (lit "'a"), literalEval E (lit "b'"), literalEval E (lit "'c'")] := rfl
  simp only [quotes, e]
  simp [quotesOf]

/-- C18: items that are no strings, such as `1 2`, raise `TypeError` instead of `ValueError`. -/
theorem C18_false_number (E : Env) (n : PyStr) (h : ∀ s, E.literalEvalOther s = .ok (.other n none)) :
    quotes E (.str (lit "1 2")) = .error .type := by
  have e : (splitWs (lit "1 2")).map (fun w => literalEval E (strip w))
      = [.ok (.other n none), .ok (.other n none)] := by
    show [literalEval E (lit "1"), literalEval E (lit "2")] = _
    have h1 : simpleLit (lit "1") = none := rfl
    have h2 : simpleLit (lit "2") = none := rfl
    simp only [literalEval, h1, h2, h]
  simp only [quotes, e]
  simp [quotesOf, quotePairs, checkQuoteLen, QVal.len]

example : QuoteItems (.str (lit "'<' '>'  \"{\" '\\u00bb'")) [lit "<", lit ">", lit "{", lit "»"] := by
  refine .words _ [lit "'<'", lit "'>'", lit "\"{\"", lit "'\\u00bb'"] _ ((splitWs_iff _ _).1 rfl) ?_
  refine .cons ((simpleLit_iff _ _).1 (by decide)) (.cons ((simpleLit_iff _ _).1 (by decide))
    (.cons ((simpleLit_iff _ _).1 (by decide)) (.cons ((simpleLit_iff _ _).1 (by decide)) .nil)))
example : QuoteItems (.seq false [.seq true [.str (lit "<<"), .str (lit ">>")]]) [lit "<<", lit ">>"] :=
  .groups _ _ _ (.group true [lit "<<", lit ">>"] [] [] .nil)

/-! ## C19 -/

theorem cursorOptions_iff (s : PyStr) : cursorOptions.contains s = true ↔ ∃ k ∈ cssCursors, s = k.toList := by
  rw [List.contains_iff_mem]
  have h1 : ∀ x ∈ cursorOptions, ∃ k ∈ cssCursors, x = k.toList := by decide +kernel
  have h2 : ∀ k ∈ cssCursors, k.toList ∈ cursorOptions := by decide +kernel
  constructor
  · exact h1 s
  · rintro ⟨k, hk, rfl⟩; exact h2 k hk

theorem cssCursors_solid : ∀ k ∈ cssCursors, Solid k.toList := by
  have : ∀ k ∈ cssCursors, ∀ c ∈ k.toList, isSpacePy c = false := by decide +kernel
  exact this

theorem uriStr_strip (s : PyStr) : uriStr (strip s) = uriStr s := by
  obtain ⟨b, b', hb, hb', e⟩ := strip_decomp s
  have : strip (strip s) = strip s := by
    have := strip_blanks b (strip s) b' hb hb'
    rw [← e] at this
    exact this.symm
  simp only [uriStr, this]

theorem uriStr_ok_iff (s : PyStr) : (∃ x, uriStr s = .ok x) ↔ UrlForm s := by
  unfold UrlForm
  rw [← C15_accepts_iff []]
  constructor
  · rintro ⟨x, h⟩; exact ⟨.uri (.heap []) x, by simp only [uri, h]; rfl⟩
  · rintro ⟨v, h⟩
    simp only [uri] at h
    cases hu : uriStr s with
    | ok x => exact ⟨x, rfl⟩
    | error e => rw [hu] at h; cases h

theorem uriStr_text {s x : PyStr} (h : UrlText s x) : uriStr s = .ok x := by
  have := C15_url_text [] s x h
  simp only [uri] at this
  cases hu : uriStr s with
  | ok y => rw [hu] at this; cases this; rfl
  | error e => rw [hu] at this; cases this

theorem cursorWord_iff (s w : PyStr) : CursorWord s w ↔ w = strip s ∧ cursorOptions.contains (strip s) = true := by
  rw [cursorOptions_iff]
  constructor
  · rintro ⟨⟨k, hk, rfl⟩, b, b', hb, hb', rfl⟩
    rw [strip_blanks b _ b' ((allBlank_iff _).1 hb) ((allBlank_iff _).1 hb'),
      strip_solid _ (cssCursors_solid k hk)]
    exact ⟨rfl, k, hk, rfl⟩
  · rintro ⟨rfl, hk⟩
    obtain ⟨b, b', hb, hb', e⟩ := strip_decomp s
    exact ⟨hk, b, b', (allBlank_iff _).2 hb, (allBlank_iff _).2 hb', e⟩

/-- No keyword is a url. -/
theorem not_url_of_word {s : PyStr} (h : cursorOptions.contains (strip s) = true) : ¬ UrlForm s := by
  rintro ⟨b, body, b', hb, hb', rfl⟩
  rw [List.append_assoc b, List.append_assoc b,
    strip_blanks b _ b' ((allBlank_iff _).1 hb) ((allBlank_iff _).1 hb')] at h
  have e : strip (lit "url(" ++ body ++ lit ")") = lit "url(" ++ body ++ lit ")" :=
    strip_ends 'u' ')' (['r', 'l', '('] ++ body) (by decide) (by decide)
  rw [e, List.contains_iff_mem] at h
  have : ∀ x ∈ cursorOptions, x.take 4 ≠ lit "url(" := by decide +kernel
  refine this _ h ?_
  rfl

/-- The loop of `cursor` on texts. -/
theorem cursorLoop_iff (at_ : List Nat) (whole : Val) (items : List PyStr) :
    (∀ i, (∃ r, cursorLoop at_ whole i false (items.map fun s => .str (strip s)) = .ok r) ↔ CursorList items) ∧
    ∀ i, (∃ r, cursorLoop at_ whole i true (items.map fun s => .str (strip s)) = .ok r) ↔ items = [] := by
  have rf : ∀ {α : Type} (e : Err) (v : Val) (x : α), raiseFmt e v ≠ .ok x := by
    intro α e v x
    unfold raiseFmt
    split <;> simp
  have htrue : ∀ i, (∃ r, cursorLoop at_ whole i true (items.map fun s => .str (strip s)) = .ok r) ↔ items = [] := by
    intro i
    cases items with
    | nil => simp [cursorLoop]
    | cons s rest =>
      simp only [List.map_cons, cursorLoop, if_true, reduceCtorEq, iff_false, not_exists]
      intro r
      split <;> exact rf _ _ _
  refine ⟨?_, htrue⟩
  clear htrue
  induction items with
  | nil =>
    intro i
    constructor
    · intro _; exact ⟨[], [], rfl, by simp, by simp, by simp⟩
    · intro _; exact ⟨[], rfl⟩
  | cons s rest ih =>
    intro i
    simp only [List.map_cons, cursorLoop, Bool.false_eq_true, if_false]
    by_cases hk : cursorOptions.contains (strip s) = true
    · rw [if_pos hk]
      have hl : (∃ r, cursorLoop at_ whole i true (rest.map fun s => .str (strip s)) = .ok r) ↔ rest = [] := by
        cases rest with
        | nil => simp [cursorLoop]
        | cons s rest =>
          simp only [List.map_cons, cursorLoop, if_true, reduceCtorEq, iff_false, not_exists]
          intro r
          split <;> exact rf _ _ _
      constructor
      · rintro ⟨r, h⟩
        have : rest = [] := hl.1 (by
          cases hc : cursorLoop at_ whole i true (rest.map fun s => .str (strip s)) with
          | ok r => exact ⟨r, rfl⟩
          | error e => rw [hc] at h; cases h)
        subst this
        exact ⟨[], [s], rfl, by simp, by simp, by
          intro k hk'
          simp at hk'; subst hk'
          exact ⟨strip k, (cursorWord_iff _ _).2 ⟨rfl, hk⟩⟩⟩
      · rintro ⟨urls, kw, e, hlen, hu, _⟩
        have : urls = [] := by
          cases urls with
          | nil => rfl
          | cons u us =>
            simp only [List.cons_append, List.cons.injEq] at e
            exact absurd (hu u (by simp)) (e.1 ▸ not_url_of_word hk)
        subst this
        simp only [List.nil_append] at e
        subst e
        have : rest = [] := by simpa using hlen
        obtain ⟨r, hr⟩ := hl.2 this
        rw [hr]
        exact ⟨_, rfl⟩
    · rw [if_neg hk, uriStr_strip]
      cases hu : uriStr s with
      | error e =>
        simp only [reduceCtorEq, exists_false, false_iff]
        rintro ⟨urls, kw, e', hlen, hurl, hkw⟩
        cases urls with
        | nil =>
          simp only [List.nil_append] at e'
          subst e'
          obtain ⟨w, hw⟩ := hkw s (by simp)
          exact hk ((cursorWord_iff _ _).1 hw).2
        | cons u us =>
          simp only [List.cons_append, List.cons.injEq] at e'
          obtain ⟨x, hx⟩ := (uriStr_ok_iff s).2 (e'.1 ▸ hurl u (by simp))
          rw [hu] at hx; cases hx
      | ok x =>
        constructor
        · rintro ⟨r, h⟩
          obtain ⟨urls, kw, e, hlen, hurl, hkw⟩ := (ih (i + 1)).1 (by
            cases hc : cursorLoop at_ whole (i + 1) false (rest.map fun s => .str (strip s)) with
            | ok r => exact ⟨r, rfl⟩
            | error e => rw [hc] at h; cases h)
          refine ⟨s :: urls, kw, by rw [e]; rfl, hlen, ?_, hkw⟩
          intro u hu'
          rcases List.mem_cons.1 hu' with rfl | hu'
          · exact (uriStr_ok_iff u).1 ⟨x, hu⟩
          · exact hurl u hu'
        · rintro ⟨urls, kw, e, hlen, hurl, hkw⟩
          cases urls with
          | nil =>
            simp only [List.nil_append] at e
            subst e
            obtain ⟨w, hw⟩ := hkw s (by simp)
            exact absurd ((cursorWord_iff _ _).1 hw).2 hk
          | cons u us =>
            simp only [List.cons_append, List.cons.injEq] at e
            obtain ⟨r, hr⟩ := (ih (i + 1)).2 ⟨us, kw, e.2, hlen, fun u hu => hurl u (by simp [hu]), hkw⟩
            rw [hr]
            exact ⟨_, rfl⟩

theorem cursorLoop_stored (at_ : List Nat) (whole : Val) (items : List PyStr) :
    ∀ i has r, cursorLoop at_ whole i has (items.map fun s => .str (strip s)) = .ok r →
      List.Forall₂ CursorItem items r := by
  have rf : ∀ {α : Type} (e : Err) (v : Val) (x : α), raiseFmt e v ≠ .ok x := by
    intro α e v x
    unfold raiseFmt
    split <;> simp
  induction items with
  | nil => intro i has r h; cases h; exact .nil
  | cons s rest ih =>
    intro i has r h
    simp only [List.map_cons, cursorLoop] at h
    split at h
    · rename_i hk
      split at h
      · exact absurd h (rf _ _ _)
      · split at h
        · cases h
        · rename_i r' hr
          cases h
          exact .cons (.keyword s _ ((cursorWord_iff _ _).2 ⟨rfl, hk⟩)) (ih _ _ _ hr)
    · split at h
      · exact absurd h (rf _ _ _)
      · split at h
        · cases h
        · rename_i u hu
          rw [uriStr_strip] at hu
          split at h
          · cases h
          · rename_i r' hr
            cases h
            refine .cons (.url s _ u ((uriStr_ok_iff s).1 ⟨u, hu⟩) ?_) (ih _ _ _ hr)
            intro y hy
            rw [uriStr_text hy] at hu
            cases hu; rfl

theorem cursorLoop_error (at_ : List Nat) (whole : Val) (hw : whole.fmtErr = none) (items : List PyStr) (e : Err) :
    ∀ i has, cursorLoop at_ whole i has (items.map fun s => .str (strip s)) = .error e → e = .value := by
  have rf : (raiseFmt .value whole : Res (List CurItem)) = .error .value := by simp [raiseFmt, hw]
  induction items with
  | nil => intro i has h; cases h
  | cons s rest ih =>
    intro i has h
    simp only [List.map_cons, cursorLoop, rf] at h
    split at h
    · split at h
      · cases h; rfl
      · split at h
        · rename_i e' he; cases h; exact ih _ _ he
        · cases h
    · split at h
      · cases h; rfl
      · split at h
        · cases h; rfl
        · split at h
          · rename_i e' he; cases h; exact ih _ _ he
          · cases h

/-- The texts of a cursor value: the comma separated parts of a string, or a sequence of strings that
have no blanks at their ends. -/
inductive CursorTexts : Val → List PyStr → Prop
  | text (ps : List PyStr) : ps ≠ [] → (∀ p ∈ ps, ',' ∉ p) → CursorTexts (.str (List.intercalate [','] ps)) ps
  | list (t : Bool) (ps : List PyStr) : (∀ p ∈ ps, ∀ c, p.head? = some c ∨ p.getLast? = some c → c ∉ blankChars) →
      CursorTexts (.seq t (ps.map .str)) ps

theorem cursor_texts (at_ : List Nat) (v : Val) (items : List PyStr) (h : CursorTexts v items) :
    v.fmtErr = none ∧ cursor at_ v =
      match cursorLoop at_ v 0 false (items.map fun s => .str (strip s)) with
      | .error e => .error e
      | .ok r => .ok (.cursor r) := by
  cases h with
  | text ps hne hc =>
    refine ⟨rfl, ?_⟩
    simp only [cursor]
    rw [← joinWith_intercalate, splitOn_joinWith ',' items hne hc]
    rfl
  | list t ps hb =>
    refine ⟨by simpa [Val.fmtErr] using fmtErrList_strings items, ?_⟩
    have e : (items.map fun s => Val.str (strip s)) = items.map .str := by
      refine List.map_congr_left fun p hp => ?_
      rw [strip_self p]
      · exact fun c hc => (isSpacePy_false_iff c).2 (hb p hp c (Or.inl hc))
      · exact fun c hc => (isSpacePy_false_iff c).2 (hb p hp c (Or.inr hc))
    simp only [cursor, asSeq, e]
    rfl

/-- C19: accepted exactly when the items are urls followed by at most one keyword. -/
theorem C19_accepts_iff (at_ : List Nat) (v : Val) (items : List PyStr) (h : CursorTexts v items) :
    (∃ r, cursor at_ v = .ok r) ↔ CursorList items := by
  obtain ⟨_, e⟩ := cursor_texts at_ v items h
  rw [e, ← (cursorLoop_iff at_ v items).1 0]
  cases cursorLoop at_ v 0 false (items.map fun s => .str (strip s)) <;> simp

/-- C19: the stored list has the same items in the same order. -/
theorem C19_stored (at_ : List Nat) (v : Val) (items : List PyStr) (h : CursorTexts v items) (r : Val)
    (hr : cursor at_ v = .ok r) : ∃ xs, r = .cursor xs ∧ List.Forall₂ CursorItem items xs := by
  obtain ⟨_, e⟩ := cursor_texts at_ v items h
  rw [e] at hr
  cases hl : cursorLoop at_ v 0 false (items.map fun s => .str (strip s)) with
  | error x => rw [hl] at hr; cases hr
  | ok xs =>
    rw [hl] at hr
    cases hr
    exact ⟨xs, rfl, cursorLoop_stored at_ v items 0 false xs hl⟩

/-- C19. Full statement: everything else raises `ValueError`. What is missing: values that are not
strings or sequences of strings (see `C19_false_none`). -/
theorem C19_rejects_partial (at_ : List Nat) (v : Val) (items : List PyStr) (h : CursorTexts v items)
    (hn : ¬ CursorList items) : cursor at_ v = .error .value := by
  obtain ⟨hf, e⟩ := cursor_texts at_ v items h
  have h1 := mt (C19_accepts_iff at_ v items h).1 hn
  cases hc : cursor at_ v with
  | ok r => exact absurd ⟨r, hc⟩ h1
  | error x =>
    rw [e] at hc
    cases hl : cursorLoop at_ v 0 false (items.map fun s => .str (strip s)) with
    | ok xs => rw [hl] at hc; cases hc
    | error y =>
      rw [hl] at hc
      cases hc
      rw [cursorLoop_error at_ v hf items x 0 false hl]

/-- C19: a sequence holding a value that is neither a string nor anything whose text raises is
rejected with `ValueError`, provided the items before it are urls. -/
theorem C19_non_string_item (at_ : List Nat) (t : Bool) (x : Val) (rest : List Val) (hs : ∀ s, x ≠ .str s)
    (hx : x.fmtErr = none) : cursor at_ (.seq t (x :: rest)) = .error .value := by
  cases x <;> first
    | exact absurd rfl (hs _)
    | (simp only [cursor, asSeq, cursorLoop, Bool.false_eq_true, if_false, raiseFmt, hx])

/-- C19 is false for `None` and numbers: `TypeError`. -/
theorem C19_false_none (at_ : List Nat) (n : PyNum) :
    cursor at_ .none = .error .type ∧ cursor at_ (.num n) = .error .type := ⟨rfl, rfl⟩

/-- C19 is false for a url with a comma in a string: `url(a,b)` alone is a url, but is rejected. -/
theorem C19_false_comma (at_ : List Nat) :
    UrlForm (lit "url(a,b)") ∧ cursor at_ (.str (lit "url(a,b)")) = .error .value := by
  refine ⟨⟨[], lit "a,b", [], by simp [AllBlank], by simp [AllBlank], rfl⟩, ?_⟩
  rfl

/-- C19 is false for keywords with blanks around them in a sequence. -/
theorem C19_false_blank_keyword (at_ : List Nat) :
    cursor at_ (.seq false [.str (lit " auto")]) = .error .value := rfl

/-- C19 is false for `Uri` objects: a stored cursor with a url cannot be assigned again. -/
theorem C19_false_uri_object (at_ : List Nat) (r : Ref) (x : PyStr) (rest : List CurItem) :
    cursor at_ (.cursor (.uri r x :: rest)) = .error .value := rfl

example : CursorList [lit "url(a.png)", lit "url( 'b' )", lit "auto"] :=
  ⟨[lit "url(a.png)", lit "url( 'b' )"], [lit "auto"], rfl, by simp, by
    intro u hu
    simp only [List.mem_cons, List.not_mem_nil, or_false] at hu
    rcases hu with rfl | rfl
    · exact ⟨[], lit "a.png", [], by simp [AllBlank], by simp [AllBlank], rfl⟩
    · exact ⟨[], lit " 'b' ", [], by simp [AllBlank], by simp [AllBlank], rfl⟩, by
    intro k hk
    simp at hk; subst hk
    exact ⟨lit "auto", (cursorWord_iff _ _).2 ⟨rfl, rfl⟩⟩⟩
example : CursorTexts (.str (lit "url(a.png), auto")) [lit "url(a.png)", lit " auto"] :=
  .text [lit "url(a.png)", lit " auto"] (by simp) (by decide)

/-! ## C20 -/

/-- The operations of the list interface that could change the list but are not disabled. -/
def ListOp.inherited {α : Type} : ListOp α → Prop
  | .delItem _ | .clear | .iadd _ | .imul _ => True
  | _ => False

/-- C20. Full statement: no sequence of operations changes the list. What is missing: `del l[i]`,
`l.clear()`, `l += …` and `l *= …`, which the class inherits (see `C20_false_clear` and after). -/
theorem C20_unchanged_partial {α : Type} (xs : List α) (ops : List (ListOp α))
    (h : ∀ o ∈ ops, ¬ o.inherited) : listAfter xs ops = xs := by
  induction ops generalizing xs with
  | nil => rfl
  | cons o os ih =>
    have h1 : (o.step xs).1 = xs := by
      have := h o (by simp)
      cases o <;> first | rfl | exact absurd trivial this
    simp only [listAfter, List.foldl_cons, h1]
    exact ih xs fun p hp => h p (by simp [hp])

/-- C20: item assignment and the methods `append`, `extend`, `insert`, `pop`, `remove`, `reverse` and
`sort` raise `TypeError` on every list, whatever their arguments. -/
theorem C20_disabled {α : Type} (xs : List α) (i : Int) (x : α) (ys : List α) (j : Option Int) :
    ∀ o ∈ [ListOp.setItem i x, .append x, .extend ys, .insert i x, .pop j, .remove x, .reverse, .sort],
      o.step xs = (xs, .error .type) := by
  intro o ho
  simp only [List.mem_cons, List.not_mem_nil, or_false] at ho
  rcases ho with rfl | rfl | rfl | rfl | rfl | rfl | rfl | rfl <;> rfl

/-- C20 is false: `clear` empties every list. -/
theorem C20_false_clear {α : Type} (xs : List α) : listAfter xs [.clear] = [] := rfl

/-- C20 is false: `del l[0]` removes the first item. -/
theorem C20_false_del {α : Type} (x : α) (xs : List α) : listAfter (x :: xs) [.delItem 0] = xs := by
  have h : ((ListOp.delItem 0).step (x :: xs)).1 = xs := by
    simp only [ListOp.step, pyPos, List.length_cons]
    rw [if_pos (by omega), if_pos (by omega)]
    rfl
  simpa [listAfter] using h

/-- C20 is false: `l += ys` appends in place. -/
theorem C20_false_iadd {α : Type} (xs ys : List α) : listAfter xs [.iadd ys] = xs ++ ys := rfl

/-- C20 is false: `l *= 2` doubles in place. -/
theorem C20_false_imul {α : Type} (xs : List α) : listAfter xs [.imul 2] = xs ++ xs := by
  simp [listAfter, ListOp.step]

example : listAfter [1, 2] [.append 3, .get 0, .pop none, .sort] = [1, 2] :=
  C20_unchanged_partial _ _ (by simp [ListOp.inherited])

end Colosseum
