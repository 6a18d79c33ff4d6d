import Verif.Lemmas.Wrapped
import Verif.Props.Shorthands
import Verif.Props.Print

/-!
# C70: what a shorthand property reads as
-/

namespace Colosseum

/-! ## Reading -/

theorem mem_props {s : SH} {p : LH} : p ∈ s.props ↔ ∃ k, p ∈ partProps s k := by
  unfold SH.props
  rw [List.mem_flatMap]
  constructor
  · rintro ⟨k, _, h⟩; exact ⟨k, h⟩
  · rintro ⟨k, h⟩
    refine ⟨k, ?_, h⟩
    rcases s with _ | _ | _ <;> cases k <;> simp [partOrder]

/-- C70. What `outline` and `border_<side>` read as, for every declaration: the empty string exactly if nothing is stored for the properties they
stand for, otherwise an object of the right class with exactly the stored values as attributes. -/
theorem C70_reads (c : CSS) (s : SH) (hs : s ≠ .border) : ∃ r, c.shorthand s = .ok r ∧
    (r = none ↔ ∀ k, ∀ p ∈ partProps s k, c p = none) ∧
    ∀ o, r = some o → o.cls = s ∧ (∀ k, ∀ p ∈ partProps s k, o.attr p.name = c p) ∧
      ∀ n, (∀ k, ∀ p ∈ partProps s k, n ≠ p.name) → o.attr n = none := by
  refine ⟨_, shorthand_eq c s hs, ?_, ?_⟩
  · have : storedOf c s.props = [] ↔ ∀ k, ∀ p ∈ partProps s k, c p = none := by
      unfold storedOf
      rw [List.filterMap_eq_nil_iff]
      constructor
      · intro h k p hp
        have := h p (mem_props.2 ⟨k, hp⟩)
        cases hc : c p with
        | none => rfl
        | some v => rw [hc] at this; cases this
      · intro h p hp
        obtain ⟨k, hk⟩ := mem_props.1 hp
        rw [h k p hk]; rfl
    rw [← this]
    split <;> simp_all
  · intro o ho
    split at ho
    · cases ho
    · cases ho
      refine ⟨rfl, fun k p hp => lookup_stored c _ (names_nodup s hs) p (mem_props.2 ⟨k, hp⟩), fun n hn => lookup_other c _ n ?_⟩
      intro hmem
      obtain ⟨p, hp, rfl⟩ := List.mem_map.1 hmem
      obtain ⟨k, hk⟩ := mem_props.1 hp
      exact hn k p hk rfl

/-- After `outline = "solid thick"` on a fresh declaration, `outline` has a style, a width and no colour. -/
example (E : Env) : ∃ d o, d.css.shorthand .outline = .ok (some o) ∧ o.attr (lit "outline_style") = some (.str (lit "solid")) ∧
    o.attr (lit "outline_color") = none ∧ Reachable E d :=
  ⟨_, _, rfl, rfl, rfl, [.setAttr (.sh .outline) (.str (lit "solid thick"))], rfl⟩

/-- C70 is false for `border`: it reads as the empty string whatever is stored, because `VALID_KEYS` names the four-sided properties, which are
never stored themselves. -/
theorem C70_false_border (c : CSS) : c.shorthand .border = .ok none := rfl
/-- After `border = "solid"`, `border` reads as the empty string although `border_top_style` is stored. -/
example (E : Env) : ∃ d, Reachable E d ∧ d.css (.borderStyle .top) = some (.str (lit "solid")) ∧ d.css.shorthand .border = .ok none :=
  ⟨_, ⟨[.setAttr (.sh .border) (.str (lit "solid"))], rfl⟩, rfl, rfl⟩

/-! ## Comparing -/

theorem dictEq_stored (c c' : CSS) : ∀ ps : List LH, (ps.map LH.name).Nodup → (dictEq (storedOf c ps) (storedOf c' ps) = true ↔
    ∀ p ∈ ps, c p = none ∧ c' p = none ∨ ∃ v v', c p = some v ∧ c' p = some v' ∧ v.pyEq v' = true)
  | [], _ => by simp [storedOf, dictEq]
  | p :: ps, hnd => by
    rw [List.map_cons, List.nodup_cons] at hnd
    have ih := dictEq_stored c c' ps hnd.2
    have step : ∀ c : CSS, storedOf c (p :: ps) = match c p with
        | none => storedOf c ps
        | some v => (p.name, v) :: storedOf c ps := by
      intro c
      unfold storedOf
      rw [List.filterMap_cons]
      cases c p <;> rfl
    have off : ∀ (c₁ c₂ : CSS) (v : Val), dictEq ((p.name, v) :: storedOf c₁ ps) (storedOf c₂ ps) = false ∧
        dictEq (storedOf c₂ ps) ((p.name, v) :: storedOf c₁ ps) = false := by
      intro c₁ c₂ v
      cases h : storedOf c₂ ps with
      | nil => exact ⟨rfl, rfl⟩
      | cons x r =>
        have hx := storedOf_keys c₂ ps x (by rw [h]; exact List.mem_cons_self ..)
        have hne : p.name ≠ x.1 := fun e => hnd.1 (e ▸ hx)
        constructor
        · simp only [dictEq, beq_false_of_ne hne, Bool.false_and]
        · simp only [dictEq, beq_false_of_ne (Ne.symm hne), Bool.false_and]
    rw [step c, step c', List.forall_mem_cons]
    cases hc : c p <;> cases hc' : c' p
    · simp [ih]
    · simp only [reduceCtorEq, and_false, false_and, exists_false, or_self, (off c' c _).2, Bool.false_eq_true]
    · simp only [reduceCtorEq, and_false, false_and, exists_false, or_self, (off c c' _).1, Bool.false_eq_true]
    · rename_i v v'
      simp only [dictEq, beq_self_eq_true, Bool.true_and, Bool.and_eq_true, ih, reduceCtorEq, and_false, false_or, Option.some.injEq,
        exists_and_left, exists_eq_left']

/-- What two declarations read as for a shorthand is equal exactly if each of its properties is unset in both or has equal stored values. -/
theorem C70_equal (c c' : CSS) (s : SH) (hs : s ≠ .border) (r r' : ShRead) (h : c.shorthand s = .ok r) (h' : c'.shorthand s = .ok r') :
    r.pyEq r' = true ↔ ∀ k, ∀ p ∈ partProps s k,
      c p = none ∧ c' p = none ∨ ∃ v v', c p = some v ∧ c' p = some v' ∧ v.pyEq v' = true := by
  have key := dictEq_stored c c' s.props (names_nodup s hs)
  have tr : (∀ k, ∀ p ∈ partProps s k, c p = none ∧ c' p = none ∨ ∃ v v', c p = some v ∧ c' p = some v' ∧ v.pyEq v' = true) ↔
      ∀ p ∈ s.props, c p = none ∧ c' p = none ∨ ∃ v v', c p = some v ∧ c' p = some v' ∧ v.pyEq v' = true := by
    constructor
    · intro h p hp
      obtain ⟨k, hk⟩ := mem_props.1 hp
      exact h k p hk
    · intro h k p hp
      exact h p (mem_props.2 ⟨k, hp⟩)
  rw [tr, ← key]
  rw [shorthand_eq c s hs] at h
  rw [shorthand_eq c' s hs] at h'
  cases h
  cases h'
  by_cases h0 : storedOf c s.props = [] <;> by_cases h1 : storedOf c' s.props = []
  · rw [if_pos h0, if_pos h1, h0, h1]; simp [ShRead.pyEq, dictEq]
  · rw [if_pos h0, if_neg h1, h0]
    obtain ⟨x, r, hx⟩ := List.exists_cons_of_ne_nil h1
    rw [hx]; simp [ShRead.pyEq, dictEq]
  · rw [if_neg h0, if_pos h1, h1]
    obtain ⟨x, r, hx⟩ := List.exists_cons_of_ne_nil h0
    rw [hx]; simp [ShRead.pyEq, dictEq]
  · rw [if_neg h0, if_neg h1]
    show ((s == s) && dictEq (Wrapped.toDict ⟨s, _⟩) (Wrapped.toDict ⟨s, _⟩)) = true ↔ _
    rw [toDict_eq c s hs, toDict_eq c' s hs, beq_self_eq_true, Bool.true_and]

/-- Two declarations with the same outline given in different ways. -/
example (E : Env) : ∃ d d' r r', Reachable E d ∧ Reachable E d' ∧ d.css.shorthand .outline = .ok r ∧ d'.css.shorthand .outline = .ok r' ∧
    r.pyEq r' = true ∧ r ≠ none :=
  ⟨_, _, _, _, ⟨[.setAttr (.sh .outline) (.str (lit "solid thick"))], rfl⟩,
    ⟨[.setAttr (.lh .outlineWidth) (.str (lit "thick")), .setAttr (.lh .outlineStyle) (.str (lit "solid"))], rfl⟩, rfl, rfl, rfl, by simp⟩

/-! ## The text -/

theorem textsOf_ok {f : PyStr → Val → Res PyStr} {g : PyStr × Val → PyStr} : ∀ {xs : List (PyStr × Val)},
    (∀ x ∈ xs, f x.1 x.2 = .ok (g x)) → textsOf f xs = .ok (xs.map g)
  | [], _ => rfl
  | (k, v) :: r, h => by
    have h1 := h (k, v) (List.mem_cons_self ..)
    have h2 := textsOf_ok (xs := r) fun x hx => h x (List.mem_cons_of_mem _ hx)
    simp only [textsOf, h1, h2]
    rfl

theorem mem_storedOf {c : CSS} {ps : List LH} {x : PyStr × Val} (h : x ∈ storedOf c ps) : ∃ p ∈ ps, c p = some x.2 := by
  simp only [storedOf, List.mem_filterMap, Option.map_eq_some_iff] at h
  obtain ⟨p, hp, v, hv, rfl⟩ := h
  exact ⟨p, hp, hv⟩

/-- The text of what a shorthand reads as: the texts of the stored values, in the order of the kinds, separated by blanks. -/
theorem C70_text (P : Printer) (c : CSS) (s : SH) (hs : s ≠ .border) (f : Val → PyStr)
    (hf : ∀ k, ∀ p ∈ partProps s k, ∀ v, c p = some v → P.str v = .ok (f v)) (r : ShRead) (h : c.shorthand s = .ok r) :
    P.read r = .ok (List.intercalate (lit " ") (((partOrder s).flatMap (partProps s)).filterMap fun p => (c p).map f)) := by
  rw [shorthand_eq c s hs] at h
  cases h
  have hmap : (storedOf c s.props).map (fun x => f x.2) = ((partOrder s).flatMap (partProps s)).filterMap fun p => (c p).map f := by
    unfold storedOf
    rw [List.map_filterMap]
    show _ = s.props.filterMap _
    congr 1
    funext p
    cases c p <;> rfl
  rw [← hmap]
  split
  · rename_i h0
    rw [h0]; rfl
  · show (textsOf (fun _ v => P.str v) (Wrapped.toDict ⟨s, _⟩)).bind _ = _
    rw [toDict_eq c s hs, textsOf_ok (g := fun x => f x.2)]
    · rfl
    · intro x hx
      obtain ⟨p, hp, hv⟩ := mem_storedOf hx
      obtain ⟨k, hk⟩ := mem_props.1 hp
      exact hf k p hk x.2 hv

/-! ## Assigning the text -/

/-- The stored values whose text is recognised again as the part it is: keywords (but `inherit` in an outline is always its colour), and finite
lengths a float can hold. -/
inductive PartReadable (s : SH) (p : LH) : Val → Prop
  | word (t : PyStr) : (s = .outline → t = lit "inherit" → p = .outlineColor) → PartReadable s p (.str t)
  | length (k : LKind) (n : Num) : n.Binary64 → PartReadable s p (.unit ⟨.len k, .fin n⟩)

theorem partProps_single (s : SH) (hs : s ≠ .border) (k : Part) : partProps s k = [partProp s k] := by
  rcases s with _ | _ | _
  · cases k <;> rfl
  · exact absurd rfl hs
  · cases k <;> rfl

/-- The words of a list of values. -/
def wordsOf (vs : List Val) : List PyStr := vs.filterMap fun v => match v with | .str s => some s | _ => none

theorem mem_wordsOf {vs : List Val} {t : PyStr} (h : Val.str t ∈ vs) : t ∈ wordsOf vs :=
  List.mem_filterMap.2 ⟨_, h, rfl⟩

theorem word_no_color (fp : FP) (at_ : List Nat) (t : PyStr) (h : t ∈ wordsOf (keywords .outlineStyle) ++ wordsOf (keywords .outlineWidth)) :
    color fp at_ (.str t) = .error .value := by
  refine C12_unknown_name fp at_ t ?_ ?_ ?_
  · have : ∀ t ∈ wordsOf (keywords .outlineStyle) ++ wordsOf (keywords .outlineWidth), t ≠ [] := by decide +kernel
    exact this t h
  · have : ∀ t ∈ wordsOf (keywords .outlineStyle) ++ wordsOf (keywords .outlineWidth), ∀ p ∈ ["#", "rgb", "hsl"], ¬ p.toList <+: t := by
      decide +kernel
    exact this t h
  · have : ∀ t ∈ wordsOf (keywords .outlineStyle) ++ wordsOf (keywords .outlineWidth), ∀ c ∈ cssColors, ¬ SpelledAs t c.1.toList := by
      decide +kernel
    exact this t h

theorem word_no_length (t : PyStr) (h : t ∈ wordsOf (keywords (.borderStyle .top)) ++ wordsOf (keywords (.borderColor .top))) :
    ∀ u, units .b64 (.str t) ≠ .ok u := by
  have : ∀ t ∈ wordsOf (keywords (.borderStyle .top)) ++ wordsOf (keywords (.borderColor .top)), (units .b64 (.str t)).toOption = none := by
    decide +kernel
  intro u hu
  have := this t h
  rw [hu] at this
  cases this

/-- The first character of a printed length. -/
theorem unit_head {k : LKind} {n : Num} (hn : n.Binary64) {s : PyStr} (h : CUnit.repr (pyRepr .b64) ⟨.len k, .fin n⟩ = .ok s) :
    ∃ c r, s = c :: r ∧ c ∈ ['0', '1', '2', '3', '4', '5', '6', '7', '8', '9', '.', 'e', '+', '-'] := by
  have hi : ∀ i : Int, ∃ c r, intStr i = c :: r ∧ c ∈ ['0', '1', '2', '3', '4', '5', '6', '7', '8', '9', '.', 'e', '+', '-'] := by
    intro i
    have hc : FloatText (intStr i) := by
      unfold intStr
      split
      · exact .cons (by decide) (.digits (natStr_all _))
      · exact .digits (natStr_all _)
    have hne : intStr i ≠ [] := by
      intro h0
      have := parseInt_intStr i
      rw [h0] at this
      cases this
    obtain ⟨c, r, e⟩ := List.exists_cons_of_ne_nil hne
    exact ⟨c, r, e, hc c (by rw [e]; exact List.mem_cons_self ..)⟩
  have hf : ∀ q, round53 q = q → ∃ c r, pyRepr .b64 q = c :: r ∧ c ∈ ['0', '1', '2', '3', '4', '5', '6', '7', '8', '9', '.', 'e', '+', '-'] := by
    intro q hq
    have hne : pyRepr .b64 q ≠ [] := by
      intro h0
      have := pyRepr_point hq
      rw [h0] at this
      simp at this
    obtain ⟨c, r, e⟩ := List.exists_cons_of_ne_nil hne
    exact ⟨c, r, e, pyRepr_chars _ _ c (by rw [e]; exact List.mem_cons_self ..)⟩
  simp only [CUnit.repr, Except.ok.injEq] at h
  subst h
  split
  · obtain ⟨c, r, e, hc⟩ := hi n.trunc
    exact ⟨c, r ++ _, by rw [e]; rfl, hc⟩
  · split
    · rename_i i _
      obtain ⟨c, r, e, hc⟩ := hi i
      exact ⟨c, r ++ _, by rw [e]; rfl, hc⟩
    · rename_i q _
      obtain ⟨c, r, e, hc⟩ := hf q hn
      exact ⟨c, r ++ _, by rw [e]; rfl, hc⟩

theorem head_no_color (fp : FP) (at_ : List Nat) (c : Char) (r : PyStr)
    (hc : c ∈ ['0', '1', '2', '3', '4', '5', '6', '7', '8', '9', '.', 'e', '+', '-']) : color fp at_ (.str (c :: r)) = .error .value := by
  refine C12_unknown_name fp at_ _ (by simp) ?_ ?_
  · have : ∀ c ∈ ['0', '1', '2', '3', '4', '5', '6', '7', '8', '9', '.', 'e', '+', '-'], ∀ p ∈ ["#", "rgb", "hsl"], p.toList.head? ≠ some c := by
      decide +kernel
    intro p hp hpre
    have h := this c hc p hp
    obtain ⟨t, ht⟩ := hpre
    have hne : ∀ p ∈ ["#", "rgb", "hsl"], p.toList ≠ [] := by decide
    obtain ⟨a, b, e⟩ := List.exists_cons_of_ne_nil (hne p hp)
    rw [e] at ht h
    simp only [List.cons_append, List.cons.injEq] at ht
    exact h (by rw [ht.1]; rfl)
  · have : ∀ c ∈ ['0', '1', '2', '3', '4', '5', '6', '7', '8', '9', '.', 'e', '+', '-'], ∀ d ∈ cssColors, d.1.toList.head? ≠ some (lowerChar c) := by
      decide +kernel
    intro d hd he
    refine this c hc d hd ?_
    rw [← (lower_iff (cssColors_ascii _ hd)).2 he]; rfl

theorem head_no_keyword (c : Char) (r : PyStr) (w : Val)
    (hc : c ∈ ['0', '1', '2', '3', '4', '5', '6', '7', '8', '9', '.', 'e', '+', '-']) {p : LH} (hp : p = .outlineColor ∨ p = .outlineStyle)
    (h : KeywordOf p (.str (c :: r)) w) : False := by
  have : ∀ c ∈ ['0', '1', '2', '3', '4', '5', '6', '7', '8', '9', '.', 'e', '+', '-'], ∀ w ∈ keywordNames .outlineColor ++ keywordNames .outlineStyle,
      w.toList.head? ≠ some c := by decide +kernel
  generalize e : Val.str (c :: r) = v at h
  cases h with
  | word t ht =>
    injection e with e
    refine this c hc t ?_ (by rw [← e]; rfl)
    rcases hp with rfl | rfl
    · exact List.mem_append_left _ ht
    · exact List.mem_append_right _ ht
  | none => cases e
  | dflt => cases e

/-- No keyword of one kind of part is a keyword of an earlier kind, `inherit` in an outline aside. -/
theorem keyword_kinds {p q : LH} {t : PyStr} {w : Val} (h : Val.str t ∈ keywords p) (hq : KeywordOf q (.str t) w)
    (ht : (p, q) ∈ [(LH.outlineStyle, LH.outlineColor), (.outlineWidth, .outlineColor), (.outlineWidth, .outlineStyle)] → t ≠ lit "inherit")
    (hpq : (p, q) ∈ [(LH.outlineStyle, LH.outlineColor), (.outlineWidth, .outlineColor), (.outlineWidth, .outlineStyle)] ∨
      ∃ s, (p, q) ∈ [(LH.borderStyle s, LH.borderWidth s), (.borderColor s, .borderWidth s), (.borderColor s, .borderStyle s)]) : False := by
  have h1 : ∀ x ∈ [(LH.outlineStyle, LH.outlineColor), (.outlineWidth, .outlineColor), (.outlineWidth, .outlineStyle)],
      ∀ t ∈ wordsOf (keywords x.1), t ≠ lit "inherit" → t ∉ wordsOf (keywords x.2) := by decide +kernel
  have h2 : ∀ s ∈ allSides, ∀ x ∈ [(LH.borderStyle s, LH.borderWidth s), (.borderColor s, .borderWidth s), (.borderColor s, .borderStyle s)],
      ∀ t ∈ wordsOf (keywords x.1), t ∉ wordsOf (keywords x.2) := by decide +kernel
  have hw : t ∈ wordsOf (keywords q) := by
    obtain ⟨rfl, hm⟩ := (keywordOf_iff ..).1 hq
    rw [keywords_noneOf p _ h] at hm
    exact mem_wordsOf hm
  rcases hpq with hpq | ⟨s, hpq⟩
  · exact h1 _ hpq t (mem_wordsOf h) (ht hpq) hw
  · exact h2 s (by cases s <;> decide) _ hpq t (mem_wordsOf h) hw

theorem keywords_noBlank (p : LH) (t : PyStr) (h : Val.str t ∈ keywords p) : NoBlank t ∧ t ≠ [] := by
  have : ∀ p ∈ allLH, ∀ t ∈ wordsOf (keywords p), (∀ c ∈ t, c ∉ blankChars) ∧ t ≠ [] := by decide +kernel
  exact this p (mem_allLH p) t (mem_wordsOf h)

/-- The text of a part is recognised as that part. -/
theorem part_text (E : Env) (hE : E.fp = .b64) (P : Printer) (hP : P.reprFloat = pyRepr .b64) (s : SH) (hs : s ≠ .border) (k : Part) (v : Val)
    (hc : Canonical (partProp s k) v) (hr : PartReadable s (partProp s k) v) : ∃ t w, P.str v = .ok t ∧ NoBlank t ∧ t ≠ [] ∧
      FallsTo E s (.str t) k w ∧ SameVal v w := by
  cases hr with
  | word t ht =>
    have hk : Val.str t ∈ keywords (partProp s k) := by
      rcases hc with h | ⟨kd, hk, h⟩
      · exact h
      · rw [kindOf_part] at hk
        cases k <;> cases hk
        · obtain ⟨_, h⟩ := h; cases h
        · obtain ⟨_, _, h⟩ := h; cases h
    obtain ⟨h1, h2⟩ := keywords_noBlank _ t hk
    have acc : Accepts E [] (partProp s k) (.str t) (.str t) := by
      refine Or.inl ((keywordOf_iff ..).2 ?_)
      rw [keywords_noneOf _ _ hk]
      exact ⟨rfl, hk⟩
    refine ⟨t, .str t, rfl, h1, h2, ?_, .word t⟩
    rw [fallsTo_iff]
    rcases s with u | _ | _
    · cases k with
      | width => exact ⟨[], [.style, .color], rfl, by simp, _, acc⟩
      | style =>
        refine ⟨[.width], [.color], rfl, ?_, _, acc⟩
        rintro j hj ⟨a, w, h⟩
        rw [List.mem_singleton] at hj
        subst hj
        rcases h with h | ⟨kd, hkd, h⟩
        · exact keyword_kinds hk h (by simp [partProp]) (Or.inr ⟨u, by simp [partProp]⟩)
        · rw [kindOf_part] at hkd
          cases hkd
          obtain ⟨x, hx, _⟩ := except_map_ok h
          rw [hE] at hx
          exact word_no_length t (List.mem_append_left _ (mem_wordsOf hk)) _ hx
      | color =>
        refine ⟨[.width, .style], [], rfl, ?_, _, acc⟩
        rintro j hj ⟨a, w, h⟩
        simp only [List.mem_cons, List.not_mem_nil, or_false] at hj
        rcases hj with rfl | rfl
        · rcases h with h | ⟨kd, hkd, h⟩
          · exact keyword_kinds hk h (by simp [partProp]) (Or.inr ⟨u, by simp [partProp]⟩)
          · rw [kindOf_part] at hkd
            cases hkd
            obtain ⟨x, hx, _⟩ := except_map_ok h
            rw [hE] at hx
            exact word_no_length t (List.mem_append_right _ (mem_wordsOf hk)) _ hx
        · rcases h with h | ⟨kd, hkd, h⟩
          · exact keyword_kinds hk h (by simp [partProp]) (Or.inr ⟨u, by simp [partProp]⟩)
          · rw [kindOf_part] at hkd
            cases hkd
    · exact absurd rfl hs
    · have hinh : k ≠ .color → t ≠ lit "inherit" := by
        intro hk0 e
        have := ht rfl e
        cases k <;> first | exact absurd rfl hk0 | cases this
      cases k with
      | color => exact ⟨[], [.style, .width], rfl, by simp, _, acc⟩
      | style =>
        refine ⟨[.color], [.width], rfl, ?_, _, acc⟩
        rintro j hj ⟨a, w, h⟩
        rw [List.mem_singleton] at hj
        subst hj
        rcases h with h | ⟨kd, hkd, h⟩
        · exact keyword_kinds hk h (fun _ => hinh (by decide)) (Or.inl (by simp [partProp]))
        · rw [kindOf_part] at hkd
          cases hkd
          have := word_no_color E.fp a t (List.mem_append_left _ (mem_wordsOf hk))
          rw [show Kind.color.parse E a (.str t) = color E.fp a (.str t) from rfl, this] at h
          cases h
      | width =>
        refine ⟨[.color, .style], [], rfl, ?_, _, acc⟩
        rintro j hj ⟨a, w, h⟩
        simp only [List.mem_cons, List.not_mem_nil, or_false] at hj
        rcases hj with rfl | rfl
        · rcases h with h | ⟨kd, hkd, h⟩
          · exact keyword_kinds hk h (fun _ => hinh (by decide)) (Or.inl (by simp [partProp]))
          · rw [kindOf_part] at hkd
            cases hkd
            have := word_no_color E.fp a t (List.mem_append_right _ (mem_wordsOf hk))
            rw [show Kind.color.parse E a (.str t) = color E.fp a (.str t) from rfl, this] at h
            cases h
        · rcases h with h | ⟨kd, hkd, h⟩
          · exact keyword_kinds hk h (fun _ => hinh (by decide)) (Or.inl (by simp [partProp]))
          · rw [kindOf_part] at hkd
            cases hkd
  | length l n hn =>
    have hk : k = .width := by
      rcases hc with h | ⟨kd, hk, h⟩
      · exact absurd rfl (keywords_code _ _ h)
      · rw [kindOf_part] at hk
        cases k <;> cases hk
        · rfl
        · obtain ⟨_, _, h⟩ := h; cases h
    subst hk
    obtain ⟨t, w, h1, h2, h3, h4, h5⟩ := unit_reads (u := ⟨.len l, .fin n⟩) ⟨n, rfl, hn⟩
    obtain ⟨c, r, rfl, hch⟩ := unit_head hn h1
    refine ⟨c :: r, .unit w, by rw [Printer.str, hP]; exact h1, h3, h2, ?_, .unit _ _ h5⟩
    have acc : Accepts E [] (partProp s .width) (.str (c :: r)) (.unit w) :=
      Or.inr ⟨.length, by rw [kindOf_part], by rw [Kind.parse, hE, h4]; rfl⟩
    rw [fallsTo_iff]
    rcases s with u | _ | _
    · exact ⟨[], [.style, .color], rfl, by simp, _, acc⟩
    · exact absurd rfl hs
    · refine ⟨[.color, .style], [], rfl, ?_, _, acc⟩
      rintro j hj ⟨a, w, h⟩
      simp only [List.mem_cons, List.not_mem_nil, or_false] at hj
      rcases hj with rfl | rfl
      · rcases h with h | ⟨kd, hkd, h⟩
        · exact head_no_keyword c r w hch (Or.inl rfl) h
        · rw [kindOf_part] at hkd
          cases hkd
          rw [show Kind.color.parse E a (.str (c :: r)) = color E.fp a (.str (c :: r)) from rfl, head_no_color E.fp a c r hch] at h
          cases h
      · rcases h with h | ⟨kd, hkd, h⟩
        · exact head_no_keyword c r w hch (Or.inr rfl) h
        · rw [kindOf_part] at hkd
          cases hkd

theorem sameVal_forget {s : SH} {p : LH} {v w w' : Val} (hr : PartReadable s p v) (h : SameVal v w) (e : w.forget = w'.forget) : SameVal v w' := by
  cases hr with
  | word t _ =>
    cases h
    cases w' <;> cases e
    exact .word t
  | length l n _ =>
    cases h with
    | unit _ x hx =>
      cases w' <;> cases e
      exact .unit _ _ hx

/-- C70. Full statement: assigning the text a shorthand reads as is accepted and keeps every part. What is missing: `border`, which reads as the
empty text; colours, whose text has blanks; `None`; `inherit` as the style or width of an outline; angles and lengths that are infinite, not a
number, or integers no float equals (see `PartReadable` and the refutations below). Binary64 floats and Python's `repr`. -/
theorem C70_assign_partial (E : Env) (hE : E.fp = .b64) (P : Printer) (hP : P.reprFloat = pyRepr .b64) (at_ : List Nat) (d : Decl)
    (hd : Reachable E d) (hl : d.link ≠ .noBox) (s : SH) (hs : s ≠ .border)
    (hv : ∀ k, ∀ p ∈ partProps s k, ∀ v, d.css p = some v → PartReadable s p v) (hne : ∃ k, ∃ p ∈ partProps s k, d.css p ≠ none) :
    ∃ r t d', d.css.shorthand s = .ok r ∧ P.read r = .ok t ∧ d.setAttr E at_ (.sh s) (.str t) = (d', none) ∧
      (∀ k, ∀ p ∈ partProps s k, (d.css p = none → d'.css p = none) ∧
        ∀ v, d.css p = some v → d'.css p = some v ∨ ∃ w, SameVal v w ∧ d'.css.read p = .ok w) ∧
      ∀ q, (∀ k, q ∉ partProps s k) → d'.css q = d.css q := by
  classical
  have hcan : ∀ k v, d.css (partProp s k) = some v → ∃ t w, P.str v = .ok t ∧ NoBlank t ∧ t ≠ [] ∧ FallsTo E s (.str t) k w ∧ SameVal v w := by
    intro k v h
    exact part_text E hE P hP s hs k v (C24_canonical E d hd _ v h) (hv k _ (by rw [partProps_single s hs]; exact List.mem_singleton.2 rfl) v h)
  -- the text and the value of each stored part
  let txt : Val → PyStr := fun v => match P.str v with | .ok t => t | .error _ => []
  have htxt : ∀ k v, d.css (partProp s k) = some v → P.str v = .ok (txt v) ∧ NoBlank (txt v) ∧ txt v ≠ [] ∧
      ∃ w, FallsTo E s (.str (txt v)) k w ∧ SameVal v w := by
    intro k v h
    obtain ⟨t, w, h1, h2, h3, h4, h5⟩ := hcan k v h
    have e : txt v = t := by simp only [txt, h1]
    rw [e]
    exact ⟨h1, h2, h3, w, h4, h5⟩
  obtain ⟨r, hr, _⟩ := C70_reads d.css s hs
  have htext := C70_text P d.css s hs txt (fun k p hp v h => by
    rw [partProps_single s hs, List.mem_singleton] at hp
    subst hp
    exact (htxt k v h).1) r hr
  have hprops : (partOrder s).flatMap (partProps s) = (partOrder s).map (partProp s) := by
    rw [List.flatMap_congr (g := fun k => [partProp s k]) fun k _ => partProps_single s hs k]
    exact (List.map_eq_flatMap ..).symm
  rw [hprops, List.filterMap_map] at htext
  -- the words and the kinds they are recognised as
  have build : ∀ ks : List Part, ∃ kws : List (Part × Val),
      List.Forall₂ (fun x (kw : Part × Val) => FallsTo E s x kw.1 kw.2)
        ((ks.filterMap ((fun p => (d.css p).map txt) ∘ partProp s)).map Val.str) kws ∧
      (kws.map Prod.fst).Sublist ks ∧
      (∀ k ∈ ks, d.css (partProp s k) ≠ none → k ∈ kws.map Prod.fst) ∧
      (∀ kw ∈ kws, ∃ v, d.css (partProp s kw.1) = some v ∧ SameVal v kw.2) := by
    intro ks
    induction ks with
    | nil => exact ⟨[], by simp, by simp, by simp, by simp⟩
    | cons k ks ih =>
      obtain ⟨kws, h1, h2, h3, h4⟩ := ih
      cases hk : d.css (partProp s k) with
      | none =>
        refine ⟨kws, ?_, h2.cons _, ?_, h4⟩
        · rw [List.filterMap_cons]
          simp only [Function.comp_apply, hk, Option.map_none]
          exact h1
        · intro j hj hn
          rcases List.mem_cons.1 hj with rfl | hj
          · exact absurd hk hn
          · exact h3 j hj hn
      | some v =>
        obtain ⟨_, _, _, w, h5, h6⟩ := htxt k v hk
        refine ⟨(k, w) :: kws, ?_, h2.cons_cons _, ?_, ?_⟩
        · rw [List.filterMap_cons]
          simp only [Function.comp_apply, hk, Option.map_some, List.map_cons]
          exact .cons h5 h1
        · intro j hj hn
          rcases List.mem_cons.1 hj with rfl | hj
          · exact List.mem_cons_self ..
          · exact List.mem_cons_of_mem _ (h3 j hj hn)
        · intro kw hkw
          rcases List.mem_cons.1 hkw with rfl | hkw
          · exact ⟨v, hk, h6⟩
          · exact h4 kw hkw
  obtain ⟨kws, h1, h2, h3, h4⟩ := build (partOrder s)
  generalize hws : (partOrder s).filterMap ((fun p => (d.css p).map txt) ∘ partProp s) = ws at htext h1
  have hnd : (kws.map Prod.fst).Nodup := h2.nodup (by rcases s with _ | _ | _ <;> simp [partOrder])
  have hwords : ∀ w ∈ ws, NoBlank w ∧ w ≠ [] := by
    intro w hw
    rw [← hws, List.mem_filterMap] at hw
    obtain ⟨k, _, hk⟩ := hw
    simp only [Function.comp_apply, Option.map_eq_some_iff] at hk
    obtain ⟨v, hv', rfl⟩ := hk
    exact ⟨(htxt k v hv').2.1, (htxt k v hv').2.2.1⟩
  have hord : ∀ k, k ∈ partOrder s := by
    intro k
    rcases s with _ | _ | _ <;> cases k <;> simp [partOrder]
  have hwne : ws ≠ [] := by
    obtain ⟨k, p, hp, hn⟩ := hne
    rw [partProps_single s hs, List.mem_singleton] at hp
    subst hp
    have := h3 k (hord k) hn
    rintro rfl
    cases h1
    cases this
  have hW := words_intercalate ws hwords
  have htne : List.intercalate (lit " ") ws ≠ [] := by
    intro e
    rw [e] at hW
    have := hW.splitWs
    exact hwne this.symm
  have hparts : PartsOf (.str (List.intercalate (lit " ") ws)) (ws.map Val.str) := .text _ _ htne hW
  have hplain : ∀ kw ∈ kws, ¬ IsAngle kw.2 := by
    rintro kw hkw ⟨k, x, e⟩
    obtain ⟨v, hv', hsame⟩ := h4 kw hkw
    rw [e] at hsame
    have := hv kw.1 _ (by rw [partProps_single s hs]; exact List.mem_singleton.2 rfl) v hv'
    cases hsame with
    | unit u _ hu =>
      cases this with
      | length l n _ => exact absurd hu.1 (by simp)
  have hlen : (ws.map Val.str).length ≤ 3 := by
    have e1 := h1.length_eq
    have e2 := h2.length_le
    have e3 : (partOrder s).length = 3 := by rcases s with _ | _ | _ <;> rfl
    rw [List.length_map] at e2
    omega
  have hquiet : s = .outline → ∀ x ∈ ws.map Val.str, ¬ Boundless x := by
    rintro _ x hx ⟨k, b, rfl⟩
    simp at hx
  obtain ⟨d', hset⟩ := (C30_accepted E at_ d s _ hl).2 ⟨_, hparts, hlen, ⟨kws, ⟨h1, hnd⟩, hplain⟩, hquiet⟩
  obtain ⟨xs, kws', g1, ⟨g2, g2'⟩, g3, g4, g5⟩ := C31_resets E at_ d d' hd s _ hset
  have hxs : xs = ws.map Val.str := by
    cases g1 with
    | text t ws' _ hw => rw [← hw.splitWs, hW.splitWs]
  subst hxs
  have hfst : kws'.map Prod.fst = kws.map Prod.fst ∧ ∀ kw' ∈ kws', ∃ kw ∈ kws, kw.1 = kw'.1 ∧ kw.2.forget = kw'.2.forget := by
    clear g3 g4 g5 h2 h3 h4 hnd hplain g2' hparts hlen hquiet hset g1 hwne hwords hW htne hws htext
    generalize ws.map Val.str = xs at h1 g2
    induction h1 generalizing kws' with
    | nil => cases g2; exact ⟨rfl, by simp⟩
    | cons hx _ ih =>
      cases g2 with
      | cons gx gr =>
        obtain ⟨i1, i2⟩ := ih _ gr
        obtain ⟨u1, u2⟩ := fallsTo_unique hx gx
        refine ⟨by simp only [List.map_cons, i1, u1], ?_⟩
        intro kw' hkw'
        rcases List.mem_cons.1 hkw' with rfl | hm
        · exact ⟨_, List.mem_cons_self .., u1, u2⟩
        · obtain ⟨kw, m, e⟩ := i2 kw' hm
          exact ⟨kw, List.mem_cons_of_mem _ m, e⟩
  refine ⟨r, _, d', hr, htext, hset, ?_, g5⟩
  intro k p hp
  have hpk : p = partProp s k := by rwa [partProps_single s hs, List.mem_singleton] at hp
  subst hpk
  constructor
  · intro hn
    refine (g4 k ?_ _ hp).1
    rw [hfst.1]
    intro hm
    obtain ⟨kw, hkw, rfl⟩ := List.mem_map.1 hm
    obtain ⟨v, hv', _⟩ := h4 kw hkw
    rw [hn] at hv'
    cases hv'
  · intro v hv'
    have hm := h3 k (hord k) (by rw [hv']; simp)
    rw [← hfst.1] at hm
    obtain ⟨kw', hkw', rfl⟩ := List.mem_map.1 hm
    rcases g3 kw'.1 kw'.2 hkw' _ hp with h | ⟨h, _⟩
    · right
      obtain ⟨kw, hkw, e1, e2⟩ := hfst.2 kw' hkw'
      obtain ⟨v', hv'', hsame⟩ := h4 kw hkw
      rw [e1, hv'] at hv''
      cases hv''
      have hread := hv kw'.1 _ hp v hv'
      refine ⟨kw'.2, ?_, h⟩
      exact sameVal_forget hread hsame e2
    · left
      rw [h, hv']

/-- After `outline = "solid 0.1em"`, all parts are covered, and the text is `solid 0.1em`. -/
example : ∃ d, Reachable exampleEnv d ∧ d.css .outlineStyle = some (.str (lit "solid")) ∧ d.css .outlineWidth = some (.str (lit "thick")) ∧
    (∀ k, ∀ p ∈ partProps .outline k, ∀ v, d.css p = some v → PartReadable .outline p v) ∧ ∃ k, ∃ p ∈ partProps .outline k, d.css p ≠ none := by
  refine ⟨_, ⟨[.setAttr (.sh .outline) (.str (lit "solid thick"))], rfl⟩, rfl, rfl, ?_, .style, .outlineStyle, by simp [partProps], by
    exact Option.isSome_iff_ne_none.1 rfl⟩
  intro k p hp v hv
  cases k <;> simp only [partProps, List.mem_singleton] at hp <;> subst hp <;> cases hv
  · exact .word _ (fun _ h => absurd h (by decide))
  · exact .word _ (fun _ h => absurd h (by decide))
example : PartReadable (.borderSide .top) (.borderWidth .top) (.unit ⟨.len .em, .fin (.flt (FP.b64.rnd (1 / 10)))⟩) :=
  .length _ _ (by unfold Num.Binary64; decide +kernel)

/-! ## What cannot be assigned back -/

theorem splitWs_space (a b : PyStr) : splitWs (a ++ ' ' :: b) = splitWs a ++ splitWs b := by
  have h : ∀ a cur : PyStr, splitWsAux (a ++ ' ' :: b) cur = splitWsAux a cur ++ splitWsAux b [] := by
    intro a
    induction a with
    | nil =>
      intro cur
      have hs : isSpacePy ' ' = true := by decide
      simp only [List.nil_append, splitWsAux, hs, if_true]
      by_cases hc : cur.isEmpty = true
      · simp [hc]
      · simp [hc]
    | cons x a ih =>
      intro cur
      simp only [List.cons_append, splitWsAux, ih]
      by_cases hx : isSpacePy x = true <;> by_cases hc : cur.isEmpty = true <;> simp [hx, hc]
  exact h a []

theorem splitWs_some {a : PyStr} {c : Char} (hc : c ∈ a) (hs : isSpacePy c = false) : 1 ≤ (splitWs a).length := by
  have h : ∀ a cur : PyStr, (c ∈ a ∨ cur ≠ []) → 1 ≤ (splitWsAux a cur).length := by
    intro a
    induction a with
    | nil =>
      intro cur hcur
      rcases hcur with h | h
      · cases h
      · simp [splitWsAux, h]
    | cons x a ih =>
      intro cur hcur
      simp only [splitWsAux]
      by_cases hx : isSpacePy x = true
      · simp only [hx, if_true]
        by_cases he : cur.isEmpty = true
        · simp only [he, if_true]
          refine ih [] (Or.inl ?_)
          rcases hcur with h | h
          · rcases List.mem_cons.1 h with rfl | h
            · rw [hs] at hx; cases hx
            · exact h
          · exact absurd (List.isEmpty_iff.1 he) h
        · simp [he]
      · simp only [hx]
        exact ih _ (Or.inr (by simp))
  exact h a [] (Or.inl hc)

/-- The text of a colour has four words at least. -/
theorem color_words (P : Printer) (c : Color) : 4 ≤ (splitWs (P.color c)).length := by
  have key : ∀ a b x d : PyStr, (∃ c ∈ a, isSpacePy c = false) → 4 ≤ (splitWs (a ++ lit ", " ++ b ++ lit ", " ++ x ++ lit ", " ++ d ++ lit ")")).length := by
    intro a b x d ⟨c, hc, hs⟩
    have e : a ++ lit ", " ++ b ++ lit ", " ++ x ++ lit ", " ++ d ++ lit ")" =
        (a ++ [',']) ++ ' ' :: ((b ++ [',']) ++ ' ' :: ((x ++ [',']) ++ ' ' :: (d ++ [')']))) := by
      rw [show lit ", " = [',', ' '] by decide, show lit ")" = [')'] by decide]
      simp
    rw [e, splitWs_space, splitWs_space, splitWs_space]
    have h1 : 1 ≤ (splitWs (a ++ [','])).length := splitWs_some (List.mem_append_left _ hc) hs
    have h2 : 1 ≤ (splitWs (b ++ [','])).length := splitWs_some (c := ',') (by simp) (by decide)
    have h3 : 1 ≤ (splitWs (x ++ [','])).length := splitWs_some (c := ',') (by simp) (by decide)
    have h4 : 1 ≤ (splitWs (d ++ [')'])).length := splitWs_some (c := ')') (by simp) (by decide)
    simp only [List.length_append]
    omega
  cases c with
  | rgb r g b a => exact key _ _ _ _ ⟨'r', List.mem_append_left _ (by decide), by decide⟩
  | hsl h s l a => exact key _ _ _ _ ⟨'h', List.mem_append_left _ (by decide), by decide⟩

theorem splitWs_intercalate_le (w : PyStr) : ∀ ws : List PyStr, w ∈ ws → (splitWs w).length ≤ (splitWs (List.intercalate (lit " ") ws)).length
  | [], h => by cases h
  | [x], h => by
    rw [List.mem_singleton] at h
    subst h
    simp [List.intercalate]
  | x :: y :: r, h => by
    have e : List.intercalate (lit " ") (x :: y :: r) = x ++ ' ' :: List.intercalate (lit " ") (y :: r) := by
      rw [show lit " " = [' '] by decide]
      simp [List.intercalate, List.intersperse]
    rw [e, splitWs_space, List.length_append]
    rcases List.mem_cons.1 h with rfl | h
    · omega
    · have := splitWs_intercalate_le w (y :: r) h
      omega

theorem textsOf_inv {f : PyStr → Val → Res PyStr} : ∀ {xs : List (PyStr × Val)} {ts : List PyStr}, textsOf f xs = .ok ts →
    ∀ x ∈ xs, ∃ t ∈ ts, f x.1 x.2 = .ok t
  | [], _, _, x, hx => by cases hx
  | (k, v) :: r, ts, h, x, hx => by
    rw [textsOf] at h
    obtain ⟨t, h1, h⟩ := bind_ok h
    obtain ⟨us, h2, h⟩ := bind_ok h
    cases h
    rcases List.mem_cons.1 hx with rfl | hx
    · exact ⟨t, List.mem_cons_self .., h1⟩
    · obtain ⟨u, hu, e⟩ := textsOf_inv h2 x hx
      exact ⟨u, List.mem_cons_of_mem _ hu, e⟩

/-- C70 is false whenever a colour is stored: whatever the other parts are, the text has more than three words and is refused. -/
theorem C70_false_color (E : Env) (P : Printer) (at_ : List Nat) (d : Decl) (hl : d.link ≠ .noBox) (s : SH) (hs : s ≠ .border)
    (p : LH) (hp : p ∈ partProps s .color) (i : Ref) (col : Color) (hc : d.css p = some (.color i col)) (r : ShRead) (t : PyStr)
    (hr : d.css.shorthand s = .ok r) (ht : P.read r = .ok t) : (d.setAttr E at_ (.sh s) (.str t)).2 ≠ none := by
  intro hset
  obtain ⟨xs, hx, hlen, _⟩ := (C30_accepted E at_ d s (.str t) hl).1 ⟨_, Prod.ext rfl hset⟩
  cases hx with
  | text _ ws _ hw =>
    rw [List.length_map, ← hw.splitWs] at hlen
    rw [shorthand_eq _ s hs] at hr
    have hmem : (p.name, Val.color i col) ∈ storedOf d.css s.props := by
      unfold storedOf
      exact List.mem_filterMap.2 ⟨p, mem_props.2 ⟨_, hp⟩, by rw [hc]; rfl⟩
    rw [if_neg (by intro h; rw [h] at hmem; cases hmem)] at hr
    cases hr
    rw [Printer.read, Printer.wrapped, toDict_eq _ s hs] at ht
    obtain ⟨ts, h1, h2⟩ := bind_ok ht
    cases h2
    obtain ⟨u, hu, e⟩ := textsOf_inv h1 _ hmem
    cases e
    have := splitWs_intercalate_le _ ts hu
    have := color_words P col
    omega
/-- `border_top = "solid red"` stores a colour. -/
example (E : Env) : ∃ d i col, Reachable E d ∧ d.css (.borderColor .top) = some (.color i col) ∧ d.link ≠ .noBox :=
  ⟨_, _, _, ⟨[.setAttr (.sh (.borderSide .top)) (.str (lit "solid red"))], rfl⟩, rfl, by intro h; cases h⟩

/-- C70 is false for `None`: a border whose style was set and set to `none` again reads as `None`, which is refused. -/
theorem C70_false_none (E : Env) (P : Printer) : ∃ d r, Reachable E d ∧ d.link ≠ .noBox ∧ d.css.shorthand (.borderSide .top) = .ok r ∧
    P.read r = .ok (lit "None") ∧ ∀ at_, (d.setAttr E at_ (.sh (.borderSide .top)) (.str (lit "None"))).2 ≠ none := by
  refine ⟨_, _, ⟨[.setAttr (.sh (.borderSide .top)) (.str (lit "solid")), .setAttr (.sh (.borderSide .top)) (.str (lit "none"))], rfl⟩, (by intro h; cases h), rfl, rfl, ?_⟩
  intro at_ hset
  obtain ⟨xs, hx, _, ⟨kws, ⟨hF, _⟩, _⟩, _⟩ := (C30_accepted E at_ _ _ _ (by intro h; cases h)).1 ⟨_, Prod.ext rfl hset⟩
  cases hx with
  | text _ ws _ hw =>
    have hws : ws = [lit "None"] := by rw [← hw.splitWs]; decide +kernel
    subst hws
    cases hF with
    | cons h _ =>
      obtain ⟨_, _, _, _, a, hacc⟩ := fallsTo_iff.1 h
      rcases hacc with h | ⟨kd, hk, h⟩
      · have h := ((keywordOf_iff ..).1 h).2
        have hc : ∀ p ∈ allLH, ∀ c ∈ (keywords p).map Val.code, c ≠ (2, lit "None") := by decide +kernel
        exact hc _ (mem_allLH _) _ (List.mem_map_of_mem (f := Val.code) h) rfl
      · rw [kindOf_part] at hk
        split at hk <;> cases hk
        · simp only [Kind.parse] at h
          obtain ⟨u, hu, _⟩ := except_map_ok h
          have := units_str_error (fp := E.fp) (s := lit "None") (by decide +kernel)
          rw [this] at hu
          cases hu
        · rw [show Kind.color.parse E a (.str (lit "None")) = color E.fp a (.str (lit "None")) from rfl,
            C12_unknown_name E.fp a (lit "None") (by decide) (by decide) (by decide +kernel)] at h
          cases h

/-- C70 is false for the object itself: a `Shorthand` is neither a text nor a sequence, so no shorthand accepts what it reads as. -/
theorem C70_false_object (E : Env) (at_ : List Nat) (d : Decl) (s : SH) (n : Nat) : d.setAttr E at_ (.sh s) (.obj n) = (d, some .value) := by
  cases s <;> rfl

/-! ## The text of the object -/

/-- How the representation of a shorthand object shows the value of a part: a word between single quotes, the rest as it is printed. -/
inductive PartShown (P : Printer) : Val → PyStr → Prop
  | word (w : PyStr) : PartShown P (.str w) (['\''] ++ w ++ ['\''])
  | none : PartShown P .none (lit "None")
  | length (u : CUnit) (t : PyStr) : P.str (.unit u) = .ok t → PartShown P (.unit u) t
  | color (r : Ref) (c : Color) : PartShown P (.color r c) (P.color c)

/-- A text without braces. -/
def NoBrace (s : PyStr) : Prop := '{' ∉ s ∧ '}' ∉ s

theorem NoBrace.append {a b : PyStr} (ha : NoBrace a) (hb : NoBrace b) : NoBrace (a ++ b) :=
  ⟨by simp [ha.1, hb.1], by simp [ha.2, hb.2]⟩

instance (s : PyStr) : Decidable (NoBrace s) := by unfold NoBrace; infer_instance

theorem NoBrace.intStr (i : Int) : NoBrace (intStr i) :=
  ⟨fun h => by rcases intStr_mem i _ h with h | h <;> revert h <;> decide, fun h => by rcases intStr_mem i _ h with h | h <;> revert h <;> decide⟩

theorem NoBrace.intercalate {sep : PyStr} (hs : NoBrace sep) : ∀ {ts : List PyStr}, (∀ t ∈ ts, NoBrace t) → NoBrace (List.intercalate sep ts)
  | [], _ => ⟨by simp [List.intercalate], by simp [List.intercalate]⟩
  | [t], h => by simpa [List.intercalate] using h t (by simp)
  | t :: u :: r, h => by
    have e : List.intercalate sep (t :: u :: r) = t ++ (sep ++ List.intercalate sep (u :: r)) := by
      simp [List.intercalate, List.intersperse]
    rw [e]
    exact (h t (by simp)).append (hs.append (NoBrace.intercalate hs fun x hx => h x (List.mem_cons_of_mem _ hx)))

theorem NoBrace.num {P : Printer} (hP : ∀ q, NoBrace (P.reprFloat q)) (x : PyNum) : NoBrace (P.num x) := by
  cases x with
  | fin n =>
    cases n with
    | int i => exact NoBrace.intStr i
    | flt q => exact hP q
  | inf b =>
    cases b
    · exact (by decide : NoBrace (lit "inf"))
    · exact (by decide : NoBrace (lit "-inf"))
  | nan => exact (by decide : NoBrace (lit "nan"))

theorem NoBrace.unit {P : Printer} (hP : ∀ q, NoBrace (P.reprFloat q)) {u : CUnit} {t : PyStr} (h : u.repr P.reprFloat = .ok t) : NoBrace t := by
  have hk : NoBrace u.kind.suffix := by
    have : ∀ k : UKind, NoBrace k.suffix := by
      intro k
      rcases k with k | k <;> cases k <;> decide
    exact this _
  unfold CUnit.repr at h
  split at h
  · cases h
  · cases h
  · cases h
    refine NoBrace.append ?_ hk
    split
    · exact NoBrace.intStr _
    · split
      · exact NoBrace.intStr _
      · exact hP _

/-- A word of plain characters is shown between single quotes. -/
theorem strRepr_plain (P : Printer) {w : PyStr} (h : ∀ c ∈ w, c ≠ '\'' ∧ c ≠ '\\' ∧ 32 ≤ c.toNat ∧ c.toNat < 127) :
    P.strRepr w = ['\''] ++ w ++ ['\''] := by
  have hq : (if '\'' ∈ w ∧ '"' ∉ w then '"' else '\'') = '\'' := if_neg fun hc => (h _ hc.1).1 rfl
  have hm : w.flatMap (P.quotedChar '\'') = w := by
    have : ∀ w : PyStr, (∀ c ∈ w, c ≠ '\'' ∧ c ≠ '\\' ∧ 32 ≤ c.toNat ∧ c.toNat < 127) → w.flatMap (P.quotedChar '\'') = w := by
      intro w
      induction w with
      | nil => intro _; rfl
      | cons c r ih =>
        intro h
        obtain ⟨h1, h2, h3, h4⟩ := h c (by simp)
        rw [List.flatMap_cons, ih fun x hx => h x (List.mem_cons_of_mem _ hx)]
        have ht : c ≠ '\t' := by rintro rfl; revert h3; decide
        have hn : c ≠ '\n' := by rintro rfl; revert h3; decide
        have hr : c ≠ '\r' := by rintro rfl; revert h3; decide
        have : P.quotedChar '\'' c = [c] := by
          unfold Printer.quotedChar
          rw [if_neg (by simp [h1, h2]), if_neg ht, if_neg hn, if_neg hr, if_neg (by omega), if_pos (by omega)]
        rw [this]; rfl
    exact this w h
  show (if '\'' ∈ w ∧ '"' ∉ w then '"' else '\'') :: w.flatMap (P.quotedChar (if '\'' ∈ w ∧ '"' ∉ w then '"' else '\'')) ++
    [if '\'' ∈ w ∧ '"' ∉ w then '"' else '\''] = _
  rw [hq, hm]; rfl

theorem part_keywords : ∀ s : SH, s ≠ .border → ∀ p ∈ s.props, ∀ v ∈ keywords p, v = .none ∨
    ∃ w, v = .str w ∧ NoBrace w ∧ ∀ c ∈ w, c ≠ '\'' ∧ c ≠ '\\' ∧ 32 ≤ c.toNat ∧ c.toNat < 127 := by
  have key : ∀ s ∈ [SH.borderSide .top, .borderSide .right, .borderSide .bottom, .borderSide .left, .outline], ∀ p ∈ s.props, ∀ v ∈ keywords p,
      (v.code = Val.none.code) ∨ (v.code.1 = 2 ∧ NoBrace v.code.2 ∧ ∀ c ∈ v.code.2, c ≠ '\'' ∧ c ≠ '\\' ∧ 32 ≤ c.toNat ∧ c.toNat < 127) := by
    decide +kernel
  intro s hs p hp v hv
  have hm : s ∈ [SH.borderSide .top, .borderSide .right, .borderSide .bottom, .borderSide .left, .outline] := by
    rcases s with t | _ | _
    · cases t <;> simp
    · exact absurd rfl hs
    · simp
  rcases key s hm p hp v hv with h | ⟨h1, h2, h3⟩
  · left; cases v <;> first | rfl | cases h
  · right; cases v <;> first | exact ⟨_, rfl, h2, h3⟩ | cases h1

theorem part_shown {P : Printer} (hP : ∀ q, NoBrace (P.reprFloat q)) {s : SH} (hs : s ≠ .border) {p : LH} (hp : p ∈ s.props) {v : Val}
    (hv : Canonical p v) (hfin : ∀ u, v = .unit u → ∃ n, u.val = .fin n) : ∃ t, P.repr v = .ok t ∧ PartShown P v t ∧ NoBrace t := by
  rcases hv with h | ⟨k, hk, h⟩
  · rcases part_keywords s hs p hp v h with rfl | ⟨w, rfl, hw, hc⟩
    · exact ⟨_, rfl, .none, by decide⟩
    · refine ⟨_, congrArg Except.ok (strRepr_plain P hc), .word w, ?_⟩
      exact (NoBrace.append (by decide) hw).append (by decide)
  · obtain ⟨j, hj⟩ := mem_props.1 hp
    rw [partProps_single s hs j] at hj
    rw [List.mem_singleton] at hj
    subst hj
    rw [kindOf_part] at hk
    split at hk <;> cases hk
    · obtain ⟨u, rfl⟩ := h
      obtain ⟨n, hn⟩ := hfin u rfl
      have : ∃ t, u.repr P.reprFloat = .ok t := by
        unfold CUnit.repr
        rw [hn]
        exact ⟨_, rfl⟩
      obtain ⟨t, ht⟩ := this
      exact ⟨t, ht, .length u t ht, NoBrace.unit hP ht⟩
    · obtain ⟨r, c, rfl⟩ := h
      refine ⟨_, rfl, .color r c, ?_⟩
      cases c with
      | rgb r g b a =>
        exact ((((((((NoBrace.append (by decide) (.intStr r)).append (by decide)).append (.intStr g)).append (by decide)).append
          (.intStr b)).append (by decide)).append (.num hP a)).append (by decide))
      | hsl r g b a =>
        exact ((((((((NoBrace.append (by decide) (.num hP _)).append (by decide)).append (.num hP _)).append (by decide)).append
          (.num hP _)).append (by decide)).append (.num hP a)).append (by decide))

/-- The name of the class of a property: words that begin with capital letters instead of words with lines between them. -/
def camelCase : Bool → PyStr → PyStr
  | _, [] => []
  | up, c :: cs => if c = '_' then camelCase true cs else (if up then c.toUpper else c) :: camelCase false cs

/-- The representation of what a shorthand reads as: the class, named after the property, with the stored parts as keyword arguments, in the order of the kinds. It is
never changed by the second `format` and never fails, as long as no part is an infinite or undefined length. -/
theorem C70_repr (E : Env) (P : Printer) (hP : ∀ q, '{' ∉ P.reprFloat q ∧ '}' ∉ P.reprFloat q) (other : PyStr → Res PyStr) (d : Decl) (hd : Reachable E d)
    (s : SH) (o : Wrapped) (ho : d.css.shorthand s = .ok (some o))
    (hfin : ∀ k, ∀ p ∈ partProps s k, ∀ u, d.css p = some (.unit u) → ∃ n, u.val = .fin n) :
    ∃ ts, List.Forall₂ (fun p t => ∃ v u, d.css p = some v ∧ PartShown P v u ∧ t = p.name ++ lit "=" ++ u)
        (((partOrder s).flatMap (partProps s)).filter fun p => (d.css p).isSome) ts ∧
      P.wrappedRepr other o = .ok (camelCase true s.name ++ lit "(" ++ List.intercalate (lit ", ") ts ++ lit ")") := by
  have hs : s ≠ .border := by
    rintro rfl
    rw [C70_false_border] at ho
    cases ho
  rw [show camelCase true s.name = s.className by
    rcases s with t | _ | _
    · cases t <;> decide
    · decide
    · decide]
  rw [shorthand_eq _ s hs] at ho
  have ho : o = ⟨s, storedOf d.css s.props⟩ := by
    split at ho
    · cases ho
    · exact (Option.some.inj (Except.ok.inj ho)).symm
  have parts : ∀ ps : List LH, (∀ p ∈ ps, p ∈ s.props) → ∃ ts,
      List.Forall₂ (fun p t => ∃ v u, d.css p = some v ∧ PartShown P v u ∧ t = p.name ++ lit "=" ++ u) (ps.filter fun p => (d.css p).isSome) ts ∧
      (∀ t ∈ ts, NoBrace t) ∧
      textsOf (fun k v => do let t ← P.repr v; pure (k ++ lit "=" ++ t)) (storedOf d.css ps) = .ok ts := by
    intro ps
    induction ps with
    | nil => intro _; exact ⟨[], .nil, by simp, rfl⟩
    | cons p ps ih =>
      intro hm
      obtain ⟨ts, h1, h2, h3⟩ := ih fun q hq => hm q (List.mem_cons_of_mem _ hq)
      cases hv : d.css p with
      | none => exact ⟨ts, by simpa [hv] using h1, h2, by simpa [storedOf, hv] using h3⟩
      | some v =>
        have hp := hm p (List.mem_cons_self ..)
        obtain ⟨k, hk⟩ := mem_props.1 hp
        obtain ⟨t, e, hsh, hb⟩ := part_shown (P := P) hP hs hp (canon_reachable hd p v hv) fun u hu => hfin k p hk u (by rw [hv, hu])
        have hn : ∀ p : LH, NoBrace p.name := by
          have : ∀ p ∈ allLH, NoBrace p.name := by decide +kernel
          exact fun p => this p (mem_allLH p)
        refine ⟨(p.name ++ lit "=" ++ t) :: ts, ?_, ?_, ?_⟩
        · rw [List.filter_cons_of_pos (by simp [hv])]
          exact .cons ⟨v, t, hv, hsh, rfl⟩ h1
        · intro x hx
          rcases List.mem_cons.1 hx with rfl | hx
          · exact ((hn p).append (by decide)).append hb
          · exact h2 x hx
        · have : storedOf d.css (p :: ps) = (p.name, v) :: storedOf d.css ps := by simp [storedOf, hv]
          rw [this, textsOf, e]
          simp only [h3]
          rfl
  obtain ⟨ts, h1, h2, h3⟩ := parts s.props fun _ h => h
  refine ⟨ts, h1, ?_⟩
  rw [ho, Printer.wrappedRepr, toDict_eq _ s hs, h3]
  have hcls : NoBrace s.className := by
    rcases s with t | _ | _
    · cases t <;> decide
    · decide
    · decide
  have hb : NoBrace (s.className ++ lit "(" ++ List.intercalate (lit ", ") ts ++ lit ")") :=
    ((hcls.append (by decide)).append (NoBrace.intercalate (by decide) h2)).append (by decide)
  show formatText other _ = _
  unfold formatText
  rw [if_neg (by rintro (h | h); exacts [hb.1 h, hb.2 h])]
/-- After `outline = "solid thick"` the text is `Outline(outline_style='solid', outline_width='thick')`. -/
example (E : Env) (P : Printer) (other : PyStr → Res PyStr) : ∃ d o, Reachable E d ∧ d.css.shorthand .outline = .ok (some o) ∧
    (∀ k, ∀ p ∈ partProps .outline k, ∀ u, d.css p = some (.unit u) → ∃ n, u.val = .fin n) ∧
    P.wrappedRepr other o = .ok (lit "Outline(outline_style='solid', outline_width='thick')") := by
  refine ⟨_, _, ⟨[.setAttr (.sh .outline) (.str (lit "solid thick"))], rfl⟩, rfl, ?_, rfl⟩
  intro k p hp u hu
  cases k <;> simp only [partProps, List.mem_singleton] at hp <;> subst hp <;> cases hu

end Colosseum
