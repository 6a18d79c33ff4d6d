import Verif.Lemmas.Text
import Verif.Model.Wrappers

/-! # Helper lemmas for `rect(...)` strings -/

namespace Colosseum

theorem joinWith_intercalate (sep : Char) (ps : List PyStr) : joinWith sep ps = List.intercalate [sep] ps := by
  induction ps with
  | nil => rfl
  | cons a r ih =>
    cases r with
    | nil => simp [joinWith, List.intercalate]
    | cons b r =>
      simp only [joinWith, ih]
      simp [List.intercalate, List.intersperse]

theorem tidy_iff (p t : PyStr) : Tidy p t ↔ t = norm p := by
  constructor
  · rintro ⟨ws, hw, rfl⟩
    rw [norm, hw.splitWs, joinWith_intercalate]
  · rintro rfl
    exact ⟨_, words_splitWs p, by rw [norm, joinWith_intercalate]⟩

theorem forall2_tidy (ps ts : List PyStr) : List.Forall₂ Tidy ps ts ↔ ts = ps.map norm := by
  induction ps generalizing ts with
  | nil => cases ts <;> simp
  | cons p ps ih =>
    cases ts with
    | nil => simp
    | cons t ts => simp [ih, tidy_iff]

/-- A solid prefix of a collapsed string is a prefix of the string. -/
theorem collapse_prefix (w t r : PyStr) (hw : Solid w) (h : collapse false t = w ++ r) :
    ∃ t', t = w ++ t' ∧ r = collapse false t' := by
  induction w generalizing t with
  | nil => exact ⟨t, rfl, by simpa using h.symm⟩
  | cons c w ih =>
    cases t with
    | nil => simp [collapse] at h
    | cons d t =>
      simp only [collapse] at h
      split at h
      · simp only [Bool.false_eq_true, if_false, List.cons_append, List.cons.injEq] at h
        have := hw c (by simp)
        rw [← h.1, isSpacePy_space] at this; cases this
      · simp only [List.cons_append, List.cons.injEq] at h
        obtain ⟨t', rfl, hr⟩ := ih t (fun c hc => hw c (by simp [hc])) h.2
        exact ⟨t', by rw [h.1]; rfl, hr⟩

/-- The string at a non-blank of the collapsed string. -/
theorem collapse_at (x : PyStr) (c : Char) (r : PyStr) (hc : isSpacePy c = false) (q : Bool) (t : PyStr)
    (h : collapse q t = x ++ c :: r) : ∃ a t', t = a ++ c :: t' ∧ r = collapse false t' := by
  induction t generalizing q x with
  | nil => simp [collapse] at h
  | cons d t ih =>
    simp only [collapse] at h
    split at h
    · split at h
      · obtain ⟨a, t', rfl, hr⟩ := ih x true h
        exact ⟨d :: a, t', rfl, hr⟩
      · cases x with
        | nil =>
          simp only [List.nil_append, List.cons.injEq] at h
          rw [← h.1, isSpacePy_space] at hc; cases hc
        | cons e x =>
          simp only [List.cons_append, List.cons.injEq] at h
          obtain ⟨a, t', rfl, hr⟩ := ih x true h.2
          exact ⟨d :: a, t', rfl, hr⟩
    · cases x with
      | nil =>
        simp only [List.nil_append, List.cons.injEq] at h
        exact ⟨[], t, by simp [h.1], h.2.symm⟩
      | cons e x =>
        simp only [List.cons_append, List.cons.injEq] at h
        obtain ⟨a, t', rfl, hr⟩ := ih x false h.2
        exact ⟨d :: a, t', rfl, hr⟩

theorem infix_collapse (c : Char) (w t : PyStr) (hw : Solid (c :: w)) :
    (c :: w) <:+: collapse false t ↔ (c :: w) <:+: t := by
  constructor
  · rintro ⟨x, y, h⟩
    obtain ⟨a, t', rfl, hr⟩ := collapse_at x c (w ++ y) (hw c (by simp)) false t (by simp [← h])
    obtain ⟨t'', rfl, _⟩ := collapse_prefix w t' y (fun d hd => hw d (by simp [hd])) hr.symm
    exact ⟨a, t'', by simp⟩
  · rintro ⟨x, y, rfl⟩
    refine ⟨collapse false x, collapse false y, ?_⟩
    rw [collapse_append, collapse_append, collapse_solid _ _ hw]
    congr 2
    have : endBlank false (x ++ c :: w) = false := by
      have e : ∀ (p : Bool) (x : PyStr), endBlank p (x ++ c :: w) = false := by
        intro p x
        induction x generalizing p with
        | nil => exact endBlank_solid p (c :: w) hw (by simp)
        | cons d x ih => exact ih _
      exact e _ _
    rw [this]

theorem singleton_infix (c : Char) (t : PyStr) : [c] <:+: t ↔ c ∈ t := by
  constructor
  · rintro ⟨x, y, rfl⟩; simp
  · intro h
    obtain ⟨x, y, rfl⟩ := List.append_of_mem h
    exact ⟨x, y, by simp⟩

theorem mem_collapse (c : Char) (hc : isSpacePy c = false) (t : PyStr) : c ∈ collapse false t ↔ c ∈ t := by
  have := infix_collapse c [] t (by intro d hd; simp at hd; subst hd; exact hc)
  rwa [singleton_infix, singleton_infix] at this

theorem countSub_zero_iff (p t : PyStr) (hp : p ≠ []) : countSub p 0 t = 0 ↔ ¬ p <:+: t := by
  induction t with
  | nil => simp [countSub, hp]
  | cons c t ih =>
    simp only [countSub]
    by_cases h : p.isPrefixOf (c :: t) = true
    · rw [if_pos h]
      constructor
      · intro h0; omega
      · intro h0
        exact absurd (List.IsPrefix.isInfix (List.isPrefixOf_iff_prefix.1 h)) h0
    · rw [if_neg h, ih, List.infix_cons_iff]
      have : ¬ p <+: c :: t := fun h' => h (List.isPrefixOf_iff_prefix.2 h')
      tauto

theorem removeSub_none (p t : PyStr) (h : ¬ p <:+: t) : removeSub p 0 t = t := by
  induction t with
  | nil => rfl
  | cons c t ih =>
    rw [List.infix_cons_iff] at h
    push Not at h
    simp only [removeSub]
    rw [if_neg fun h' => h.1 (List.isPrefixOf_iff_prefix.1 h'), ih h.2]

theorem rect_chars : lit "rect(" = ['r', 'e', 'c', 't', '('] := rfl

theorem solid_rect : Solid (lit "rect(") := by
  rw [rect_chars]
  have : ∀ c ∈ ['r', 'e', 'c', 't', '('], isSpacePy c = false := by decide
  exact this

theorem infix_rect (t : PyStr) : lit "rect(" <:+: collapse false t ↔ lit "rect(" <:+: t := by
  have h := solid_rect
  rw [rect_chars] at h ⊢
  exact infix_collapse 'r' _ t h

theorem countSub_rect (t : PyStr) : countSub (lit "rect(") 0 (lit "rect(" ++ t) = 1 + countSub (lit "rect(") 0 t := by
  rw [rect_chars]
  simp [countSub, List.isPrefixOf]

theorem removeSub_rect (t : PyStr) : removeSub (lit "rect(") 0 (lit "rect(" ++ t) = removeSub (lit "rect(") 0 t := by
  rw [rect_chars]
  simp [removeSub, List.isPrefixOf]

theorem infix_append_paren (t : PyStr) : lit "rect(" <:+: t ++ [')'] ↔ lit "rect(" <:+: t := by
  constructor
  · rintro ⟨x, y, h⟩
    rcases List.eq_nil_or_concat y with rfl | ⟨y', d, rfl⟩
    · have := congrArg List.getLast? h
      simp [rect_chars] at this
    · rw [List.concat_eq_append, ← List.append_assoc] at h
      have := List.append_inj' h rfl
      exact ⟨x, y', this.1⟩
  · rintro ⟨x, y, rfl⟩
    exact ⟨x, y ++ [')'], by simp⟩

/-- The blank-normalised text of `rect(...)`. -/
theorem norm_rect (b P b' : PyStr) (hb : Blank b) (hb' : Blank b') :
    norm (b ++ lit "rect(" ++ P ++ lit ")" ++ b') = lit "rect(" ++ (collapse false P ++ [')']) := by
  have hp : lit ")" = [')'] := rfl
  rw [norm_eq]
  have e : b ++ lit "rect(" ++ P ++ lit ")" ++ b' = b ++ (lit "rect(" ++ (P ++ (')' :: b'))) := by
    simp [hp]
  rw [e, collapse_append, collapse_blank b hb, endBlank_blank b hb, List.nil_append, collapse_append,
    collapse_solid _ _ solid_rect, endBlank_solid _ _ solid_rect (by simp [rect_chars]),
    collapse_sep ')' (by decide)]
  have hbl : Blank (collapse false b') := by
    cases b' with
    | nil => exact Blank.nil
    | cons c cs =>
      have h1 := hb' c (by simp)
      simp only [collapse, h1, if_true, Bool.false_eq_true, if_false]
      rw [collapse_blank cs fun d hd => hb' d (by simp [hd])]
      intro d hd
      simp at hd; subst hd; exact isSpacePy_space
  have e2 : lit "rect(" ++ (collapse false P ++ ')' :: collapse false b')
      = (lit "rect(" ++ (collapse false P ++ [')'])) ++ collapse false b' := by simp
  rw [e2, strip_append_blank _ _ hbl]
  exact strip_ends 'r' ')' (['e', 'c', 't', '('] ++ collapse false P) (by decide) (by decide)

/-- Text whose normalisation has the outer form of `rect(...)` has that form. -/
theorem rect_form (s : PyStr) (h1 : startsWith (norm s) (lit "rect(") = true)
    (h2 : endsWith (norm s) (lit ")") = true) :
    ∃ b P b', Blank b ∧ Blank b' ∧ s = b ++ lit "rect(" ++ P ++ lit ")" ++ b' := by
  obtain ⟨X, hX⟩ := (startsWith_iff _ _).1 h1
  obtain ⟨Y, hY⟩ := (endsWith_iff _ _).1 h2
  have hp : lit ")" = [')'] := rfl
  obtain ⟨b, b', hb, hb', e⟩ := strip_decomp s
  -- the first non-blank of the string
  have hn : norm s = strip (collapse true s) := norm_eq s
  have hr : ∃ r, norm s = 'r' :: r := ⟨['e', 'c', 't', '('] ++ X, by rw [hX, rect_chars]; rfl⟩
  -- write the stripped text as c :: u
  have hne : strip s ≠ [] := by
    intro h0
    rw [h0, List.append_nil] at e
    rw [e, norm] at hr
    have : splitWs (b ++ b') = [] := by
      rw [splitWs_blank b b' hb]
      have := splitWs_blank b' [] hb'
      simpa [splitWs, splitWsAux] using this
    rw [this] at hr
    obtain ⟨r, hr⟩ := hr
    cases hr
  rcases hS : strip s with _ | ⟨c, u⟩
  · exact absurd hS hne
  have hc : isSpacePy c = false := by
    by_contra hc
    simp only [Bool.not_eq_false] at hc
    have h1 : strip (strip s) = strip s := by
      have := strip_blanks b (strip s) b' hb hb'
      rw [← e] at this
      exact this.symm
    have h2 : strip (c :: u) = strip u := by
      have := strip_blank_append [c] u (by intro d hd; simp at hd; subst hd; exact hc)
      simpa using this
    rw [hS, h2] at h1
    have := congrArg List.length h1
    have hl : (strip u).length ≤ u.length := strip_length_le u
    simp at this
    omega
  rcases List.eq_nil_or_concat u with rfl | ⟨v, d, rfl⟩
  · exfalso
    have : norm s = [c] := by
      rw [e, hS, norm_word b [c] b' hb (by intro x hx; simp at hx; subst hx; exact hc) hb']
    rw [this, rect_chars] at hX
    simp at hX
  rw [List.concat_eq_append] at hS
  have hd : isSpacePy d = false := by
    by_contra hd
    simp only [Bool.not_eq_false] at hd
    have h1 : strip (strip s) = strip s := by
      have := strip_blanks b (strip s) b' hb hb'
      rw [← e] at this
      exact this.symm
    have h2 : strip (c :: v ++ [d]) = strip (c :: v) :=
      strip_append_blank (c :: v) [d] (by intro x hx; simp at hx; subst hx; exact hd)
    rw [hS] at h1
    rw [show c :: (v ++ [d]) = c :: v ++ [d] from rfl, h2] at h1
    have := congrArg List.length h1
    have hl : (strip (c :: v)).length ≤ (c :: v).length := strip_length_le _
    simp at this hl
    omega
  have hnorm : norm s = c :: (collapse false v ++ [d]) := by
    have h3 : norm s = norm (strip s) := by
      simp only [norm]
      conv_lhs => rw [e]
      rw [List.append_assoc, splitWs_blank b _ hb]
      rw [hS]
      congr 1
      exact splitWs_append_blank _ _ hb'
    rw [h3, hS, norm_eq]
    have : collapse true (c :: (v ++ [d])) = c :: collapse false v ++ [d] := by
      simp only [collapse, hc, Bool.false_eq_true, if_false, collapse_append, hd, List.cons_append]
    rw [this]
    exact strip_ends c d _ hc hd
  rw [hnorm] at hY hX
  have hdp : d = ')' := by
    rw [hp, ← List.cons_append] at hY
    have := (List.append_inj' hY rfl).2
    simpa using this
  subst hdp
  rw [rect_chars] at hX
  simp only [List.cons_append, List.nil_append, List.cons.injEq] at hX
  obtain ⟨rfl, hX⟩ := hX
  rcases List.eq_nil_or_concat X with rfl | ⟨X', d, rfl⟩
  · have := congrArg List.getLast? hX
    simp at this
  rw [List.concat_eq_append, show 'e' :: 'c' :: 't' :: '(' :: (X' ++ [d]) = ('e' :: 'c' :: 't' :: '(' :: X') ++ [d] from rfl] at hX
  have hv := (List.append_inj' hX rfl).1
  obtain ⟨P, hP, _⟩ := collapse_prefix ['e', 'c', 't', '('] v X' (by
    have : ∀ c ∈ ['e', 'c', 't', '('], isSpacePy c = false := by decide
    exact this) hv
  refine ⟨b, P, b', hb, hb', ?_⟩
  rw [e, hS, hP]
  simp [rect_chars, hp]
where
  strip_length_le (u : PyStr) : (strip u).length ≤ u.length := by
    obtain ⟨b, b', _, _, e⟩ := strip_decomp u
    have := congrArg List.length e
    simp at this
    omega
  splitWs_append_blank (t b' : PyStr) (hb' : Blank b') : splitWs (t ++ b') = splitWs t := by
    have h : ∀ (t cur : PyStr), splitWsAux (t ++ b') cur = splitWsAux t cur := by
      intro t
      induction t with
      | nil =>
        intro cur
        cases b' with
        | nil => rfl
        | cons x xs =>
          have h1 := hb' x (by simp)
          have h2 := splitWsAux_blank xs [] fun d hd => hb' d (by simp [hd])
          simp only [List.append_nil] at h2
          simp only [List.nil_append, splitWsAux, h1, if_true, h2]
          cases cur <;> simp
      | cons c t ih =>
        intro cur
        simp only [List.cons_append, splitWsAux, ih]
    exact h t []

theorem count_space_join (ws : List PyStr) (h : ∀ w ∈ ws, Solid w) :
    (joinWith ' ' ws).count ' ' = ws.length - 1 := by
  have ns : ∀ w, Solid w → ' ' ∉ w := fun w hw hm => by
    have := hw _ hm; rw [isSpacePy_space] at this; cases this
  induction ws with
  | nil => rfl
  | cons a r ih =>
    cases r with
    | nil =>
      simp only [joinWith, List.length_singleton]
      exact List.count_eq_zero.2 (ns a (h a (by simp)))
    | cons b r =>
      have := ih fun w hw => h w (by simp [hw])
      simp only [joinWith, List.count_append, List.count_cons_self, this,
        List.count_eq_zero.2 (ns a (h a (by simp)))]
      simp

/-- What `rect` reads from the text between the parentheses. -/
def rectBody (P : PyStr) : Option (List PyStr) :=
  if P.count ',' = 3 then some ((splitOn ',' P).map norm)
  else if P.count ',' = 0 ∧ (splitWs P).length = 4 then some (splitWs P)
  else none

theorem rectParts_body (b P b' : PyStr) (hb : Blank b) (hb' : Blank b') :
    (rectParts (b ++ lit "rect(" ++ P ++ lit ")" ++ b')).map (List.map strip)
      = if ')' ∉ P ∧ ¬ lit "rect(" <:+: P then rectBody P else none := by
  have hp : lit ")" = [')'] := rfl
  have hn := norm_rect b P b' hb hb'
  generalize b ++ lit "rect(" ++ P ++ lit ")" ++ b' = s at hn
  have e0 : joinWith ' ' ((splitWs s).map strip) = norm s := by rw [splitWs_map_strip]; rfl
  unfold rectParts
  simp only [e0]
  have c1 : startsWith (norm s) (lit "rect(") = true := (startsWith_iff _ _).2 ⟨_, hn⟩
  have c2 : endsWith (norm s) (lit ")") = true :=
    (endsWith_iff _ _).2 ⟨lit "rect(" ++ collapse false P, by rw [hn, hp]; simp⟩
  have c3 : (countSub (lit "rect(") 0 (norm s) == 1) = true ↔ ¬ lit "rect(" <:+: P := by
    rw [hn, countSub_rect, beq_iff_eq]
    have := countSub_zero_iff (lit "rect(") (collapse false P ++ [')']) (by simp [rect_chars])
    rw [infix_append_paren, infix_rect] at this
    rw [← this]
    omega
  have c4 : (countChar ')' (norm s) == 1) = true ↔ ')' ∉ P := by
    rw [hn, countChar, beq_iff_eq, rect_chars]
    simp only [List.cons_append, List.nil_append, List.count_append, List.count_cons, List.count_nil]
    have := List.count_eq_zero (a := ')') (l := collapse false P)
    rw [mem_collapse ')' (by decide)] at this
    rw [← this]
    simp
  by_cases hg : ')' ∉ P ∧ ¬ lit "rect(" <:+: P
  · rw [if_pos hg, if_pos (by
      simp only [Bool.and_eq_true]
      exact ⟨⟨⟨c1, c2⟩, c3.2 hg.2⟩, c4.2 hg.1⟩)]
    have hv : strip ((removeSub (lit "rect(") 0 (norm s)).filter (· != ')')) = norm P := by
      rw [hn, removeSub_rect, removeSub_none _ _ (by
        rw [infix_append_paren, infix_rect]
        exact hg.2), List.filter_append, List.filter_eq_self.2 (by
          intro c hc
          have h1 : c ≠ ')' := by
            rintro rfl
            exact hg.1 ((mem_collapse ')' (by decide) P).1 hc)
          simpa using h1)]
      simp only [bne_self_eq_false, Bool.false_eq_true, not_false_eq_true, List.filter_cons_of_neg,
        List.filter_nil, List.append_nil]
      exact norm_strip_collapse false P
    rw [hv]
    have hs : (splitOn ',' (norm P)).map strip = (splitOn ',' P).map norm := by
      rw [← norm_strip_collapse false P, splitOn_strip ',' (by decide)]
      conv_lhs => rw [← splitOn_join ',' P]
      exact splitOn_collapse ',' (by decide) _ (by
        intro h
        have := splitOn_length ',' P
        rw [h] at this
        simp at this) (splitOn_mem ',' P) false
    have hc : countChar ',' (norm P) = P.count ',' := by
      have h1 := congrArg List.length hs
      simp only [List.length_map, splitOn_length] at h1
      simp only [countChar]
      omega
    simp only [rectBody, hc]
    by_cases h3 : P.count ',' = 3
    · rw [if_pos h3, if_pos h3, Option.map_some, hs]
    · rw [if_neg h3, if_neg h3]
      have hw : countChar ' ' (norm P) = (splitWs P).length - 1 :=
        count_space_join _ fun w hw => (splitWs_words P w hw).1
      by_cases h0 : P.count ',' = 0 ∧ (splitWs P).length = 4
      · rw [if_pos h0, if_pos (by simp [h0.1, hw, h0.2]), Option.map_some]
        rw [norm, splitOn_joinWith ' ' _ (by intro h; rw [h] at h0; simp at h0) (by
          intro w hw hm
          have := (splitWs_words P w hw).1 _ hm
          rw [isSpacePy_space] at this; cases this), splitWs_map_strip]
      · rw [if_neg h0, if_neg (by
          simp only [hw, Bool.and_eq_true, decide_eq_true_eq]
          rintro ⟨h1, h2⟩
          exact h0 ⟨by simpa using h1, by omega⟩)]
        rfl
  · rw [if_neg hg, if_neg (by
      simp only [Bool.and_eq_true]
      rintro ⟨⟨_, h3⟩, h4⟩
      exact hg ⟨c4.1 h4, c3.1 h3⟩)]
    rfl

/-- The components `rect` reads are those of the specification. -/
theorem rectParts_iff (s : PyStr) (parts : List PyStr) :
    (rectParts s).map (List.map strip) = some parts ↔ RectText s parts := by
  constructor
  · intro h
    have hform : ∃ b P b', Blank b ∧ Blank b' ∧ s = b ++ lit "rect(" ++ P ++ lit ")" ++ b' := by
      have e0 : joinWith ' ' ((splitWs s).map strip) = norm s := by rw [splitWs_map_strip]; rfl
      by_cases hc : startsWith (norm s) (lit "rect(") = true ∧ endsWith (norm s) (lit ")") = true
      · exact rect_form s hc.1 hc.2
      · exfalso
        have : rectParts s = none := by
          unfold rectParts
          simp only [e0]
          rw [if_neg]
          simp only [Bool.and_eq_true]
          rintro ⟨⟨hc', _⟩, _⟩
          exact hc hc'
        rw [this] at h
        cases h
    obtain ⟨b, P, b', hb, hb', rfl⟩ := hform
    rw [rectParts_body b P b' hb hb'] at h
    by_cases hg : ')' ∉ P ∧ ¬ lit "rect(" <:+: P
    · rw [if_pos hg] at h
      unfold rectBody at h
      split at h
      · rename_i h3
        cases h
        refine ⟨b, P, b', (allBlank_iff _).2 hb, (allBlank_iff _).2 hb', rfl, hg.1, hg.2,
          by rw [List.length_map, splitOn_length, h3], Or.inl ⟨splitOn ',' P, ?_, splitOn_mem ',' P,
            (forall2_tidy _ _).2 rfl⟩⟩
        rw [← joinWith_intercalate, splitOn_join]
      · split at h
        · rename_i h0
          cases h
          exact ⟨b, P, b', (allBlank_iff _).2 hb, (allBlank_iff _).2 hb', rfl, hg.1, hg.2, h0.2,
            Or.inr ⟨List.count_eq_zero.1 h0.1, words_splitWs P⟩⟩
        · cases h
    · rw [if_neg hg] at h; cases h
  · rintro ⟨b, P, b', hb, hb', rfl, h1, h2, hl, h⟩
    rw [rectParts_body b P b' ((allBlank_iff _).1 hb) ((allBlank_iff _).1 hb'), if_pos ⟨h1, h2⟩]
    unfold rectBody
    rcases h with ⟨ps, hP, hps, hT⟩ | ⟨hP, hW⟩
    · rw [forall2_tidy] at hT
      subst hT
      have hne : ps ≠ [] := by rintro rfl; simp at hl
      rw [← joinWith_intercalate] at hP
      have hsp : splitOn ',' P = ps := by rw [hP]; exact splitOn_joinWith ',' ps hne hps
      have hc := splitOn_length ',' P
      rw [hsp] at hc
      rw [List.length_map] at hl
      rw [if_pos (by omega), hsp]
    · have hc := List.count_eq_zero.2 hP
      rw [if_neg (by omega), if_pos ⟨hc, by rw [hW.splitWs]; exact hl⟩, hW.splitWs]

end Colosseum
