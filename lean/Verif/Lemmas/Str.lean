import Verif.Lemmas.Wide

/-! Facts about the string functions of `Verif.Py.Str` and `Verif.Py.Lit`. -/

namespace Colosseum

theorem endsWith_iff (s p : PyStr) : endsWith s p = true ↔ ∃ t, s = t ++ p := by
  simp only [endsWith, List.isSuffixOf_iff_suffix]
  constructor
  · rintro ⟨t, rfl⟩; exact ⟨t, rfl⟩
  · rintro ⟨t, rfl⟩; exact ⟨t, rfl⟩

theorem startsWith_iff (s p : PyStr) : startsWith s p = true ↔ ∃ t, s = p ++ t := by
  simp only [startsWith, List.isPrefixOf_iff_prefix]
  constructor
  · rintro ⟨t, rfl⟩; exact ⟨t, rfl⟩
  · rintro ⟨t, rfl⟩; exact ⟨t, rfl⟩

theorem dropSuffix_append (t p : PyStr) : dropSuffix (t ++ p) p = t := by
  simp [dropSuffix]

theorem append_endsWith (t p : PyStr) : endsWith (t ++ p) p = true := (endsWith_iff _ _).2 ⟨t, rfl⟩

theorem dropWhile_concat_of_not (p : Char → Bool) (s : PyStr) (c : Char) (h : p c = false) :
    (s ++ [c]).dropWhile p = s.dropWhile p ++ [c] := by
  induction s with
  | nil => simp [h]
  | cons a s ih =>
    simp only [List.cons_append, List.dropWhile_cons]
    split
    · exact ih
    · rfl

theorem stripBy_concat_of_not (p : Char → Bool) (s : PyStr) (c : Char) (h : p c = false) :
    stripBy p (s ++ [c]) = s.dropWhile p ++ [c] := by
  simp only [stripBy, dropWhile_concat_of_not p s c h, List.reverse_append, List.reverse_cons,
    List.reverse_nil, List.nil_append, List.cons_append, List.dropWhile_cons, h]
  simp

theorem dropUnderscores_concat (c : Char) (h : c ≠ '_') (s : PyStr) (prev : Option Char) (t : PyStr)
    (ht : dropUnderscores prev (s ++ [c]) = some t) : ∃ t', t = t' ++ [c] := by
  induction s generalizing prev t with
  | nil =>
    simp only [List.nil_append, dropUnderscores, beq_iff_eq, h, if_false] at ht
    split at ht
    · cases ht
    · simp [h] at ht; exact ⟨[], by simp [ht]⟩
  | cons a s ih =>
    simp only [List.cons_append, dropUnderscores] at ht
    split at ht
    · split at ht
      · split at ht
        · exact ih _ _ ht
        · cases ht
      · cases ht
    · split at ht
      · cases ht
      · cases hr : dropUnderscores (some a) (s ++ [c]) with
        | none => rw [hr] at ht; cases ht
        | some r =>
          rw [hr] at ht
          obtain ⟨t', rfl⟩ := ih _ _ hr
          simp at ht
          exact ⟨a :: t', by simp [← ht]⟩

/-- A character that cannot end a literal accepted by `float()`. -/
def badEnd (c : Char) : Bool :=
  !isSpaceC c && !isDecimal c && c != '.' && c != '_' && c != '+' && c != '-'
    && c.toLower != 'f' && c.toLower != 'y' && c.toLower != 'n'

theorem takeSign_concat (c : Char) (h1 : c ≠ '+') (h2 : c ≠ '-') (s : PyStr) :
    ∃ b s', takeSign (s ++ [c]) = (b, s' ++ [c]) := by
  cases s with
  | nil =>
    refine ⟨false, [], ?_⟩
    simp only [List.nil_append]
    unfold takeSign
    split
    · rename_i heq; simp at heq; exact absurd heq.1 h2
    · rename_i heq; simp at heq; exact absurd heq.1 h1
    · rfl
  | cons a s =>
    simp only [List.cons_append]
    unfold takeSign
    split
    · rename_i heq; simp at heq; exact ⟨true, s, by simp [heq.2]⟩
    · rename_i heq; simp at heq; exact ⟨false, s, by simp [heq.2]⟩
    · exact ⟨false, a :: s, by simp⟩

theorem parseExp_concat (c : Char) (hd : isDecimal c = false) (h1 : c ≠ '+') (h2 : c ≠ '-') (s : PyStr) :
    parseExp (s ++ [c]) = none := by
  cases s with
  | nil =>
    simp only [List.nil_append, parseExp, takeSign]
    split <;> simp
  | cons a s =>
    simp only [List.cons_append, parseExp]
    split
    · obtain ⟨b, s', h⟩ := takeSign_concat c h1 h2 s
      simp [h, hd]
    · rfl

theorem takeWhile_concat_of_not (p : Char → Bool) (s : PyStr) (c : Char) (h : p c = false) :
    (s ++ [c]).takeWhile p = s.takeWhile p := by
  induction s with
  | nil => simp [h]
  | cons a s ih => simp only [List.cons_append, List.takeWhile_cons, ih]

theorem fracPart_concat (c : Char) (hd : isDecimal c = false) (hdot : c ≠ '.') (s : PyStr) :
    ∃ t, (fracPart (s ++ [c])).2 = t ++ [c] := by
  cases s with
  | nil =>
    refine ⟨[], ?_⟩
    simp only [List.nil_append]
    unfold fracPart
    split
    · rename_i heq; simp at heq; exact absurd heq.1 hdot
    · rfl
  | cons a r =>
    simp only [List.cons_append]
    unfold fracPart
    split
    · rename_i r' h'
      simp at h'
      obtain ⟨_, rfl⟩ := h'
      exact ⟨_, dropWhile_concat_of_not isDecimal _ c hd⟩
    · exact ⟨a :: r, by simp⟩

theorem parseDecimal_concat (c : Char) (hd : isDecimal c = false) (hdot : c ≠ '.') (h1 : c ≠ '+')
    (h2 : c ≠ '-') (s : PyStr) : parseDecimal (s ++ [c]) = none := by
  unfold parseDecimal
  simp only [dropWhile_concat_of_not isDecimal _ c hd, takeWhile_concat_of_not isDecimal _ c hd]
  obtain ⟨t, ht⟩ := fracPart_concat c hd hdot (s.dropWhile isDecimal)
  simp [ht, parseExp_concat c hd h1 h2 t]

theorem lower_concat_ne (s : PyStr) (c d : Char) (t : PyStr) (h : c.toLower ≠ d) :
    (s ++ [c]).map Char.toLower ≠ t ++ [d] := by
  intro e
  simp only [List.map_append, List.map_cons, List.map_nil] at e
  have := congrArg List.getLast? e
  simp at this
  exact h this

/-- A string ending in a character that cannot end a float literal is not one. -/
theorem parseFloat_concat_bad (fp : FP) (s : PyStr) (c : Char) (h : badEnd c = true) :
    parseFloat fp (s ++ [c]) = none := by
  simp only [badEnd, Bool.and_eq_true, Bool.not_eq_true', bne_iff_ne, ne_eq] at h
  obtain ⟨⟨⟨⟨⟨⟨⟨⟨hsp, hd⟩, hdot⟩, hu⟩, hp⟩, hm⟩, hf⟩, hy⟩, hn⟩ := h
  unfold parseFloat
  rw [stripBy_concat_of_not _ _ _ hsp]
  split
  · rfl
  · rename_i t hr
    obtain ⟨t', rfl⟩ := dropUnderscores_concat c hu _ _ _ hr
    obtain ⟨b, m, hm'⟩ := takeSign_concat c hp hm t'
    simp only [hm', floatBody]
    have e1 : lit "inf" = lit "in" ++ ['f'] := rfl
    have e2 : lit "infinity" = lit "infinit" ++ ['y'] := rfl
    have e3 : lit "nan" = lit "na" ++ ['n'] := rfl
    rw [e1, e2, e3]
    simp only [lower_concat_ne m c 'f' (lit "in") hf, lower_concat_ne m c 'y' (lit "infinit") hy,
      lower_concat_ne m c 'n' (lit "na") hn, parseDecimal_concat c hd hdot hp hm]
    simp

theorem dropUnderscores_keep (w : PyStr) (hw : ∀ c ∈ w, c ≠ '_') (prev : Option Char) (t : PyStr)
    (ht : dropUnderscores prev w = some t) : t = w := by
  induction w generalizing prev t with
  | nil =>
    simp only [dropUnderscores] at ht
    split at ht
    · cases ht
    · cases ht; rfl
  | cons c w ih =>
    have hc := hw c (by simp)
    simp only [dropUnderscores, beq_iff_eq, hc, if_false] at ht
    split at ht
    · cases ht
    · cases hr : dropUnderscores (some c) w with
      | none => rw [hr] at ht; cases ht
      | some r =>
        rw [hr] at ht
        simp at ht
        rw [← ht, ih (fun d hd => hw d (by simp [hd])) _ _ hr]

theorem dropUnderscores_append (w : PyStr) (hw : ∀ c ∈ w, c ≠ '_') (s : PyStr) (prev : Option Char)
    (t : PyStr) (ht : dropUnderscores prev (s ++ w) = some t) : ∃ t', t = t' ++ w := by
  induction s generalizing prev t with
  | nil => exact ⟨[], by simpa using dropUnderscores_keep w hw prev t ht⟩
  | cons a s ih =>
    simp only [List.cons_append, dropUnderscores] at ht
    split at ht
    · split at ht
      · split at ht
        · exact ih _ _ ht
        · cases ht
      · cases ht
    · split at ht
      · cases ht
      · cases hr : dropUnderscores (some a) (s ++ w) with
        | none => rw [hr] at ht; cases ht
        | some r =>
          rw [hr] at ht
          obtain ⟨t', rfl⟩ := ih _ _ hr
          simp at ht
          exact ⟨a :: t', by simp [← ht]⟩

/-- A string ending in `n` not preceded by `a` is no float literal (the only one in `n` is `nan`). -/
theorem parseFloat_concat_n (fp : FP) (s : PyStr) (a : Char) (h1 : a.toLower ≠ 'a')
    (h2 : a ≠ '_' ∧ a ≠ '+' ∧ a ≠ '-') : parseFloat fp (s ++ [a, 'n']) = none := by
  obtain ⟨hu, hp, hm⟩ := h2
  have hs : s ++ [a, 'n'] = (s ++ [a]) ++ ['n'] := by simp
  unfold parseFloat
  rw [hs, stripBy_concat_of_not _ _ _ (by decide)]
  have e : ∃ t, (s ++ [a]).dropWhile isSpaceC ++ ['n'] = t ++ ['n'] ∧ (t = [] ∨ ∃ t', t = t' ++ [a]) := by
    refine ⟨_, rfl, ?_⟩
    clear hs
    induction s with
    | nil =>
      simp only [List.nil_append, List.dropWhile_cons]
      split
      · left; rfl
      · right; exact ⟨[], rfl⟩
    | cons b s ih =>
      simp only [List.cons_append, List.dropWhile_cons]
      split
      · exact ih
      · right; exact ⟨b :: s, rfl⟩
  obtain ⟨t, e, ht⟩ := e
  rw [e]
  have hd : isDecimal 'n' = false := by decide
  have hdec := parseDecimal_concat 'n' hd (by decide) (by decide) (by decide)
  have e1 : lit "inf" = lit "in" ++ ['f'] := rfl
  have e2 : lit "infinity" = lit "infinit" ++ ['y'] := rfl
  rcases ht with rfl | ⟨t', rfl⟩
  · rfl
  · split
    · rfl
    · rename_i r hr
      have hr' : dropUnderscores none (t' ++ [a, 'n']) = some r := by simpa using hr
      obtain ⟨r', rfl⟩ := dropUnderscores_append [a, 'n'] (by simp [hu]) _ _ _ hr'
      have hsg : ∃ b m, takeSign (r' ++ [a, 'n']) = (b, m ++ [a] ++ ['n']) := by
        cases r' with
        | nil =>
          refine ⟨false, [], ?_⟩
          simp only [List.nil_append]
          unfold takeSign
          split
          · rename_i heq; simp at heq; exact absurd heq.1 hm
          · rename_i heq; simp at heq; exact absurd heq.1 hp
          · rfl
        | cons b r' =>
          simp only [List.cons_append]
          unfold takeSign
          split
          · rename_i heq; simp at heq; exact ⟨true, r', by simp [heq.2]⟩
          · rename_i heq; simp at heq; exact ⟨false, r', by simp [heq.2]⟩
          · exact ⟨false, b :: r', by simp⟩
      obtain ⟨b, m, hm'⟩ := hsg
      have e3 : (m ++ [a] ++ ['n']).map Char.toLower ≠ lit "nan" := by
        intro h
        have : (m ++ [a]).map Char.toLower ++ ['n'] = ['n', 'a'] ++ ['n'] := by
          rw [show (['n', 'a'] ++ ['n'] : PyStr) = lit "nan" from rfl, ← h]
          simp
        have := List.append_cancel_right this
        exact lower_concat_ne m a 'a' ['n'] h1 this
      simp only [hm', floatBody]
      rw [e1, e2]
      simp only [lower_concat_ne (m ++ [a]) 'n' 'f' (lit "in") (by decide),
        lower_concat_ne (m ++ [a]) 'n' 'y' (lit "infinit") (by decide), e3, hdec]
      simp

theorem parseFloat_nil (fp : FP) : parseFloat fp [] = none := rfl

end Colosseum
