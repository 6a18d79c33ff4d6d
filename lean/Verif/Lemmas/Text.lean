import Verif.Spec.Text
import Verif.Lemmas.Split

/-! The string functions of the model meet the grammars of `Verif.Spec.Text`. -/

namespace Colosseum

theorem isSpacePy_iff (c : Char) : isSpacePy c = true ↔ c ∈ blankChars := by
  simp only [isSpacePy, isSpaceC, blankChars, Bool.or_eq_true, beq_iff_eq, List.mem_append, List.mem_cons,
    List.not_mem_nil, or_false, isWideBlank_iff]
  tauto

theorem isSpacePy_false_iff (c : Char) : isSpacePy c = false ↔ c ∉ blankChars := by
  rw [← isSpacePy_iff]; simp

theorem allBlank_iff (b : PyStr) : AllBlank b ↔ Blank b := by
  simp only [AllBlank, Blank, isSpacePy_iff]

theorem noBlank_iff (w : PyStr) : NoBlank w ↔ Solid w := by
  simp only [NoBlank, Solid, isSpacePy_false_iff]

theorem mem_takeWhile {p : Char → Bool} {s : PyStr} {c : Char} (h : c ∈ s.takeWhile p) : p c = true := by
  induction s with
  | nil => simp at h
  | cons d s ih =>
    rw [List.takeWhile_cons] at h
    split at h
    · rcases List.mem_cons.1 h with rfl | h
      · assumption
      · exact ih h
    · cases h

/-- A string is its stripped form between blanks. -/
theorem strip_decomp (s : PyStr) : ∃ b b', Blank b ∧ Blank b' ∧ s = b ++ strip s ++ b' := by
  refine ⟨s.takeWhile isSpacePy, ((s.dropWhile isSpacePy).reverse.takeWhile isSpacePy).reverse,
    fun c hc => mem_takeWhile hc, ?_, ?_⟩
  · intro c hc
    exact mem_takeWhile (p := isSpacePy) (by simpa using hc)
  · have h := List.takeWhile_append_dropWhile (p := isSpacePy) (l := (s.dropWhile isSpacePy).reverse)
    have h' := congrArg List.reverse h
    rw [List.reverse_append, List.reverse_reverse] at h'
    rw [List.append_assoc, strip, stripBy, h', List.takeWhile_append_dropWhile]

theorem strip_self (x : PyStr) (h1 : ∀ c, x.head? = some c → isSpacePy c = false)
    (h2 : ∀ c, x.getLast? = some c → isSpacePy c = false) : strip x = x := stripBy_id _ x h1 h2

theorem Words.splitWs {s : PyStr} {ws : List PyStr} (h : Words s ws) : splitWs s = ws := by
  induction h with
  | nil b hb =>
    have := splitWs_blank b [] ((allBlank_iff b).1 hb)
    simpa [Colosseum.splitWs, splitWsAux] using this
  | last b w b' hb hw hne hb' =>
    rw [List.append_assoc, splitWs_blank b _ ((allBlank_iff b).1 hb),
      splitWs_last w b' ((noBlank_iff w).1 hw) hne ((allBlank_iff b').1 hb')]
  | cons b w b' rest ws hb hw hne hb' hbne _ ih =>
    rw [List.append_assoc, List.append_assoc, splitWs_blank b _ ((allBlank_iff b).1 hb),
      ← List.append_assoc, splitWs_cons w b' rest ((noBlank_iff w).1 hw) hne ((allBlank_iff b').1 hb') hbne, ih]

/-- Prepending a blank keeps the words. -/
theorem Words.blank_cons {c : Char} (hc : c ∈ blankChars) {s : PyStr} {ws : List PyStr} (h : Words s ws) :
    Words (c :: s) ws := by
  have ab : ∀ b, AllBlank b → AllBlank (c :: b) := by
    intro b hb d hd
    rcases List.mem_cons.1 hd with rfl | hd
    · exact hc
    · exact hb d hd
  cases h with
  | nil b hb => exact .nil _ (ab _ hb)
  | last b w b' hb hw hne hb' => exact .last (c :: b) w b' (ab _ hb) hw hne hb'
  | cons b w b' rest ws hb hw hne hb' hbne hr =>
    exact .cons (c :: b) w b' rest ws (ab _ hb) hw hne hb' hbne hr

theorem words_aux (s : PyStr) : ∀ cur : PyStr, Solid cur →
    Words (cur.reverse ++ s) (splitWsAux s cur) := by
  induction s with
  | nil =>
    intro cur hc
    simp only [splitWsAux]
    cases cur with
    | nil => exact .nil [] (by simp [AllBlank])
    | cons d cur =>
      have := Words.last [] (d :: cur).reverse [] (by simp [AllBlank])
        ((noBlank_iff _).2 (by intro x hx; exact hc x (List.mem_reverse.1 hx))) (by simp) (by simp [AllBlank])
      simpa using this
  | cons c s ih =>
    intro cur hc
    simp only [splitWsAux]
    by_cases hs : isSpacePy c = true
    · simp only [hs, if_true]
      have hcb := (isSpacePy_iff c).1 hs
      cases cur with
      | nil => simpa using (ih [] (by simp [Solid])).blank_cons hcb
      | cons d cur =>
        have := Words.cons [] (d :: cur).reverse [c] s _ (by simp [AllBlank])
          ((noBlank_iff _).2 (by intro x hx; exact hc x (List.mem_reverse.1 hx))) (by simp)
          (by simpa [AllBlank] using hcb) (by simp) (ih [] (by simp [Solid]))
        simpa using this
    · have hs' : isSpacePy c = false := by simpa using hs
      rw [hs', if_neg (by simp)]
      have := ih (c :: cur) (by
        intro x hx
        rcases List.mem_cons.1 hx with rfl | hx
        · exact hs'
        · exact hc x hx)
      simpa using this

theorem words_splitWs (s : PyStr) : Words s (splitWs s) := by
  simpa [splitWs] using words_aux s [] (by simp [Solid])

/-- `s.split()` are the words of `s`. -/
theorem splitWs_iff (s : PyStr) (ws : List PyStr) : splitWs s = ws ↔ Words s ws :=
  ⟨fun h => h ▸ words_splitWs s, Words.splitWs⟩

/-! ## Splitting at commas and stripping -/

theorem splitOnAux_prefix (sep : Char) (b t cur : PyStr) (hb : sep ∉ b) :
    splitOnAux sep (b ++ t) cur = splitOnAux sep t (b.reverse ++ cur) := by
  induction b generalizing cur with
  | nil => rfl
  | cons c b ih =>
    simp only [List.mem_cons, not_or] at hb
    have hc : (c == sep) = false := by simpa using fun h => hb.1 h.symm
    simp only [List.cons_append, splitOnAux, hc, Bool.false_eq_true, if_false, ih _ hb.2, List.reverse_cons,
      List.append_assoc, List.nil_append]

theorem strip_append_blank (x b : PyStr) (hb : Blank b) : strip (x ++ b) = strip x := by
  have := strip_blanks [] x b Blank.nil hb
  simpa using this

theorem strip_blank_append (b x : PyStr) (hb : Blank b) : strip (b ++ x) = strip x := by
  have := strip_blanks b x [] hb Blank.nil
  simpa using this

theorem splitOnAux_strip_cur (sep : Char) (t cur b : PyStr) (hb : Blank b) :
    (splitOnAux sep t (cur ++ b)).map strip = (splitOnAux sep t cur).map strip := by
  induction t generalizing cur with
  | nil =>
    simp only [splitOnAux, List.reverse_append, List.map_cons, List.map_nil]
    rw [strip_blank_append _ _ (fun c hc => hb c (by simpa using hc))]
  | cons c t ih =>
    simp only [splitOnAux]
    split
    · simp only [List.map_cons, List.reverse_append]
      rw [strip_blank_append _ _ (fun c hc => hb c (by simpa using hc))]
    · rw [← List.cons_append, ih]

theorem splitOnAux_strip_end (sep : Char) (t cur b : PyStr) (hb : Blank b) (hs : sep ∉ b) :
    (splitOnAux sep (t ++ b) cur).map strip = (splitOnAux sep t cur).map strip := by
  induction t generalizing cur with
  | nil =>
    have := splitOnAux_prefix sep b [] cur hs
    simp only [List.append_nil] at this
    simp only [List.nil_append, this, splitOnAux, List.reverse_append, List.reverse_reverse, List.map_cons,
      List.map_nil, strip_append_blank _ _ hb]
  | cons c t ih =>
    simp only [List.cons_append, splitOnAux]
    split
    · simp only [List.map_cons, ih]
    · exact ih _

/-- Blanks at the ends of a list of parts do not matter when each part is stripped. -/
theorem splitOn_strip (sep : Char) (hs : isSpacePy sep = false) (s : PyStr) :
    (splitOn sep (strip s)).map strip = (splitOn sep s).map strip := by
  obtain ⟨b, b', hb, hb', e⟩ := strip_decomp s
  have nb : ∀ b, Blank b → sep ∉ b := fun b hb h => by rw [hb _ h] at hs; cases hs
  conv_rhs => rw [e]
  rw [splitOn, splitOn, splitOnAux_strip_end sep _ _ _ hb' (nb _ hb'), splitOnAux_prefix sep b _ _ (nb _ hb)]
  have := splitOnAux_strip_cur sep (strip s) [] b.reverse (fun c hc => hb c (by simpa using hc))
  rw [List.nil_append] at this
  rw [List.append_nil, this]

theorem collapse_sep (sep : Char) (hs : isSpacePy sep = false) (p : Bool) (x y : PyStr) :
    collapse p (x ++ sep :: y) = collapse p x ++ sep :: collapse false y := by
  rw [collapse_append]
  simp [collapse, hs]

/-- Collapsing blanks commutes with splitting at a non-blank separator. -/
theorem splitOn_collapse (sep : Char) (hs : isSpacePy sep = false) (ps : List PyStr) (hne : ps ≠ [])
    (h : ∀ p ∈ ps, sep ∉ p) (p : Bool) :
    (splitOn sep (collapse p (joinWith sep ps))).map strip = ps.map norm := by
  have nc : ∀ (p : Bool) (x : PyStr), sep ∉ x → sep ∉ collapse p x := by
    intro p x hx hm
    induction x generalizing p with
    | nil => simp [collapse] at hm
    | cons c x ih =>
      simp only [List.mem_cons, not_or] at hx
      simp only [collapse] at hm
      split at hm
      · split at hm
        · exact ih _ hx.2 hm
        · rcases List.mem_cons.1 hm with e | hm
          · subst e; rw [isSpacePy_space] at hs; cases hs
          · exact ih _ hx.2 hm
      · rcases List.mem_cons.1 hm with e | hm
        · exact hx.1 e
        · exact ih _ hx.2 hm
  induction ps generalizing p with
  | nil => exact absurd rfl hne
  | cons a r ih =>
    cases r with
    | nil =>
      simp only [joinWith]
      rw [splitOn_last _ _ (nc p a (h a (by simp)))]
      simp [norm_strip_collapse]
    | cons b r =>
      rw [joinWith_cons_ne sep a (b :: r) (by simp), collapse_sep sep hs,
        splitOn_cons _ _ _ (nc p a (h a (by simp)))]
      simp only [List.map_cons, norm_strip_collapse]
      have := ih (by simp) (fun q hq => h q (by simp [hq])) false
      simp only [List.map_cons] at this
      rw [this]

end Colosseum
