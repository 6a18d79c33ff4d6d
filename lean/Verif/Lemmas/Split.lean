import Verif.Lemmas.Str
import Verif.Lemmas.Digits

/-!
# Lemmas on `strip`, `split` and blank normalisation
-/

namespace Colosseum

/-- A string of blanks. -/
def Blank (b : PyStr) : Prop := ∀ c ∈ b, isSpacePy c = true

/-- A string without blanks. -/
def Solid (w : PyStr) : Prop := ∀ c ∈ w, isSpacePy c = false

theorem Blank.nil : Blank [] := by simp [Blank]

theorem dropWhile_blank {p : Char → Bool} (b y : PyStr) (hb : ∀ c ∈ b, p c = true) :
    (b ++ y).dropWhile p = y.dropWhile p := by
  induction b with
  | nil => rfl
  | cons c cs ih =>
    simp only [List.cons_append, List.dropWhile_cons, hb c (by simp), if_true]
    exact ih fun c hc => hb c (by simp [hc])

/-- `strip` removes surrounding blanks. -/
theorem strip_blanks (b y b' : PyStr) (hb : Blank b) (hb' : Blank b') :
    strip (b ++ y ++ b') = strip y := by
  have h1 : ∀ y, stripBy isSpacePy (b ++ y) = stripBy isSpacePy y := fun y => by
    simp only [stripBy, dropWhile_blank b y hb]
  have h2 : stripBy isSpacePy (y ++ b') = stripBy isSpacePy y := by
    simp only [stripBy]
    by_cases hall : ∀ c ∈ y, isSpacePy c = true
    · rw [dropWhile_blank y b' hall]
      have e1 : y.dropWhile isSpacePy = [] := by
        have := dropWhile_blank y [] hall
        simpa using this
      have e2 : b'.dropWhile isSpacePy = [] := by
        have := dropWhile_blank b' [] hb'
        simpa using this
      rw [e1, e2]
    · have : (y ++ b').dropWhile isSpacePy = y.dropWhile isSpacePy ++ b' := by
        clear h1
        induction y with
        | nil => simp at hall
        | cons c cs ih =>
          simp only [List.cons_append, List.dropWhile_cons]
          by_cases hc : isSpacePy c = true
          · simp only [hc, if_true]
            apply ih
            intro h
            apply hall
            intro d hd
            rcases List.mem_cons.1 hd with rfl | hd
            · exact hc
            · exact h d hd
          · simp [hc]
      rw [this, List.reverse_append, dropWhile_blank b'.reverse _ (fun c hc => hb' c (by simpa using hc))]
  rw [strip, List.append_assoc, h1, h2, ← strip]

theorem dropWhile_of_head {p : Char → Bool} (c : Char) (cs : PyStr) (h : p c = false) :
    (c :: cs).dropWhile p = c :: cs := by simp [h]

/-- `strip` keeps a string that starts and ends with a non-blank. -/
theorem strip_ends (c d : Char) (y : PyStr) (hc : isSpacePy c = false) (hd : isSpacePy d = false) :
    strip (c :: y ++ [d]) = c :: y ++ [d] := by
  rw [strip, stripBy_concat_of_not _ _ _ hd]
  simp [hc]

theorem strip_solid (w : PyStr) (h : Solid w) : strip w = w := stripBy_all _ _ h

theorem strip_nil : strip [] = [] := rfl

theorem strip_blank (b : PyStr) (h : Blank b) : strip b = [] := by
  have := strip_blanks b [] [] h Blank.nil
  simp only [List.append_nil] at this
  rw [this]; rfl

/-! ## split on a character -/

theorem splitOnAux_append (sep : Char) (a : PyStr) (ha : sep ∉ a) (rest cur : PyStr) :
    splitOnAux sep (a ++ sep :: rest) cur = (cur.reverse ++ a) :: splitOnAux sep rest [] := by
  induction a generalizing cur with
  | nil => simp [splitOnAux]
  | cons c cs ih =>
    have hc : (c == sep) = false := by
      simp only [beq_eq_false_iff_ne, ne_eq]
      rintro rfl; simp at ha
    simp only [List.cons_append, splitOnAux, hc, Bool.false_eq_true, if_false]
    rw [ih (by simp at ha; exact ha.2)]
    simp

theorem splitOnAux_none (sep : Char) (a : PyStr) (ha : sep ∉ a) (cur : PyStr) :
    splitOnAux sep a cur = [cur.reverse ++ a] := by
  induction a generalizing cur with
  | nil => simp [splitOnAux]
  | cons c cs ih =>
    have hc : (c == sep) = false := by
      simp only [beq_eq_false_iff_ne, ne_eq]
      rintro rfl; simp at ha
    simp only [splitOnAux, hc, Bool.false_eq_true, if_false]
    rw [ih (by simp at ha; exact ha.2)]
    simp

theorem splitOn_cons (sep : Char) (a rest : PyStr) (ha : sep ∉ a) :
    splitOn sep (a ++ sep :: rest) = a :: splitOn sep rest := by
  rw [splitOn, splitOnAux_append sep a ha]; simp [splitOn]

theorem splitOn_last (sep : Char) (a : PyStr) (ha : sep ∉ a) : splitOn sep a = [a] := by
  rw [splitOn, splitOnAux_none sep a ha]; simp

/-- The number of parts is one more than the number of separators. -/
theorem splitOnAux_length (sep : Char) (s cur : PyStr) :
    (splitOnAux sep s cur).length = s.count sep + 1 := by
  induction s generalizing cur with
  | nil => simp [splitOnAux]
  | cons c cs ih =>
    simp only [splitOnAux]
    split
    · rename_i h; simp only [beq_iff_eq] at h; subst h; simp [ih]
    · rename_i h
      rw [ih, List.count_cons_of_ne (by simpa using h)]

theorem splitOn_length (sep : Char) (s : PyStr) : (splitOn sep s).length = s.count sep + 1 :=
  splitOnAux_length sep s []

/-- Joining the parts gives the string back. -/
theorem splitOnAux_join (sep : Char) (s cur : PyStr) :
    joinWith sep (splitOnAux sep s cur) = cur.reverse ++ s := by
  induction s generalizing cur with
  | nil => simp [splitOnAux, joinWith]
  | cons c cs ih =>
    simp only [splitOnAux]
    split
    · rename_i h; simp only [beq_iff_eq] at h; subst h
      have := ih []
      cases he : splitOnAux c cs [] with
      | nil =>
        have := splitOnAux_length c cs []
        rw [he] at this; simp at this
      | cons x xs =>
        rw [he] at this
        simp [joinWith, this]
    · rw [ih]; simp

theorem splitOn_join (sep : Char) (s : PyStr) : joinWith sep (splitOn sep s) = s := by
  simpa [splitOn] using splitOnAux_join sep s []

/-- The parts do not contain the separator. -/
theorem splitOnAux_mem (sep : Char) (s cur : PyStr) (hc : sep ∉ cur) :
    ∀ p ∈ splitOnAux sep s cur, sep ∉ p := by
  induction s generalizing cur with
  | nil => simpa [splitOnAux] using hc
  | cons c cs ih =>
    simp only [splitOnAux]
    split
    · rename_i h
      intro p hp
      rcases List.mem_cons.1 hp with rfl | hp
      · simpa using hc
      · exact ih [] (by simp) p hp
    · rename_i h
      apply ih
      simp only [List.mem_cons, not_or]
      exact ⟨by rintro rfl; simp at h, hc⟩

theorem splitOn_mem (sep : Char) (s : PyStr) : ∀ p ∈ splitOn sep s, sep ∉ p :=
  splitOnAux_mem sep s [] (by simp)

theorem splitOn_joinWith (sep : Char) (ps : List PyStr) (hne : ps ≠ []) (h : ∀ p ∈ ps, sep ∉ p) :
    splitOn sep (joinWith sep ps) = ps := by
  induction ps with
  | nil => exact absurd rfl hne
  | cons a r ih =>
    cases r with
    | nil => exact splitOn_last sep a (h a (by simp))
    | cons b r =>
      simp only [joinWith]
      rw [splitOn_cons sep a _ (h a (by simp)), ih (by simp) fun p hp => h p (by simp [hp])]

/-! ## split on blanks -/

theorem splitWsAux_solid (w rest cur : PyStr) (hw : Solid w) :
    splitWsAux (w ++ rest) cur = splitWsAux rest (w.reverse ++ cur) := by
  induction w generalizing cur with
  | nil => rfl
  | cons c cs ih =>
    simp only [List.cons_append, splitWsAux, hw c (by simp), Bool.false_eq_true, if_false]
    rw [ih _ fun c hc => hw c (by simp [hc])]
    simp

theorem splitWsAux_blank (b rest : PyStr) (hb : Blank b) :
    splitWsAux (b ++ rest) [] = splitWsAux rest [] := by
  induction b with
  | nil => rfl
  | cons c cs ih =>
    simp only [List.cons_append, splitWsAux, hb c (by simp), if_true, List.isEmpty_nil]
    exact ih fun c hc => hb c (by simp [hc])

theorem splitWs_blank (b rest : PyStr) (hb : Blank b) : splitWs (b ++ rest) = splitWs rest :=
  splitWsAux_blank b rest hb

/-- A word followed by at least one blank. -/
theorem splitWs_cons (w b rest : PyStr) (hw : Solid w) (hne : w ≠ []) (hb : Blank b) (hbne : b ≠ []) :
    splitWs (w ++ b ++ rest) = w :: splitWs rest := by
  cases b with
  | nil => exact absurd rfl hbne
  | cons c cs =>
    rw [splitWs, List.append_assoc, splitWsAux_solid w _ [] hw]
    have : (w.reverse ++ []).isEmpty = false := by simpa using hne
    simp only [List.cons_append, splitWsAux, hb c (by simp), if_true, this, Bool.false_eq_true, if_false]
    rw [splitWsAux_blank cs rest fun c hc => hb c (by simp [hc])]
    simp [splitWs]

/-- A word at the end. -/
theorem splitWs_last (w b : PyStr) (hw : Solid w) (hne : w ≠ []) (hb : Blank b) :
    splitWs (w ++ b) = [w] := by
  cases b with
  | nil =>
    have := splitWsAux_solid w [] [] hw
    simp only [List.append_nil] at this
    simp [splitWs, this, splitWsAux, hne]
  | cons c cs =>
    have := splitWs_cons w (c :: cs) [] hw hne hb (by simp)
    simpa [splitWs, splitWsAux] using this

theorem splitWsAux_words (s cur : PyStr) (hc : Solid cur) :
    ∀ w ∈ splitWsAux s cur, Solid w ∧ w ≠ [] := by
  induction s generalizing cur with
  | nil =>
    simp only [splitWsAux]
    split
    · simp
    · rename_i h
      simp only [List.mem_singleton, forall_eq]
      exact ⟨fun c h' => hc c (by simpa using h'), by simpa using h⟩
  | cons c cs ih =>
    simp only [splitWsAux]
    split
    · split
      · exact ih [] (by simp [Solid])
      · rename_i h
        intro w hw
        rcases List.mem_cons.1 hw with rfl | hw
        · exact ⟨fun c h' => hc c (by simpa using h'), by simpa using h⟩
        · exact ih [] (by simp [Solid]) w hw
    · rename_i h
      apply ih
      intro d hd
      rcases List.mem_cons.1 hd with rfl | hd
      · simpa using h
      · exact hc d hd

/-- The words of a string are non-empty and contain no blanks. -/
theorem splitWs_words (s : PyStr) : ∀ w ∈ splitWs s, Solid w ∧ w ≠ [] :=
  splitWsAux_words s [] (by simp [Solid])

theorem splitWs_map_strip (s : PyStr) : (splitWs s).map strip = splitWs s := by
  have : ∀ w ∈ splitWs s, strip w = w := fun w hw => strip_solid w (splitWs_words s w hw).1
  calc (splitWs s).map strip = (splitWs s).map id := List.map_congr_left this
    _ = splitWs s := List.map_id _

/-! ## blank normalisation: `" ".join(s.split())` -/

/-- Blank runs collapsed to one space; `prev` tells that a blank precedes. -/
def collapse : Bool → PyStr → PyStr
  | _, [] => []
  | prev, c :: cs =>
    if isSpacePy c then (if prev then collapse true cs else ' ' :: collapse true cs)
    else c :: collapse false cs

/-- `" ".join(s.split())`. -/
def norm (s : PyStr) : PyStr := joinWith ' ' (splitWs s)

/-- Whether the string ends in a blank (`prev` if empty). -/
def endBlank : Bool → PyStr → Bool
  | prev, [] => prev
  | _, c :: cs => endBlank (isSpacePy c) cs

theorem collapse_append (p : Bool) (x y : PyStr) :
    collapse p (x ++ y) = collapse p x ++ collapse (endBlank p x) y := by
  induction x generalizing p with
  | nil => rfl
  | cons c cs ih =>
    simp only [List.cons_append, collapse, endBlank]
    by_cases hc : isSpacePy c = true
    · cases p <;> simp [hc, ih]
    · simp only [Bool.not_eq_true] at hc
      simp [hc, ih]

theorem collapse_solid (p : Bool) (w : PyStr) (hw : Solid w) : collapse p w = w := by
  induction w generalizing p with
  | nil => rfl
  | cons c cs ih =>
    simp only [collapse, hw c (by simp), Bool.false_eq_true, if_false]
    rw [ih _ fun c hc => hw c (by simp [hc])]

theorem endBlank_solid (p : Bool) (w : PyStr) (hw : Solid w) (hne : w ≠ []) : endBlank p w = false := by
  induction w generalizing p with
  | nil => exact absurd rfl hne
  | cons c cs ih =>
    simp only [endBlank, hw c (by simp)]
    cases cs with
    | nil => rfl
    | cons d ds => exact ih _ (fun c hc => hw c (by simp [hc])) (by simp)

theorem collapse_blank (b : PyStr) (hb : Blank b) : collapse true b = [] := by
  induction b with
  | nil => rfl
  | cons c cs ih =>
    simp only [collapse, hb c (by simp), if_true]
    exact ih fun c hc => hb c (by simp [hc])

theorem endBlank_blank (b : PyStr) (hb : Blank b) : endBlank true b = true := by
  induction b with
  | nil => rfl
  | cons c cs ih =>
    simp only [endBlank, hb c (by simp)]
    exact ih fun c hc => hb c (by simp [hc])

theorem isSpacePy_space : isSpacePy ' ' = true := by decide

theorem strip_append_space (x : PyStr) : strip (x ++ [' ']) = strip x := by
  have := strip_blanks [] x [' '] Blank.nil (by simp [Blank, isSpacePy_space])
  simpa using this

theorem joinWith_cons_ne (sep : Char) (a : PyStr) (r : List PyStr) (h : r ≠ []) :
    joinWith sep (a :: r) = a ++ sep :: joinWith sep r := by
  cases r with
  | nil => exact absurd rfl h
  | cons b r => rfl

/-- `" ".join(s.split())` is the collapsed string, stripped. -/
theorem norm_aux (s cur : PyStr) (hc : Solid cur) :
    joinWith ' ' (splitWsAux s cur) = strip (cur.reverse ++ collapse (cur.isEmpty) s) := by
  induction s generalizing cur with
  | nil =>
    simp only [splitWsAux, collapse, List.append_nil]
    split
    · rename_i h; simp only [List.isEmpty_iff] at h; subst h; rfl
    · rw [strip_solid _ fun c h => hc c (by simpa using h)]; rfl
  | cons c cs ih =>
    simp only [splitWsAux, collapse]
    by_cases hsp : isSpacePy c = true
    · simp only [hsp, if_true]
      by_cases he : cur.isEmpty = true
      · simp only [he, if_true]
        have h := ih [] (by simp [Solid])
        simp only [List.isEmpty_iff] at he
        subst he
        exact h
      · simp only [he, Bool.false_eq_true, if_false]
        have h := ih [] (by simp [Solid])
        simp only [List.isEmpty_nil, List.reverse_nil, List.nil_append] at h
        have hsol : Solid cur.reverse := fun c h' => hc c (by simpa using h')
        have hne : cur.reverse ≠ [] := by simpa using he
        by_cases hnil : splitWsAux cs [] = []
        · rw [hnil] at h ⊢
          simp only [joinWith] at h ⊢
          -- the rest is blank
          have hb : ∀ d ∈ collapse true cs, isSpacePy d = true := by
            by_contra hcon
            push Not at hcon
            obtain ⟨d, hd, hdn⟩ := hcon
            have : strip (collapse true cs) ≠ [] := by
              intro h0
              have := stripBy_nil_blank (collapse true cs) h0 d hd
              exact hdn this
            exact this h.symm
          have e := strip_blanks [] cur.reverse (' ' :: collapse true cs) Blank.nil (by
            intro d hd
            rcases List.mem_cons.1 hd with rfl | hd
            · exact isSpacePy_space
            · exact hb d hd)
          simp only [List.nil_append] at e
          rw [e, strip_solid _ hsol]
        · rw [joinWith_cons_ne _ _ _ hnil, h]
          have hz : strip (collapse true cs) ≠ [] := by
            rw [← h]
            intro h0
            cases hw : splitWsAux cs [] with
            | nil => exact hnil hw
            | cons a r =>
              have ha := (splitWsAux_words cs [] (by simp [Solid]) a (by simp [hw])).2
              rw [hw] at h0
              cases r with
              | nil => exact ha h0
              | cons b r => simp [joinWith] at h0
          exact (strip_word_space cur.reverse (collapse true cs) hsol hne hz
            (collapse_head cs)).symm
    · simp only [Bool.not_eq_true] at hsp
      simp only [hsp, Bool.false_eq_true, if_false]
      rw [ih (c :: cur) (by
        intro d hd
        rcases List.mem_cons.1 hd with rfl | hd
        · exact hsp
        · exact hc d hd)]
      simp
where
  stripBy_nil_blank (x : PyStr) (h : strip x = []) (d : Char) (hd : d ∈ x) : isSpacePy d = true := by
    by_contra hn
    simp only [Bool.not_eq_true] at hn
    obtain ⟨a, b, rfl⟩ := List.append_of_mem hd
    simp only [strip, stripBy, List.reverse_eq_nil_iff] at h
    have h1 : ∀ y : PyStr, y.dropWhile isSpacePy = [] → ∀ c ∈ y, isSpacePy c = true := by
      intro y hy c hc
      induction y with
      | nil => cases hc
      | cons e es ih =>
        by_cases he : isSpacePy e = true
        · rw [List.dropWhile_cons, if_pos he] at hy
          rcases List.mem_cons.1 hc with rfl | hc
          · exact he
          · exact ih hy hc
        · rw [List.dropWhile_cons, if_neg he] at hy; cases hy
    have h2 := h1 _ h
    have h3 : d ∈ (a ++ d :: b).dropWhile isSpacePy := by
      clear h h2 hd
      induction a with
      | nil => simp [hn]
      | cons e es ih =>
        simp only [List.cons_append, List.dropWhile_cons]
        split
        · exact ih
        · simp
    have := h2 d (by simpa using h3)
    rw [hn] at this; cases this
  collapse_head (cs : PyStr) : ∀ c r, collapse true cs = c :: r → isSpacePy c = false := by
    intro c r h
    induction cs with
    | nil => simp [collapse] at h
    | cons d ds ih =>
      simp only [collapse] at h
      by_cases hd : isSpacePy d = true
      · simp only [hd, if_true] at h; exact ih h
      · simp only [hd, Bool.false_eq_true, if_false] at h
        cases h; simpa using hd
  strip_word_space (w x : PyStr) (hw : Solid w) (hne : w ≠ []) (hz : strip x ≠ [])
      (hh : ∀ c r, x = c :: r → isSpacePy c = false) :
      strip (w ++ ' ' :: x) = w ++ ' ' :: strip x := by
    cases w with
    | nil => exact absurd rfl hne
    | cons a w =>
      have ha := hw a (by simp)
      cases x with
      | nil => exact absurd rfl hz
      | cons b x =>
        have hb := hh b x rfl
        have e1 : strip (a :: w ++ ' ' :: b :: x)
            = ((a :: w ++ ' ' :: b :: x).reverse.dropWhile isSpacePy).reverse := by
          simp only [strip, stripBy]
          rw [List.cons_append, dropWhile_of_head a _ ha]
        have e2 : strip (b :: x) = ((b :: x).reverse.dropWhile isSpacePy).reverse := by
          simp only [strip, stripBy]
          rw [dropWhile_of_head b x hb]
        have e3 : ((b :: x).reverse ++ ([' '] ++ (a :: w).reverse)).dropWhile isSpacePy
            = (b :: x).reverse.dropWhile isSpacePy ++ ([' '] ++ (a :: w).reverse) := by
          rw [List.dropWhile_append]
          rw [if_neg]
          intro h
          rw [List.isEmpty_iff] at h
          apply hz
          rw [e2, h]; rfl
        rw [e1, e2]
        have e4 : (a :: w ++ ' ' :: b :: x).reverse = (b :: x).reverse ++ ([' '] ++ (a :: w).reverse) := by
          simp
        rw [e4, e3]
        simp

theorem norm_eq (s : PyStr) : norm s = strip (collapse true s) := by
  simpa [norm, splitWs] using norm_aux s [] (by simp [Solid])

theorem norm_collapse_false (s : PyStr) : strip (collapse false s) = norm s := by
  rw [norm_eq]
  cases s with
  | nil => rfl
  | cons c cs =>
    simp only [collapse]
    split
    · have := strip_blanks [' '] (collapse true cs) [] (by simp [Blank, isSpacePy_space]) Blank.nil
      simpa using this
    · rfl

theorem norm_strip_collapse (p : Bool) (s : PyStr) : strip (collapse p s) = norm s := by
  cases p
  · exact norm_collapse_false s
  · exact (norm_eq s).symm

/-- A solid word surrounded by blanks. -/
theorem norm_word (b w b' : PyStr) (hb : Blank b) (hw : Solid w) (hb' : Blank b') :
    norm (b ++ w ++ b') = w := by
  simp only [norm]
  rw [List.append_assoc, splitWs_blank b _ hb]
  by_cases hne : w = []
  · subst hne
    have := splitWs_blank b' [] hb'
    simp only [List.append_nil] at this
    rw [List.nil_append, this]; rfl
  · rw [splitWs_last w b' hw hne hb']; rfl

end Colosseum
