import Verif.Lemmas.Print
import Verif.Spec.Print
import Verif.Props.Names

/-!
# C69: the text of a value can be assigned; C04, C17, C35 with Python's `repr` of floats
-/

namespace Colosseum

/-! ## C04 and C17 for binary64 floats -/

/-- C04 with Python's floats and their `repr`, without assumptions about either. Full statement: `units(str(u)) == u` for every unit object with a
finite magnitude. What is missing: integer magnitudes that no float equals. -/
theorem C04_binary64_partial (k : UKind) (n : Num) (hn : n.Binary64) :
    ∃ s w, CUnit.repr (pyRepr .b64) ⟨k, .fin n⟩ = .ok s ∧ units .b64 (.str s) = .ok w ∧ w.pyEq ⟨k, .fin n⟩ = true :=
  C04_print_parse_partial .b64 b64_laws _ k n hn fun q h => ((printable_b64 hn).2 q h).1

example : CUnit.repr (pyRepr .b64) ⟨.len .px, .fin (.flt (FP.b64.rnd (1 / 10)))⟩ = .ok (lit "0.1px") := by decide +kernel

/-- C17 with Python's floats. Full statement: printing and re-parsing any rect gives an equal rect. What is missing: as for C04. -/
theorem C17_binary64_partial (ka kb kc kd : UKind) (a b c d : Num) (ha : a.Binary64) (hb : b.Binary64) (hc : c.Binary64) (hd : d.Binary64) :
    ∃ s v, rectStr (pyRepr .b64) ⟨ka, .fin a⟩ ⟨kb, .fin b⟩ ⟨kc, .fin c⟩ ⟨kd, .fin d⟩ = .ok s ∧ rect .b64 (.str s) = .ok v ∧
      v.pyEq (.rect ⟨ka, .fin a⟩ ⟨kb, .fin b⟩ ⟨kc, .fin c⟩ ⟨kd, .fin d⟩) = true :=
  C17_print_parse_partial .b64 b64_laws _ ka kb kc kd a b c d (printable_b64 ha) (printable_b64 hb) (printable_b64 hc) (printable_b64 hd)

/-! ## C69 -/

theorem sameNum_of_pyEq {x y : PyNum} (h : y.pyEq x = true) : EqualNum x y := by
  refine Or.inl ?_
  cases x <;> cases y <;> simp_all [PyNum.pyEq, Num.pyEq]

theorem sameUnit_of_pyEq {u v : CUnit} (h : v.pyEq u = true) : SameUnit u v := by
  simp only [CUnit.pyEq, Bool.and_eq_true, beq_iff_eq] at h
  exact ⟨h.1.symm, sameNum_of_pyEq h.2⟩

/-- A readable unit prints, without blanks, and the text reads as the same unit. -/
theorem unit_reads {u : CUnit} (h : u.Readable) : ∃ s w, u.repr (pyRepr .b64) = .ok s ∧ s ≠ [] ∧ NoBlank s ∧ units .b64 (.str s) = .ok w ∧
    SameUnit u w := by
  obtain ⟨k, x⟩ := u
  obtain ⟨n, rfl, hn⟩ := h
  obtain ⟨s, w, h1, h2, h3⟩ := C04_binary64_partial k n hn
  refine ⟨s, w, h1, ?_, ?_, h2, sameUnit_of_pyEq h3⟩
  · rintro rfl
    simp only [CUnit.repr, Except.ok.injEq, List.append_eq_nil_iff] at h1
    have := h1.2
    revert this
    rcases k with k | k <;> cases k <;> decide
  · intro c hc
    have := repr_chars (pyRepr .b64) k n s (fun q _ => pyRepr_chars _ _) h1 c hc
    exact (isSpacePy_false_iff c).1 this.1

theorem intLit_spaced (i : Int) : IntLit (' ' :: intStr i) i := by
  obtain ⟨b, g, m, b', neg, ds, hb, hb', hg, hm, e, h⟩ := parseInt_iff.1 (parseInt_intStr i)
  refine ⟨' ' :: b, g, m, b', neg, ds, ?_, hb', hg, hm, by rw [e]; simp, h⟩
  intro c hc
  rcases List.mem_cons.1 hc with rfl | hc
  · decide
  · exact hb c hc

theorem floatLit_spaced {fp : FP} {s : PyStr} {x : PyNum} (h : FloatLit fp s x) : FloatLit fp (' ' :: s) x := by
  obtain ⟨b, g, m, b', neg, hb, hb', hg, hm, e⟩ := h
  refine ⟨' ' :: b, g, m, b', neg, ?_, hb', hg, hm, by rw [e]; simp⟩
  intro c hc
  rcases List.mem_cons.1 hc with rfl | hc
  · decide
  · exact hb c hc

theorem num_reads {P : Printer} (hP : P.reprFloat = pyRepr .b64) (a : PyNum) (ha : ∀ n, a = .fin n → n.Binary64) :
    ∃ a', FloatLit .b64 (P.num a) a' ∧ EqualNum a a' := by
  cases a with
  | fin n =>
    have hn := ha n rfl
    cases n with
    | int i =>
      refine ⟨_, parseFloat_iff.1 (parseFloat_intStr .b64 i), Or.inl ?_⟩
      have : FP.b64.rnd (i : Rat) = (i : Rat) := hn
      rw [this]
      simp [PyNum.pyEq, Num.pyEq, Num.val]
    | flt q =>
      have hn : round53 q = q := hn
      refine ⟨.fin (.flt q), by simp only [Printer.num, hP]; exact pyRepr_reads hn, Or.inl ?_⟩
      simp [PyNum.pyEq, Num.pyEq]
  | inf neg =>
    cases neg
    · exact ⟨.inf false, parseFloat_iff.1 (show parseFloat .b64 (lit "inf") = _ by decide +kernel), Or.inl rfl⟩
    · exact ⟨.inf true, parseFloat_iff.1 (show parseFloat .b64 (lit "-inf") = _ by decide +kernel), Or.inl rfl⟩
  | nan => exact ⟨.nan, parseFloat_iff.1 (show parseFloat .b64 (lit "nan") = _ by decide +kernel), Or.inr ⟨rfl, rfl⟩⟩

theorem hexDigit_table : ∀ k < 16, (hexDigit k, k) ∈ hexTable := by decide

theorem hexText_length (w n : Nat) : (hexText w n).length = w := by
  induction w generalizing n with
  | zero => rfl
  | succ w ih => simp [hexText, ih]

theorem hexText_number (w n : Nat) (h : n < 16 ^ w) : HexNumber (hexText w n) n := by
  induction w generalizing n with
  | zero =>
    have : n = 0 := by simpa using h
    subst this
    exact .nil
  | succ w ih =>
    have h1 : n / 16 < 16 ^ w := by rw [Nat.div_lt_iff_lt_mul (by norm_num)]; rw [pow_succ] at h; exact h
    have := HexNumber.digit _ _ _ _ (ih _ h1) (hexDigit_table (n % 16) (Nat.mod_lt _ (by norm_num)))
    rw [Nat.div_add_mod] at this
    exact this

theorem hexText_noBlank (w n : Nat) : NoBlank (hexText w n) := by
  induction w generalizing n with
  | zero => intro c hc; cases hc
  | succ w ih =>
    intro c hc
    rcases List.mem_append.1 hc with hc | hc
    · exact ih _ c hc
    · cases List.mem_singleton.1 hc
      have : ∀ k < 16, hexDigit k ∉ blankChars := by decide
      exact this _ (Nat.mod_lt _ (by norm_num))

/-- Every character is shown in Python notation. -/
theorem quotedChar_reads (P : Printer) {q : Char} (hq : q = '\'' ∨ q = '"') (c : Char) {t x : PyStr} (h : Quoted q t x) :
    Quoted q (P.quotedChar q c ++ t) (c :: x) ∧ (c ≠ ' ' → NoBlank (P.quotedChar q c)) := by
  have bs : '\\' ∉ blankChars := by decide
  have hex : ∀ {e : Char} {k : Nat}, (e, k) ∈ [('x', 2), ('u', 4), ('U', 8)] → c.toNat < 16 ^ k →
      Quoted q ('\\' :: e :: hexText k c.toNat ++ t) (c :: x) ∧ (c ≠ ' ' → NoBlank ('\\' :: e :: hexText k c.toNat)) := by
    intro e k hk hc
    refine ⟨.hex e k _ c t x hk (hexText_length _ _) (hexText_number _ _ hc) h, fun _ y hy => ?_⟩
    rcases List.mem_cons.1 hy with rfl | hy
    · exact bs
    rcases List.mem_cons.1 hy with rfl | hy
    · simp only [List.mem_cons, Prod.mk.injEq, List.not_mem_nil, or_false] at hk
      rcases hk with ⟨rfl, _⟩ | ⟨rfl, _⟩ | ⟨rfl, _⟩ <;> decide
    · exact hexText_noBlank _ _ y hy
  have esc : ∀ {e : Char}, (e, c) ∈ pyEscapes → Quoted q (['\\', e] ++ t) (c :: x) ∧ (c ≠ ' ' → NoBlank ['\\', e]) := by
    intro e he
    refine ⟨.escape e c t x he h, fun _ y hy => ?_⟩
    have : ∀ p ∈ pyEscapes, p.1 ∉ blankChars := by decide
    simp only [List.mem_cons, List.not_mem_nil, or_false] at hy
    rcases hy with rfl | rfl
    · exact bs
    · exact this _ he
  have one : c ≠ q → c ≠ '\\' → c ≠ '\t' → ¬ c.toNat < 32 → isWideBlank c = false → Quoted q ([c] ++ t) (c :: x) ∧ (c ≠ ' ' → NoBlank [c]) := by
    intro h1 h2 h3 h4 h6
    refine ⟨.char c t x h1 h2 ?_ ?_ ?_ h, fun h5 y hy => ?_⟩
    iterate 3 (rintro rfl; exact h4 (by decide))
    cases List.mem_singleton.1 hy
    intro hb
    have : ∀ d ∈ blankChars, d = ' ' ∨ d.toNat < 32 ∨ d ∈ wideSpaces := by decide +kernel
    rcases this c hb with e | e | e
    · exact h5 e
    · exact h4 e
    · rw [isWideBlank_iff.2 e] at h6; cases h6
  unfold Printer.quotedChar
  split
  · rename_i hc
    refine esc ?_
    rcases hc with rfl | rfl
    · rcases hq with rfl | rfl <;> decide
    · decide
  rename_i hc
  split
  · rename_i e; subst e; exact esc (e := 't') (by decide)
  rename_i ht
  split
  · rename_i e; subst e; exact esc (e := 'n') (by decide)
  split
  · rename_i e; subst e; exact esc (e := 'r') (by decide)
  have hc1 : c ≠ q := fun e => hc (Or.inl e)
  have hc2 : c ≠ '\\' := fun e => hc (Or.inr e)
  split
  · rename_i h1
    exact hex (by simp) (by omega)
  rename_i h32
  split
  · refine one hc1 hc2 ht (by omega) ?_
    cases hw : isWideBlank c with
    | false => rfl
    | true => have := isWideBlank_ge hw; omega
  unfold Printer.reprChar
  split
  · rename_i hp
    exact one hc1 hc2 ht (by omega) (by simp at hp; exact hp.2)
  split
  · exact hex (by simp) (by omega)
  split
  · exact hex (by simp) (by omega)
  · refine hex (by simp) ?_
    have := c.valid
    have hv : c.toNat < 1114112 := by
      rcases this with h | h
      · have : c.toNat < 0xd800 := h
        omega
      · exact h.2
    omega

/-- The text of a quote is a quoted word. -/
theorem quote_word (P : Printer) (s : PyStr) : QuotedWord (P.strRepr s) s := by
  unfold Printer.strRepr
  refine ⟨_, s.flatMap (P.quotedChar _), ?_, rfl, ?_⟩
  · split
    · exact Or.inr rfl
    · exact Or.inl rfl
  · generalize hq : (if '\'' ∈ s ∧ '"' ∉ s then '"' else '\'') = q
    have hq : q = '\'' ∨ q = '"' := by
      rw [← hq]; split
      · exact Or.inr rfl
      · exact Or.inl rfl
    clear * - hq
    induction s with
    | nil => exact .nil
    | cons c s ih => rw [List.flatMap_cons]; exact (quotedChar_reads P hq c ih).1

/-- C69. In the text of a quote, every string is shown in the notation of Python, and the notation is that of no other string. -/
theorem C69_notation (P : Printer) (s : PyStr) : QuotedWord (P.strRepr s) s ∧ ∀ x, QuotedWord (P.strRepr s) x → x = s := by
  refine ⟨quote_word P s, fun x hx => ?_⟩
  have h1 := simpleLit_quoted _ _ (quote_word P s)
  rw [simpleLit_quoted _ _ hx] at h1
  cases h1; rfl

/-- Both quotes, a backslash, a control character and a character that cannot be printed. -/
example : (⟨fun _ => [], fun _ => false, fun _ => .error .type⟩ : Printer).strRepr ['\'', '"', '\\', '\x01', '\u200b'] =
    lit "'\\'\"\\\\\\x01\\u200b'" := by decide

/-- The text of a quote without spaces is a quoted word without blanks. -/
theorem quote_reads {P : Printer} {s : PyStr} (h : QuoteReadable (.str s)) : QuotedWord (P.strRepr s) s ∧ NoBlank (P.strRepr s) := by
  refine ⟨quote_word P s, ?_⟩
  have h : ' ' ∉ s := h
  unfold Printer.strRepr
  generalize hq : (if '\'' ∈ s ∧ '"' ∉ s then '"' else '\'') = q
  have hq : q = '\'' ∨ q = '"' := by
    rw [← hq]; split
    · exact Or.inr rfl
    · exact Or.inl rfl
  intro c hc
  have qb : q ∉ blankChars := by rcases hq with rfl | rfl <;> decide
  simp only [List.cons_append, List.mem_cons, List.mem_append, List.not_mem_nil, or_false, List.mem_flatMap] at hc
  rcases hc with rfl | ⟨d, hd, hc⟩ | rfl
  · exact qb
  · exact (quotedChar_reads P hq d (.nil : Quoted q [] [])).2 (fun e => h (e ▸ hd)) c hc
  · exact qb

theorem quotes_reads (E : Env) {P : Printer} {q : List (QVal × QVal)} (hne : q ≠ [])
    (hn : ∀ p ∈ q, p.1.nonEmpty ∧ p.2.nonEmpty)
    (h : ∀ p ∈ q, QuoteReadable p.1 ∧ QuoteReadable p.2) :
    quotes E (.str (P.quotes q)) = .ok (.quotes q) := by
  obtain ⟨ps, rfl⟩ : ∃ ps : List (PyStr × PyStr), q = ps.map fun p => (.str p.1, .str p.2) := by
    clear hne hn
    induction q with
    | nil => exact ⟨[], rfl⟩
    | cons p q ih =>
      obtain ⟨ps, e⟩ := ih fun p hp => h p (List.mem_cons_of_mem _ hp)
      obtain ⟨h1, h2⟩ := h p (by simp)
      obtain ⟨a, b⟩ := p
      cases a with
      | other => exact h1.elim
      | str a =>
        cases b with
        | other => exact h2.elim
        | str b => exact ⟨(a, b) :: ps, by simp [e]⟩
  have hw : ∀ w ∈ (ps.map fun p : PyStr × PyStr => ((.str p.1, .str p.2) : QVal × QVal)).flatMap (fun p => [P.qval p.1, P.qval p.2]),
      NoBlank w ∧ w ≠ [] := by
    intro w hw
    simp only [List.mem_flatMap] at hw
    obtain ⟨p, hp, hw⟩ := hw
    obtain ⟨x, hx, rfl⟩ := List.mem_map.1 hp
    obtain ⟨h1, h2⟩ := h _ hp
    simp only [Printer.qval, List.mem_cons, List.not_mem_nil, or_false] at hw
    rcases hw with rfl | rfl
    · exact ⟨(quote_reads h1).2, by simp [Printer.strRepr]⟩
    · exact ⟨(quote_reads h2).2, by simp [Printer.strRepr]⟩
  have hi : QuoteItems (.str (P.quotes (ps.map fun p => (.str p.1, .str p.2)))) (ps.flatMap fun p => [p.1, p.2]) := by
    refine .words _ _ _ (words_intercalate _ hw) ?_
    clear hw hn hne
    induction ps with
    | nil => exact .nil
    | cons p ps ih =>
      have := h _ (List.mem_map.2 ⟨p, List.mem_cons_self, rfl⟩)
      simp only [List.map_cons, List.flatMap_cons, List.cons_append, List.nil_append]
      exact .cons (quote_reads this.1).1 (.cons (quote_reads this.2).1 (ih fun x hx => h x (by simp only [List.map_cons]; exact List.mem_cons_of_mem _ hx)))
  obtain ⟨hq, hv⟩ := quotes_items E _ _ hi
  have hp : ∀ (v : Val) (ps : List (PyStr × PyStr)), (∀ p ∈ ps, p.1 ≠ [] ∧ p.2 ≠ []) →
      quotePairs v ((ps.flatMap fun p => [p.1, p.2]).map fun x => .ok (.str x)) = .ok (ps.map fun p => (.str p.1, .str p.2)) := by
    intro v ps
    induction ps with
    | nil => intro _; rfl
    | cons p ps ih =>
      intro hne
      obtain ⟨h1, h2⟩ := hne p (by simp)
      have hc : checkQuoteLen v (.str p.1) (.str p.2) = .ok () := by
        obtain ⟨a, b⟩ := p
        cases a with
        | nil => exact absurd rfl h1
        | cons c a =>
          cases b with
          | nil => exact absurd rfl h2
          | cons d b => rfl
      simp only [List.flatMap_cons, List.cons_append, List.nil_append, List.map_cons, quotePairs, hc,
        ih fun x hx => hne x (List.mem_cons_of_mem _ hx)]
  have hl : (ps.flatMap fun p => [p.1, p.2]).length = 2 * ps.length := by
    rw [List.length_flatMap]; simp; omega
  have h0 : 0 < ps.length := by
    cases ps with
    | nil => exact absurd rfl hne
    | cons _ _ => simp
  rw [hq, quotesOf, if_pos (by simp only [List.length_map, hl]; simp; omega), hp _ _ ?_]
  intro p hp
  have := hn _ (List.mem_map.2 ⟨p, hp, rfl⟩)
  exact this

/-- A text of a cursor item, possibly after a blank. -/
def ItemText (x : CurItem) (t : PyStr) : Prop := ∃ b, AllBlank b ∧ t = b ++ cursorItemStr x

theorem spaced_texts (xs : List CurItem) : List.Forall₂ ItemText xs (spaced (xs.map cursorItemStr)) := by
  have blankSp : AllBlank [' '] := by unfold AllBlank; decide
  cases xs with
  | nil => exact .nil
  | cons x xs =>
    refine .cons ⟨[], by simp [AllBlank], rfl⟩ ?_
    induction xs with
    | nil => exact .nil
    | cons y ys ih => exact .cons ⟨[' '], blankSp, rfl⟩ ih

theorem itemText_url {r : Ref} {x t : PyStr} (h : ItemText (.uri r x) t) : UrlText t x ∧ UrlForm t := by
  obtain ⟨b, hb, rfl⟩ := h
  have nb : AllBlank [] := by simp [AllBlank]
  constructor
  · have := UrlText.quoted '"' b [] x [] [] (Or.inr rfl) hb nb nb nb
    convert this using 1
    have hl : lit "url(\"" = lit "url(" ++ ['"'] := rfl
    have hr : lit "\")" = ['"'] ++ lit ")" := rfl
    simp only [cursorItemStr, uriShow, hl, hr, List.append_nil, List.append_assoc]
  · refine ⟨b, ['"'] ++ x ++ ['"'], [], hb, nb, ?_⟩
    have hl : lit "url(\"" = lit "url(" ++ ['"'] := rfl
    have hr : lit "\")" = ['"'] ++ lit ")" := rfl
    simp only [cursorItemStr, uriShow, hl, hr, List.append_nil, List.append_assoc]

theorem itemText_word {w : String} (hw : w ∈ cssCursors) {t : PyStr} (h : ItemText (.opt w.toList) t) : CursorWord t w.toList := by
  obtain ⟨b, hb, rfl⟩ := h
  exact ⟨⟨w, hw, rfl⟩, b, [], hb, by simp [AllBlank], by simp [cursorItemStr]⟩

theorem item_same {x y : CurItem} {t : PyStr} (hx : (∃ r u, x = .uri r u) ∨ ∃ w ∈ cssCursors, x = .opt w.toList) (h : ItemText x t)
    (hy : CursorItem t y) : SameItem x y := by
  rcases hx with ⟨r, u, rfl⟩ | ⟨w, hw, rfl⟩
  · obtain ⟨h1, h2⟩ := itemText_url h
    cases hy with
    | keyword w' hk => exact absurd h2 (not_url_of_word ((cursorWord_iff _ _).1 hk).2)
    | url r' u' _ hu => rw [hu u h1]; exact .uri _ _ _
  · have hk := itemText_word hw h
    cases hy with
    | keyword w' hk' =>
      rw [((cursorWord_iff _ _).1 hk').1, ← ((cursorWord_iff _ _).1 hk).1]
      exact .opt _
    | url r' u' hf _ => exact absurd hf (not_url_of_word ((cursorWord_iff _ _).1 hk).2)

theorem forall₂_append_split {α β : Type} {R : α → β → Prop} {as bs : List α} {cs : List β} (h : List.Forall₂ R (as ++ bs) cs) :
    ∃ us vs, List.Forall₂ R as us ∧ List.Forall₂ R bs vs ∧ cs = us ++ vs := by
  induction as generalizing cs with
  | nil => exact ⟨[], cs, .nil, h, rfl⟩
  | cons a as ih =>
    cases h with
    | cons h1 h2 =>
      obtain ⟨us, vs, h3, h4, rfl⟩ := ih h2
      exact ⟨_ :: us, vs, .cons h1 h3, h4, rfl⟩

theorem items_same {xs : List CurItem} {ts : List PyStr} {ys : List CurItem}
    (hx : ∀ x ∈ xs, (∃ r u, x = .uri r u) ∨ ∃ w ∈ cssCursors, x = .opt w.toList) (h : List.Forall₂ ItemText xs ts)
    (hy : List.Forall₂ CursorItem ts ys) : List.Forall₂ SameItem xs ys := by
  induction h generalizing ys with
  | nil => cases hy; exact .nil
  | cons h _ ih =>
    cases hy with
    | cons h1 h2 => exact .cons (item_same (hx _ (by simp)) h h1) (ih (fun x hx' => hx x (by simp [hx'])) h2)

/-- The text of a cursor with at least one item and no commas in its urls. -/
theorem cursor_reads (at_ : List Nat) {xs : List CurItem} (hk : Kind.cursor.has (.cursor xs)) (hne : xs ≠ [])
    (hc : ∀ r x, CurItem.uri r x ∈ xs → ',' ∉ x) :
    ∃ ys, cursor at_ (.str (List.intercalate (lit ", ") (xs.map cursorItemStr))) = .ok (.cursor ys) ∧ List.Forall₂ SameItem xs ys := by
  obtain ⟨urls, kw, e, h1, h2, h3⟩ := hk
  cases e
  have nocomma : ∀ x ∈ urls ++ kw, ',' ∉ cursorItemStr x := by
    intro x hx
    rcases List.mem_append.1 hx with hx | hx
    · obtain ⟨r, y, rfl⟩ := h2 x hx
      have := hc r y (List.mem_append_left _ hx)
      simp only [cursorItemStr, uriShow, List.mem_append, not_or]
      exact ⟨⟨by decide, this⟩, by decide⟩
    · obtain ⟨w, hw, rfl⟩ := h3 x hx
      have : ∀ w ∈ cssCursors, ',' ∉ w.toList := by decide
      exact this w hw
  have ht : CursorTexts (.str (List.intercalate (lit ", ") ((urls ++ kw).map cursorItemStr))) (spaced ((urls ++ kw).map cursorItemStr)) := by
    rw [intercalate_spaced]
    refine .text _ ?_ ?_
    · cases h : urls ++ kw with
      | nil => exact absurd h hne
      | cons x r => simp [spaced]
    · generalize urls ++ kw = zs at nocomma
      cases zs with
      | nil => simp [spaced]
      | cons z zs =>
        intro p hp
        simp only [List.map_cons, spaced, List.map_map, List.mem_cons, List.mem_map, Function.comp] at hp
        rcases hp with rfl | ⟨y, hy, rfl⟩
        · exact nocomma z (by simp)
        · intro h
          rcases List.mem_cons.1 h with h | h
          · revert h; decide
          · exact nocomma y (by simp [hy]) h
  have hst := spaced_texts (urls ++ kw)
  generalize spaced ((urls ++ kw).map cursorItemStr) = ts at ht hst
  have hl : CursorList ts := by
    obtain ⟨us, ks, f1, f2, rfl⟩ := forall₂_append_split hst
    refine ⟨us, ks, rfl, by rw [← f2.length_eq]; exact h1, ?_, ?_⟩
    · clear hst ht nocomma h1 h3 hne hc f2
      induction f1 with
      | nil => simp
      | cons h _ ih =>
        intro u hu
        rcases List.mem_cons.1 hu with rfl | hu
        · obtain ⟨r, y, rfl⟩ := h2 _ (List.mem_cons_self)
          exact (itemText_url h).2
        · exact ih (fun x hx => h2 x (List.mem_cons_of_mem _ hx)) u hu
    · clear hst ht nocomma h1 h2 hne hc f1
      induction f2 with
      | nil => simp
      | cons h _ ih =>
        intro u hu
        rcases List.mem_cons.1 hu with rfl | hu
        · obtain ⟨w, hw, rfl⟩ := h3 _ (List.mem_cons_self)
          exact ⟨_, itemText_word hw h⟩
        · exact ih (fun x hx => h3 x (List.mem_cons_of_mem _ hx)) u hu
  obtain ⟨r, hr⟩ := (C19_accepts_iff at_ _ ts ht).2 hl
  obtain ⟨ys, rfl, hy⟩ := C19_stored at_ _ ts ht r hr
  refine ⟨ys, hr, items_same ?_ hst hy⟩
  intro x hx
  rcases List.mem_append.1 hx with hx | hx
  · exact Or.inl (h2 x hx)
  · exact Or.inr (h3 x hx)

theorem pyEq_rect {v : Val} {a b c d : CUnit} (h : v.pyEq (.rect a b c d) = true) : SameVal (.rect a b c d) v := by
  cases v <;> simp only [Val.pyEq, Bool.and_eq_true, Bool.false_eq_true] at h
  exact .rect _ _ _ _ _ _ _ _ (sameUnit_of_pyEq h.1.1.1) (sameUnit_of_pyEq h.1.1.2) (sameUnit_of_pyEq h.1.2) (sameUnit_of_pyEq h.2)

/-- The text of a readable value of each kind is accepted by the parser of that kind, which makes the same value of it. -/
theorem kind_reads (E : Env) (hE : E.fp = .b64) (P : Printer) (hP : P.reprFloat = pyRepr .b64) (at_ : List Nat) (k : Kind) (v : Val)
    (hk : k.has v) (h : Readable v) :
    ∃ s w, P.str v = .ok s ∧ k.parse E at_ (.str s) = .ok w ∧ SameVal v w := by
  cases k with
  | length =>
    obtain ⟨u, rfl⟩ := hk
    cases h with
    | unit _ h =>
      obtain ⟨s, w, h1, _, _, h2, h3⟩ := unit_reads h
      exact ⟨s, .unit w, by simp only [Printer.str, hP, h1], by simp only [Kind.parse, hE, h2]; rfl, .unit _ _ h3⟩
  | color =>
    obtain ⟨r, c, rfl⟩ := hk
    cases h with
    | rgb _ x y z a h =>
      obtain ⟨a', h1, h2⟩ := num_reads hP a h
      have h3 := C13_rgba .b64 at_ (intStr x) (' ' :: intStr y) (' ' :: intStr z) (' ' :: P.num a) x y z a' (parseInt_iff.1 (parseInt_intStr x))
        (intLit_spaced y) (intLit_spaced z) (floatLit_spaced h1)
      refine ⟨P.color (.rgb x y z a), .color (.heap at_) (.rgb x y z a'), rfl, ?_, .rgb _ _ _ _ _ _ _ h2⟩
      rw [rgb_text]
      simp only [Kind.parse, hE]
      exact h3
  | integer =>
    obtain ⟨i, rfl⟩ := hk
    refine ⟨_, _, rfl, ?_, .int i⟩
    simp only [Printer.num, Kind.parse, isInteger, numericValidator, coerce, parseInt_intStr, belowMin, aboveMax]
    rfl
  | spacing =>
    obtain ⟨r, x, y, rfl⟩ := hk
    cases h with
    | spacing _ _ _ hx hy =>
      obtain ⟨s, w, h1, hs0, hsb, h2, h3⟩ := unit_reads hx
      cases y with
      | none =>
        refine ⟨s, .borderSpacing (.heap at_) w none, by simp only [Printer.str, borderSpacingStr, hP, h1], ?_, .one _ _ _ _ h3⟩
        have hw : Words s [s] := by
          have := words_intercalate [s] (by simpa using ⟨hsb, hs0⟩)
          simpa [List.intercalate] using this
        simp only [Kind.parse, hE]
        rw [borderSpacing_items _ _ _ _ (.str s [s] hw)]
        simp only [List.map_cons, List.map_nil, spacingOf, h2]
        rfl
      | some y =>
        obtain ⟨s', w', h1', hs0', hsb', h2', h3'⟩ := unit_reads (hy y rfl)
        refine ⟨s ++ lit " " ++ s', .borderSpacing (.heap at_) w (some w'), ?_, ?_, .two _ _ _ _ _ _ h3 h3'⟩
        · simp only [Printer.str, borderSpacingStr, hP, h1, h1']; rfl
        · have hw : Words (s ++ lit " " ++ s') [s, s'] := by
            have := words_intercalate [s, s'] (by
              intro w hw
              simp only [List.mem_cons, List.not_mem_nil, or_false] at hw
              rcases hw with rfl | rfl
              · exact ⟨hsb, hs0⟩
              · exact ⟨hsb', hs0'⟩)
            simpa [List.intercalate, List.intersperse] using this
          simp only [Kind.parse, hE]
          rw [borderSpacing_items _ _ _ _ (.str _ _ hw)]
          simp only [List.map_cons, List.map_nil, spacingOf, h2, h2']
          rfl
  | rect =>
    obtain ⟨a, b, c, d, rfl⟩ := hk
    cases h with
    | rect _ _ _ _ ha hb hc hd =>
      obtain ⟨ka, xa⟩ := a
      obtain ⟨kb, xb⟩ := b
      obtain ⟨kc, xc⟩ := c
      obtain ⟨kd, xd⟩ := d
      obtain ⟨na, rfl, ha⟩ := ha
      obtain ⟨nb, rfl, hb⟩ := hb
      obtain ⟨nc, rfl, hc⟩ := hc
      obtain ⟨nd, rfl, hd⟩ := hd
      obtain ⟨s, w, h1, h2, h3⟩ := C17_binary64_partial ka kb kc kd na nb nc nd ha hb hc hd
      exact ⟨s, w, by simp only [Printer.str, hP, h1], by simp only [Kind.parse, hE, h2], pyEq_rect h3⟩
  | quotes =>
    obtain ⟨q, rfl, h1, h2⟩ := hk
    cases h with
    | quotes _ h => exact ⟨_, _, rfl, quotes_reads E h1 h2 h, .quotes q⟩
  | cursor =>
    have hk' := hk
    obtain ⟨urls, kw, rfl, _⟩ := hk'
    cases h with
    | cursor _ h1 h2 =>
      obtain ⟨ys, h3, h4⟩ := cursor_reads at_ hk h1 h2
      exact ⟨_, _, rfl, h3, .cursor _ _ h4⟩

/-- C69. Full statement: for every value a property can hold, assigning its text is accepted and stores the same value. What is missing: `None`
and the `default` object, `hsl` colours, magnitudes that are infinite, not a number or integers no float equals, quotes with spaces,
urls with commas, and the empty cursor (see `Readable` and the refutations below). Binary64 floats and Python's `repr`. -/
theorem C69_assign_text_partial (E : Env) (hE : E.fp = .b64) (P : Printer) (hP : P.reprFloat = pyRepr .b64) (at_ : List Nat) (d : Decl)
    (hd : Reachable E d) (hl : d.link ≠ .noBox) (p : LH) (v : Val) (hv : Canonical p v) (h : Readable v) :
    ∃ s d' w, P.str v = .ok s ∧ d.setAttr E at_ (.lh p) (.str s) = (d', none) ∧ SameVal v w ∧
      (d'.css.read p = .ok w ∨ d' = d ∧ ∃ u, d.css.read p = .ok u ∧ w.pyEq u = true) := by
  have key : ∃ s w, P.str v = .ok s ∧ p.choices.validate E at_ (.str s) = .ok w ∧ SameVal v w := by
    rcases hv with hv | ⟨k, hk, hv⟩
    · cases h with
      | word s =>
        refine ⟨s, .str s, rfl, (validate_iff ..).2 (Or.inl ((keywordOf_iff ..).2 ?_)), .word s⟩
        rw [keywords_noneOf p _ hv]
        exact ⟨rfl, hv⟩
      | _ => exact absurd rfl (keywords_code p _ hv)
    · obtain ⟨s, w, h1, h2, h3⟩ := kind_reads E hE P hP at_ k v hv h
      exact ⟨s, w, h1, (validate_iff ..).2 (Or.inr ⟨k, hk, h2⟩), h3⟩
  obtain ⟨s, w, h1, h2, h3⟩ := key
  have hok : (d.setAttr E at_ (.lh p) (.str s)).2 = none := (C57_accepts E at_ d hl p _).2 ⟨w, (validate_iff ..).1 h2⟩
  have hset : d.setAttr E at_ (.lh p) (.str s) = ((d.setAttr E at_ (.lh p) (.str s)).1, none) := Prod.ext rfl hok
  obtain ⟨w', h4, h5⟩ := C22_read_back E at_ d _ hd p _ hset
  have : w' = w := by
    have := (validate_iff ..).2 h4
    rw [h2] at this
    cases this; rfl
  subst this
  exact ⟨s, _, w', h1, hset, h3, h5⟩
/-- A border width of 0.1 pixels, a half transparent red, two pairs of quotes and a cursor with a url are covered. -/
example : Canonical (.borderWidth .top) (.unit ⟨.len .px, .fin (.flt (FP.b64.rnd (1 / 10)))⟩) ∧
    Readable (.unit ⟨.len .px, .fin (.flt (FP.b64.rnd (1 / 10)))⟩) :=
  ⟨Or.inr ⟨_, rfl, _, rfl⟩, .unit _ ⟨_, rfl, by unfold Num.Binary64; decide +kernel⟩⟩
example (r : Ref) : Canonical .color (.color r (.rgb 255 0 0 (.fin (.flt (1 / 2))))) ∧
    Readable (.color r (.rgb 255 0 0 (.fin (.flt (1 / 2))))) :=
  ⟨Or.inr ⟨_, rfl, _, _, rfl⟩, .rgb _ _ _ _ _ (by rintro n ⟨⟩; unfold Num.Binary64; decide +kernel)⟩
example : Canonical .quotes (.quotes [(.str (lit "<<"), .str (lit ">>")), (.str (lit "\"'"), .str (lit "\\\t\x00"))]) ∧
    Readable (.quotes [(.str (lit "<<"), .str (lit ">>")), (.str (lit "\"'"), .str (lit "\\\t\x00"))]) := by
  refine ⟨Or.inr ⟨_, rfl, _, rfl, by simp, ?_⟩, .quotes _ ?_⟩
  · simp [QVal.nonEmpty, lit]
  · intro p hp
    simp only [List.mem_cons, List.not_mem_nil, or_false] at hp
    rcases hp with rfl | rfl <;> constructor <;> simp only [QuoteReadable] <;> decide
example (r : Ref) : Canonical .cursor (.cursor [.uri r (lit "a b.png"), .opt (lit "help")]) ∧
    Readable (.cursor [.uri r (lit "a b.png"), .opt (lit "help")]) := by
  refine ⟨Or.inr ⟨_, rfl, [.uri r (lit "a b.png")], [.opt (lit "help")], rfl, by simp, by simp, ?_⟩, .cursor _ (by simp) ?_⟩
  · intro k hk
    simp only [List.mem_cons, List.not_mem_nil, or_false] at hk
    exact ⟨"help", by decide, hk⟩
  · intro r' x hx
    simp only [List.mem_cons, CurItem.uri.injEq, reduceCtorEq, List.not_mem_nil, or_false] at hx
    rw [hx.2]; decide

/-! ### What cannot be assigned back -/

/-- C69 is false for `None`: every property that can be `none` holds `None`, which prints as `None`, which the property refuses. -/
theorem C69_false_none (E : Env) (P : Printer) (at_ : List Nat) (d : Decl) (hl : d.link ≠ .noBox) (p : LH) (hp : "none" ∈ keywordNames p) :
    Canonical p .none ∧ P.str .none = .ok (lit "None") ∧ (d.setAttr E at_ (.lh p) (.str (lit "None"))).2 ≠ none := by
  refine ⟨Or.inl (List.mem_append_left _ (List.mem_map.2 ⟨"none", hp, rfl⟩)), rfl, ?_⟩
  intro h
  obtain ⟨w, h⟩ := (C57_accepts E at_ d hl p _).1 h
  rcases h with h | ⟨k, h1, h2⟩
  · have h := ((keywordOf_iff ..).1 h).2
    have hc : ∀ p ∈ allLH, ∀ c ∈ (keywords p).map Val.code, c ≠ (2, lit "None") := by decide +kernel
    exact hc p (mem_allLH p) _ (List.mem_map_of_mem (f := Val.code) h) rfl
  · have hk : k = .length ∨ k = .quotes := by
      cases p <;> first
        | (cases h1; exact Or.inl rfl)
        | (cases h1; exact Or.inr rfl)
        | (cases h1; exact absurd hp (by simp [keywordNames]))
        | cases h1
    rcases hk with rfl | rfl
    · simp only [Kind.parse] at h2
      obtain ⟨u, hu, _⟩ := except_map_ok h2
      have := units_str_error (fp := E.fp) (s := lit "None") (by decide +kernel)
      rw [this] at hu
      cases hu
    · have : quotes E (.str (lit "None")) = .error .value := rfl
      simp only [Kind.parse] at h2
      rw [this] at h2
      cases h2

theorem num_no_comma {P : Printer} (hP : P.reprFloat = pyRepr .b64) (x : PyNum) : ',' ∉ P.num x := by
  have hf : ∀ q, ',' ∉ pyRepr .b64 q := fun q h => absurd (pyRepr_chars .b64 q _ h) (by decide)
  cases x with
  | fin n =>
    cases n with
    | int i =>
      intro h
      rcases intStr_mem i _ h with h | h <;> revert h <;> decide
    | flt q => simpa only [Printer.num, hP] using hf q
  | inf neg =>
    cases neg
    · show ',' ∉ lit "inf"; decide
    · show ',' ∉ lit "-inf"; decide
  | nan => show ',' ∉ lit "nan"; decide

/-- C69 is false for every `hsl` colour whose saturation is a float, as in all the parser makes: the text has a fraction where the parser wants an
integer. -/
theorem C69_false_hsl (E : Env) (P : Printer) (hP : P.reprFloat = pyRepr .b64) (at_ : List Nat) (d : Decl) (hl : d.link ≠ .noBox) (p : LH)
    (hp : kindOf p = some .color) (r : Ref) (h l : Num) (s : Rat) (hs : round53 s = s) (a : PyNum) :
    Canonical p (.color r (.hsl h (.flt s) l a)) ∧
    ∃ t, P.str (.color r (.hsl h (.flt s) l a)) = .ok t ∧ (d.setAttr E at_ (.lh p) (.str t)).2 ≠ none := by
  refine ⟨Or.inr ⟨_, hp, _, _, rfl⟩, _, rfl, ?_⟩
  intro hok
  obtain ⟨w, h' | ⟨k, h1, h2⟩⟩ := (C57_accepts E at_ d hl _ _).1 hok
  · have h' := ((keywordOf_iff ..).1 h').2
    have hc : ∀ p ∈ allLH, kindOf p = some .color → ∀ c ∈ (keywords p).map Val.code, c.2.head? ≠ some 'h' := by decide +kernel
    refine hc p (mem_allLH p) hp _ (List.mem_map_of_mem (f := Val.code) h') ?_
    rw [hsl_text, noneOf_str, if_neg]
    · rfl
    · intro e
      have := congrArg List.head? e
      revert this
      rw [show lit "hsla(" = 'h' :: lit "sla(" from rfl]
      simp [lit]
  · rw [hp] at h1
    cases h1
    simp only [Kind.parse, color] at h2
    rw [hsl_text, show [')'] = lit ")" from rfl, colorStr_hsla] at h2
    obtain ⟨c, hc, _⟩ := except_map_ok h2
    have sp : ∀ x, ',' ∉ P.num x → ',' ∉ ' ' :: P.num x := by
      intro x hx h
      rcases List.mem_cons.1 h with h | h
      · revert h; decide
      · exact hx h
    rw [hslaColor, show (5 : Nat) = (lit "hsla(").length from rfl, show lit ")" = [')'] from rfl, sliceInner_mid,
      splitOn4 (num_no_comma hP _) (sp _ (num_no_comma hP _)) (sp _ (num_no_comma hP _)) (sp _ (num_no_comma hP _))] at hc
    simp only at hc
    obtain ⟨_, _, hc⟩ := bind_ok hc
    obtain ⟨x, hx, _⟩ := bind_ok hc
    obtain ⟨i, hi, _⟩ := pctOf_iff.1 hx
    have hpt := hi.no_point
    simp only [Printer.num, hP, List.mem_cons, not_or] at hpt
    rcases pyRepr_point hs with h | h
    · exact hpt.1.2 h
    · exact hpt.2.2 h

example : round53 (1 / 2) = 1 / 2 := by decide +kernel

/-- C69 is false for infinite magnitudes, which `css.width = "infpx"` stores: printing raises `OverflowError`. -/
theorem C69_false_infinite (E : Env) (L : E.fp.Laws) (P : Printer) : ∃ d d', Reachable E d ∧
    d.setAttr E [] (.lh .width) (.str (lit "infpx")) = (d', none) ∧ d'.css .width = some (.unit ⟨.len .px, .inf false⟩) ∧
    P.str (.unit ⟨.len .px, .inf false⟩) = .error .overflow := by
  have hx : parseFloat E.fp (lit "inf") = some (.inf false) := rfl
  have hu : units E.fp (.str (lit "infpx")) = .ok ⟨.len .px, .inf false⟩ :=
    C02_suffix_exact E.fp L (lit "inf") "px" (.len .px) _ (by decide) (parseFloat_iff.1 hx)
  have hv : LH.width.choices.validate E [] (.str (lit "infpx")) = .ok (.unit ⟨.len .px, .inf false⟩) :=
    (validate_iff ..).2 (Or.inr ⟨.length, rfl, by simp only [Kind.parse, hu]; rfl⟩)
  have hset : (Decl.mk CSS.empty .unbound).setAttr E [] (.lh .width) (.str (lit "infpx")) =
      (⟨CSS.empty.store .width (.unit ⟨.len .px, .inf false⟩), .unbound⟩, none) := by
    simp only [Decl.setAttr, Decl.set, hv]
    rfl
  exact ⟨⟨CSS.empty, .unbound⟩, _, ⟨[], rfl⟩, hset, rfl, rfl⟩

/-- C69 is false for a quote with a blank, `[("a b", "c")]`: the text is split at the blank. -/
theorem C69_false_blank_quote (E : Env) (P : Printer) :
    quotes E (.seq false [.seq true [.str (lit "a b"), .str (lit "c")]]) = .ok (.quotes [(.str (lit "a b"), .str (lit "c"))]) ∧
    P.str (.quotes [(.str (lit "a b"), .str (lit "c"))]) = .ok (lit "'a b' 'c'") ∧ quotes E (.str (lit "'a b' 'c'")) = .error .value :=
  ⟨(quotes_items E _ _ (.groups false _ _ (.group true [lit "a b", lit "c"] [] [] .nil))).1, rfl, C18_false_blank E⟩

/-- C69 is false for a url with a comma and for the cursor without items. -/
theorem C69_false_cursor (P : Printer) (at_ : List Nat) :
    (∃ t, P.str (.cursor [.uri (.heap [0]) (lit "a,b")]) = .ok t ∧ cursor at_ (.str t) = .error .value) ∧
    cursor at_ (.seq false []) = .ok (.cursor []) ∧ P.str (.cursor []) = .ok [] ∧ cursor at_ (.str []) = .error .value :=
  ⟨⟨_, rfl, rfl⟩, rfl, rfl, rfl⟩

/-! ## C35: the text of a declaration -/

theorem lines_ok (P : Printer) (f : Val → PyStr) : ∀ xs : List (PyStr × Val), (∀ x ∈ xs, P.str x.2 = .ok (f x.2)) →
    P.lines xs = .ok (xs.map fun x => x.1 ++ lit ": " ++ f x.2)
  | [], _ => rfl
  | (n, v) :: r, h => by
    have h1 : P.str v = .ok (f v) := h (n, v) (by simp)
    simp only [Printer.lines, h1, lines_ok P f r fun x hx => h x (by simp [hx])]
    rfl

/-- C35: `str(css)` is `name: value` for each property in ascending order of the names, if every value prints. -/
theorem C35_text (P : Printer) (c : CSS) (f : Val → PyStr) (h : ∀ p v, c p = some v → P.str v = .ok (f v)) :
    P.css c = .ok (List.intercalate (lit "; ") (c.rendered.map fun x => x.1 ++ lit ": " ++ f x.2)) := by
  have := lines_ok P f c.rendered ?_
  · simp only [Printer.css, this]; rfl
  · rintro ⟨n, v⟩ hx
    obtain ⟨p, _, hp⟩ := ((C35_str_order c).1 n v).1 hx
    exact h p v hp

/-- Two properties, of which one is printed as `repr` prints the number in it. -/
example : ((⟨fun _ => [], fun _ => false, fun _ => .error .type⟩ : Printer).css
    ((CSS.empty.store .width (.unit ⟨.len .px, .fin (.int 8)⟩)).store .display (.str (lit "block")))).toOption = some (lit "display: block; width: 8px") := by
  decide +kernel

/-- A unit that cannot be printed: its magnitude is infinite or not a number. -/
def Odd (u : CUnit) : Prop := u.val = .nan ∨ ∃ neg, u.val = .inf neg

/-- The units inside a value. -/
def unitsOf : Val → List CUnit
  | .unit u => [u]
  | .rect a b c d => [a, b, c, d]
  | .borderSpacing _ h v => h :: v.toList
  | _ => []

theorem repr_error_iff {f : Rat → PyStr} {u : CUnit} : (∃ e, u.repr f = .error e) ↔ Odd u := by
  unfold CUnit.repr Odd
  cases u.val <;> simp

theorem repr_ok_iff {f : Rat → PyStr} {u : CUnit} : (∃ s, u.repr f = .ok s) ↔ ¬ Odd u := by
  rw [← repr_error_iff (f := f)]
  cases u.repr f <;> simp

/-- A value prints exactly if none of its units is infinite or not a number. -/
theorem str_ok_iff (P : Printer) (hP : ∀ v, ∃ s, P.object v = .ok s) (v : Val) : (∃ s, P.str v = .ok s) ↔ ∀ u ∈ unitsOf v, ¬ Odd u := by
  have no : ∀ v, unitsOf v = [] → (∃ s, P.str v = .ok s) → ((∃ s, P.str v = .ok s) ↔ ∀ u ∈ unitsOf v, ¬ Odd u) := by
    intro v h1 h2
    rw [h1]
    exact ⟨fun _ => by simp, fun _ => h2⟩
  cases v with
  | unit u => simp only [Printer.str, unitsOf, List.mem_singleton, forall_eq, repr_ok_iff]
  | rect a b c d =>
    simp only [Printer.str, unitsOf, List.mem_cons, List.not_mem_nil, or_false, forall_eq_or_imp, forall_eq]
    simp only [← repr_ok_iff (f := P.reprFloat)]
    constructor
    · rintro ⟨s, h⟩
      obtain ⟨x, hx, h⟩ := bind_ok h
      obtain ⟨y, hy, h⟩ := bind_ok h
      obtain ⟨z, hz, h⟩ := bind_ok h
      obtain ⟨w, hw, h⟩ := bind_ok h
      exact ⟨⟨x, hx⟩, ⟨y, hy⟩, ⟨z, hz⟩, ⟨w, hw⟩⟩
    · rintro ⟨⟨x, hx⟩, ⟨y, hy⟩, ⟨z, hz⟩, ⟨w, hw⟩⟩
      simp only [rectStr, hx, hy, hz, hw]
      exact ⟨_, rfl⟩
  | borderSpacing r h v =>
    cases v with
    | none => simp only [Printer.str, borderSpacingStr, unitsOf, Option.toList, List.mem_singleton, forall_eq, repr_ok_iff]
    | some v =>
      simp only [Printer.str, unitsOf, Option.toList, List.mem_cons, List.not_mem_nil, or_false, forall_eq_or_imp, forall_eq]
      simp only [← repr_ok_iff (f := P.reprFloat)]
      constructor
      · rintro ⟨s, h⟩
        obtain ⟨x, hx, h⟩ := bind_ok h
        obtain ⟨y, hy, h⟩ := bind_ok h
        exact ⟨⟨x, hx⟩, ⟨y, hy⟩⟩
      · rintro ⟨⟨x, hx⟩, ⟨y, hy⟩⟩
        simp only [borderSpacingStr, hx, hy]
        exact ⟨_, rfl⟩
  | dflt => exact no _ rfl (hP _)
  | seq t xs => exact no _ rfl (hP _)
  | obj n => exact no _ rfl (hP _)
  | _ => exact no _ rfl ⟨_, rfl⟩

/-- C35: `str(css)` works exactly if no stored length is infinite or not a number; `C69_false_infinite` stores one. -/
theorem C35_prints (P : Printer) (hP : ∀ v, ∃ s, P.object v = .ok s) (c : CSS) :
    (∃ s, P.css c = .ok s) ↔ ∀ p v, c p = some v → ∀ u ∈ unitsOf v, ¬ Odd u := by
  constructor
  · rintro ⟨s, h⟩ p v hv
    rw [← str_ok_iff P hP]
    obtain ⟨ls, hl, h'⟩ := bind_ok h
    have hm : ((cssName (.lh p)).toList, v) ∈ c.rendered := ((C35_str_order c).1 _ v).2 ⟨p, rfl, hv⟩
    clear h h'
    generalize c.rendered = xs at hl hm
    induction xs generalizing ls with
    | nil => cases hm
    | cons x r ih =>
      obtain ⟨n, w⟩ := x
      obtain ⟨t, ht, hl⟩ := bind_ok hl
      obtain ⟨ts, hts, _⟩ := bind_ok hl
      rcases List.mem_cons.1 hm with e | hm
      · cases e; exact ⟨t, ht⟩
      · exact ih _ hts hm
  · intro h
    have hs : ∀ v, ∃ t : PyStr, (∀ u ∈ unitsOf v, ¬ Odd u) → P.str v = .ok t := by
      intro v
      by_cases hv : ∀ u ∈ unitsOf v, ¬ Odd u
      · obtain ⟨t, ht⟩ := (str_ok_iff P hP v).2 hv
        exact ⟨t, fun _ => ht⟩
      · exact ⟨[], fun h => absurd h hv⟩
    choose f hf using hs
    exact ⟨_, C35_text P c f fun p v hv => hf v (h p v hv)⟩

/-- An infinite length is stored, and then the declaration does not print; without it, it does. -/
example (P : Printer) (hP : ∀ v, ∃ s, P.object v = .ok s) :
    (¬ ∃ s, P.css (CSS.empty.store .width (.unit ⟨.len .px, .inf false⟩)) = .ok s) ∧ ∃ s, P.css (CSS.empty.store .width (.unit ⟨.len .px, .fin (.int 8)⟩)) = .ok s := by
  constructor
  · rw [C35_prints P hP]
    exact fun h => h .width _ rfl ⟨.len .px, .inf false⟩ (by simp [unitsOf]) (.inr ⟨false, rfl⟩)
  · rw [C35_prints P hP]
    intro p v hv u hu
    by_cases hp : p = .width
    · subst hp
      cases hv
      simp only [unitsOf, List.mem_singleton] at hu
      subst hu
      rintro (h | ⟨_, h⟩) <;> cases h
    · simp only [CSS.store, hp, if_false, CSS.empty] at hv
      cases hv

/-- What `int(x)` raises for the magnitude of a unit. -/
def oddity (u : CUnit) : Option Err :=
  match u.val with
  | .nan => some .value
  | .inf _ => some .overflow
  | .fin _ => none

theorem repr_error {f : Rat → PyStr} {u : CUnit} {e : Err} : u.repr f = .error e ↔ oddity u = some e := by
  unfold CUnit.repr oddity
  cases u.val <;> simp

theorem repr_some {f : Rat → PyStr} {u : CUnit} {s : PyStr} (h : u.repr f = .ok s) : oddity u = none := by
  cases e : oddity u with
  | none => rfl
  | some x => rw [repr_error.2 e] at h; cases h

theorem str_error (P : Printer) (hP : ∀ v, ∃ s, P.object v = .ok s) (v : Val) (e : Err) : P.str v = .error e ↔ (unitsOf v).findSome? oddity = some e := by
  have no : ∀ v, unitsOf v = [] → (∃ s, P.str v = .ok s) → (P.str v = .error e ↔ (unitsOf v).findSome? oddity = some e) := by
    rintro v h1 ⟨s, h2⟩
    rw [h1, h2]
    simp
  cases v with
  | unit u =>
    simp only [Printer.str, unitsOf, repr_error]
    cases h : oddity u <;> simp [h]
  | rect a b c d =>
    simp only [Printer.str, unitsOf, rectStr]
    cases ha : a.repr P.reprFloat with
    | error x => simp [repr_error.1 ha, bind, Except.bind]
    | ok s =>
      cases hb : b.repr P.reprFloat with
      | error x => simp [repr_some ha, repr_error.1 hb, bind, Except.bind]
      | ok s =>
        cases hc : c.repr P.reprFloat with
        | error x => simp [repr_some ha, repr_some hb, repr_error.1 hc, bind, Except.bind]
        | ok s =>
          cases hd : d.repr P.reprFloat with
          | error x => simp [repr_some ha, repr_some hb, repr_some hc, repr_error.1 hd, bind, Except.bind]
          | ok s => simp [repr_some ha, repr_some hb, repr_some hc, repr_some hd, bind, Except.bind, pure, Except.pure]
  | borderSpacing r h v =>
    cases v with
    | none =>
      simp only [Printer.str, borderSpacingStr, unitsOf, Option.toList, repr_error]
      cases e : oddity h <;> simp [e]
    | some v =>
      simp only [Printer.str, unitsOf, borderSpacingStr, Option.toList]
      cases ha : h.repr P.reprFloat with
      | error x => simp [repr_error.1 ha, bind, Except.bind]
      | ok s =>
        cases hb : v.repr P.reprFloat with
        | error x => simp [repr_some ha, repr_error.1 hb, bind, Except.bind]
        | ok s => simp [repr_some ha, repr_some hb, bind, Except.bind, pure, Except.pure]
  | dflt => exact no _ rfl (hP _)
  | seq t xs => exact no _ rfl (hP _)
  | obj n => exact no _ rfl (hP _)
  | _ => exact no _ rfl ⟨_, rfl⟩

/-- C35: where `str(css)` raises, it is the exception of the first unit that cannot be printed, of the properties in ascending order of their names: `OverflowError` if it
is infinite and `ValueError` if it is not a number. -/
theorem C35_raises (P : Printer) (hP : ∀ v, ∃ s, P.object v = .ok s) (c : CSS) (e : Err) :
    P.css c = .error e ↔ (c.rendered.flatMap fun x => unitsOf x.2).findSome? oddity = some e := by
  have key : ∀ xs, P.lines xs = .error e ↔ (xs.flatMap fun x => unitsOf x.2).findSome? oddity = some e := by
    intro xs
    induction xs with
    | nil => simp [Printer.lines]
    | cons x r ih =>
      obtain ⟨n, v⟩ := x
      rw [List.flatMap_cons, List.findSome?_append]
      simp only [Printer.lines]
      cases h : P.str v with
      | error x =>
        have := (str_error P hP v x).1 h
        simp [this, bind, Except.bind]
      | ok s =>
        have : (unitsOf v).findSome? oddity = none := by
          cases k : (unitsOf v).findSome? oddity with
          | none => rfl
          | some x => rw [(str_error P hP v x).2 k] at h; cases h
        rw [this, Option.none_or, ← ih]
        simp only [bind, Except.bind]
        cases P.lines r <;> simp [pure, Except.pure]
  rw [← key]
  unfold Printer.css
  simp only [bind, Except.bind]
  cases P.lines c.rendered <;> simp [pure, Except.pure]

/-- Two lengths that cannot be printed: the first by name raises. -/
example (P : Printer) (hP : ∀ v, ∃ s, P.object v = .ok s) :
    P.css ((CSS.empty.store .width (.unit ⟨.len .px, .inf false⟩)).store .height (.unit ⟨.len .em, .nan⟩)) = .error .value :=
  (C35_raises P hP _ _).2 (by decide +kernel)

end Colosseum
