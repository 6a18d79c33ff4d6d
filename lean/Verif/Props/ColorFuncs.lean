import Verif.Props.Colors
import Verif.Spec.ColorText
import Verif.Lemmas.Literals

/-!
# C13: the functional colour notations
-/

namespace Colosseum

theorem sliceInner_mid (p body : PyStr) (x : Char) : sliceInner p.length (p ++ body ++ [x]) = body := by
  have h : (p ++ body ++ [x]).take ((p ++ body ++ [x]).length - 1) = p ++ body := by
    have e : (p ++ body ++ [x]).length - 1 = (p ++ body).length := by simp
    rw [e, List.take_left]
  rw [sliceInner, h, List.drop_left]

theorem Blanks.spaceC {b : PyStr} (h : Blanks b) : ∀ c ∈ b, isSpaceC c = true := by
  intro c hc
  have : ∀ c ∈ [' ', '\t', '\n', '\r', '\x0b', '\x0c'], isSpaceC c = true := by decide
  rcases h c hc with h | h
  · exact this c h
  · simp [isSpaceC, isWideBlank_iff.2 h]

theorem Blanks.blank {b : PyStr} (h : Blanks b) : Blank b := by
  intro c hc
  simp [isSpacePy, h.spaceC c hc]

theorem Blanks.no_comma {b : PyStr} (h : Blanks b) : ',' ∉ b := by
  intro hc
  have := h.spaceC _ hc
  revert this; decide

theorem SignText.no_comma {g : PyStr} {neg : Bool} (h : SignText g neg) : ',' ∉ g := by
  cases h <;> decide

theorem DigitTail.chars {s : PyStr} {ds : List Nat} (h : DigitTail s ds) : ∀ c ∈ s, isDecimal c = true ∨ c = '_' := by
  induction h with
  | nil => intro c hc; cases hc
  | digit hc _ ih =>
    intro c h
    rcases List.mem_cons.1 h with rfl | h
    · exact Or.inl (digitChar_iff.1 hc).1
    · exact ih c h
  | grouped hc _ ih =>
    intro c h
    rcases List.mem_cons.1 h with rfl | h
    · exact Or.inr rfl
    · rcases List.mem_cons.1 h with rfl | h
      · exact Or.inl (digitChar_iff.1 hc).1
      · exact ih c h

theorem DigitPart.chars {s : PyStr} {ds : List Nat} (h : DigitPart s ds) : ∀ c ∈ s, isDecimal c = true ∨ c = '_' := by
  cases h with
  | mk hc ht => exact (DigitTail.digit hc ht).chars

theorem DigitPart.no_comma {s : PyStr} {ds : List Nat} (h : DigitPart s ds) : ',' ∉ s := by
  intro hc
  rcases h.chars _ hc with h | h <;> revert h <;> decide

theorem NumberText.no_comma {s : PyStr} {q : Rat} (h : NumberText s q) : ',' ∉ s := by
  cases h with
  | whole h => exact h.no_comma
  | dot h => simpa using h.no_comma
  | fraction h => simpa using h.no_comma
  | both h h' => simpa using ⟨h.no_comma, h'.no_comma⟩

theorem FloatBody.no_comma {fp : FP} {neg : Bool} {s : PyStr} {x : PyNum} (h : FloatBody fp neg s x) : ',' ∉ s := by
  have word : ∀ w : PyStr, s.map Char.toLower = w → ',' ∉ w → ',' ∉ s := by
    intro w h1 h2 h3
    rw [← h1] at h2
    exact h2 (List.mem_map_of_mem (f := Char.toLower) h3)
  cases h with
  | number h =>
    cases h with
    | plain h => exact h.no_comma
    | exponent h hc hg hx =>
      simp only [List.mem_append, List.mem_cons, not_or]
      exact ⟨h.no_comma, by rcases hc with rfl | rfl <;> decide, hg.no_comma, hx.no_comma⟩
  | inf h =>
    rcases h with h | h
    · exact word _ h (by decide)
    · exact word _ h (by decide)
  | nan h => exact word _ h (by decide)

theorem FloatLit.no_comma {fp : FP} {s : PyStr} {x : PyNum} (h : FloatLit fp s x) : ',' ∉ s := by
  obtain ⟨b, g, m, b', neg, hb, hb', hg, hm, rfl⟩ := h
  simp only [List.mem_append, not_or]
  exact ⟨⟨hb.no_comma, hg.no_comma, hm.no_comma⟩, hb'.no_comma⟩

theorem IntLit.no_comma {s : PyStr} {i : Int} (h : IntLit s i) : ',' ∉ s := by
  obtain ⟨b, g, m, b', neg, ds, hb, hb', hg, hm, rfl, _⟩ := h
  simp only [List.mem_append, not_or]
  exact ⟨⟨hb.no_comma, hg.no_comma, hm.no_comma⟩, hb'.no_comma⟩

theorem PctLit.no_comma {s : PyStr} {i : Int} (h : PctLit s i) : ',' ∉ s := by
  obtain ⟨b, g, m, u, b', neg, ds, k, hb, hb', hu, hg, hm, rfl, _⟩ := h
  simp only [List.mem_append, not_or, List.mem_replicate, not_and]
  refine ⟨⟨⟨⟨?_, hg.no_comma, hm.no_comma⟩, hu.no_comma⟩, fun _ => by decide⟩, ?_⟩
  · intro h; exact absurd (hb _ h) (by decide)
  · intro h; exact absurd (hb' _ h) (by decide)

theorem whiteSpace_iff {b : PyStr} : WhiteSpace b ↔ Blank b := by
  simp only [WhiteSpace, Blank, isSpacePy, isSpaceC, List.mem_cons, List.not_mem_nil, or_false, Bool.or_eq_true, beq_iff_eq, isWideBlank_iff]
  constructor <;> intro h c hc <;> have := h c hc <;> tauto

theorem intOf_iff {s : PyStr} {i : Int} : intOf s = .ok i ↔ IntLit s i := by
  rw [← parseInt_iff, intOf]
  cases parseInt s <;> simp

theorem floatOf_iff {fp : FP} {s : PyStr} {x : PyNum} : floatOf fp s = .ok x ↔ FloatLit fp s x := by
  rw [← parseFloat_iff, floatOf]
  cases parseFloat fp s <;> simp

theorem rstrip_decomp (s : PyStr) : ∃ k, s = rstripPercent s ++ List.replicate k '%' := by
  refine ⟨(s.reverse.takeWhile (· == '%')).length, ?_⟩
  have e : s.reverse.takeWhile (· == '%') = List.replicate (s.reverse.takeWhile (· == '%')).length '%' :=
    List.eq_replicate_iff.2 ⟨rfl, fun c hc => by simpa using mem_takeWhile_imp hc⟩
  have h := List.takeWhile_append_dropWhile (p := (· == '%')) (l := s.reverse)
  unfold rstripPercent
  conv_lhs => rw [← List.reverse_reverse s, ← h, List.reverse_append, e, List.reverse_replicate]

theorem rstrip_solid (x : PyStr) (k : Nat) (h : ∀ c, x.getLast? = some c → c ≠ '%') : rstripPercent (x ++ List.replicate k '%') = x := by
  unfold rstripPercent
  rw [List.reverse_append, List.reverse_replicate, dropWhile_blank _ _ (by intro c hc; simpa using (List.mem_replicate.1 hc).2),
    dropWhile_none, List.reverse_reverse]
  intro c hc
  rw [List.head?_reverse] at hc
  simpa using h c hc

theorem pctOf_iff {fp : FP} {s : PyStr} {n : Num} : pctOf fp s = .ok n ↔ ∃ i, PctLit s i ∧ n = fraction fp i := by
  unfold pctOf
  constructor
  · intro h
    cases hi : intOf (rstripPercent (strip s)) with
    | error e => rw [hi] at h; cases h
    | ok i =>
      rw [hi] at h
      cases h
      obtain ⟨b0, g, m, b0', neg, ds, hb0, hb0', hg, hm, e, ei⟩ := intOf_iff.1 hi
      obtain ⟨k, hk⟩ := rstrip_decomp (strip s)
      obtain ⟨b, b', hs, hb, hb'⟩ := stripBy_decomp isSpacePy s
      refine ⟨i, ⟨b ++ b0, g, m, b0', b', neg, ds, k, ?_, whiteSpace_iff.2 hb', hb0', hg, hm, ?_, ei⟩, rfl⟩
      · intro c hc
        rcases List.mem_append.1 hc with h | h
        · exact whiteSpace_iff.2 hb c h
        · have := hb0 c h
          simp only [List.mem_cons, List.not_mem_nil, or_false] at this ⊢
          tauto
      · conv_lhs => rw [hs]
        rw [show stripBy isSpacePy s = strip s from rfl, hk, e]
        simp
  · rintro ⟨i, ⟨b, g, m, u, b', neg, ds, k, hb, hb', hu, hg, hm, rfl, ei⟩, rfl⟩
    have lastOf : ∀ (x y : PyStr) (c : Char), (x ++ y).getLast? = some c → y ≠ [] → c ∈ y := by
      intro x y c h hy
      rw [List.getLast?_append_of_ne_nil _ hy] at h
      exact List.mem_of_getLast? h
    have hgm : ∀ c ∈ g ++ m, c ∈ ['+', '-', '_'] ∨ isDecimal c = true := by
      intro c hc
      rcases List.mem_append.1 hc with h | h
      · left; cases hg <;> simp at h <;> subst h <;> decide
      · rcases hm.chars c h with h | rfl
        · exact Or.inr h
        · exact Or.inl (by decide)
    have solid : Solid (g ++ m) := by
      intro c hc
      have hC : isSpaceC c = false := (hg.solid.append hm.solid) c hc
      rcases hgm c hc with h | h
      · simp only [List.mem_cons, List.not_mem_nil, or_false] at h
        rcases h with rfl | rfl | rfl <;> decide
      · simp only [isSpacePy, hC, Bool.false_or]
        simp [isDecimal_ne c '\x1c' h (by decide), isDecimal_ne c '\x1d' h (by decide), isDecimal_ne c '\x1e' h (by decide),
          isDecimal_ne c '\x1f' h (by decide)]
    have nopct : ∀ c ∈ g ++ m, c ≠ '%' := by
      rintro c hc rfl
      rcases hgm _ hc with h | h <;> revert h <;> decide
    have hne : g ++ m ≠ [] := by simp [hm.ne_nil]
    have mk : ∀ u', Blanks u' → intOf (g ++ m ++ u') = .ok i := fun u' hu' =>
      intOf_iff.2 ⟨[], g, m, u', neg, ds, by simp [Blanks], hu', hg, hm, by simp, ei⟩
    have done : intOf (rstripPercent (strip (b ++ (g ++ m) ++ u ++ List.replicate k '%' ++ b'))) = .ok i := by
      rw [show b ++ (g ++ m) ++ u ++ List.replicate k '%' ++ b' = b ++ (g ++ m ++ u ++ List.replicate k '%') ++ b' by simp,
        strip_blanks _ _ _ (whiteSpace_iff.1 hb) (whiteSpace_iff.1 hb')]
      have hfirst : ∀ (x : PyStr) (c : Char), (g ++ m ++ x).head? = some c → isSpacePy c = false := by
        intro x c h
        rw [List.head?_append_of_ne_nil _ hne] at h
        exact solid c (List.mem_of_head? h)
      by_cases hk : k = 0
      · subst hk
        rw [List.replicate_zero, List.append_nil, show g ++ m ++ u = [] ++ (g ++ m) ++ u by simp, strip_blanks _ _ _ Blank.nil hu.blank,
          strip_solid _ solid, show g ++ m = g ++ m ++ List.replicate 0 '%' by simp, rstrip_solid _ _ fun c hc => nopct c (List.mem_of_getLast? hc)]
        simpa using mk [] (by intro c hc; cases hc)
      · have e : strip (g ++ m ++ u ++ List.replicate k '%') = g ++ m ++ u ++ List.replicate k '%' := by
          refine stripBy_id _ _ ?_ ?_
          · intro c hc
            rw [show g ++ m ++ u ++ List.replicate k '%' = g ++ m ++ (u ++ List.replicate k '%') by simp] at hc
            exact hfirst _ c hc
          · intro c hc
            have := lastOf _ _ c hc (by simp [hk])
            rw [(List.mem_replicate.1 this).2]
            decide
        rw [e, rstrip_solid]
        · exact mk u hu
        · intro c hc
          by_cases hu0 : u = []
          · subst hu0
            rw [List.append_nil] at hc
            exact nopct c (List.mem_of_getLast? hc)
          · have := hu c (lastOf _ _ c hc hu0)
            rintro rfl
            revert this
            decide
    rw [done]
    rfl

theorem splitOn_three {s a b c : PyStr} (h : splitOn ',' s = [a, b, c]) : s = a ++ lit "," ++ b ++ lit "," ++ c := by
  rw [← splitOn_join ',' s, h]
  simp [joinWith, show lit "," = [','] from rfl]

theorem splitOn_four {s a b c d : PyStr} (h : splitOn ',' s = [a, b, c, d]) : s = a ++ lit "," ++ b ++ lit "," ++ c ++ lit "," ++ d := by
  rw [← splitOn_join ',' s, h]
  simp [joinWith, show lit "," = [','] from rfl]

theorem splitOn3 {a b c : PyStr} (ha : ',' ∉ a) (hb : ',' ∉ b) (hc : ',' ∉ c) :
    splitOn ',' (a ++ lit "," ++ b ++ lit "," ++ c) = [a, b, c] := by
  have e : a ++ lit "," ++ b ++ lit "," ++ c = a ++ ',' :: (b ++ ',' :: c) := by
    simp [show lit "," = [','] from rfl]
  rw [e, splitOn_cons _ _ _ ha, splitOn_cons _ _ _ hb, splitOn_last _ _ hc]

theorem splitOn4 {a b c d : PyStr} (ha : ',' ∉ a) (hb : ',' ∉ b) (hc : ',' ∉ c) (hd : ',' ∉ d) :
    splitOn ',' (a ++ lit "," ++ b ++ lit "," ++ c ++ lit "," ++ d) = [a, b, c, d] := by
  have e : a ++ lit "," ++ b ++ lit "," ++ c ++ lit "," ++ d = a ++ ',' :: (b ++ ',' :: (c ++ ',' :: d)) := by
    simp [show lit "," = [','] from rfl]
  rw [e, splitOn_cons _ _ _ ha, splitOn_cons _ _ _ hb, splitOn_cons _ _ _ hc, splitOn_last _ _ hd]

theorem colorStr_rgb (fp : FP) (ref : Ref) (body : PyStr) :
    colorStr fp ref (lit "rgb(" ++ body ++ lit ")")
      = (rgbColor (lit "rgb(" ++ body ++ lit ")")).map (.color ref) := rfl
theorem colorStr_rgba (fp : FP) (ref : Ref) (body : PyStr) :
    colorStr fp ref (lit "rgba(" ++ body ++ lit ")")
      = (rgbaColor fp (lit "rgba(" ++ body ++ lit ")")).map (.color ref) := rfl
theorem colorStr_hsl (fp : FP) (ref : Ref) (body : PyStr) :
    colorStr fp ref (lit "hsl(" ++ body ++ lit ")")
      = (hslColor fp (lit "hsl(" ++ body ++ lit ")")).map (.color ref) := rfl
theorem colorStr_hsla (fp : FP) (ref : Ref) (body : PyStr) :
    colorStr fp ref (lit "hsla(" ++ body ++ lit ")")
      = (hslaColor fp (lit "hsla(" ++ body ++ lit ")")).map (.color ref) := rfl

/-- C13: `rgb(r, g, b)`. -/
theorem C13_rgb (fp : FP) (at_ : List Nat) (tr tg tb : PyStr) (r g b : Int) (hr : IntLit tr r) (hg : IntLit tg g) (hb : IntLit tb b) :
    color fp at_ (.str (lit "rgb(" ++ (tr ++ lit "," ++ tg ++ lit "," ++ tb) ++ lit ")"))
      = .ok (.color (.heap at_) (.rgb r g b (.fin (.flt 1)))) := by
  simp only [color]
  rw [colorStr_rgb, rgbColor, show (4 : Nat) = (lit "rgb(").length from rfl,
    show lit ")" = [')'] from rfl, sliceInner_mid, splitOn3 hr.no_comma hg.no_comma hb.no_comma]
  simp only [intOf_iff.2 hr, intOf_iff.2 hg, intOf_iff.2 hb]
  rfl

/-- C13: `rgba(r, g, b, a)`. -/
theorem C13_rgba (fp : FP) (at_ : List Nat) (tr tg tb ta : PyStr) (r g b : Int) (a : PyNum) (hr : IntLit tr r) (hg : IntLit tg g)
    (hb : IntLit tb b) (ha : FloatLit fp ta a) :
    color fp at_ (.str (lit "rgba(" ++ (tr ++ lit "," ++ tg ++ lit "," ++ tb ++ lit "," ++ ta) ++ lit ")"))
      = .ok (.color (.heap at_) (.rgb r g b a)) := by
  simp only [color]
  rw [colorStr_rgba, rgbaColor, show (5 : Nat) = (lit "rgba(").length from rfl,
    show lit ")" = [')'] from rfl, sliceInner_mid, splitOn4 hr.no_comma hg.no_comma hb.no_comma ha.no_comma]
  simp only [intOf_iff.2 hr, intOf_iff.2 hg, intOf_iff.2 hb, floatOf_iff.2 ha]
  rfl

/-- C13: `hsl(h, s%, l%)`; the percentages become the floats nearest to `s/100` and `l/100`. -/
theorem C13_hsl (fp : FP) (at_ : List Nat) (th ts tl : PyStr) (h s l : Int) (hh : IntLit th h) (hs : PctLit ts s) (hl : PctLit tl l) :
    color fp at_ (.str (lit "hsl(" ++ (th ++ lit "," ++ ts ++ lit "," ++ tl) ++ lit ")"))
      = .ok (.color (.heap at_) (.hsl (.int h) (fraction fp s) (fraction fp l) (.fin (.flt 1)))) := by
  simp only [color]
  rw [colorStr_hsl, hslColor, show (4 : Nat) = (lit "hsl(").length from rfl,
    show lit ")" = [')'] from rfl, sliceInner_mid, splitOn3 hh.no_comma hs.no_comma hl.no_comma]
  simp only [intOf_iff.2 hh, pctOf_iff.2 ⟨s, hs, rfl⟩, pctOf_iff.2 ⟨l, hl, rfl⟩]
  rfl

/-- C13: `hsla(h, s%, l%, a)`. -/
theorem C13_hsla (fp : FP) (at_ : List Nat) (th ts tl ta : PyStr) (h s l : Int) (a : PyNum) (hh : IntLit th h) (hs : PctLit ts s)
    (hl : PctLit tl l) (ha : FloatLit fp ta a) :
    color fp at_ (.str (lit "hsla(" ++ (th ++ lit "," ++ ts ++ lit "," ++ tl ++ lit "," ++ ta) ++ lit ")"))
      = .ok (.color (.heap at_) (.hsl (.int h) (fraction fp s) (fraction fp l) a)) := by
  simp only [color]
  rw [colorStr_hsla, hslaColor, show (5 : Nat) = (lit "hsla(").length from rfl,
    show lit ")" = [')'] from rfl, sliceInner_mid, splitOn4 hh.no_comma hs.no_comma hl.no_comma ha.no_comma]
  simp only [intOf_iff.2 hh, pctOf_iff.2 ⟨s, hs, rfl⟩, pctOf_iff.2 ⟨l, hl, rfl⟩, floatOf_iff.2 ha]
  rfl

/-- C13: for percentages a float can hold, the stored components are the floats nearest to `i / 100`. -/
theorem C13_fraction {fp : FP} (L : fp.Laws) (i : Int) (hi : i.natAbs ≤ 2 ^ 53) : fraction fp i = .flt (fp.rnd ((i : Rat) / 100)) := by
  rw [fraction, L.small i hi]

/-- The number of components each notation takes. -/
def functionalArity : List (String × Nat) := [("rgb(", 3), ("rgba(", 4), ("hsl(", 3), ("hsla(", 4)]

/-- C13: any other number of comma separated components raises `ValueError`. -/
theorem C13_wrong_count (fp : FP) (at_ : List Nat) (p : String) (n : Nat) (hp : (p, n) ∈ functionalArity)
    (body : PyStr) (hn : body.count ',' + 1 ≠ n) :
    color fp at_ (.str (p.toList ++ body ++ lit ")")) = .error .value := by
  have hl := splitOn_length ',' body
  simp only [functionalArity, List.mem_cons, Prod.mk.injEq, List.not_mem_nil, or_false] at hp
  simp only [color]
  rcases hp with ⟨rfl, rfl⟩ | ⟨rfl, rfl⟩ | ⟨rfl, rfl⟩ | ⟨rfl, rfl⟩
  · rw [colorStr_rgb, rgbColor, show (4 : Nat) = (lit "rgb(").length from rfl,
      show lit ")" = [')'] from rfl, sliceInner_mid]
    split
    · rename_i heq; rw [heq] at hl; simp at hl; omega
    · rfl
  · rw [colorStr_rgba, rgbaColor, show (5 : Nat) = (lit "rgba(").length from rfl,
      show lit ")" = [')'] from rfl, sliceInner_mid]
    split
    · rename_i heq; rw [heq] at hl; simp at hl; omega
    · rfl
  · rw [colorStr_hsl, hslColor, show (4 : Nat) = (lit "hsl(").length from rfl,
      show lit ")" = [')'] from rfl, sliceInner_mid]
    split
    · rename_i heq; rw [heq] at hl; simp at hl; omega
    · rfl
  · rw [colorStr_hsla, hslaColor, show (5 : Nat) = (lit "hsla(").length from rfl,
      show lit ")" = [')'] from rfl, sliceInner_mid]
    split
    · rename_i heq; rw [heq] at hl; simp at hl; omega
    · rfl

theorem intOf_error {s : PyStr} {e : Err} (h : intOf s = .error e) : e = .value := by
  unfold intOf at h; split at h <;> cases h; rfl
theorem floatOf_error {fp : FP} {s : PyStr} {e : Err} (h : floatOf fp s = .error e) : e = .value := by
  unfold floatOf at h; split at h <;> cases h; rfl
theorem pctOf_error {fp : FP} {s : PyStr} {e : Err} (h : pctOf fp s = .error e) : e = .value := by
  unfold pctOf at h
  split at h
  · cases h
  · rename_i heq; cases h; exact intOf_error heq

theorem bind_error {α β : Type} {x : Res α} {f : α → Res β} {e : Err} (h : x >>= f = .error e) :
    x = .error e ∨ ∃ a, f a = .error e := by
  cases x with
  | error e' => cases h; exact Or.inl rfl
  | ok a => exact Or.inr ⟨a, h⟩

theorem map_error {α β : Type} {x : Res α} {f : α → β} {e : Err} (h : x.map f = .error e) :
    x = .error e := by
  cases x with
  | error e' => cases h; rfl
  | ok a => cases h

/-- C13: a rejected colour string other than the empty one raises `ValueError`, whatever notation it
is in. -/
theorem C13_color_error (fp : FP) (at_ : List Nat) (s : PyStr) (hne : s ≠ []) (e : Err)
    (h : color fp at_ (.str s) = .error e) : e = .value := by
  simp only [color] at h
  cases s with
  | nil => exact absurd rfl hne
  | cons c s =>
    by_cases hc : c = '#'
    · subst hc; exact C11_hex_error fp _ s e h
    · have hc' : (c == '#') = false := by simpa using hc
      simp only [colorStr, hc', Bool.false_eq_true, if_false] at h
      split at h
      · have h := map_error h
        unfold rgbaColor at h
        split at h
        · rcases bind_error h with h | ⟨_, h⟩; · exact intOf_error h
          rcases bind_error h with h | ⟨_, h⟩; · exact intOf_error h
          rcases bind_error h with h | ⟨_, h⟩; · exact intOf_error h
          rcases bind_error h with h | ⟨_, h⟩; · exact floatOf_error h
          cases h
        · cases h; rfl
      · split at h
        · have h := map_error h
          unfold rgbColor at h
          split at h
          · rcases bind_error h with h | ⟨_, h⟩; · exact intOf_error h
            rcases bind_error h with h | ⟨_, h⟩; · exact intOf_error h
            rcases bind_error h with h | ⟨_, h⟩; · exact intOf_error h
            cases h
          · cases h; rfl
        · split at h
          · have h := map_error h
            unfold hslaColor at h
            split at h
            · rcases bind_error h with h | ⟨_, h⟩; · exact intOf_error h
              rcases bind_error h with h | ⟨_, h⟩; · exact pctOf_error h
              rcases bind_error h with h | ⟨_, h⟩; · exact pctOf_error h
              rcases bind_error h with h | ⟨_, h⟩; · exact floatOf_error h
              cases h
            · cases h; rfl
          · split at h
            · have h := map_error h
              unfold hslColor at h
              split at h
              · rcases bind_error h with h | ⟨_, h⟩; · exact intOf_error h
                rcases bind_error h with h | ⟨_, h⟩; · exact pctOf_error h
                rcases bind_error h with h | ⟨_, h⟩; · exact pctOf_error h
                cases h
              · cases h; rfl
            · split at h
              · cases h
              · cases h; rfl

/-! ## C68 -/

/-- C68: a string that opens with `rgb(`, `rgba(`, `hsl(` or `hsla(` and closes with a parenthesis is accepted exactly if it is a colour in
functional notation, and it is that colour. Full statement: every accepted string beginning with `rgb` or `hsl` is a colour in functional
notation. What is missing: strings without the parentheses, of which the code checks neither (see `C68_false_unclosed`, `C68_false_open`). -/
theorem C68_functional_partial (fp : FP) (at_ : List Nat) (p : String) (n : Nat) (hp : (p, n) ∈ functionalArity) (body : PyStr) (v : Val) :
    color fp at_ (.str (p.toList ++ body ++ [')'])) = .ok v ↔
      ∃ c, v = .color (.heap at_) c ∧ FunctionText fp (p.toList ++ body ++ [')']) c := by
  have hp' : p.toList = lit "rgb(" ∨ p.toList = lit "rgba(" ∨ p.toList = lit "hsl(" ∨ p.toList = lit "hsla(" := by
    simp only [functionalArity, List.mem_cons, Prod.mk.injEq, List.not_mem_nil, or_false] at hp
    rcases hp with ⟨rfl, _⟩ | ⟨rfl, _⟩ | ⟨rfl, _⟩ | ⟨rfl, _⟩ <;> simp [lit]
  constructor
  · intro h
    simp only [color] at h
    have comps : ∀ {α : Type} {x : Res α} {f : α → Val}, x.map f = .ok v → ∃ c, x = .ok c ∧ f c = v := by
      intro α x f h
      cases x with
      | error e => cases h
      | ok c => cases h; exact ⟨c, rfl, rfl⟩
    rcases hp' with hq | hq | hq | hq <;> rw [hq] at h ⊢
    · rw [show [')'] = lit ")" from rfl, colorStr_rgb] at h
      obtain ⟨c, hc, rfl⟩ := comps h
      rw [rgbColor, show (4 : Nat) = (lit "rgb(").length from rfl, show lit ")" = [')'] from rfl, sliceInner_mid] at hc
      split at hc
      · rename_i r g b hs
        obtain ⟨r', hr, hc⟩ := bind_ok hc
        obtain ⟨g', hg, hc⟩ := bind_ok hc
        obtain ⟨b', hb, hc⟩ := bind_ok hc
        cases hc
        refine ⟨_, rfl, ?_⟩
        rw [splitOn_three hs]
        exact .rgb (intOf_iff.1 hr) (intOf_iff.1 hg) (intOf_iff.1 hb)
      · cases hc
    · rw [show [')'] = lit ")" from rfl, colorStr_rgba] at h
      obtain ⟨c, hc, rfl⟩ := comps h
      rw [rgbaColor, show (5 : Nat) = (lit "rgba(").length from rfl, show lit ")" = [')'] from rfl, sliceInner_mid] at hc
      split at hc
      · rename_i r g b a hs
        obtain ⟨r', hr, hc⟩ := bind_ok hc
        obtain ⟨g', hg, hc⟩ := bind_ok hc
        obtain ⟨b', hb, hc⟩ := bind_ok hc
        obtain ⟨a', ha, hc⟩ := bind_ok hc
        cases hc
        refine ⟨_, rfl, ?_⟩
        rw [splitOn_four hs]
        exact .rgba (intOf_iff.1 hr) (intOf_iff.1 hg) (intOf_iff.1 hb) (floatOf_iff.1 ha)
      · cases hc
    · rw [show [')'] = lit ")" from rfl, colorStr_hsl] at h
      obtain ⟨c, hc, rfl⟩ := comps h
      rw [hslColor, show (4 : Nat) = (lit "hsl(").length from rfl, show lit ")" = [')'] from rfl, sliceInner_mid] at hc
      split at hc
      · rename_i r g b hs
        obtain ⟨r', hr, hc⟩ := bind_ok hc
        obtain ⟨g', hg, hc⟩ := bind_ok hc
        obtain ⟨b', hb, hc⟩ := bind_ok hc
        cases hc
        obtain ⟨s', hg', rfl⟩ := pctOf_iff.1 hg
        obtain ⟨l', hb', rfl⟩ := pctOf_iff.1 hb
        refine ⟨_, rfl, ?_⟩
        rw [splitOn_three hs]
        exact .hsl (intOf_iff.1 hr) hg' hb'
      · cases hc
    · rw [show [')'] = lit ")" from rfl, colorStr_hsla] at h
      obtain ⟨c, hc, rfl⟩ := comps h
      rw [hslaColor, show (5 : Nat) = (lit "hsla(").length from rfl, show lit ")" = [')'] from rfl, sliceInner_mid] at hc
      split at hc
      · rename_i r g b a hs
        obtain ⟨r', hr, hc⟩ := bind_ok hc
        obtain ⟨g', hg, hc⟩ := bind_ok hc
        obtain ⟨b', hb, hc⟩ := bind_ok hc
        obtain ⟨a', ha, hc⟩ := bind_ok hc
        cases hc
        obtain ⟨s', hg', rfl⟩ := pctOf_iff.1 hg
        obtain ⟨l', hb', rfl⟩ := pctOf_iff.1 hb
        refine ⟨_, rfl, ?_⟩
        rw [splitOn_four hs]
        exact .hsla (intOf_iff.1 hr) hg' hb' (floatOf_iff.1 ha)
      · cases hc
  · rintro ⟨c, rfl, h⟩
    generalize p.toList ++ body ++ [')'] = s at h
    cases h with
    | rgb h1 h2 h3 => exact C13_rgb fp at_ _ _ _ _ _ _ h1 h2 h3
    | rgba h1 h2 h3 h4 => exact C13_rgba fp at_ _ _ _ _ _ _ _ _ h1 h2 h3 h4
    | hsl h1 h2 h3 => exact C13_hsl fp at_ _ _ _ _ _ _ h1 h2 h3
    | hsla h1 h2 h3 h4 => exact C13_hsla fp at_ _ _ _ _ _ _ _ _ h1 h2 h3 h4

theorem FunctionText.closed {fp : FP} {s : PyStr} {c : Color} (h : FunctionText fp s c) : s.getLast? = some ')' := by
  cases h <;> exact List.getLast?_concat ..

/-- C68 is false of a colour whose closing parenthesis is missing: the last digit is cut off instead, and blue is 5, not 50. -/
theorem C68_false_unclosed (fp : FP) (at_ : List Nat) :
    color fp at_ (.str (lit "rgb(10, 20, 50")) = .ok (.color (.heap at_) (.rgb 10 20 5 (.fin (.flt 1)))) ∧
      ¬ ∃ c, FunctionText fp (lit "rgb(10, 20, 50") c := by
  refine ⟨?_, fun ⟨c, h⟩ => by have := h.closed; simp [lit] at this⟩
  have e : splitOn ',' (sliceInner 4 (lit "rgb(10, 20, 50")) = [lit "10", lit " 20", lit " 5"] := by decide +kernel
  have h : rgbColor (lit "rgb(10, 20, 50") = .ok (.rgb 10 20 5 (.fin (.flt 1))) := by
    rw [rgbColor, e]
    simp only [intOf_iff.2 (show IntLit (lit "10") 10 by decide +kernel), intOf_iff.2 (show IntLit (lit " 20") 20 by decide +kernel),
      intOf_iff.2 (show IntLit (lit " 5") 5 by decide +kernel)]
    rfl
  show (rgbColor (lit "rgb(10, 20, 50")).map (Val.color (.heap at_)) = _
  rw [h]
  rfl

/-- C68 is false of a colour in other brackets. -/
theorem C68_false_open (fp : FP) (at_ : List Nat) :
    color fp at_ (.str (lit "rgb[10, 20, 50]")) = .ok (.color (.heap at_) (.rgb 10 20 50 (.fin (.flt 1)))) ∧
      ¬ ∃ c, FunctionText fp (lit "rgb[10, 20, 50]") c := by
  refine ⟨?_, fun ⟨c, h⟩ => by have := h.closed; simp [lit] at this⟩
  have e : splitOn ',' (sliceInner 4 (lit "rgb[10, 20, 50]")) = [lit "10", lit " 20", lit " 50"] := by decide +kernel
  have h : rgbColor (lit "rgb[10, 20, 50]") = .ok (.rgb 10 20 50 (.fin (.flt 1))) := by
    rw [rgbColor, e]
    simp only [intOf_iff.2 (show IntLit (lit "10") 10 by decide +kernel), intOf_iff.2 (show IntLit (lit " 20") 20 by decide +kernel),
      intOf_iff.2 (show IntLit (lit " 50") 50 by decide +kernel)]
    rfl
  show (rgbColor (lit "rgb[10, 20, 50]")).map (Val.color (.heap at_)) = _
  rw [h]
  rfl

example : color .b64 [] (.str (lit "rgb(1_0, 20,-30 )"))
    = .ok (.color (.heap []) (.rgb 10 20 (-30) (.fin (.flt 1)))) :=
  C13_rgb .b64 [] (lit "1_0") (lit " 20") (lit "-30 ") 10 20 (-30) (by decide +kernel) (by decide +kernel) (by decide +kernel)

example : FunctionText .b64 (lit "rgba(1, 2, 3, .5)") (.rgb 1 2 3 (.fin (.flt (1 / 2)))) :=
  .rgba (r := lit "1") (g := lit " 2") (b := lit " 3") (a := lit " .5") (by decide +kernel) (by decide +kernel) (by decide +kernel)
    (by decide +kernel)

theorem pctLit_fifty : PctLit (lit " 50%") 50 :=
  ⟨[' '], [], ['5', '0'], [], [], false, [5, 0], 1, by simp [WhiteSpace], by simp [WhiteSpace], by simp [Blanks], .none, .mk (digitChar_iff.2 (by decide)) (.digit (digitChar_iff.2 (by decide)) .nil),
    rfl, by decide⟩

example : color .b64 [] (.str (lit "hsl(120, 50%, 50%)"))
    = .ok (.color (.heap []) (.hsl (.int 120) (.flt (1 / 2)) (.flt (1 / 2)) (.fin (.flt 1)))) := by
  have h := C13_hsl .b64 [] (lit "120") (lit " 50%") (lit " 50%") 120 50 50 (by decide +kernel) pctLit_fifty pctLit_fifty
  have e : fraction .b64 50 = .flt (1 / 2) := by decide +kernel
  rw [e] at h
  exact h

example : color .b64 [] (.str (lit "rgb(1, 2)")) = .error .value :=
  C13_wrong_count .b64 [] "rgb(" 3 (by simp [functionalArity]) (lit "1, 2") (by decide)

end Colosseum
