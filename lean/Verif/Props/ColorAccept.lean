import Verif.Props.ColorFuncs
import Verif.Spec.ColorAccept

/-!
# C11, C68: exactly which strings are colours
-/

namespace Colosseum

/-! ## Two characters as a hexadecimal number -/

theorem blank_iff (c : Char) : Blanks [c] ↔ isSpaceC c = true := by
  simp only [Blanks, List.mem_cons, List.not_mem_nil, or_false, forall_eq, isSpaceC, Bool.or_eq_true, beq_iff_eq, isWideBlank_iff]
  tauto

theorem hexDigits_one {c : Char} {x : Nat} : hexDigits true 0 [c] = some x ↔ HexChar c x := by
  constructor
  · intro h
    simp only [hexDigits] at h
    split at h
    · simp at h
    · cases hc : hexVal c with
      | none => rw [hc] at h; cases h
      | some d =>
        rw [hc] at h
        have : d = x := by simpa using h
        exact this ▸ hexChar_iff.2 hc
  · intro h
    have hv := hexChar_iff.1 h
    obtain ⟨-, -, -, h4, -⟩ := hexVal_plain hv
    simp [hexDigits, h4, hv]

theorem signedHex_one {c : Char} {i : Int} : signedHex [c] = some i ↔ ∃ x : Nat, HexChar c x ∧ i = x := by
  by_cases h1 : c = '-'
  · subst h1
    constructor
    · intro h; simp [signedHex, takeSign, hexDigits] at h
    · rintro ⟨x, hx, -⟩; exact absurd rfl (hexVal_plain (hexChar_iff.1 hx)).2.2.1
  · by_cases h2 : c = '+'
    · subst h2
      constructor
      · intro h; simp [signedHex, takeSign, hexDigits] at h
      · rintro ⟨x, hx, -⟩; exact absurd rfl (hexVal_plain (hexChar_iff.1 hx)).2.1
    · have ht : takeSign [c] = (false, [c]) := by unfold takeSign; split <;> simp_all
      unfold signedHex
      rw [ht]
      constructor
      · intro h
        cases hd : hexDigits true 0 [c] with
        | none => simp [hd] at h
        | some n =>
          simp only [hd, Option.map_some, Bool.false_eq_true, if_false, Option.some.injEq] at h
          exact ⟨n, hexDigits_one.1 hd, h.symm⟩
      · rintro ⟨x, hx, rfl⟩
        simp only [hexDigits_one.2 hx, Option.map_some, Bool.false_eq_true, if_false]

theorem signedHex_two {a b : Char} {i : Int} (ha : isSpaceC a = false) (hb : isSpaceC b = false) : signedHex [a, b] = some i ↔ HexPair a b i := by
  constructor
  · intro h'
    by_cases h1 : a = '-'
    · subst h1
      simp only [signedHex, takeSign] at h'
      cases hd : hexDigits true 0 [b] with
      | none => rw [hd] at h'; cases h'
      | some n =>
        rw [hd] at h'
        simp only [Option.map_some, if_true, Option.some.injEq] at h'
        subst h'
        exact .minus (hexDigits_one.1 hd)
    · by_cases h2 : a = '+'
      · subst h2
        simp only [signedHex, takeSign] at h'
        cases hd : hexDigits true 0 [b] with
        | none => rw [hd] at h'; cases h'
        | some n =>
          rw [hd] at h'
          simp only [Option.map_some, Bool.false_eq_true, if_false, Option.some.injEq] at h'
          subst h'
          exact .plus (hexDigits_one.1 hd)
      · have hp : hexOf [a, b] = .ok i := by
          unfold hexOf
          rw [parseHex_eq, show stripBy isSpaceC [a, b] = [a, b] by simp [stripBy, ha, hb], h']
        obtain ⟨x, y, hx, hy, rfl⟩ := hexOf_plain hp ⟨h2, h1, ha⟩ hb
        have := HexPair.digits hx hy
        push_cast
        exact this
  · intro h
    cases h with
    | digits hx hy =>
      have := hexOf_pair (hexChar_iff.1 hx) (hexChar_iff.1 hy)
      unfold hexOf at this
      rw [parseHex_eq, show stripBy isSpaceC [a, b] = [a, b] by simp [stripBy, ha, hb]] at this
      split at this
      · rename_i heq
        rw [heq]
        have e := Except.ok.inj this
        rw [e]; push_cast; rfl
      · cases this
    | plus hy => simp only [signedHex, takeSign, hexDigits_one.2 hy, Option.map_some, Bool.false_eq_true, if_false]
    | minus hy => simp only [signedHex, takeSign, hexDigits_one.2 hy, Option.map_some, if_true]
    | before h _ => rw [(blank_iff a).1 h] at ha; cases ha
    | after _ h => rw [(blank_iff b).1 h] at hb; cases hb

/-- What `int(s, 16)` makes of two characters. -/
theorem hexOf_iff {a b : Char} {i : Int} : hexOf [a, b] = .ok i ↔ HexPair a b i := by
  have e : hexOf [a, b] = .ok i ↔ signedHex (stripBy isSpaceC [a, b]) = some i := by
    unfold hexOf
    rw [parseHex_eq]
    cases signedHex (stripBy isSpaceC [a, b]) with
    | none => simp
    | some j => simp
  rw [e]
  have plain : ∀ {c : Char} {x : Nat}, HexChar c x → isSpaceC c = true → False := fun hx hc => by
    rw [(hexVal_plain (hexChar_iff.1 hx)).1] at hc; cases hc
  cases ha : isSpaceC a with
  | true =>
    cases hb : isSpaceC b with
    | true =>
      have hs : stripBy isSpaceC [a, b] = [] := by simp [stripBy, ha, hb]
      rw [hs]
      constructor
      · intro h; simp [signedHex, takeSign, hexDigits] at h
      · intro h
        cases h with
        | digits hx hy => exact (plain hx ha).elim
        | plus hy => exact (plain hy hb).elim
        | minus hy => exact (plain hy hb).elim
        | before _ hy => exact (plain hy hb).elim
        | after hx _ => exact (plain hx ha).elim
    | false =>
      have hs : stripBy isSpaceC [a, b] = [b] := by simp [stripBy, ha, hb]
      rw [hs, signedHex_one]
      constructor
      · rintro ⟨x, hx, rfl⟩; exact .before ((blank_iff a).2 ha) hx
      · intro h
        cases h with
        | digits hx hy => exact (plain hx ha).elim
        | plus hy => exact absurd ha (by decide)
        | minus hy => exact absurd ha (by decide)
        | before _ hy => exact ⟨_, hy, rfl⟩
        | after hx _ => exact (plain hx ha).elim
  | false =>
    cases hb : isSpaceC b with
    | true =>
      have hs : stripBy isSpaceC [a, b] = [a] := by simp [stripBy, ha, hb]
      rw [hs, signedHex_one]
      constructor
      · rintro ⟨x, hx, rfl⟩; exact .after hx ((blank_iff b).2 hb)
      · intro h
        cases h with
        | digits hx hy => exact (plain hy hb).elim
        | plus hy => exact (plain hy hb).elim
        | minus hy => exact (plain hy hb).elim
        | before h hy => exact (plain hy hb).elim
        | after hx _ => exact ⟨_, hx, rfl⟩
    | false =>
      have hs : stripBy isSpaceC [a, b] = [a, b] := by simp [stripBy, ha, hb]
      rw [hs, signedHex_two ha hb]

theorem hexOf_same_iff {a : Char} {i : Int} : hexOf [a, a] = .ok i ↔ ∃ x : Nat, HexChar a x ∧ i = 17 * x := by
  constructor
  · intro h
    obtain ⟨x, hx, rfl⟩ := hexOf_double h
    exact ⟨x, hx, by push_cast; ring⟩
  · rintro ⟨x, hx, rfl⟩
    rw [hexOf_pair (hexChar_iff.1 hx) (hexChar_iff.1 hx)]
    congr 1
    push_cast; ring

/-- C11, exactly: a string after a pound sign is taken as a colour if and only if it consists of three or four hexadecimal digits, or of three or four
pairs of characters that `int(_, 16)` takes as numbers, and it is the colour with these components. -/
theorem C11_exact (fp : FP) (ref : Ref) (s : PyStr) (v : Val) :
    colorStr fp ref ('#' :: s) = .ok v ↔ ∃ c, v = .color ref c ∧ HexText fp s c := by
  have e : colorStr fp ref ('#' :: s) = (poundSignColor fp ('#' :: s)).map (.color ref) := rfl
  rw [e]
  constructor
  · intro h
    cases hp : poundSignColor fp ('#' :: s) with
    | error e => rw [hp] at h; cases h
    | ok c =>
      rw [hp] at h
      cases h
      refine ⟨c, rfl, ?_⟩
      unfold poundSignColor at hp
      split at hp
      · rename_i x r g b heq
        simp only [List.cons.injEq] at heq
        obtain ⟨rfl, rfl⟩ := heq
        obtain ⟨r', hr, hp⟩ := bind_ok hp
        obtain ⟨g', hg, hp⟩ := bind_ok hp
        obtain ⟨b', hb, hp⟩ := bind_ok hp
        cases hp
        obtain ⟨xr, tr, rfl⟩ := hexOf_same_iff.1 hr
        obtain ⟨xg, tg, rfl⟩ := hexOf_same_iff.1 hg
        obtain ⟨xb, tb, rfl⟩ := hexOf_same_iff.1 hb
        exact .short tr tg tb
      · rename_i x r g b a heq
        simp only [List.cons.injEq] at heq
        obtain ⟨rfl, rfl⟩ := heq
        obtain ⟨r', hr, hp⟩ := bind_ok hp
        obtain ⟨g', hg, hp⟩ := bind_ok hp
        obtain ⟨b', hb, hp⟩ := bind_ok hp
        obtain ⟨a', ha, hp⟩ := bind_ok hp
        cases hp
        obtain ⟨xr, tr, rfl⟩ := hexOf_same_iff.1 hr
        obtain ⟨xg, tg, rfl⟩ := hexOf_same_iff.1 hg
        obtain ⟨xb, tb, rfl⟩ := hexOf_same_iff.1 hb
        obtain ⟨xa, ta, rfl⟩ := hexOf_same_iff.1 ha
        have := HexText.shortAlpha (fp := fp) tr tg tb ta
        simp only [Num.div]
        push_cast
        exact this
      · rename_i x r1 r2 g1 g2 b1 b2 heq
        simp only [List.cons.injEq] at heq
        obtain ⟨rfl, rfl⟩ := heq
        obtain ⟨r', hr, hp⟩ := bind_ok hp
        obtain ⟨g', hg, hp⟩ := bind_ok hp
        obtain ⟨b', hb, hp⟩ := bind_ok hp
        cases hp
        exact .long (hexOf_iff.1 hr) (hexOf_iff.1 hg) (hexOf_iff.1 hb)
      · rename_i x r1 r2 g1 g2 b1 b2 a1 a2 heq
        simp only [List.cons.injEq] at heq
        obtain ⟨rfl, rfl⟩ := heq
        obtain ⟨r', hr, hp⟩ := bind_ok hp
        obtain ⟨g', hg, hp⟩ := bind_ok hp
        obtain ⟨b', hb, hp⟩ := bind_ok hp
        obtain ⟨a', ha, hp⟩ := bind_ok hp
        cases hp
        have := HexText.longAlpha (fp := fp) (hexOf_iff.1 hr) (hexOf_iff.1 hg) (hexOf_iff.1 hb) (hexOf_iff.1 ha)
        simp only [Num.div]
        push_cast
        exact this
      · cases hp
  · rintro ⟨c, rfl, h⟩
    cases h with
    | short hr hg hb =>
      simp only [poundSignColor, hexOf_same_iff.2 ⟨_, hr, rfl⟩, hexOf_same_iff.2 ⟨_, hg, rfl⟩, hexOf_same_iff.2 ⟨_, hb, rfl⟩]
      rfl
    | shortAlpha hr hg hb ha =>
      simp only [poundSignColor, hexOf_same_iff.2 ⟨_, hr, rfl⟩, hexOf_same_iff.2 ⟨_, hg, rfl⟩, hexOf_same_iff.2 ⟨_, hb, rfl⟩,
        hexOf_same_iff.2 ⟨_, ha, rfl⟩, Num.div]
      simp only [bind, Except.bind, pure, Except.pure, Except.map]
      push_cast
      rfl
    | long hr hg hb =>
      simp only [poundSignColor, hexOf_iff.2 hr, hexOf_iff.2 hg, hexOf_iff.2 hb]
      rfl
    | longAlpha hr hg hb ha =>
      simp only [poundSignColor, hexOf_iff.2 hr, hexOf_iff.2 hg, hexOf_iff.2 hb, hexOf_iff.2 ha, Num.div]
      push_cast
      rfl

example : HexText .b64 (lit "+a-b c7f") (.rgb 10 (-11) 12 (.fin (.flt (FP.b64.rnd (127 / 255))))) := by
  have := HexText.longAlpha (fp := .b64) (.plus (show HexChar 'a' 10 from .inl (by decide))) (.minus (show HexChar 'b' 11 from .inl (by decide)))
    (.before (a := ' ') (by intro c hc; simp at hc; subst hc; decide) (show HexChar 'c' 12 from .inl (by decide)))
    (.digits (show HexChar '7' 7 from .inl (by decide)) (show HexChar 'f' 15 from .inl (by decide)))
  norm_num at this
  exact this

/-! ## Functional notation -/

theorem sliceInner_split {n : Nat} {s : PyStr} (h : sliceInner n s ≠ []) : ∃ y, s = s.take n ++ sliceInner n s ++ [y] ∧ n < s.length := by
  unfold sliceInner at *
  have hl : n < s.length - 1 := by
    rcases Nat.lt_or_ge n (s.length - 1) with h' | h'
    · exact h'
    · exact absurd (List.drop_eq_nil_of_le (by rw [List.length_take]; omega)) h
  have hne : s ≠ [] := by rintro rfl; simp at hl
  refine ⟨s.getLast hne, ?_, by omega⟩
  have e1 : s = s.take (s.length - 1) ++ [s.getLast hne] := by
    have := List.dropLast_append_getLast hne
    rw [List.dropLast_eq_take] at this
    exact this.symm
  have e2 : s.take n ++ (s.take (s.length - 1)).drop n = s.take (s.length - 1) := by
    have : s.take n = (s.take (s.length - 1)).take n := by rw [List.take_take, Nat.min_eq_left (by omega)]
    rw [this, List.take_append_drop]
  rw [e2]
  exact e1

/-- A string whose inner part is not empty, with a name before it. -/
theorem sliceInner_named {p : PyStr} {s : PyStr} (hp : startsWith s p = true) (h : sliceInner (p.length + 1) s ≠ []) :
    ∃ x y, s = p ++ [x] ++ sliceInner (p.length + 1) s ++ [y] := by
  obtain ⟨y, hs, hl⟩ := sliceInner_split h
  obtain ⟨r, hr⟩ := List.isPrefixOf_iff_prefix.1 hp
  have hr' : r ≠ [] := by
    rintro rfl
    rw [← hr] at hl
    simp at hl
  obtain ⟨x, r, rfl⟩ := List.exists_cons_of_ne_nil hr'
  refine ⟨x, y, ?_⟩
  have ht : s.take (p.length + 1) = p ++ [x] := by
    rw [← hr, List.take_append, List.take_of_length_le (by omega)]
    simp
  rw [ht] at hs
  exact hs

theorem three_ne {s a b c : PyStr} (h : splitOn ',' s = [a, b, c]) : s ≠ [] := by
  rintro rfl
  simp [splitOn, splitOnAux] at h

theorem four_ne {s a b c d : PyStr} (h : splitOn ',' s = [a, b, c, d]) : s ≠ [] := by
  rintro rfl
  simp [splitOn, splitOnAux] at h

/-- C68, exactly: a string that begins with `rgb` or `hsl` is taken as a colour if and only if it is a colour in functional notation, except that any
two characters may stand in place of the parentheses; and it is the colour the notation says. -/
theorem C68_exact (fp : FP) (at_ : List Nat) (s : PyStr) (v : Val) (hs : lit "rgb" <+: s ∨ lit "hsl" <+: s) :
    color fp at_ (.str s) = .ok v ↔ ∃ c, v = .color (.heap at_) c ∧ LooseText fp s c := by
  constructor
  · intro h
    simp only [color] at h
    have comps : ∀ {x : Res Color} {f : Color → Val}, x.map f = .ok v → ∃ c, x = .ok c ∧ f c = v := by
      intro x f h
      cases x with
      | error e => cases h
      | ok c => cases h; exact ⟨c, rfl, rfl⟩
    have first : ∀ c r, s = c :: r → (c == '#') = false := by
      rintro c r rfl
      rcases hs with ⟨t, ht⟩ | ⟨t, ht⟩ <;> cases ht <;> rfl
    cases hl : s with
    | nil => subst hl; rcases hs with ⟨t, ht⟩ | ⟨t, ht⟩ <;> cases ht
    | cons c r =>
      have hc := first c r hl
      rw [hl] at h
      simp only [colorStr, hc, Bool.false_eq_true, if_false] at h
      rw [← hl] at h ⊢
      by_cases h1 : startsWith s (lit "rgba") = true
      · rw [if_pos h1] at h
        obtain ⟨c, hc, rfl⟩ := comps h
        refine ⟨c, rfl, ?_⟩
        unfold rgbaColor at hc
        split at hc
        · rename_i r g b a hq
          obtain ⟨r', hr, hc⟩ := bind_ok hc
          obtain ⟨g', hg, hc⟩ := bind_ok hc
          obtain ⟨b', hb, hc⟩ := bind_ok hc
          obtain ⟨a', ha, hc⟩ := bind_ok hc
          cases hc
          obtain ⟨x, y, e⟩ := sliceInner_named h1 (four_ne hq)
          rw [show (lit "rgba").length + 1 = 5 from rfl, splitOn_four hq] at e
          rw [e]
          exact .rgba (intOf_iff.1 hr) (intOf_iff.1 hg) (intOf_iff.1 hb) (floatOf_iff.1 ha)
        · cases hc
      · rw [if_neg h1] at h
        by_cases h2 : startsWith s (lit "rgb") = true
        · rw [if_pos h2] at h
          obtain ⟨c, hc, rfl⟩ := comps h
          refine ⟨c, rfl, ?_⟩
          unfold rgbColor at hc
          split at hc
          · rename_i r g b hq
            obtain ⟨r', hr, hc⟩ := bind_ok hc
            obtain ⟨g', hg, hc⟩ := bind_ok hc
            obtain ⟨b', hb, hc⟩ := bind_ok hc
            cases hc
            obtain ⟨x, y, e⟩ := sliceInner_named h2 (three_ne hq)
            have hx : x ≠ 'a' := by
              rintro rfl
              apply h1
              rw [e]
              exact List.isPrefixOf_iff_prefix.2 ⟨_, by rw [List.append_assoc]; rfl⟩
            rw [show (lit "rgb").length + 1 = 4 from rfl, splitOn_three hq] at e
            rw [e]
            exact .rgb hx (intOf_iff.1 hr) (intOf_iff.1 hg) (intOf_iff.1 hb)
          · cases hc
        · rw [if_neg h2] at h
          by_cases h3 : startsWith s (lit "hsla") = true
          · rw [if_pos h3] at h
            obtain ⟨c, hc, rfl⟩ := comps h
            refine ⟨c, rfl, ?_⟩
            unfold hslaColor at hc
            split at hc
            · rename_i r g b a hq
              obtain ⟨r', hr, hc⟩ := bind_ok hc
              obtain ⟨g', hg, hc⟩ := bind_ok hc
              obtain ⟨b', hb, hc⟩ := bind_ok hc
              obtain ⟨a', ha, hc⟩ := bind_ok hc
              cases hc
              obtain ⟨s', hg', rfl⟩ := pctOf_iff.1 hg
              obtain ⟨l', hb', rfl⟩ := pctOf_iff.1 hb
              obtain ⟨x, y, e⟩ := sliceInner_named h3 (four_ne hq)
              rw [show (lit "hsla").length + 1 = 5 from rfl, splitOn_four hq] at e
              rw [e]
              exact .hsla (intOf_iff.1 hr) hg' hb' (floatOf_iff.1 ha)
            · cases hc
          · rw [if_neg h3] at h
            have h4 : startsWith s (lit "hsl") = true := by
              rcases hs with hs | hs
              · exact absurd (List.isPrefixOf_iff_prefix.2 hs) h2
              · exact List.isPrefixOf_iff_prefix.2 hs
            rw [if_pos h4] at h
            obtain ⟨c, hc, rfl⟩ := comps h
            refine ⟨c, rfl, ?_⟩
            unfold hslColor at hc
            split at hc
            · rename_i r g b hq
              obtain ⟨r', hr, hc⟩ := bind_ok hc
              obtain ⟨g', hg, hc⟩ := bind_ok hc
              obtain ⟨b', hb, hc⟩ := bind_ok hc
              cases hc
              obtain ⟨s', hg', rfl⟩ := pctOf_iff.1 hg
              obtain ⟨l', hb', rfl⟩ := pctOf_iff.1 hb
              obtain ⟨x, y, e⟩ := sliceInner_named h4 (three_ne hq)
              have hx : x ≠ 'a' := by
                rintro rfl
                apply h3
                rw [e]
                exact List.isPrefixOf_iff_prefix.2 ⟨_, by rw [List.append_assoc]; rfl⟩
              rw [show (lit "hsl").length + 1 = 4 from rfl, splitOn_three hq] at e
              rw [e]
              exact .hsl hx (intOf_iff.1 hr) hg' hb'
            · cases hc
  · rintro ⟨c, rfl, h⟩
    clear hs
    have na : ∀ (p : PyStr) (x : Char) (r : PyStr), x ≠ 'a' → p = lit "rgb" ∨ p = lit "hsl" → startsWith (p ++ [x] ++ r) (lit "rgba") = false ∧
        startsWith (p ++ [x] ++ r) (lit "hsla") = false := by
      intro p x r hx hp
      have hx' : ('a' == x) = false := by simpa using fun h : 'a' = x => hx h.symm
      rcases hp with rfl | rfl <;> simp [startsWith, lit, List.isPrefixOf, hx']
    cases h with
    | @rgb x y r g b r' g' b' hx hr hg hb =>
      obtain ⟨n1, -⟩ := na (lit "rgb") x ((r ++ [','] ++ g ++ [','] ++ b) ++ [y]) hx (.inl rfl)
      rw [← List.append_assoc] at n1
      have e : colorStr fp (.heap at_) ("rgb".toList ++ [x] ++ (r ++ [','] ++ g ++ [','] ++ b) ++ [y]) =
          (rgbColor ("rgb".toList ++ [x] ++ (r ++ [','] ++ g ++ [','] ++ b) ++ [y])).map (.color (.heap at_)) := by
        show (if startsWith _ (lit "rgba") then _ else _) = _
        rw [if_neg (by rw [show startsWith _ (lit "rgba") = false from n1]; exact Bool.false_ne_true)]
        rfl
      simp only [color]
      rw [e, rgbColor, show (4 : Nat) = ("rgb".toList ++ [x]).length from rfl, sliceInner_mid,
        show (r ++ [','] ++ g ++ [','] ++ b) = r ++ lit "," ++ g ++ lit "," ++ b from rfl, splitOn3 hr.no_comma hg.no_comma hb.no_comma]
      simp only [intOf_iff.2 hr, intOf_iff.2 hg, intOf_iff.2 hb]
      rfl
    | @rgba x y r g b a r' g' b' a' hr hg hb ha =>
      have e : colorStr fp (.heap at_) ("rgba".toList ++ [x] ++ (r ++ [','] ++ g ++ [','] ++ b ++ [','] ++ a) ++ [y]) =
          (rgbaColor fp ("rgba".toList ++ [x] ++ (r ++ [','] ++ g ++ [','] ++ b ++ [','] ++ a) ++ [y])).map (.color (.heap at_)) := rfl
      simp only [color]
      rw [e, rgbaColor, show (5 : Nat) = ("rgba".toList ++ [x]).length from rfl, sliceInner_mid,
        show (r ++ [','] ++ g ++ [','] ++ b ++ [','] ++ a) = r ++ lit "," ++ g ++ lit "," ++ b ++ lit "," ++ a from rfl,
        splitOn4 hr.no_comma hg.no_comma hb.no_comma ha.no_comma]
      simp only [intOf_iff.2 hr, intOf_iff.2 hg, intOf_iff.2 hb, floatOf_iff.2 ha]
      rfl
    | @hsl x y r g b r' g' b' hx hr hg hb =>
      obtain ⟨-, n1⟩ := na (lit "hsl") x ((r ++ [','] ++ g ++ [','] ++ b) ++ [y]) hx (.inr rfl)
      rw [← List.append_assoc] at n1
      have e : colorStr fp (.heap at_) ("hsl".toList ++ [x] ++ (r ++ [','] ++ g ++ [','] ++ b) ++ [y]) =
          (hslColor fp ("hsl".toList ++ [x] ++ (r ++ [','] ++ g ++ [','] ++ b) ++ [y])).map (.color (.heap at_)) := by
        show (if startsWith _ (lit "hsla") then _ else _) = _
        rw [if_neg (by rw [show startsWith _ (lit "hsla") = false from n1]; exact Bool.false_ne_true)]
        rfl
      simp only [color]
      rw [e, hslColor, show (4 : Nat) = ("hsl".toList ++ [x]).length from rfl, sliceInner_mid,
        show (r ++ [','] ++ g ++ [','] ++ b) = r ++ lit "," ++ g ++ lit "," ++ b from rfl, splitOn3 hr.no_comma hg.no_comma hb.no_comma]
      simp only [intOf_iff.2 hr, pctOf_iff.2 ⟨_, hg, rfl⟩, pctOf_iff.2 ⟨_, hb, rfl⟩]
      rfl
    | @hsla x y r g b a r' g' b' a' hr hg hb ha =>
      have e : colorStr fp (.heap at_) ("hsla".toList ++ [x] ++ (r ++ [','] ++ g ++ [','] ++ b ++ [','] ++ a) ++ [y]) =
          (hslaColor fp ("hsla".toList ++ [x] ++ (r ++ [','] ++ g ++ [','] ++ b ++ [','] ++ a) ++ [y])).map (.color (.heap at_)) := rfl
      simp only [color]
      rw [e, hslaColor, show (5 : Nat) = ("hsla".toList ++ [x]).length from rfl, sliceInner_mid,
        show (r ++ [','] ++ g ++ [','] ++ b ++ [','] ++ a) = r ++ lit "," ++ g ++ lit "," ++ b ++ lit "," ++ a from rfl,
        splitOn4 hr.no_comma hg.no_comma hb.no_comma ha.no_comma]
      simp only [intOf_iff.2 hr, pctOf_iff.2 ⟨_, hg, rfl⟩, pctOf_iff.2 ⟨_, hb, rfl⟩, floatOf_iff.2 ha]
      rfl

/-- C68: functional notation is the loose form with parentheses. -/
theorem C68_proper (fp : FP) (s : PyStr) (c : Color) (h : FunctionText fp s c) : LooseText fp s c := by
  cases h with
  | rgb h1 h2 h3 => exact .rgb (x := '(') (y := ')') (by decide) h1 h2 h3
  | rgba h1 h2 h3 h4 => exact .rgba (x := '(') (y := ')') h1 h2 h3 h4
  | hsl h1 h2 h3 => exact .hsl (x := '(') (y := ')') (by decide) h1 h2 h3
  | hsla h1 h2 h3 h4 => exact .hsla (x := '(') (y := ')') h1 h2 h3 h4

example : LooseText .b64 (lit "rgb[10, 20, 50]") (.rgb 10 20 50 (.fin (.flt 1))) :=
  LooseText.rgb (x := '[') (y := ']') (r := lit "10") (g := lit " 20") (b := lit " 50") (by decide) (by decide +kernel) (by decide +kernel) (by decide +kernel)

/-- C12: every string that is accepted and begins neither with `#` nor with `rgb` nor with `hsl` is a colour keyword, in any mixture of cases. -/
theorem C12_only (fp : FP) (at_ : List Nat) (s : PyStr) (v : Val) (hs : ∀ p ∈ ["#", "rgb", "hsl"], ¬ p.toList <+: s)
    (h : color fp at_ (.str s) = .ok v) : ∃ name n i, (name, n) ∈ cssColors ∧ SpelledAs s name.toList ∧
      v = .color (.shared i) (.rgb (rgbBytes n).1 (rgbBytes n).2.1 (rgbBytes n).2.2 (.fin (.flt 1))) := by
  have hne : s ≠ [] := by rintro rfl; cases h
  by_cases hn : ∀ c ∈ cssColors, ¬ SpelledAs s c.1.toList
  · rw [C12_unknown_name fp at_ s hne hs hn] at h
    cases h
  · push Not at hn
    obtain ⟨⟨name, n⟩, hm, he⟩ := hn
    obtain ⟨i, hi⟩ := C12_named_color fp at_ s name n hm he
    rw [hi] at h
    exact ⟨name, n, i, hm, he, (Except.ok.inj h).symm⟩

example : ∃ v, color .b64 [] (.str (lit "ReD")) = .ok v ∧ ∀ p ∈ ["#", "rgb", "hsl"], ¬ p.toList <+: lit "ReD" := by
  obtain ⟨i, h⟩ := C12_named_color .b64 [] (lit "ReD") "red" 0xff0000 (by decide) (by decide)
  exact ⟨_, h, by decide⟩

end Colosseum
