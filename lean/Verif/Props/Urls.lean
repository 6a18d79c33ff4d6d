import Verif.Props.ColorFuncs
import Verif.Lemmas.Text
import Verif.Model.Wrappers

/-!
# C15: url() values
-/

namespace Colosseum

/-- The last step of `parser.uri`: remove matching quotes. -/
def unquoteUrl (v : PyStr) : PyStr :=
  if startsWith v (lit "'") && endsWith v (lit "'") then sliceInner 1 v
  else if startsWith v (lit "\"") && endsWith v (lit "\"") then sliceInner 1 v
  else v

theorem strip_url (body : PyStr) : strip (lit "url(" ++ body ++ lit ")") = lit "url(" ++ body ++ lit ")" := by
  have e : lit "url(" ++ body ++ lit ")" = 'u' :: (lit "rl(" ++ body) ++ [')'] := rfl
  rw [e, strip_ends 'u' ')' _ (by decide) (by decide)]

theorem uriStr_body (b0 body b3 : PyStr) (h0 : Blank b0) (h3 : Blank b3) :
    uriStr (b0 ++ (lit "url(" ++ body ++ lit ")") ++ b3) = .ok (unquoteUrl (strip body)) := by
  have hs := strip_blanks b0 (lit "url(" ++ body ++ lit ")") b3 h0 h3
  rw [strip_url] at hs
  have h1 : startsWith (lit "url(" ++ body ++ lit ")") (lit "url(") = true :=
    (startsWith_iff _ _).2 ⟨body ++ lit ")", by simp⟩
  have h2 : endsWith (lit "url(" ++ body ++ lit ")") (lit ")") = true := append_endsWith _ _
  have h4 : sliceInner 4 (lit "url(" ++ body ++ lit ")") = body := sliceInner_mid (lit "url(") body ')'
  simp only [uriStr, hs, h1, h2, Bool.and_self, if_true, h4, unquoteUrl]
  split
  · rfl
  · split <;> rfl

theorem unquoteUrl_quoted (q : Char) (x : PyStr) (hq : q = '\'' ∨ q = '"') :
    unquoteUrl (strip ([q] ++ x ++ [q])) = x := by
  have hsp : isSpacePy q = false := by rcases hq with rfl | rfl <;> decide
  have e : strip ([q] ++ x ++ [q]) = [q] ++ x ++ [q] := strip_ends q q x hsp hsp
  have hsl : sliceInner 1 ([q] ++ x ++ [q]) = x := sliceInner_mid [q] x q
  have hend : endsWith ([q] ++ x ++ [q]) [q] = true := append_endsWith _ _
  rw [e]
  rcases hq with rfl | rfl
  · have h1 : startsWith (['\''] ++ x ++ ['\'']) (lit "'") = true := rfl
    unfold unquoteUrl
    rw [h1, show lit "'" = ['\''] from rfl, hend]
    exact hsl
  · have h1 : startsWith (['"'] ++ x ++ ['"']) (lit "\"") = true := rfl
    have h2 : startsWith (['"'] ++ x ++ ['"']) (lit "'") = false := rfl
    unfold unquoteUrl
    rw [h1, h2, show lit "\"" = ['"'] from rfl, hend]
    exact hsl

theorem unquoteUrl_bare (x : PyStr) (h : ∀ c, x.head? = some c → c ≠ '\'' ∧ c ≠ '"') :
    unquoteUrl x = x := by
  have sw : ∀ q : Char, (q = '\'' ∨ q = '"') → startsWith x [q] = false := by
    intro q hq
    cases x with
    | nil => rfl
    | cons c x =>
      obtain ⟨h1, h2⟩ := h c rfl
      have hqc : q ≠ c := by rcases hq with rfl | rfl; exacts [h1.symm, h2.symm]
      simpa [startsWith, List.isPrefixOf] using hqc
  unfold unquoteUrl
  rw [show lit "'" = ['\''] from rfl, show lit "\"" = ['"'] from rfl, sw _ (Or.inl rfl), sw _ (Or.inr rfl)]
  rfl

/-- C15: every way of writing `url(x)` parses to `x`. -/
theorem C15_url_text (at_ : List Nat) (s x : PyStr) (h : UrlText s x) :
    uri at_ (.str s) = .ok (.uri (.heap at_) x) := by
  have main : uriStr s = .ok x := by
    cases h with
    | quoted q b0 b1 x b2 b3 hq h0 h1 h2 h3 =>
      have e : b0 ++ lit "url(" ++ b1 ++ [q] ++ x ++ [q] ++ b2 ++ lit ")" ++ b3
          = b0 ++ (lit "url(" ++ (b1 ++ ([q] ++ x ++ [q]) ++ b2) ++ lit ")") ++ b3 := by
        simp only [List.append_assoc]
      rw [e, uriStr_body _ _ _ ((allBlank_iff _).1 h0) ((allBlank_iff _).1 h3),
        strip_blanks _ _ _ ((allBlank_iff _).1 h1) ((allBlank_iff _).1 h2), unquoteUrl_quoted q x hq]
    | bare b0 b1 x b2 b3 hx hl h0 h1 h2 h3 =>
      have e : b0 ++ lit "url(" ++ b1 ++ x ++ b2 ++ lit ")" ++ b3
          = b0 ++ (lit "url(" ++ (b1 ++ x ++ b2) ++ lit ")") ++ b3 := by
        simp only [List.append_assoc]
      rw [e, uriStr_body _ _ _ ((allBlank_iff _).1 h0) ((allBlank_iff _).1 h3),
        strip_blanks _ _ _ ((allBlank_iff _).1 h1) ((allBlank_iff _).1 h2),
        strip_self x (fun c hc => (isSpacePy_false_iff c).2 (hx c hc).1)
          (fun c hc => (isSpacePy_false_iff c).2 (hl c hc)),
        unquoteUrl_bare x (fun c hc => (hx c hc).2)]
  simp only [uri, main]
  rfl

/-- C15: `uri(str(Uri(x))).url == x` for every string `x`, whatever quotes, blanks or parentheses it
contains. -/
theorem C15_print_parse (at_ : List Nat) (x : PyStr) :
    uri at_ (.str (uriShow x)) = .ok (.uri (.heap at_) x) := by
  refine C15_url_text at_ _ x ?_
  have e : uriShow x = [] ++ lit "url(" ++ [] ++ ['"'] ++ x ++ ['"'] ++ [] ++ lit ")" ++ [] := by
    simp only [uriShow, List.nil_append, List.append_nil, List.append_assoc]
    rfl
  rw [e]
  exact .quoted '"' [] [] x [] [] (Or.inr rfl) (by simp [AllBlank]) (by simp [AllBlank]) (by simp [AllBlank])
    (by simp [AllBlank])

/-- C15: exactly the strings `url(...)`, possibly between blanks, are accepted. -/
theorem C15_accepts_iff (at_ : List Nat) (s : PyStr) :
    (∃ v, uri at_ (.str s) = .ok v) ↔
      ∃ b body b', AllBlank b ∧ AllBlank b' ∧ s = b ++ lit "url(" ++ body ++ lit ")" ++ b' := by
  constructor
  · rintro ⟨v, h⟩
    have hc : (startsWith (strip s) (lit "url(") && endsWith (strip s) (lit ")")) = true := by
      by_contra hc
      have : uriStr s = .error .value := by
        unfold uriStr
        simp only
        rw [if_neg hc]
      simp only [uri, this] at h
      cases h
    simp only [Bool.and_eq_true] at hc
    obtain ⟨t, ht⟩ := (startsWith_iff _ _).1 hc.1
    obtain ⟨u, hu⟩ := (endsWith_iff _ _).1 hc.2
    obtain ⟨b, b', hb, hb', e⟩ := strip_decomp s
    have : ∃ body, t = body ++ [')'] := by
      rcases List.eq_nil_or_concat t with rfl | ⟨l, c, rfl⟩
      · rw [ht] at hu
        have := congrArg List.getLast? hu
        simp [show lit ")" = [')'] from rfl, show lit "url(" = ['u', 'r', 'l', '('] from rfl] at this
      · rw [ht, List.concat_eq_append, ← List.append_assoc] at hu
        have := congrArg List.getLast? hu
        simp [show lit ")" = [')'] from rfl] at this
        subst this
        exact ⟨l, List.concat_eq_append⟩
    obtain ⟨body, rfl⟩ := this
    refine ⟨b, body, b', (allBlank_iff _).2 hb, (allBlank_iff _).2 hb', ?_⟩
    rw [e, ht]
    simp only [List.append_assoc]
    rfl
  · rintro ⟨b, body, b', hb, hb', rfl⟩
    have e : b ++ lit "url(" ++ body ++ lit ")" ++ b' = b ++ (lit "url(" ++ body ++ lit ")") ++ b' := by
      simp only [List.append_assoc]
    refine ⟨.uri (.heap at_) (unquoteUrl (strip body)), ?_⟩
    simp only [uri]
    rw [e, uriStr_body _ _ _ ((allBlank_iff _).1 hb) ((allBlank_iff _).1 hb')]
    rfl

theorem uriStr_error {s : PyStr} {e : Err} (h : uriStr s = .error e) : e = .value := by
  unfold uriStr at h
  simp only at h
  split at h
  · split at h
    · cases h
    · split at h <;> cases h
  · cases h; rfl

/-- C15: whatever is not accepted raises `ValueError`. -/
theorem C15_rejects (at_ : List Nat) (v : Val) (e : Err) (h : uri at_ v = .error e) : e = .value := by
  cases v with
  | str s => simp only [uri] at h; exact uriStr_error (map_error h)
  | _ => simp only [uri] at h; cases h; rfl

/-- C15: values other than strings are rejected. -/
theorem C15_non_string (at_ : List Nat) (v : Val) (h : ∀ s, v ≠ .str s) : uri at_ v = .error .value := by
  cases v with
  | str s => exact absurd rfl (h s)
  | _ => rfl

example : UrlText (lit " url( 'a b)' )") (lit "a b)") :=
  .quoted '\'' [' '] [' '] (lit "a b)") [' '] [] (Or.inl rfl) (by simp [AllBlank, blankChars])
    (by simp [AllBlank, blankChars]) (by simp [AllBlank, blankChars]) (by simp [AllBlank])
example : UrlText (lit "url(some.png)") (lit "some.png") :=
  .bare [] [] (lit "some.png") [] [] (by intro c hc; cases hc; decide) (by intro c hc; cases hc; decide)
    (by simp [AllBlank]) (by simp [AllBlank]) (by simp [AllBlank]) (by simp [AllBlank])
example : uri [] (.str (lit "some.png")) = .error .value := rfl

end Colosseum
