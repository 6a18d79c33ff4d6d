import Verif.Spec.Grammar
import Verif.Props.Errors
import Verif.Props.ColorAccept

/-!
# The parsers against the grammar of values
-/

namespace Colosseum

theorem asSeq_iff (v : Val) (xs : List Val) : asSeq v = some xs ↔ Members v xs := by
  constructor
  · intro h
    cases v with
    | seq t ys => cases Option.some.inj h; exact .seq t _
    | cursor ys =>
      rw [show xs = ys.map CurItem.value from (Option.some.inj h).symm.trans (List.map_congr_left fun y _ => by cases y <;> rfl)]
      exact .cursor ys
    | _ => cases h
  · rintro (⟨t, xs⟩ | ⟨ys⟩)
    · rfl
    · exact congrArg some (List.map_congr_left fun y _ => by cases y <;> rfl)

theorem Members.unique {v : Val} {xs ys : List Val} (h : Members v xs) (h' : Members v ys) : xs = ys :=
  Option.some.inj (((asSeq_iff v xs).2 h).symm.trans ((asSeq_iff v ys).2 h'))

theorem strip_head (s : PyStr) (c : Char) (h : (strip s).head? = some c) : isSpacePy c = false := by
  unfold strip stripBy at h
  have hp : ((s.dropWhile isSpacePy).reverse.dropWhile isSpacePy).reverse <+: s.dropWhile isSpacePy := by
    have := List.dropWhile_suffix isSpacePy (l := (s.dropWhile isSpacePy).reverse)
    exact List.reverse_suffix.1 (by rwa [List.reverse_reverse])
  obtain ⟨t, ht⟩ := hp
  have e : (s.dropWhile isSpacePy).head? = some c := by
    rw [← ht, List.head?_append, h]; rfl
  have := List.head?_dropWhile_not isSpacePy s
  rw [e] at this
  simpa using this

theorem strip_last (s : PyStr) (c : Char) (h : (strip s).getLast? = some c) : isSpacePy c = false := by
  unfold strip stripBy at h
  rw [List.getLast?_reverse] at h
  have := List.head?_dropWhile_not isSpacePy (s.dropWhile isSpacePy).reverse
  rw [h] at this
  simpa using this

theorem trimmed_iff (p t : PyStr) : Trimmed p t ↔ strip p = t := by
  constructor
  · rintro ⟨b, b', hb, hb', rfl, h1, h2⟩
    rw [strip_blanks _ _ _ ((allBlank_iff _).1 hb) ((allBlank_iff _).1 hb'), strip_self _ (fun c hc => (isSpacePy_false_iff c).2 (h1 c hc))
      fun c hc => (isSpacePy_false_iff c).2 (h2 c hc)]
  · rintro rfl
    obtain ⟨b, b', hb, hb', e⟩ := strip_decomp p
    exact ⟨b, b', (allBlank_iff _).2 hb, (allBlank_iff _).2 hb', e, fun c hc => (isSpacePy_false_iff c).1 (strip_head p c hc),
      fun c hc => (isSpacePy_false_iff c).1 (strip_last p c hc)⟩

/-- A text that begins and ends with the same character is that character alone, or something between two of them. -/
theorem ends_same (q : Char) (x : PyStr) (h : x.head? = some q) (h' : x.getLast? = some q) : x = [q] ∨ ∃ y, x = [q] ++ y ++ [q] := by
  cases x with
  | nil => cases h
  | cons a r =>
    obtain rfl : a = q := Option.some.inj h
    rcases List.eq_nil_or_concat r with rfl | ⟨y, c, rfl⟩
    · exact Or.inl rfl
    · right
      refine ⟨y, ?_⟩
      rw [List.concat_eq_append] at h' ⊢
      have : c = a := by
        have e : (a :: (y ++ [c])).getLast? = some c := by rw [← List.cons_append]; exact List.getLast?_concat
        rw [e] at h'
        exact Option.some.inj h'
      subst this
      rfl

theorem startsWith_one (x : PyStr) (q : Char) : startsWith x [q] = true ↔ x.head? = some q := by
  cases x with
  | nil => simp [startsWith]
  | cons a r => rw [List.head?_cons, Option.some.injEq]; simp [startsWith, List.isPrefixOf]; exact eq_comm

theorem endsWith_one (x : PyStr) (q : Char) : endsWith x [q] = true ↔ x.getLast? = some q := by
  rw [endsWith_iff]
  constructor
  · rintro ⟨t, rfl⟩; exact List.getLast?_concat
  · intro h
    obtain ⟨l, e⟩ := List.getLast?_eq_some_iff.1 h
    exact ⟨l, e⟩

theorem unquoteUrl_iff (t x : PyStr) : unquoteUrl t = x ↔ Address t x := by
  have key : ∀ t, Address t (unquoteUrl t) := by
    intro t
    unfold unquoteUrl
    rw [show lit "'" = ['\''] from rfl, show lit "\"" = ['"'] from rfl]
    have go : ∀ q : Char, q = '\'' ∨ q = '"' → (startsWith t [q] && endsWith t [q]) = true → Address t (sliceInner 1 t) := by
      intro q hq h
      rw [Bool.and_eq_true, startsWith_one, endsWith_one] at h
      rcases ends_same q t h.1 h.2 with rfl | ⟨y, rfl⟩
      · exact .lone q hq
      · rw [show sliceInner 1 ([q] ++ y ++ [q]) = y from sliceInner_mid [q] y q]
        exact .quoted q y hq
    split
    · rename_i h; exact go _ (Or.inl rfl) h
    · split
      · rename_i h; exact go _ (Or.inr rfl) h
      · rename_i h1 h2
        refine .bare t fun q hq h3 h4 => ?_
        rcases hq with rfl | rfl
        · exact h1 (by rw [Bool.and_eq_true, startsWith_one, endsWith_one]; exact ⟨h3, h4⟩)
        · exact h2 (by rw [Bool.and_eq_true, startsWith_one, endsWith_one]; exact ⟨h3, h4⟩)
  constructor
  · rintro rfl; exact key t
  · intro h
    cases h with
    | quoted q x hq =>
      have := unquoteUrl_quoted q x hq
      rwa [show strip ([q] ++ x ++ [q]) = [q] ++ x ++ [q] from strip_ends q q x (by rcases hq with rfl | rfl <;> decide) (by rcases hq with rfl | rfl <;> decide)] at this
    | lone q hq => rcases hq with rfl | rfl <;> rfl
    | bare x hx =>
      unfold unquoteUrl
      rw [show lit "'" = ['\''] from rfl, show lit "\"" = ['"'] from rfl, if_neg, if_neg]
      · rw [Bool.and_eq_true, startsWith_one, endsWith_one]; exact fun h => hx _ (Or.inr rfl) h.1 h.2
      · rw [Bool.and_eq_true, startsWith_one, endsWith_one]; exact fun h => hx _ (Or.inl rfl) h.1 h.2

theorem uriStr_iff (s x : PyStr) : uriStr s = .ok x ↔ UrlMeans s x := by
  constructor
  · intro h
    have ha : ∃ v, uri [] (.str s) = .ok v := ⟨.uri (.heap []) x, by simp only [uri, h]; rfl⟩
    obtain ⟨b, body, b', hb, hb', rfl⟩ := (C15_accepts_iff [] s).1 ha
    have e : b ++ lit "url(" ++ body ++ lit ")" ++ b' = b ++ (lit "url(" ++ body ++ lit ")") ++ b' := by
      simp only [List.append_assoc]
    rw [e, uriStr_body _ _ _ ((allBlank_iff _).1 hb) ((allBlank_iff _).1 hb')] at h
    cases h
    refine ⟨body, strip body, ?_, (trimmed_iff _ _).2 rfl, (unquoteUrl_iff _ _).1 rfl⟩
    rw [e, trimmed_iff, strip_blanks _ _ _ ((allBlank_iff _).1 hb) ((allBlank_iff _).1 hb'), strip_url]
  · rintro ⟨p, body, h1, h2, h3⟩
    obtain ⟨b, b', hb, hb', rfl, -, -⟩ := h1
    rw [uriStr_body _ _ _ ((allBlank_iff _).1 hb) ((allBlank_iff _).1 hb'), (trimmed_iff _ _).1 h2, (unquoteUrl_iff _ _).2 h3]

theorem cursorOptions_cases (s : PyStr) : cursorOptions.contains s = true ↔ ∃ k ∈ cssCursors, s = k.toList := by
  rw [List.contains_iff_mem]
  constructor
  · intro h
    have : ∀ x ∈ cursorOptions, ∃ k ∈ cssCursors, x = k.toList := by decide
    exact this s h
  · rintro ⟨k, hk, rfl⟩
    have : ∀ k ∈ cssCursors, k.toList ∈ cursorOptions := by decide
    exact this k hk

theorem urlMeans_option {s x : PyStr} (h : UrlMeans s x) : cursorOptions.contains s = false := by
  rw [← Bool.not_eq_true, List.contains_iff_mem]
  intro hm
  obtain ⟨p, body, h1, -, -⟩ := h
  have e := (trimmed_iff _ _).1 h1
  have h2 : ∀ x ∈ cursorOptions, (strip x).take 4 ≠ lit "url(" := by decide +kernel
  exact h2 s hm (by rw [e]; rfl)

theorem cursorLoop_means (at_ : List Nat) (whole : Val) (vs : List Val) : ∀ (i : Nat) (has : Bool) (xs : List CurItem),
    cursorLoop at_ whole i has vs = .ok xs →
    ∃ ts : List PyStr, vs = ts.map .str ∧ List.Forall₂ CursorEntry ts xs ∧ (has = true → xs = []) ∧ ∀ x ∈ xs.dropLast, ∃ r s, x = .uri r s := by
  induction vs with
  | nil => intro i has xs h; cases h; exact ⟨[], rfl, .nil, fun _ => rfl, by simp⟩
  | cons v vs ih =>
    intro i has xs h
    simp only [cursorLoop] at h
    split at h
    · rename_i s
      split at h
      · rename_i hc
        split at h
        · exact absurd h (raiseFmt_ne_ok _ _ _)
        · split at h
          · cases h
          · rename_i r hr
            cases h
            obtain ⟨ts, rfl, h2, h3, h4⟩ := ih _ _ _ hr
            cases h3 rfl
            cases h2
            obtain ⟨k, hk, rfl⟩ := (cursorOptions_cases s).1 hc
            refine ⟨[k.toList], rfl, .cons (.keyword k hk) .nil, fun e => absurd e ‹_›, by simp⟩
      · split at h
        · exact absurd h (raiseFmt_ne_ok _ _ _)
        · split at h
          · cases h
          · rename_i u hu
            split at h
            · cases h
            · rename_i r hr
              cases h
              obtain ⟨ts, rfl, h2, h3, h4⟩ := ih _ _ _ hr
              refine ⟨s :: ts, rfl, .cons (.url s u _ ((uriStr_iff s u).1 hu)) h2, fun e => absurd e ‹_›, ?_⟩
              intro x hx
              cases r with
              | nil => simp at hx
              | cons y r =>
                rw [List.dropLast_cons_cons] at hx
                rcases List.mem_cons.1 hx with rfl | hx
                · exact ⟨_, _, rfl⟩
                · exact h4 x hx
    · split at h <;> exact absurd h (raiseFmt_ne_ok _ _ _)

theorem means_cursorLoop (at_ : List Nat) (whole : Val) {ts : List PyStr} {xs : List CurItem} (h : List.Forall₂ CursorEntry ts xs) : ∀ (i : Nat) (has : Bool),
    (has = true → xs = []) → (∀ x ∈ xs.dropLast, ∃ r s, x = .uri r s) →
    ∃ xs', cursorLoop at_ whole i has (ts.map .str) = .ok xs' ∧ xs'.map CurItem.forget = xs.map CurItem.forget := by
  induction h with
  | nil => intro i has _ _; exact ⟨[], rfl, rfl⟩
  | @cons t x ts xs ht hr ih =>
    intro i has hh hd
    have hf : has = false := by
      cases has with
      | false => rfl
      | true => exact absurd (hh rfl) (by simp)
    subst hf
    have hd' : ∀ y ∈ xs.dropLast, ∃ r s, y = .uri r s := by
      intro y hy
      cases xs with
      | nil => simp at hy
      | cons z xs => exact hd y (by rw [List.dropLast_cons_cons]; exact List.mem_cons_of_mem _ hy)
    cases ht with
    | keyword k hk =>
      have hx : xs = [] := by
        cases xs with
        | nil => rfl
        | cons z xs =>
          obtain ⟨r, s, e⟩ := hd (.opt k.toList) (by rw [List.dropLast_cons_cons]; exact List.mem_cons_self ..)
          cases e
      subst hx
      cases hr
      refine ⟨[.opt k.toList], ?_, rfl⟩
      simp only [List.map_cons, List.map_nil, cursorLoop, (cursorOptions_cases _).2 ⟨k, hk, rfl⟩, if_true]
      rfl
    | url s x r hu =>
      obtain ⟨xs', h1, h2⟩ := ih (i + 1) false (by simp) hd'
      refine ⟨.uri (.heap (i :: at_)) x :: xs', ?_, ?_⟩
      · simp only [List.map_cons, cursorLoop, urlMeans_option hu, (uriStr_iff _ _).2 hu, h1]
        rfl
      · simp only [List.map_cons, h2]
        rfl

theorem cursor_means {at_ : List Nat} {v w : Val} (h : cursor at_ v = .ok w) :
    ∃ ts xs, w = .cursor xs ∧ CursorParts v ts ∧ List.Forall₂ CursorEntry ts xs ∧ ∀ x ∈ xs.dropLast, ∃ r s, x = .uri r s := by
  unfold cursor at h
  simp only at h
  split at h
  · cases h
  · rename_i vs hvs
    split at h
    · cases h
    · rename_i xs hx
      cases h
      obtain ⟨ts, rfl, h2, -, h4⟩ := cursorLoop_means _ _ _ _ _ _ hx
      refine ⟨ts, xs, rfl, ?_, h2, h4⟩
      split at hvs
      · rename_i s
        have e : ts = (splitOn ',' s).map strip := by
          have := Option.some.inj hvs
          have h5 : (splitOn ',' s).map (fun w => Val.str (strip w)) = ((splitOn ',' s).map strip).map Val.str := by rw [List.map_map]; rfl
          rw [h5] at this
          exact (List.map_injective_iff.2 (fun a b e => by cases e; rfl) this).symm
        have h6 : s = List.intercalate [','] (splitOn ',' s) := by rw [← joinWith_intercalate, splitOn_join]
        rw [h6]
        refine .text _ _ ?_ (splitOn_mem ',' s) ?_
        · intro h7
          have := splitOn_length ',' s
          rw [h7] at this
          simp at this
        · rw [e, List.forall₂_map_right_iff]
          exact List.forall₂_same.2 fun p _ => (trimmed_iff _ _).2 rfl
      · exact .members _ _ ((asSeq_iff _ _).1 hvs)

theorem means_cursor (at_ : List Nat) {v : Val} {ts : List PyStr} {xs : List CurItem} (hp : CursorParts v ts) (h : List.Forall₂ CursorEntry ts xs)
    (hd : ∀ x ∈ xs.dropLast, ∃ r s, x = .uri r s) : ∃ xs', cursor at_ v = .ok (.cursor xs') ∧ xs'.map CurItem.forget = xs.map CurItem.forget := by
  obtain ⟨xs', h1, h2⟩ := means_cursorLoop at_ v h 0 false (by simp) hd
  refine ⟨xs', ?_, h2⟩
  unfold cursor
  cases hp with
  | text ps ts hne hc ht =>
    have e : ts = ps.map strip := by
      clear h hd h1 hc hne
      induction ht with
      | nil => rfl
      | cons a _ ih => rw [List.map_cons, ← ih, (trimmed_iff _ _).1 a]
    have e2 : (splitOn ',' (List.intercalate [','] ps)).map (fun w => Val.str (strip w)) = ts.map .str := by
      rw [← joinWith_intercalate, splitOn_joinWith ',' ps hne hc, e, List.map_map]
      rfl
    simp only [e2, h1]
  | members v ts hm =>
    have ha := (asSeq_iff v _).2 hm
    cases v with
    | str s => cases hm
    | _ => simp only [ha, h1]

/-! ## Quotes -/

theorem iterVal_iff (v : Val) (xs : List Val) : iterVal v = some xs ↔ GroupMembers v xs := by
  constructor
  · intro h
    cases v with
    | str s => cases Option.some.inj h; exact .chars s
    | _ => exact .members _ _ ((asSeq_iff _ _).1 h)
  · rintro (⟨s⟩ | ⟨_, _, h⟩)
    · rfl
    · have := (asSeq_iff _ _).2 h
      cases v with
      | str s => cases h
      | _ => exact this

mutual
theorem fmtErr_lengths : ∀ v : Val, v.fmtErr = v.lengths.findSome? CUnit.fmtErr
  | .unit u => by simp [Val.fmtErr, Val.lengths]
  | .rect a b c d => by
    simp only [Val.fmtErr, Val.lengths, List.findSome?_cons, List.findSome?_nil]
    cases a.fmtErr <;> cases b.fmtErr <;> cases c.fmtErr <;> cases d.fmtErr <;> rfl
  | .borderSpacing _ h w => by
    simp only [Val.fmtErr, Val.lengths, List.findSome?_cons]
    cases w with
    | none => cases h.fmtErr <;> rfl
    | some w => simp only [Option.toList, List.findSome?_cons, List.findSome?_nil, Option.bind]; cases h.fmtErr <;> cases w.fmtErr <;> rfl
  | .seq _ xs => by simpa only [Val.fmtErr, Val.lengths] using fmtErrList_lengths xs
  | .none => rfl
  | .dflt => rfl
  | .str _ => rfl
  | .num _ => rfl
  | .color _ _ => rfl
  | .uri _ _ => rfl
  | .quotes _ => rfl
  | .cursor _ => rfl
  | .obj _ => rfl
theorem fmtErrList_lengths : ∀ vs : List Val, fmtErrList vs = (lengthsOf vs).findSome? CUnit.fmtErr
  | [] => rfl
  | v :: vs => by
    simp only [fmtErrList, lengthsOf, List.findSome?_append, fmtErr_lengths v, fmtErrList_lengths vs]
    cases List.findSome? CUnit.fmtErr v.lengths <;> rfl
end

theorem fmtErr_finite (u : CUnit) : u.fmtErr = none ↔ u.isFinite = true := by
  unfold CUnit.fmtErr CUnit.isFinite
  cases u.val <;> simp

theorem fmtErr_none (v : Val) : v.fmtErr = none ↔ ∀ u ∈ v.lengths, u.isFinite = true := by
  rw [fmtErr_lengths, List.findSome?_eq_none_iff]
  exact forall₂_congr fun u _ => fmtErr_finite u

theorem fmtErrList_none_append (xs ys : List Val) : fmtErrList (xs ++ ys) = none ↔ fmtErrList xs = none ∧ fmtErrList ys = none := by
  induction xs with
  | nil => simp [fmtErrList]
  | cons x xs ih =>
    simp only [List.cons_append, fmtErrList]
    cases x.fmtErr with
    | some e => simp
    | none => simpa using ih

theorem flatten2_iff (vs : List Val) : ∀ xs, flatten2 vs = .ok xs ↔ (∃ gs, List.Forall₂ GroupMembers vs gs ∧ xs = gs.flatten) ∧ fmtErrList xs = none := by
  induction vs with
  | nil =>
    intro xs
    constructor
    · intro h; cases h; exact ⟨⟨[], .nil, rfl⟩, rfl⟩
    · rintro ⟨⟨gs, h, rfl⟩, _⟩; cases h; rfl
  | cons v vs ih =>
    intro xs
    simp only [flatten2]
    constructor
    · intro h
      split at h
      · cases h
      · rename_i ys hy
        split at h
        · cases h
        · rename_i hp
          split at h
          · cases h
          · rename_i zs hz
            cases h
            obtain ⟨⟨gs, h1, rfl⟩, h2⟩ := (ih zs).1 hz
            exact ⟨⟨ys :: gs, .cons ((iterVal_iff v ys).1 hy) h1, rfl⟩, (fmtErrList_none_append _ _).2 ⟨hp, h2⟩⟩
    · rintro ⟨⟨gs, h, rfl⟩, hp⟩
      cases h with
      | @cons _ g _ gs h1 h2 =>
        rw [List.flatten_cons, fmtErrList_none_append] at hp
        simp only [(iterVal_iff v g).2 h1, hp.1, (ih gs.flatten).2 ⟨⟨gs, h2, rfl⟩, hp.2⟩, List.flatten_cons]

theorem literalEval_iff (E : Env) (w : PyStr) (q : QVal) : literalEval E w = .ok q ↔ QuoteToken E w q := by
  unfold literalEval
  constructor
  · intro h
    cases hb : simpleLit w with
    | some b => rw [hb] at h; cases h; exact .literal w b ((simpleLit_iff w b).1 hb)
    | none =>
      rw [hb] at h
      exact .other w q (fun x hx => by rw [(simpleLit_iff w x).2 hx] at hb; cases hb) h
  · intro h
    cases h with
    | literal x h => rw [(simpleLit_iff w x).2 h]
    | other _ h1 h2 =>
      cases hs : simpleLit w with
      | none => exact h2
      | some x => exact absurd ((simpleLit_iff w x).1 hs) (h1 x)

theorem evalRepr_iff (E : Env) (v : Val) (q : QVal) : (v.fmtErr = none ∧ evalRepr E v = .ok q) ↔ QuoteMember E v q := by
  constructor
  · rintro ⟨hp, h⟩
    cases v with
    | str s => cases h; exact .text s
    | _ => exact .other _ _ (fun s e => by cases e) ((fmtErr_none _).1 hp) h
  · rintro (⟨s⟩ | ⟨_, _, h1, hp, h2⟩)
    · exact ⟨rfl, rfl⟩
    · cases v with
      | str s => exact absurd rfl (h1 s)
      | _ => exact ⟨(fmtErr_none _).2 hp, h2⟩

theorem evalReprs_iff (E : Env) (vs : List Val) :
    ∀ qs : List QVal, (fmtErrList vs = none ∧ vs.map (evalRepr E) = qs.map .ok) ↔ List.Forall₂ (QuoteMember E) vs qs := by
  induction vs with
  | nil => intro qs; cases qs <;> simp [fmtErrList]
  | cons v vs ih =>
    intro qs
    cases qs with
    | nil => simp
    | cons q qs =>
      simp only [List.map_cons, List.cons.injEq, List.forall₂_cons, ← ih, ← evalRepr_iff, fmtErrList]
      cases v.fmtErr with
      | some e => simp
      | none => simp only [true_and]; tauto

theorem nonEmpty_len (q : QVal) : q.nonEmpty ↔ ∃ n, q.len = some (n + 1) := by
  cases q with
  | str s =>
    cases s with
    | nil => simp [QVal.nonEmpty, QVal.len]
    | cons c s => simp [QVal.nonEmpty, QVal.len]
  | other t n =>
    cases n with
    | none => simp [QVal.nonEmpty, QVal.len]
    | some n => cases n <;> simp [QVal.nonEmpty, QVal.len]

theorem checkQuoteLen_iff (v : Val) (o c : QVal) : checkQuoteLen v o c = .ok () ↔ o.nonEmpty ∧ c.nonEmpty := by
  rw [nonEmpty_len, nonEmpty_len]
  unfold checkQuoteLen
  constructor
  · intro h
    split at h
    · cases h
    · exact absurd h (raiseFmt_ne_ok _ _ _)
    · rename_i n h0 ho
      split at h
      · cases h
      · exact absurd h (raiseFmt_ne_ok _ _ _)
      · rename_i m h1 hc
        refine ⟨⟨n - 1, ?_⟩, ⟨m - 1, ?_⟩⟩
        · rw [ho]; congr 1; have : n ≠ 0 := fun e => h0 (by rw [e]); omega
        · rw [hc]; congr 1; have : m ≠ 0 := fun e => h1 (by rw [e]); omega
  · rintro ⟨⟨n, hn⟩, ⟨m, hm⟩⟩
    rw [hn, hm]
    rfl

theorem quotePairs_iff (v : Val) : ∀ (k : Nat) (rs : List (Res QVal)), rs.length = 2 * k → ∀ ps,
    (quotePairs v rs = .ok ps ↔ rs = (ps.flatMap fun p => [Except.ok p.1, Except.ok p.2]) ∧ ∀ p ∈ ps, p.1.nonEmpty ∧ p.2.nonEmpty) := by
  intro k
  induction k with
  | zero =>
    intro rs h ps
    have : rs = [] := List.length_eq_zero_iff.1 (by omega)
    subst this
    simp only [quotePairs]
    constructor
    · intro h; cases h; simp
    · rintro ⟨h, -⟩
      cases ps with
      | nil => rfl
      | cons p ps => simp at h
  | succ k ih =>
    intro rs h ps
    match rs, h with
    | [], h => simp at h
    | [_], h => simp at h; omega
    | o :: c :: rest, h =>
      have hk : rest.length = 2 * k := by simp only [List.length_cons] at h; omega
      simp only [quotePairs]
      constructor
      · intro h
        split at h
        · cases h
        · split at h
          · cases h
          · split at h
            · cases h
            · rename_i hl
              split at h
              · cases h
              · rename_i qs hq
                cases h
                obtain ⟨h1, h2⟩ := (ih rest hk qs).1 hq
                refine ⟨by rw [List.flatMap_cons, ← h1]; rfl, ?_⟩
                intro p hp
                rcases List.mem_cons.1 hp with rfl | hp
                · exact (checkQuoteLen_iff _ _ _).1 hl
                · exact h2 p hp
      · rintro ⟨h1, h2⟩
        cases ps with
        | nil => simp at h1
        | cons p ps =>
          rw [List.flatMap_cons] at h1
          obtain ⟨h3, h1⟩ := List.cons.inj h1
          obtain ⟨h4, h1⟩ := List.cons.inj h1
          rw [h3, h4]
          simp only [(checkQuoteLen_iff v _ _).2 (h2 p (List.mem_cons_self ..)), (ih rest hk ps).2 ⟨h1, fun q hq => h2 q (List.mem_cons_of_mem _ hq)⟩]

theorem quotesOf_iff (v w : Val) (rs : List (Res QVal)) : quotesOf v rs = .ok w ↔
    ∃ ps, w = .quotes ps ∧ ps ≠ [] ∧ (∀ p ∈ ps, p.1.nonEmpty ∧ p.2.nonEmpty) ∧ rs = (ps.flatMap fun p => [p.1, p.2]).map .ok := by
  have em : ∀ ps : List (QVal × QVal), (ps.flatMap fun p => [p.1, p.2]).map (Except.ok (ε := Err)) = ps.flatMap fun p => [Except.ok p.1, Except.ok p.2] := by
    intro ps; rw [List.map_flatMap]; rfl
  have ln : ∀ ps : List (QVal × QVal), (ps.flatMap fun p => [Except.ok (ε := Err) p.1, Except.ok p.2]).length = 2 * ps.length := by
    intro ps
    induction ps with
    | nil => rfl
    | cons p ps ih => rw [List.flatMap_cons, List.length_append, ih]; simp only [List.length_cons, List.length_nil]; omega
  unfold quotesOf
  constructor
  · intro h
    split at h
    · rename_i hc
      simp only [Bool.and_eq_true, decide_eq_true_eq, beq_iff_eq] at hc
      split at h
      · cases h
      · rename_i ps hp
        cases h
        obtain ⟨h1, h2⟩ := (quotePairs_iff v (rs.length / 2) rs (by omega) ps).1 hp
        refine ⟨ps, rfl, ?_, h2, by rw [em]; exact h1⟩
        rintro rfl
        rw [h1] at hc
        simp at hc
    · cases h
  · rintro ⟨ps, rfl, hne, h2, rfl⟩
    rw [em]
    have hl : 0 < ps.length := List.length_pos_iff.2 hne
    rw [if_pos (by rw [ln]; simp; omega), (quotePairs_iff v ps.length _ (ln ps) ps).2 ⟨rfl, h2⟩]

theorem map_ok_iff {α : Type} (f : α → Res QVal) (R : α → QVal → Prop) (h : ∀ a q, f a = .ok q ↔ R a q) (as : List α) :
    ∀ qs : List QVal, as.map f = qs.map .ok ↔ List.Forall₂ R as qs := by
  induction as with
  | nil => intro qs; cases qs <;> simp
  | cons a as ih =>
    intro qs
    cases qs with
    | nil => simp
    | cons q qs => simp only [List.map_cons, List.cons.injEq, List.forall₂_cons, h, ih]

theorem quotes_iff (E : Env) (v w : Val) : quotes E v = .ok w ↔ Meaning E .quotes v w := by
  have key : ∀ rs : List (Res QVal), (∀ qs : List QVal, rs = qs.map .ok ↔ Quotations E v qs) → (quotesOf v rs = .ok w ↔ Meaning E .quotes v w) := by
    intro rs hr
    rw [quotesOf_iff]
    constructor
    · rintro ⟨ps, rfl, h1, h2, h3⟩
      exact .quotes v ps h1 h2 ((hr _).1 h3)
    · intro h
      cases h with
      | quotes _ ps h1 h2 h3 => exact ⟨ps, rfl, h1, h2, (hr _).2 h3⟩
  have other : ∀ (hs : ∀ s, v ≠ .str s), (match asSeq v with
      | some xs =>
        match flatten2 xs with
        | .error e => .error e
        | .ok ys => quotesOf v (ys.map (evalRepr E))
      | none => raiseFmt .value v) = Except.ok w ↔ Meaning E .quotes v w := by
    intro hs
    cases ha : asSeq v with
    | none =>
      simp only
      constructor
      · intro h; exact absurd h (raiseFmt_ne_ok _ _ _)
      · intro h
        cases h with
        | quotes _ ps h1 h2 h3 =>
          exfalso
          cases h3 with
          | text s => exact hs _ rfl
          | groups _ xs gs qs hm => rw [(asSeq_iff _ _).2 hm] at ha; cases ha
    | some xs =>
      simp only
      have hm := (asSeq_iff _ _).1 ha
      cases hf : flatten2 xs with
      | error e =>
        simp only
        constructor
        · intro h; cases h
        · intro h
          cases h with
          | quotes _ ps h1 h2 h3 =>
            exfalso
            cases h3 with
            | text s => exact hs _ rfl
            | groups _ xs' gs qs hm' hg hq =>
              cases hm.unique hm'
              rw [(flatten2_iff xs _).2 ⟨⟨gs, hg, rfl⟩, ((evalReprs_iff E _ _).2 hq).1⟩] at hf
              cases hf
      | ok ys =>
        simp only
        obtain ⟨⟨gs, hg, rfl⟩, hp⟩ := (flatten2_iff xs ys).1 hf
        refine key _ fun qs => ?_
        constructor
        · exact fun h => .groups v xs gs qs hm hg ((evalReprs_iff E _ _).1 ⟨hp, h⟩)
        · intro h
          cases h with
          | text s => exact absurd rfl (hs _)
          | groups _ xs' gs' qs hm' hg' hq =>
            cases hm.unique hm'
            have hq' := (evalReprs_iff E _ _).2 hq
            have := (flatten2_iff xs _).2 ⟨⟨gs', hg', rfl⟩, hq'.1⟩
            rw [hf] at this
            rw [Except.ok.inj this]
            exact hq'.2
  cases v with
  | str s =>
    refine key _ fun qs => ?_
    have e : (splitWs s).map (fun w => literalEval E (strip w)) = (splitWs s).map (literalEval E) := by
      conv_rhs => rw [← splitWs_map_strip s, List.map_map]
      rfl
    rw [e, map_ok_iff (literalEval E) (QuoteToken E) (literalEval_iff E)]
    constructor
    · exact .text s _ qs (words_splitWs s)
    · intro h
      cases h with
      | text _ ws qs hw hq => rw [hw.splitWs]; exact hq
      | groups _ _ _ _ hm => cases hm
  | _ => exact other fun s e => by cases e

end Colosseum
