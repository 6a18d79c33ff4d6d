import Verif.Spec.Represent
import Verif.Model.Shorthand
import Verif.Props.Print
import Verif.Lemmas.Shown

/-!
# C116: the representation of a value
-/

namespace Colosseum

/-! ## Every value is shown by such a text -/

theorem commas_intercalate : ∀ (t : PyStr) (ts : List PyStr), Commas (t :: ts) (List.intercalate (lit ", ") (t :: ts))
  | t, [] => by simpa using Commas.one t
  | t, t' :: ts => by
    have := Commas.more t _ _ (commas_intercalate t' ts)
    have e : List.intercalate (lit ", ") (t :: t' :: ts) = t ++ lit ", " ++ List.intercalate (lit ", ") (t' :: ts) := by
      simp [List.intercalate, List.intersperse]
    rw [e]
    exact this

theorem unit_writes {u : CUnit} (h : u.Readable) : ∃ s, u.repr (pyRepr .b64) = .ok s ∧ WritesUnit s u := by
  obtain ⟨s, w, h1, _, _, h2, h3⟩ := unit_reads h
  refine ⟨s, h1, ?_, ?_, w, (C03_units_accepts .b64 b64_laws (.str s) trivial w).1 h2, h3⟩
  all_goals
    obtain ⟨k, x⟩ := u
    obtain ⟨n, rfl, hn⟩ := h
    intro hc
    have := repr_chars (pyRepr .b64) k n s (fun q _ => pyRepr_chars _ _) h1 _ hc
    simp at this

theorem item_writes (P : Printer) (x : CurItem) : WritesItem (P.cursorItem x) x := by
  cases x with
  | opt s => exact .word _ _ (quote_word P s)
  | uri r x => exact .url r x

theorem forall₂_map_self {α β : Type} {R : β → α → Prop} {f : α → β} (h : ∀ a, R (f a) a) : ∀ as : List α, List.Forall₂ R (as.map f) as
  | [] => .nil
  | a :: as => .cons (h a) (forall₂_map_self h as)

/-- **C116, the notation.** `repr` of a border spacing, of quotes, of a cursor or of a keyword is the call, or the quoted word, that stands
for the value: the parts in their order. -/
theorem C116_notation (P : Printer) (hP : P.reprFloat = pyRepr .b64) (v : Val) (hv : Writable v) : ∃ t, P.repr v = .ok t ∧ Writes t v := by
  cases hv with
  | word s => exact ⟨_, rfl, .word _ _ (quote_word P s)⟩
  | spacing r h v hh hv =>
    obtain ⟨s, h1, h2⟩ := unit_writes hh
    cases v with
    | none =>
      refine ⟨_, ?_, .spacing r h none [s] s (.cons h2 .nil) (.one s)⟩
      simp only [Printer.repr, borderSpacingRepr, hP, h1]
      rfl
    | some w =>
      obtain ⟨s', h3, h4⟩ := unit_writes (hv w rfl)
      refine ⟨_, ?_, .spacing r h (some w) [s, s'] _ (.cons h2 (.cons h4 .nil)) (.more _ _ _ (.one s'))⟩
      simp only [Printer.repr, borderSpacingRepr, hP, h1, h3]
      simp [pure, Except.pure, bind, Except.bind, lit]
  | quotes ps hne =>
    refine ⟨_, rfl, ?_⟩
    rw [List.map_map]
    obtain ⟨p, ps, rfl⟩ := List.exists_cons_of_ne_nil hne
    exact .quotes (p :: ps) _ _ (forall₂_map_self (f := P.tuple ∘ fun p : PyStr × PyStr => (QVal.str p.1, QVal.str p.2))
      (fun p => ⟨_, _, quote_word P p.1, quote_word P p.2, rfl⟩) (p :: ps)) (commas_intercalate _ _)
  | cursor xs =>
    cases xs with
    | nil => exact ⟨_, rfl, .noCursor⟩
    | cons x xs => exact ⟨_, rfl, .cursor (x :: xs) _ _ (forall₂_map_self (item_writes P) (x :: xs)) (commas_intercalate _ _)⟩

/-- **C116, all others.** Every other value is shown as its text. -/
theorem C116_same (P : Printer) (v : Val) (h1 : ∀ s, v ≠ .str s) (h2 : ∀ r h w, v ≠ .borderSpacing r h w) (h3 : ∀ q, v ≠ .quotes q)
    (h4 : ∀ xs, v ≠ .cursor xs) : P.repr v = P.str v := by
  cases v with
  | str s => exact absurd rfl (h1 s)
  | borderSpacing r h w => exact absurd rfl (h2 r h w)
  | quotes q => exact absurd rfl (h3 q)
  | cursor xs => exact absurd rfl (h4 xs)
  | _ => rfl

/-! ## A text stands for one value -/

theorem quoted_split {q : Char} (hq : q ≠ '\\') {t x : PyStr} (h : Quoted q t x) : ∀ {t' x' : PyStr} {r r' : PyStr}, Quoted q t' x' →
    t ++ q :: r = t' ++ q :: r' → t = t' ∧ r = r' := by
  induction h with
  | nil =>
    intro t' x' r r' h' e
    cases h' with
    | nil => exact ⟨rfl, (List.cons.inj e).2⟩
    | char c _ _ h => exact absurd (List.cons.inj e).1.symm h
    | escape => exact absurd (List.cons.inj e).1 hq
    | hex => exact absurd (List.cons.inj e).1 hq
  | char c t x h1 h2 _ _ _ _ ih =>
    intro t' x' r r' h' e
    cases h' with
    | nil => exact absurd (List.cons.inj e).1 h1
    | char c' t' _ _ _ _ _ _ h =>
      obtain ⟨e1, e2⟩ := List.cons.inj e
      obtain ⟨e3, e4⟩ := ih h e2
      exact ⟨by rw [e1, e3], e4⟩
    | escape => exact absurd (List.cons.inj e).1 h2
    | hex => exact absurd (List.cons.inj e).1 h2
  | escape a c t x h1 _ ih =>
    intro t' x' r r' h' e
    cases h' with
    | nil => exact absurd (List.cons.inj e).1.symm hq
    | char c' t' _ _ h => exact absurd (List.cons.inj e).1.symm h
    | escape a' c' t' _ _ h =>
      obtain ⟨_, e0⟩ := List.cons.inj e
      obtain ⟨e1, e2⟩ := List.cons.inj e0
      obtain ⟨e3, e4⟩ := ih h e2
      exact ⟨by rw [e1, e3], e4⟩
    | hex a' k ds c' t' _ h2 =>
      obtain ⟨_, e0⟩ := List.cons.inj e
      obtain ⟨rfl, _⟩ := List.cons.inj e0
      exfalso
      simp only [pyEscapes, List.mem_cons, Prod.mk.injEq, List.not_mem_nil, or_false] at h1 h2
      rcases h2 with ⟨rfl, _⟩ | ⟨rfl, _⟩ | ⟨rfl, _⟩ <;> revert h1 <;> simp
  | hex a k ds c t x h1 hl _ _ ih =>
    intro t' x' r r' h' e
    cases h' with
    | nil => exact absurd (List.cons.inj e).1.symm hq
    | char c' t' _ _ h => exact absurd (List.cons.inj e).1.symm h
    | escape a' c' t' _ h2 =>
      obtain ⟨_, e0⟩ := List.cons.inj e
      obtain ⟨rfl, _⟩ := List.cons.inj e0
      exfalso
      simp only [pyEscapes, List.mem_cons, Prod.mk.injEq, List.not_mem_nil, or_false] at h1 h2
      rcases h1 with ⟨rfl, _⟩ | ⟨rfl, _⟩ | ⟨rfl, _⟩ <;> revert h2 <;> simp
    | hex a' k' ds' c' t' _ h2 hl' _ h =>
      obtain ⟨_, e0⟩ := List.cons.inj e
      obtain ⟨e1, e2⟩ := List.cons.inj e0
      subst e1
      have hk : k = k' := by
        simp only [List.mem_cons, Prod.mk.injEq, List.not_mem_nil, or_false] at h1 h2
        rcases h1 with ⟨rfl, rfl⟩ | ⟨rfl, rfl⟩ | ⟨rfl, rfl⟩ <;> rcases h2 with ⟨h, rfl⟩ | ⟨h, rfl⟩ | ⟨h, rfl⟩ <;> first | rfl | exact absurd h (by decide)
      have e3 : ds ++ (t ++ q :: r) = ds' ++ (t' ++ q :: r') := by rw [← List.append_assoc, ← List.append_assoc]; exact e2
      obtain ⟨e4, e5⟩ := List.append_inj e3 (by rw [hl, hl', hk])
      obtain ⟨e6, e7⟩ := ih h e5
      exact ⟨by rw [e4, e6], e7⟩

theorem word_split {a a' x x' r r' : PyStr} (h : QuotedWord a x) (h' : QuotedWord a' x') (e : a ++ r = a' ++ r') : a = a' ∧ x = x' ∧ r = r' := by
  have key : a = a' ∧ r = r' := by
    obtain ⟨q, t, hq, rfl, ht⟩ := h
    obtain ⟨q', t', hq', rfl, ht'⟩ := h'
    simp only [List.cons_append, List.append_assoc, List.nil_append, List.cons.injEq] at e
    obtain ⟨rfl, e⟩ := e
    obtain ⟨e1, e2⟩ := quoted_split (by rcases hq with rfl | rfl <;> decide) ht ht' e
    exact ⟨by rw [e1], e2⟩
  obtain ⟨rfl, rfl⟩ := key
  have h1 := simpleLit_quoted _ _ h
  rw [simpleLit_quoted _ _ h'] at h1
  cases h1
  exact ⟨rfl, rfl, rfl⟩

theorem pair_split {a a' r r' : PyStr} {p p' : PyStr × PyStr} (h : WritesPair a p) (h' : WritesPair a' p') (e : a ++ r = a' ++ r') : p = p' ∧ r = r' := by
  obtain ⟨b, c, hb, hc, rfl⟩ := h
  obtain ⟨b', c', hb', hc', rfl⟩ := h'
  simp only [List.append_assoc, List.cons_append, List.nil_append, List.cons.injEq, true_and] at e
  obtain ⟨_, e1, e⟩ := word_split hb hb' e
  have e := List.append_cancel_left e
  obtain ⟨_, e2, e⟩ := word_split hc hc' e
  exact ⟨Prod.ext e1 e2, (List.cons.inj e).2⟩

theorem item_split {a a' r r' : PyStr} {x x' : CurItem} (h : WritesItem a x) (h' : WritesItem a' x') (hx : ∀ r u, x = .uri r u → '"' ∉ u)
    (hx' : ∀ r u, x' = .uri r u → '"' ∉ u) (e : a ++ r = a' ++ r') : SameItem x x' ∧ r = r' := by
  cases h with
  | word _ s hs =>
    cases h' with
    | word _ s' hs' =>
      obtain ⟨_, rfl, e⟩ := word_split hs hs' e
      exact ⟨.opt s, e⟩
    | url ρ u =>
      obtain ⟨q, t, hq, rfl, ht⟩ := hs
      have := (List.cons.inj e).1
      rcases hq with rfl | rfl <;> exact absurd this (by decide)
  | url ρ u =>
    cases h' with
    | word _ s' hs' =>
      obtain ⟨q, t, hq, rfl, ht⟩ := hs'
      have := (List.cons.inj e).1
      rcases hq with rfl | rfl <;> exact absurd this (by decide)
    | url ρ' u' =>
      simp only [List.append_assoc] at e
      have e := List.append_cancel_left e
      obtain ⟨e1, e2⟩ := split_unique (c := '"') (hx _ _ rfl) (hx' _ _ rfl) e
      exact ⟨e1 ▸ .uri ρ ρ' u, (List.cons.inj e2).2⟩

/-- Texts that tell where they end, with commas between them. -/
theorem commas_unique {α : Type} {W : PyStr → α → Prop} {S : α → α → Prop} {A : α → Prop}
    (hw : ∀ {a a' r r' x x'}, W a x → W a' x' → A x → A x' → a ++ r = a' ++ r' → S x x' ∧ r = r') {ts : List PyStr} {s : PyStr} (h : Commas ts s) :
    ∀ {ts' : List PyStr} {xs xs' : List α}, Commas ts' s → List.Forall₂ W ts xs → List.Forall₂ W ts' xs' → (∀ x ∈ xs, A x) → (∀ x ∈ xs', A x) →
      List.Forall₂ S xs xs' := by
  induction h with
  | one t =>
    intro ts' xs xs' h' f f' ha ha'
    obtain ⟨x, _, g, g0, rfl⟩ := List.forall₂_cons_left_iff.1 f
    cases g0
    generalize hs : t = s at h'
    cases h' with
    | one t' =>
      subst hs
      obtain ⟨x', _, g', g0', rfl⟩ := List.forall₂_cons_left_iff.1 f'
      cases g0'
      exact .cons (hw g g' (ha x (by simp)) (ha' x' (by simp)) (r := []) (r' := []) rfl).1 .nil
    | more t' ts' s' h' =>
      obtain ⟨x', _, g', g0', rfl⟩ := List.forall₂_cons_left_iff.1 f'
      have := (hw g g' (ha x (by simp)) (ha' x' (by simp)) (r := []) (r' := ", ".toList ++ s') (by rw [List.append_nil, hs, List.append_assoc])).2
      cases this
  | more t ts s h ih =>
    intro ts' xs xs' h' f f' ha ha'
    obtain ⟨x, xs, g, g0, rfl⟩ := List.forall₂_cons_left_iff.1 f
    generalize hs : t ++ ", ".toList ++ s = s₀ at h'
    cases h' with
    | one t' =>
      obtain ⟨x', _, g', g0', rfl⟩ := List.forall₂_cons_left_iff.1 f'
      have := (hw g g' (ha x (by simp)) (ha' x' (by simp)) (r := ", ".toList ++ s) (r' := []) (by rw [List.append_nil, ← hs, List.append_assoc])).2
      cases this
    | more t' ts' s' h' =>
      obtain ⟨x', xs', g', g0', rfl⟩ := List.forall₂_cons_left_iff.1 f'
      obtain ⟨k, e⟩ := hw g g' (ha x (by simp)) (ha' x' (by simp)) (r := ", ".toList ++ s) (r' := ", ".toList ++ s')
        (by rw [← List.append_assoc, ← List.append_assoc, hs])
      have e := List.append_cancel_left e
      subst e
      exact .cons k (ih h' g0 g0' (fun x hx => ha x (by simp [hx])) fun x hx => ha' x (by simp [hx]))

theorem equalNum_trans {x y w : PyNum} (h : EqualNum x w) (h' : EqualNum y w) : EqualNum x y := by
  rcases h with h | ⟨rfl, rfl⟩
  · rcases h' with h' | ⟨rfl, rfl⟩
    · left
      rcases x with x | a | _ <;> rcases y with y | b | _ <;> rcases w with w | c | _ <;> simp_all [PyNum.pyEq, Num.pyEq]
    · left
      rcases x with x | a | _ <;> simp_all [PyNum.pyEq]
  · rcases h' with h' | ⟨rfl, _⟩
    · rcases y with y | a | _ <;> simp_all [PyNum.pyEq]
    · exact .inr ⟨rfl, rfl⟩

theorem unit_same {t : PyStr} {u u' : CUnit} (h : WritesUnit t u) (h' : WritesUnit t u') : SameUnit u u' := by
  obtain ⟨_, _, w, h1, h2⟩ := h
  obtain ⟨_, _, w', h1', h2'⟩ := h'
  have e := (C03_units_accepts .b64 b64_laws (.str t) trivial w).2 h1
  rw [(C03_units_accepts .b64 b64_laws (.str t) trivial w').2 h1'] at e
  cases e
  exact ⟨h2.1.trans h2'.1.symm, equalNum_trans h2.2 h2'.2⟩

theorem commas_one {α : Type} {W : PyStr → α → Prop} {ts : List PyStr} {x : α} {s : PyStr} (f : List.Forall₂ W ts [x]) (h : Commas ts s) :
    ∃ a, ts = [a] ∧ W a x ∧ s = a := by
  rcases f with _ | ⟨g, _ | _⟩
  cases h with
  | one => exact ⟨_, rfl, g, rfl⟩
  | more _ _ _ k => cases k

theorem commas_two {α : Type} {W : PyStr → α → Prop} {ts : List PyStr} {x y : α} {s : PyStr} (f : List.Forall₂ W ts [x, y]) (h : Commas ts s) :
    ∃ a b, ts = [a, b] ∧ W a x ∧ W b y ∧ s = a ++ ", ".toList ++ b := by
  rcases f with _ | ⟨g, _ | ⟨k, _ | _⟩⟩
  cases h with
  | more _ _ _ h =>
    cases h with
    | one => exact ⟨_, _, rfl, g, k, rfl⟩
    | more _ _ _ k => cases k

/-- **C116, one value.** A text is the notation of one value only, up to the identity of objects, if no url contains a double quote. -/
theorem C116_unambiguous (t : PyStr) (v w : Val) (hv : Writes t v) (hw : Writes t w) (nv : NoQuoteInUrl v) (nw : NoQuoteInUrl w) : SameVal v w := by
  have quote : ∀ {t x : PyStr} {c : Char} {r : PyStr}, QuotedWord t x → t = c :: r → c = '\'' ∨ c = '"' := by
    rintro t x c r ⟨q, u, hq, rfl, _⟩ e
    obtain ⟨rfl, _⟩ := List.cons.inj e
    exact hq
  cases hv with
  | word _ s hs =>
    generalize ht : t = t' at hw
    cases hw with
    | word _ s' hs' =>
      subst ht
      obtain ⟨_, rfl, _⟩ := word_split hs hs' (r := []) (r' := []) rfl
      exact .word s
    | _ => rcases quote hs ht with h | h <;> exact absurd h (by decide)
  | spacing r h v ts s f hc =>
    generalize ht : "BorderSpacing(".toList ++ s ++ [')'] = t' at hw
    cases hw with
    | word _ s' hs' => rcases quote hs' ht.symm with h | h <;> exact absurd h (by decide)
    | spacing r' h' v' ts' s' f' hc' =>
      have e := List.append_cancel_left (List.append_cancel_right ht)
      subst e
      cases v with
      | none =>
        obtain ⟨a, rfl, g, e1⟩ := commas_one f hc
        subst e1
        cases v' with
        | none =>
          obtain ⟨a', rfl, g', e2⟩ := commas_one f' hc'
          exact .one _ _ _ _ (unit_same g (e2 ▸ g'))
        | some w' =>
          obtain ⟨a', b', rfl, g', k', e2⟩ := commas_two f' hc'
          exact absurd (by rw [e2]; simp) g.1
      | some w =>
        obtain ⟨a, b, rfl, g, k, e1⟩ := commas_two f hc
        cases v' with
        | none =>
          obtain ⟨a', rfl, g', e2⟩ := commas_one f' hc'
          exact absurd (by rw [← e2, e1]; simp) g'.1
        | some w' =>
          obtain ⟨a', b', rfl, g', k', e2⟩ := commas_two f' hc'
          rw [e1, List.append_assoc, List.append_assoc] at e2
          obtain ⟨e3, e4⟩ := split_unique (c := ',') g.1 g'.1 e2
          have e5 : b = b' := (List.cons.inj e4).2
          exact .two _ _ _ _ _ _ (unit_same g (e3 ▸ g')) (unit_same k (e5 ▸ k'))
    | quotes => exact absurd (List.cons.inj ht).1 (by decide)
    | cursor => exact absurd (List.cons.inj ht).1 (by decide)
    | noCursor => exact absurd (List.cons.inj ht).1 (by decide)
  | quotes ps ts s f hc =>
    generalize ht : "Quotes([".toList ++ s ++ "])".toList = t' at hw
    cases hw with
    | word _ s' hs' => rcases quote hs' ht.symm with h | h <;> exact absurd h (by decide)
    | spacing => exact absurd (List.cons.inj ht).1 (by decide)
    | quotes ps' ts' s' f' hc' =>
      have e := List.append_cancel_left (List.append_cancel_right ht)
      subst e
      have := commas_unique (S := Eq) (A := fun _ => True) (fun h h' _ _ e => pair_split h h' e) hc hc' f f' (fun _ _ => trivial) fun _ _ => trivial
      rw [List.forall₂_eq_eq_eq] at this
      rw [this]
      exact .quotes _
    | cursor => exact absurd (List.cons.inj ht).1 (by decide)
    | noCursor => exact absurd (List.cons.inj ht).1 (by decide)
  | cursor xs ts s f hc =>
    generalize ht : "Cursor([".toList ++ s ++ "])".toList = t' at hw
    cases hw with
    | word _ s' hs' => rcases quote hs' ht.symm with h | h <;> exact absurd h (by decide)
    | spacing => exact absurd (List.cons.inj ht).1 (by decide)
    | quotes => exact absurd (List.cons.inj ht).1 (by decide)
    | cursor xs' ts' s' f' hc' =>
      have e := List.append_cancel_left (List.append_cancel_right ht)
      subst e
      exact .cursor _ _ (commas_unique (S := SameItem) (A := fun x => ∀ r u, x = CurItem.uri r u → '"' ∉ u) (fun h h' a a' e => item_split h h' a a' e) hc hc' f f'
        (fun x hx r u e => nv xs r u rfl (e ▸ hx)) fun x hx r u e => nw xs' r u rfl (e ▸ hx))
    | noCursor => cases ht
  | noCursor =>
    generalize ht : "Cursor()".toList = t' at hw
    cases hw with
    | word _ s' hs' => rcases quote hs' ht.symm with h | h <;> exact absurd h (by decide)
    | spacing => exact absurd (List.cons.inj ht).1 (by decide)
    | quotes => exact absurd (List.cons.inj ht).1 (by decide)
    | cursor => cases ht
    | noCursor => exact .cursor _ _ .nil

/-- C116. Full statement: two values of the same representation are the same. What is missing: urls with double quotes (see
`C116_false_url`), units that are infinite or that floats cannot hold. -/
theorem C116_distinct_partial (P : Printer) (hP : P.reprFloat = pyRepr .b64) (v w : Val) (hv : Writable v) (hw : Writable w) (nv : NoQuoteInUrl v)
    (nw : NoQuoteInUrl w) (h : P.repr v = P.repr w) : SameVal v w := by
  obtain ⟨t, h1, h2⟩ := C116_notation P hP v hv
  obtain ⟨t', h1', h2'⟩ := C116_notation P hP w hw
  rw [h1, h1'] at h
  cases h
  exact C116_unambiguous t v w h2 h2' nv nw

/-- The cursor of two urls is shown as the cursor of one url that contains the text between them. -/
theorem C116_false_url (P : Printer) (at_ : List Nat) : ∃ v w, (∃ t, cursor at_ (.str t) = .ok v) ∧ (∃ xs, cursor at_ xs = .ok w) ∧ P.repr v = P.repr w ∧ ¬ SameVal v w := by
  refine ⟨.cursor [.uri (.heap (0 :: at_)) (lit "a"), .uri (.heap (1 :: at_)) (lit "b")], .cursor [.uri (.heap (0 :: at_)) (lit "a\"), url(\"b")],
    ⟨lit "url(a), url(b)", ?_⟩, ⟨.seq false [.str (lit "url(a\"), url(\"b)")], ?_⟩, rfl, ?_⟩
  · rfl
  · rfl
  · intro h
    cases h with
    | cursor _ _ h => cases h with | cons _ h => cases h

/-- A border spacing, quotes and a cursor. -/
example (P : Printer) (hP : P.reprFloat = pyRepr .b64) (r : Ref) := C116_notation P hP (.borderSpacing r ⟨.len .px, .fin (.int 1)⟩ (some ⟨.len .em, .fin (.int 2)⟩))
  (.spacing _ _ _ ⟨_, rfl, by unfold Num.Binary64; decide +kernel⟩ (by rintro w ⟨⟩; exact ⟨_, rfl, by unfold Num.Binary64; decide +kernel⟩))
example (P : Printer) (hP : P.reprFloat = pyRepr .b64) := C116_notation P hP (.quotes [(.str (lit "<"), .str (lit ">"))]) (.quotes [(lit "<", lit ">")] (by simp))
example (P : Printer) (hP : P.reprFloat = pyRepr .b64) (r : Ref) := C116_notation P hP (.cursor [.uri r (lit "a.png"), .opt (lit "help")]) (.cursor _)
example (P : Printer) := C116_same P (.unit ⟨.len .px, .fin (.int 3)⟩) (fun _ h => by cases h) (fun _ _ _ h => by cases h) (fun _ h => by cases h) (fun _ h => by cases h)
example (P : Printer) (hP : P.reprFloat = pyRepr .b64) (r r' : Ref) := C116_distinct_partial P hP (.cursor [.uri r (lit "a.png"), .opt (lit "help")])
  (.cursor [.uri r' (lit "a.png"), .opt (lit "help")]) (.cursor _) (.cursor _)
  (by rintro xs ρ x ⟨⟩ h; simp at h; obtain ⟨_, rfl⟩ := h; decide) (by rintro xs ρ x ⟨⟩ h; simp at h; obtain ⟨_, rfl⟩ := h; decide) rfl
example := C116_unambiguous (lit "'auto'") (.str (lit "auto")) (.str (lit "auto")) (.word _ _ (quote_word ⟨fun _ => [], fun _ => true, fun _ => .error .type⟩ (lit "auto")))
  (.word _ _ (quote_word ⟨fun _ => [], fun _ => true, fun _ => .error .type⟩ (lit "auto"))) nofun nofun

example : (⟨pyRepr .b64, fun _ => true, fun _ => .error .type⟩ : Printer).repr (.borderSpacing (.heap []) ⟨.len .px, .fin (.int 1)⟩ (some ⟨.len .em, .fin (.int 2)⟩)) =
    .ok (lit "BorderSpacing(1px, 2em)") := by rfl
example : (⟨pyRepr .b64, fun _ => true, fun _ => .error .type⟩ : Printer).repr (.quotes [(.str (lit "<"), .str (lit ">")), (.str (lit "{"), .str (lit "}"))]) =
    .ok (lit "Quotes([('<', '>'), ('{', '}')])") := by rfl

end Colosseum
