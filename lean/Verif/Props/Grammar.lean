import Verif.Lemmas.Grammar
import Verif.Props.Style

/-!
# C98: what can be assigned to each property
-/

namespace Colosseum

theorem isInteger_iff (fp : FP) (v w : Val) : isInteger fp v = .ok w ↔ ∃ i, w = .num (.fin (.int i)) ∧ WholeNumber v i := by
  unfold isInteger
  rw [C59_accepts]
  constructor
  · rintro ⟨x, rfl, h, -⟩
    cases h with
    | int i => exact ⟨i, rfl, .int i⟩
    | trunc q i h1 h2 h3 => exact ⟨i, rfl, .float q i h1 h2 h3⟩
    | intText s i h => exact ⟨i, rfl, .text s i h⟩
  · rintro ⟨i, rfl, h⟩
    refine ⟨_, rfl, ?_, by simp [PyNum.Admissible]⟩
    cases h with
    | int i => exact .int i
    | float q i h1 h2 h3 => exact .trunc q i h1 h2 h3
    | text s i h => exact .intText s i h

theorem borderSpacing_parts (fp : FP) (at_ : List Nat) (v : Val) (items : List Val) (h : SpacingParts v items) :
    borderSpacing fp at_ v = spacingOf fp at_ v items := by
  cases h with
  | num x => exact borderSpacing_items fp at_ _ _ (.num x)
  | text s ws hw => exact borderSpacing_items fp at_ _ _ (.str s ws hw)
  | members _ _ hm =>
    have ha := (asSeq_iff v items).2 hm
    simp only [borderSpacing, ha, spacingOf]
    rcases items with _ | ⟨a, _ | ⟨b, _ | ⟨c, r⟩⟩⟩ <;> rfl

theorem borderSpacing_cases (fp : FP) (at_ : List Nat) (v : Val) :
    (∃ items, SpacingParts v items) ∨ ¬ v.Iterable ∧ (∀ x, v ≠ .num x) ∧ borderSpacing fp at_ v = .error .attribute := by
  cases v with
  | num x => exact Or.inl ⟨_, .num x⟩
  | str s => exact Or.inl ⟨_, .text s _ (words_splitWs s)⟩
  | seq t xs => exact Or.inl ⟨_, .members _ _ (.seq t xs)⟩
  | cursor xs => exact Or.inl ⟨_, .members _ _ (.cursor xs)⟩
  | _ => exact Or.inr ⟨(by rintro (⟨s, h⟩ | ⟨xs, h⟩) <;> cases h), (fun x h => nomatch h), rfl⟩

theorem SpacingParts.held {fp : FP} {v : Val} {items : List Val} (h : SpacingParts v items) (hv : v.Sound fp) : ∀ x ∈ items, x.Held fp := by
  cases h with
  | num x => intro y hy; rw [List.mem_singleton.1 hy]; exact hv.1
  | text s ws _ => intro y hy; obtain ⟨w, _, rfl⟩ := List.mem_map.1 hy; trivial
  | members _ _ hm => exact hv.2 items hm

theorem SpacingParts.unique {v : Val} {xs ys : List Val} (h : SpacingParts v xs) (h' : SpacingParts v ys) : xs = ys := by
  cases h with
  | num x => cases h' with
    | num => rfl
    | members _ _ h => cases h
  | text s ws hw => cases h' with
    | text _ ws' hw' => rw [← hw.splitWs, ← hw'.splitWs]
    | members _ _ h => cases h
  | members v xs hm => cases h' with
    | num => cases hm
    | text => cases hm
    | members _ _ hm' => exact hm.unique hm'

theorem spacing_iff {E : Env} (L : E.fp.Laws) {at_ : List Nat} {v : Val} (hv : v.Sound E.fp) :
    (∀ w, borderSpacing E.fp at_ v = .ok w → Meaning E .spacing v w) ∧
    ∀ w, Meaning E .spacing v w → ∃ w', borderSpacing E.fp at_ v = .ok w' ∧ w'.forget = w.forget := by
  constructor
  · intro w h
    rcases borderSpacing_cases E.fp at_ v with ⟨items, hi⟩ | ⟨_, _, he⟩
    · rw [borderSpacing_parts E.fp at_ v items hi] at h
      have hh := hi.held hv
      rcases items with _ | ⟨a, _ | ⟨b, _ | ⟨c, rest⟩⟩⟩
      · exact absurd h (raiseFmt_ne_ok _ _ _)
      · obtain ⟨x, hx, h⟩ := bind_ok h
        cases h
        exact .oneSpacing v a _ x hi ((C03_units_accepts E.fp L a (hh a (by simp)) x).1 hx)
      · obtain ⟨x, hx, h⟩ := bind_ok h
        obtain ⟨y, hy, h⟩ := bind_ok h
        cases h
        exact .twoSpacings v a b _ x y hi ((C03_units_accepts E.fp L a (hh a (by simp)) x).1 hx) ((C03_units_accepts E.fp L b (hh b (by simp)) y).1 hy)
      · exact absurd h (raiseFmt_ne_ok _ _ _)
    · rw [he] at h; cases h
  · intro w h
    cases h with
    | oneSpacing _ a r x hi hx =>
      refine ⟨.borderSpacing (.heap at_) x none, ?_, rfl⟩
      rw [borderSpacing_parts E.fp at_ v _ hi]
      simp only [spacingOf, (C03_units_accepts E.fp L a (hi.held hv a (by simp)) x).2 hx]; rfl
    | twoSpacings _ a b r x y hi hx hy =>
      refine ⟨.borderSpacing (.heap at_) x (some y), ?_, rfl⟩
      rw [borderSpacing_parts E.fp at_ v _ hi]
      simp only [spacingOf, (C03_units_accepts E.fp L a (hi.held hv a (by simp)) x).2 hx, (C03_units_accepts E.fp L b (hi.held hv b (by simp)) y).2 hy]; rfl

theorem loose_prefix {fp : FP} {s : PyStr} {c : Color} (h : LooseText fp s c) : lit "rgb" <+: s ∨ lit "hsl" <+: s := by
  cases h with
  | rgb => exact Or.inl ⟨_, by simp only [List.append_assoc]; rfl⟩
  | rgba => exact Or.inl ⟨_, by simp only [List.append_assoc]; rfl⟩
  | hsl => exact Or.inr ⟨_, by simp only [List.append_assoc]; rfl⟩
  | hsla => exact Or.inr ⟨_, by simp only [List.append_assoc]; rfl⟩

theorem color_iff {E : Env} {at_ : List Nat} {v : Val} :
    (∀ w, color E.fp at_ v = .ok w → Meaning E .color v w) ∧
    ∀ w, Meaning E .color v w → ∃ w', color E.fp at_ v = .ok w' ∧ w'.forget = w.forget := by
  constructor
  · intro w h
    cases v with
    | color r c => cases h; exact .color r c
    | str s =>
      by_cases hp : lit "rgb" <+: s ∨ lit "hsl" <+: s
      · obtain ⟨c, rfl, hc⟩ := (C68_exact E.fp at_ s w hp).1 h
        exact .colorFunction s _ c hc
      · cases s with
        | nil => cases h
        | cons a s =>
          by_cases ha : a = '#'
          · subst ha
            obtain ⟨c, rfl, hc⟩ := (C11_exact E.fp (.heap at_) s w).1 h
            exact .hexColor s _ c hc
          · by_cases hn : ∃ c ∈ cssColors, SpelledAs (a :: s) c.1.toList
            · obtain ⟨⟨name, n⟩, h1, h2⟩ := hn
              obtain ⟨i, hi⟩ := C12_named_color E.fp at_ (a :: s) name n h1 h2
              rw [hi] at h
              cases h
              exact .colorName _ _ name n h1 h2
            · exfalso
              push Not at hn
              have := C12_unknown_name E.fp at_ (a :: s) (by simp) (by
                intro p hp'
                simp only [List.mem_cons, List.not_mem_nil, or_false] at hp'
                rcases hp' with rfl | rfl | rfl
                · rintro ⟨t, ht⟩; exact ha (by cases ht; rfl)
                · exact fun h => hp (Or.inl h)
                · exact fun h => hp (Or.inr h)) hn
              rw [this] at h
              cases h
    | _ => simp only [color] at h; exact absurd h (raiseFmt_ne_ok _ _ _)
  · intro w h
    cases h with
    | color r c => exact ⟨_, rfl, rfl⟩
    | hexColor s r c hc => exact ⟨_, (C11_exact E.fp (.heap at_) s _).2 ⟨c, rfl, hc⟩, rfl⟩
    | colorFunction s r c hc => exact ⟨_, (C68_exact E.fp at_ s _ (loose_prefix hc)).2 ⟨c, rfl, hc⟩, rfl⟩
    | colorName s r name n h1 h2 =>
      obtain ⟨i, hi⟩ := C12_named_color E.fp at_ s name n h1 h2
      exact ⟨_, hi, rfl⟩

/-- The parsers follow the grammar. -/
theorem parse_means {E : Env} (L : E.fp.Laws) (at_ : List Nat) {v : Val} (hv : v.Sound E.fp) (k : Kind) :
    (∀ w, k.parse E at_ v = .ok w → Meaning E k v w) ∧
    ∀ w, Meaning E k v w → ∃ w', k.parse E at_ v = .ok w' ∧ w'.forget = w.forget := by
  cases k with
  | length =>
    constructor
    · intro w h
      obtain ⟨u, hu, rfl⟩ := except_map_ok h
      exact .length v u ((C03_units_accepts E.fp L v hv.1 u).1 hu)
    · intro w h
      cases h with
      | length _ u hu =>
        refine ⟨.unit u, ?_, rfl⟩
        simp only [Kind.parse, (C03_units_accepts E.fp L v hv.1 u).2 hu]
        rfl
  | color => exact color_iff
  | integer =>
    constructor
    · intro w h
      obtain ⟨i, rfl, hi⟩ := (isInteger_iff E.fp v w).1 h
      exact .integer v i hi
    · intro w h
      cases h with
      | integer _ i hi => exact ⟨_, (isInteger_iff E.fp v _).2 ⟨i, rfl, hi⟩, rfl⟩
  | spacing => exact spacing_iff L hv
  | rect =>
    constructor
    · intro w h
      cases v with
      | str s =>
        obtain ⟨a, b, c, d, ua, ub, uc, ud, h0, h1, h2, h3, h4, rfl⟩ := (C17_accepts E.fp L s w).1 h
        exact .rect s a b c d ua ub uc ud h0 h1 h2 h3 h4
      | _ => cases h
    · intro w h
      cases h with
      | rect s a b c d ua ub uc ud h0 h1 h2 h3 h4 =>
        exact ⟨_, (C17_accepts E.fp L s _).2 ⟨a, b, c, d, ua, ub, uc, ud, h0, h1, h2, h3, h4, rfl⟩, rfl⟩
  | quotes => exact ⟨fun w => (quotes_iff E v w).1, fun w h => ⟨w, (quotes_iff E v w).2 h, rfl⟩⟩
  | cursor =>
    constructor
    · intro w h
      obtain ⟨ts, xs, rfl, h1, h2, h3⟩ := cursor_means h
      exact .cursor v ts xs h1 h2 h3
    · intro w h
      cases h with
      | cursor _ ts xs h1 h2 h3 =>
        obtain ⟨xs', h4, h5⟩ := means_cursor at_ h1 h2 h3
        exact ⟨_, h4, by simp only [Val.forget, h5]⟩

theorem validate_takes {E : Env} (L : E.fp.Laws) (at_ : List Nat) {v : Val} (hv : v.Sound E.fp) (p : LH) :
    (∀ w, p.choices.validate E at_ v = .ok w → Takes E p v w) ∧
    ∀ w, Takes E p v w → ∃ w', p.choices.validate E at_ v = .ok w' ∧ w'.forget = w.forget := by
  constructor
  · intro w h
    rcases (validate_iff E at_ p v w).1 h with h | ⟨k, hk, h⟩
    · exact Or.inl h
    · exact Or.inr ⟨k, hk, (parse_means L at_ hv k).1 w h⟩
  · rintro w (h | ⟨k, hk, h⟩)
    · exact ⟨w, (validate_iff E at_ p v w).2 (Or.inl h), rfl⟩
    · obtain ⟨w', h1, h2⟩ := (parse_means L at_ hv k).2 w h
      exact ⟨w', (validate_iff E at_ p v w').2 (Or.inr ⟨k, hk, h1⟩), h2⟩

/-- C98. A value can be assigned to a property if and only if it is a keyword of the property or, read as a value of its kind, stands for one. -/
theorem C98_accepts (E : Env) (L : E.fp.Laws) (at_ : List Nat) (d : Decl) (hl : d.link ≠ .noBox) (p : LH) (v : Val) (hv : v.Sound E.fp) :
    (d.setAttr E at_ (.lh p) v).2 = none ↔ ∃ w, Takes E p v w := by
  rw [C57_accepts E at_ d hl]
  constructor
  · rintro ⟨w, h⟩
    exact ⟨w, (validate_takes L at_ hv p).1 w ((validate_iff E at_ p v w).2 h)⟩
  · rintro ⟨w, h⟩
    obtain ⟨w', h1, _⟩ := (validate_takes L at_ hv p).2 w h
    exact ⟨w', (validate_iff E at_ p v w').1 h1⟩

/-- C98. Afterwards the property reads as what the value stands for, up to the identity of objects, or nothing has changed because it equals what the property read
as before. -/
theorem C98_value (E : Env) (L : E.fp.Laws) (at_ : List Nat) (d d' : Decl) (hr : Reachable E d) (p : LH) (v : Val) (hv : v.Sound E.fp)
    (h : d.setAttr E at_ (.lh p) v = (d', none)) (w : Val) (hw : Takes E p v w) :
    ∃ w', w'.forget = w.forget ∧ (d'.css.read p = .ok w' ∨ d' = d ∧ ∃ u, d.css.read p = .ok u ∧ w'.pyEq u = true) := by
  obtain ⟨w', h1, h2⟩ := C22_read_back E at_ d d' hr p v h
  obtain ⟨w'', h3, h4⟩ := (validate_takes L at_ hv p).2 w hw
  rw [(validate_iff E at_ p v w').2 h1] at h3
  cases h3
  exact ⟨w', h4, h2⟩

/-- C98. A value stands for one value only, up to the identity of objects. -/
theorem C98_unambiguous (E : Env) (L : E.fp.Laws) (p : LH) (v : Val) (hv : v.Sound E.fp) (w w' : Val) (h : Takes E p v w) (h' : Takes E p v w') :
    w.forget = w'.forget := by
  obtain ⟨x, h1, h2⟩ := (validate_takes L [] hv p).2 w h
  obtain ⟨y, h3, h4⟩ := (validate_takes L [] hv p).2 w' h'
  rw [h1] at h3
  cases h3
  rw [← h2, h4]

/-! ## Refusals -/

theorem complaint_eq (v : Val) : v.complaint = v.fmtErr.getD .value := by
  rw [fmtErr_lengths]
  unfold Val.complaint
  induction v.lengths with
  | nil => rfl
  | cons u us ih =>
    rw [List.find?_cons, List.findSome?_cons]
    obtain ⟨k, x⟩ := u
    cases x with
    | fin n => exact ih
    | inf b => rfl
    | nan => rfl

/-- Errors that become the complaint about the value. -/
def Plain (v : Val) {α : Type} (r : Res α) : Prop := ∀ e, r = .error e → e.isValueError = true ∨ v.fmtErr = some e

theorem plain_only {v : Val} {α : Type} {r : Res α} (h : OnlyValue r) : Plain v r := fun e he => by cases h e he; exact Or.inl rfl

theorem plain_raise {v : Val} {α : Type} {e : Err} (he : e.isValueError = true) : Plain v (raiseFmt e v : Res α) := by
  intro e' h
  unfold raiseFmt at h
  split at h
  · rename_i hx; cases h; exact Or.inr hx
  · cases h; exact Or.inl he

theorem Plain.toValidation {v : Val} {α : Type} {r : Res α} (h : Plain v r) : Plain v (toValidation r) := by
  intro e he
  cases r with
  | ok a => cases he
  | error e' =>
    unfold Colosseum.toValidation at he
    simp only at he
    split at he
    · cases he; exact Or.inl rfl
    · cases he; exact h _ rfl

theorem plain_units (fp : FP) (v : Val) : Plain v (units fp v) := by
  intro e h
  cases v with
  | str s => exact plain_only (onlyValue_units rfl) e h
  | num x => cases h
  | unit u =>
    obtain ⟨k, x⟩ := u
    cases k with
    | len l => cases h
    | ang a => exact plain_raise rfl e h
  | _ => exact plain_raise rfl e h

theorem try_plain {E : Env} {at_ : List Nat} {v : Val} {a : Validator} (h : Plain v (a.run E at_ v)) (e : Err)
    (he : tryValidators E at_ v [a] = some (.error e)) : e.isValueError = true ∨ v.fmtErr = some e := by
  simp only [tryValidators] at he
  split at he
  · cases he
  · cases he
  · rename_i e' _ hr; cases he; exact h _ hr

theorem fmtErr_kinds {v : Val} {e : Err} (h : v.fmtErr = some e) : e.isValueError = true ∨ e = .overflow := by
  rw [fmtErr_lengths] at h
  obtain ⟨u, -, hu⟩ := List.exists_of_findSome?_eq_some h
  obtain ⟨k, x⟩ := u
  cases x with
  | fin n => cases hu
  | inf b => cases hu; exact Or.inr rfl
  | nan => cases hu; exact Or.inl rfl

theorem complaint_overflow (v : Val) : v.complaint = .overflow ↔ v.fmtErr = some .overflow := by
  rw [complaint_eq]
  cases v.fmtErr <;> simp

theorem units_overflow {fp : FP} {a : Val} {e : Err} (h : units fp a = .error e) (ha : a.fmtErr = some .overflow) : e = .overflow := by
  have hr : ∀ {α : Type} (e' : Err), (raiseFmt e' a : Res α) = .error .overflow := fun e' => by unfold raiseFmt; rw [ha]
  cases a with
  | str s => cases ha
  | num x => cases h
  | unit u =>
    obtain ⟨k, x⟩ := u
    cases k with
    | len l => cases h
    | ang a => rw [show units fp _ = raiseFmt .value _ from rfl, hr] at h; cases h; rfl
  | rect a b c d => rw [show units fp (.rect a b c d) = raiseFmt .value (.rect a b c d) from rfl, hr] at h; cases h; rfl
  | borderSpacing r x y => rw [show units fp (.borderSpacing r x y) = raiseFmt .value (.borderSpacing r x y) from rfl, hr] at h; cases h; rfl
  | seq t xs => rw [show units fp (.seq t xs) = raiseFmt .value (.seq t xs) from rfl, hr] at h; cases h; rfl
  | _ => cases ha

theorem units_blame {fp : FP} {a : Val} {e : Err} (h : units fp a = .error e) : e.isValueError = true ∨ e = .overflow ∧ a.complaint = .overflow := by
  rcases plain_units fp a e h with h | h
  · exact Or.inl h
  · rcases fmtErr_kinds h with h' | rfl
    · exact Or.inl h'
    · exact Or.inr ⟨rfl, (complaint_overflow a).2 h⟩

theorem spacing_plain {E : Env} (L : E.fp.Laws) (at_ : List Nat) {v : Val} (hv : v.Sound E.fp) (hm : ∀ e, ¬ Mistake E .spacing v e) :
    Plain v (borderSpacing E.fp at_ v) := by
  rcases borderSpacing_cases E.fp at_ v with ⟨items, hi⟩ | ⟨h1, h2, -⟩
  · rw [borderSpacing_parts E.fp at_ v items hi]
    have held := hi.held hv
    have one : ∀ xs a ys, items = xs ++ a :: ys → xs.length + ys.length ≤ 1 → (∀ x ∈ xs, ∃ u, Denotes E.fp x u) → ∀ e, units E.fp a = .error e → e.isValueError = true := by
      intro xs a ys hx hl hd e he
      rcases units_blame he with h | ⟨rfl, h⟩
      · exact h
      · exfalso
        refine hm _ (.part _ v a (.spacing v a xs ys (hx ▸ hi) hl hd ?_) h)
        intro u hu
        rw [(C03_units_accepts E.fp L a (held a (by rw [hx]; simp)) u).2 hu] at he
        cases he
    intro e he
    match items, hi, held, one with
    | [], _, _, _ => exact plain_raise rfl e he
    | [a], _, _, one =>
      simp only [spacingOf] at he
      cases ha : units E.fp a with
      | error e' => rw [ha] at he; cases he; exact Or.inl (one [] a [] rfl (by simp) (by simp) e ha)
      | ok u => rw [ha] at he; cases he
    | [a, b], _, held, one =>
      simp only [spacingOf] at he
      cases ha : units E.fp a with
      | error e' => rw [ha] at he; cases he; exact Or.inl (one [] a [b] rfl (by simp) (by simp) e ha)
      | ok u =>
        rw [ha] at he
        cases hb : units E.fp b with
        | error e' =>
          rw [hb] at he
          cases he
          refine Or.inl (one [a] b [] rfl (by simp) ?_ e hb)
          intro x hx
          rw [List.mem_singleton.1 hx]
          exact ⟨u, (C03_units_accepts E.fp L a (held a (by simp)) u).1 ha⟩
        | ok w => rw [hb] at he; cases he
    | _ :: _ :: _ :: _, _, _, _ => exact plain_raise rfl e he
  · exact absurd (Mistake.spacing v h1 h2) (hm _)

theorem spacing_culprit {E : Env} (L : E.fp.Laws) (at_ : List Nat) {v a : Val} (hv : v.Sound E.fp) (h : Culprit E .spacing v a) (ha : a.complaint = .overflow) :
    borderSpacing E.fp at_ v = .error .overflow := by
  cases h with
  | spacing _ _ xs ys hi hl hd hn =>
    rw [borderSpacing_parts E.fp at_ v _ hi]
    have held := hi.held hv
    have hu : units E.fp a = .error .overflow := by
      cases hx : units E.fp a with
      | ok u => exact absurd ((C03_units_accepts E.fp L a (held a (by simp)) u).1 hx) (hn u)
      | error e => rw [units_overflow hx ((complaint_overflow a).1 ha)]
    match xs, ys, hl with
    | [], [], _ => simp only [List.nil_append, spacingOf, hu]; rfl
    | [], [b], _ => simp only [List.nil_append, spacingOf, hu]; rfl
    | [x], [], _ =>
      obtain ⟨u, hx⟩ := hd x (by simp)
      simp only [List.cons_append, List.nil_append, spacingOf, hu, (C03_units_accepts E.fp L x (held x (by simp)) u).2 hx]
      rfl
    | _ :: _ :: _, _, hl => simp at hl <;> omega
    | [_], _ :: _, hl => simp at hl <;> omega
    | [], _ :: _ :: _, hl => simp at hl

theorem cursorLoop_plain (at_ : List Nat) (whole : Val) (vs : List Val) : ∀ i has e, cursorLoop at_ whole i has vs = .error e →
    e.isValueError = true ∨ whole.fmtErr = some e ∨
      ∃ xs a ys, vs = xs ++ a :: ys ∧ (∀ x ∈ xs, ∃ s t, x = .str s ∧ UrlMeans s t) ∧ (∀ s, a ≠ .str s) ∧ a.fmtErr = some e := by
  have hw : ∀ {α : Type} {e : Err}, (raiseFmt .value whole : Res α) = .error e → e.isValueError = true ∨ whole.fmtErr = some e :=
    fun {α e} h => plain_raise (α := α) rfl e h
  have options : ∀ vs i e, cursorLoop at_ whole i true vs = .error e → e.isValueError = true ∨ whole.fmtErr = some e := by
    intro vs i e h
    cases vs with
    | nil => cases h
    | cons v vs =>
      simp only [cursorLoop] at h
      split at h
      · split at h
        · exact hw h
        · exact hw h
      · exact hw h
  induction vs with
  | nil => intro i has e h; cases h
  | cons v vs ih =>
    intro i has e h
    cases has with
    | true => rcases options _ i e h with h | h
              · exact Or.inl h
              · exact Or.inr (Or.inl h)
    | false =>
      simp only [cursorLoop] at h
      split at h
      · rename_i s
        split at h
        · simp only [Bool.false_eq_true, if_false] at h
          split at h
          · rename_i e' he
            cases h
            rcases options _ _ _ he with h | h
            · exact Or.inl h
            · exact Or.inr (Or.inl h)
          · cases h
        · simp only [Bool.false_eq_true, if_false] at h
          split at h
          · cases h; exact Or.inl rfl
          · rename_i t ht
            split at h
            · rename_i e' he
              cases h
              rcases ih _ _ _ he with h | h | ⟨xs, a, ys, rfl, h1, h2, h3⟩
              · exact Or.inl h
              · exact Or.inr (Or.inl h)
              · refine Or.inr (Or.inr ⟨.str s :: xs, a, ys, rfl, ?_, h2, h3⟩)
                intro x hx
                rcases List.mem_cons.1 hx with rfl | hx
                · exact ⟨s, t, rfl, (uriStr_iff s t).1 ht⟩
                · exact h1 x hx
            · cases h
      · rename_i hs
        simp only [Bool.false_eq_true, if_false] at h
        rcases plain_raise (v := v) rfl e h with h | h
        · exact Or.inl h
        · exact Or.inr (Or.inr ⟨[], v, vs, rfl, by simp, (fun s => hs s), h⟩)

theorem cursorLoop_culprit (at_ : List Nat) (whole a : Val) (ys : List Val) (ha : ∀ s, a ≠ .str s) (hf : a.fmtErr = some .overflow) :
    ∀ (xs : List Val) (i : Nat), (∀ x ∈ xs, ∃ s t, x = .str s ∧ UrlMeans s t) → cursorLoop at_ whole i false (xs ++ a :: ys) = .error .overflow := by
  intro xs
  induction xs with
  | nil =>
    intro i _
    simp only [List.nil_append, cursorLoop]
    cases a with
    | str s => exact absurd rfl (ha s)
    | _ => simp only [Bool.false_eq_true, if_false, raiseFmt, hf]
  | cons x xs ih =>
    intro i hx
    obtain ⟨s, t, rfl, hu⟩ := hx x (by simp)
    simp only [List.cons_append, cursorLoop, urlMeans_option hu, Bool.false_eq_true, if_false, (uriStr_iff s t).2 hu,
      ih (i + 1) fun y hy => hx y (List.mem_cons_of_mem _ hy)]

theorem cursor_seq (at_ : List Nat) {v : Val} {xs : List Val} (h : Members v xs) : cursor at_ v = match cursorLoop at_ v 0 false xs with
    | .error e => .error e
    | .ok r => .ok (.cursor r) := by
  have ha := (asSeq_iff v xs).2 h
  cases v with
  | str s => cases h
  | _ => simp only [cursor, ha] <;> rfl

theorem cursor_plain {E : Env} (at_ : List Nat) {v : Val} (hm : ∀ e, ¬ Mistake E .cursor v e) : Plain v (cursor at_ v) := by
  by_cases hi : v.Iterable
  · rcases hi with ⟨s, rfl⟩ | ⟨xs, hx⟩
    · exact plain_only (onlyValue_cursor rfl (Or.inl ⟨s, rfl⟩))
    · intro e he
      rw [cursor_seq at_ hx] at he
      split at he
      · rename_i e' hl
        cases he
        rcases cursorLoop_plain at_ v xs 0 false e hl with h | h | ⟨ys, a, zs, rfl, h1, h2, h3⟩
        · exact Or.inl h
        · exact Or.inr h
        · rcases fmtErr_kinds h3 with h | rfl
          · exact Or.inl h
          · exact absurd (Mistake.part _ v a (.cursor v a ys zs hx h1 h2) ((complaint_overflow a).2 h3)) (hm _)
      · cases he
  · exact absurd (Mistake.cursor v hi) (hm _)

theorem members_fmtErr {v : Val} {xs : List Val} (h : Members v xs) : fmtErrList xs = v.fmtErr := by
  cases h with
  | seq t xs => simp only [Val.fmtErr]
  | cursor xs =>
    simp only [Val.fmtErr]
    induction xs with
    | nil => rfl
    | cons x xs ih =>
      simp only [List.map_cons, fmtErrList, ih]
      cases x <;> rfl

theorem group_fmtErr {v : Val} {xs : List Val} (h : GroupMembers v xs) : fmtErrList xs = v.fmtErr := by
  cases h with
  | chars s =>
    simp only [Val.fmtErr]
    induction s with
    | nil => rfl
    | cons c s ih => simp only [List.map_cons, fmtErrList, ih]; rfl
  | members _ _ h => exact members_fmtErr h

theorem iterable_iff (v : Val) : v.Iterable ↔ ∃ xs, iterVal v = some xs := by
  constructor
  · rintro (⟨s, rfl⟩ | ⟨xs, h⟩)
    · exact ⟨_, (iterVal_iff _ _).2 (.chars s)⟩
    · exact ⟨xs, (iterVal_iff _ _).2 (.members v xs h)⟩
  · rintro ⟨xs, h⟩
    rcases (iterVal_iff _ _).1 h with ⟨s⟩ | ⟨_, _, h⟩
    · exact Or.inl ⟨s, rfl⟩
    · exact Or.inr ⟨xs, h⟩

theorem flatten2_error (vs : List Val) : ∀ e, flatten2 vs = .error e →
    fmtErrList vs = some e ∨ e = .type ∧ ∃ xs g ys, vs = xs ++ g :: ys ∧ (∀ x ∈ xs, x.Iterable ∧ ∀ u ∈ x.lengths, u.isFinite = true) ∧ ¬ g.Iterable := by
  induction vs with
  | nil => intro e h; cases h
  | cons v vs ih =>
    intro e h
    simp only [flatten2] at h
    split at h
    · rename_i hi
      cases h
      refine Or.inr ⟨rfl, [], v, vs, rfl, by simp, ?_⟩
      rw [iterable_iff, hi]
      rintro ⟨_, h⟩; cases h
    · rename_i xs hi
      have hg := group_fmtErr ((iterVal_iff _ _).1 hi)
      split at h
      · rename_i e' hp
        cases h
        refine Or.inl ?_
        simp only [fmtErrList, ← hg, hp]
        rfl
      · rename_i hp
        split at h
        · rename_i e' hf
          cases h
          rcases ih _ hf with h | ⟨rfl, ys, g, zs, rfl, h1, h2⟩
          · refine Or.inl ?_
            simp only [fmtErrList, ← hg, hp, h]
            rfl
          · refine Or.inr ⟨rfl, v :: ys, g, zs, rfl, ?_, h2⟩
            intro x hx
            rcases List.mem_cons.1 hx with rfl | hx
            · exact ⟨(iterable_iff _).2 ⟨_, hi⟩, (fmtErr_none _).1 (hg ▸ hp)⟩
            · exact h1 x hx
        · cases h

theorem flatten2_group (g : Val) (ys : List Val) (hg : ¬ g.Iterable) : ∀ xs : List Val, (∀ x ∈ xs, x.Iterable ∧ ∀ u ∈ x.lengths, u.isFinite = true) →
    flatten2 (xs ++ g :: ys) = .error .type := by
  intro xs
  induction xs with
  | nil =>
    intro _
    have : iterVal g = none := by
      cases h : iterVal g with
      | none => rfl
      | some zs => exact absurd ((iterable_iff g).2 ⟨zs, h⟩) hg
    simp only [List.nil_append, flatten2, this]
  | cons x xs ih =>
    intro h
    obtain ⟨h1, h2⟩ := h x (by simp)
    obtain ⟨zs, hz⟩ := (iterable_iff x).1 h1
    have hp : fmtErrList zs = none := (group_fmtErr ((iterVal_iff _ _).1 hz)).trans ((fmtErr_none x).2 h2)
    simp only [List.cons_append, flatten2, hz, hp, ih fun y hy => h y (List.mem_cons_of_mem _ hy)]

theorem tokenOutcome_iff (E : Env) (w : PyStr) (r : Res QVal) : literalEval E w = r ↔ TokenOutcome E w r := by
  constructor
  · rintro rfl
    cases h : literalEval E w with
    | ok q => exact .quote w q ((literalEval_iff E w q).1 h)
    | error e =>
      unfold literalEval at h
      split at h
      · cases h
      · rename_i hs
        exact .fault w e (fun x hx => by rw [(simpleLit_iff w x).2 hx] at hs; cases hs) h
  · intro h
    cases h with
    | quote q h => exact (literalEval_iff E w q).2 h
    | fault e h1 h2 =>
      unfold literalEval
      split
      · rename_i b hb; exact absurd ((simpleLit_iff w b).1 hb) (h1 b)
      · exact h2

theorem memberOutcome_iff (E : Env) (v : Val) (r : Res QVal) : (v.fmtErr = none ∧ evalRepr E v = r) ↔ MemberOutcome E v r := by
  constructor
  · rintro ⟨hp, rfl⟩
    cases h : evalRepr E v with
    | ok q => exact .quote v q ((evalRepr_iff E v q).1 ⟨hp, h⟩)
    | error e =>
      cases v with
      | str s => cases h
      | _ => exact .fault _ e (fun s e => by cases e) ((fmtErr_none _).1 hp) h
  · intro h
    cases h with
    | quote q h => exact (evalRepr_iff E v q).2 h
    | fault e h1 h2 h3 =>
      refine ⟨(fmtErr_none v).2 h2, ?_⟩
      cases v with
      | str s => exact absurd rfl (h1 s)
      | _ => exact h3

theorem tokenOutcomes_iff (E : Env) (ws : List PyStr) : ∀ rs, ws.map (literalEval E) = rs ↔ List.Forall₂ (TokenOutcome E) ws rs := by
  induction ws with
  | nil => intro rs; cases rs <;> simp
  | cons w ws ih =>
    intro rs
    cases rs with
    | nil => simp
    | cons r rs => simp only [List.map_cons, List.cons.injEq, List.forall₂_cons, tokenOutcome_iff, ih]

theorem memberOutcomes_iff (E : Env) (vs : List Val) : ∀ rs, (fmtErrList vs = none ∧ vs.map (evalRepr E) = rs) ↔ List.Forall₂ (MemberOutcome E) vs rs := by
  induction vs with
  | nil => intro rs; cases rs <;> simp [fmtErrList]
  | cons v vs ih =>
    intro rs
    cases rs with
    | nil => simp
    | cons r rs =>
      simp only [List.map_cons, List.cons.injEq, List.forall₂_cons, ← ih, ← memberOutcome_iff, fmtErrList]
      cases v.fmtErr with
      | some e => simp
      | none => simp only [true_and]; tauto

theorem checkQuoteLen_error (v : Val) (o c : QVal) (e : Err) (h : checkQuoteLen v o c = .error e) :
    e.isValueError = true ∨ v.fmtErr = some e ∨ PairFault (.ok o) (.ok c) e := by
  unfold checkQuoteLen at h
  split at h
  · rename_i ho
    cases h
    cases o with
    | str s => cases ho
    | other t n => cases ho; exact Or.inr (Or.inr (.unsizedOpening t c))
  · rcases plain_raise (v := v) rfl e h with h | h
    · exact Or.inl h
    · exact Or.inr (Or.inl h)
  · rename_i n h0 ho
    split at h
    · rename_i hc
      cases h
      cases c with
      | str s => cases hc
      | other t n' =>
        cases hc
        refine Or.inr (Or.inr (.unsizedClosing o t ((nonEmpty_len o).2 ⟨n - 1, ?_⟩)))
        rw [ho]; congr 1; have : n ≠ 0 := fun e => h0 (by rw [e]); omega
    · rcases plain_raise (v := v) rfl e h with h | h
      · exact Or.inl h
      · exact Or.inr (Or.inl h)
    · cases h

theorem quotePairs_error (v : Val) : ∀ (k : Nat) (rs : List (Res QVal)), rs.length = 2 * k → ∀ e, quotePairs v rs = .error e →
    e.isValueError = true ∨ v.fmtErr = some e ∨ ∃ (ps : List (QVal × QVal)) (o c : Res QVal) (rest : List (Res QVal)), rs = (ps.flatMap fun p => [.ok p.1, .ok p.2]) ++ o :: c :: rest ∧
      rest.length % 2 = 0 ∧ (∀ p ∈ ps, p.1.nonEmpty ∧ p.2.nonEmpty) ∧ PairFault o c e := by
  intro k
  induction k with
  | zero =>
    intro rs h e he
    have : rs = [] := List.length_eq_zero_iff.1 (by omega)
    subst this
    cases he
  | succ k ih =>
    intro rs h e he
    match rs, h with
    | [], h => simp at h
    | [_], h => simp at h; omega
    | o :: c :: rest, h =>
      have hk : rest.length = 2 * k := by simp only [List.length_cons] at h; omega
      have here : ∀ e, PairFault o c e → ∃ (ps : List (QVal × QVal)) (o' c' : Res QVal) (rest' : List (Res QVal)), o :: c :: rest = (ps.flatMap fun p => [.ok p.1, .ok p.2]) ++ o' :: c' :: rest' ∧
          rest'.length % 2 = 0 ∧ (∀ p ∈ ps, p.1.nonEmpty ∧ p.2.nonEmpty) ∧ PairFault o' c' e :=
        fun e hf => ⟨[], o, c, rest, rfl, by omega, by simp, hf⟩
      simp only [quotePairs] at he
      cases o with
      | error e' => cases he; exact Or.inr (Or.inr (here _ (.opening _ _)))
      | ok o =>
        cases c with
        | error e' => cases he; exact Or.inr (Or.inr (here _ (.closing _ _)))
        | ok c =>
          simp only at he
          split at he
          · rename_i e' hl
            cases he
            rcases checkQuoteLen_error v o c _ hl with h | h | h
            · exact Or.inl h
            · exact Or.inr (Or.inl h)
            · exact Or.inr (Or.inr (here _ h))
          · rename_i hl
            split at he
            · rename_i e' hq
              cases he
              rcases ih rest hk _ hq with h | h | ⟨ps, o', c', rest', hr, h1, h2, h3⟩
              · exact Or.inl h
              · exact Or.inr (Or.inl h)
              · refine Or.inr (Or.inr ⟨(o, c) :: ps, o', c', rest', by rw [hr]; rfl, h1, ?_, h3⟩)
                intro p hp
                rcases List.mem_cons.1 hp with rfl | hp
                · exact (checkQuoteLen_iff v _ _).1 hl
                · exact h2 p hp
            · cases he

theorem quotePairs_fault (v : Val) {o c : Res QVal} {rest : List (Res QVal)} {e : Err} (h : PairFault o c e) : ∀ ps : List (QVal × QVal),
    (∀ p ∈ ps, p.1.nonEmpty ∧ p.2.nonEmpty) → quotePairs v ((ps.flatMap fun p => [.ok p.1, .ok p.2]) ++ o :: c :: rest) = .error e := by
  intro ps
  induction ps with
  | nil =>
    intro _
    cases h with
    | opening e c => rfl
    | closing o e => rfl
    | unsizedOpening t c => rfl
    | unsizedClosing o t ho =>
      obtain ⟨n, hn⟩ := (nonEmpty_len o).1 ho
      have : checkQuoteLen v o (.other t none) = .error .type := by unfold checkQuoteLen; rw [hn]; rfl
      simp only [List.flatMap_nil, List.nil_append, quotePairs, this]
  | cons p ps ih =>
    intro hp
    simp only [List.flatMap_cons, List.cons_append, List.nil_append, quotePairs, (checkQuoteLen_iff v p.1 p.2).2 (hp p (by simp)),
      ih fun q hq => hp q (List.mem_cons_of_mem _ hq)]

theorem quotes_text (E : Env) (s : PyStr) : quotes E (.str s) = quotesOf (.str s) ((splitWs s).map (literalEval E)) := by
  have e : (splitWs s).map (fun w => literalEval E (strip w)) = (splitWs s).map (literalEval E) := by
    conv_rhs => rw [← splitWs_map_strip s, List.map_map]
    rfl
  simp only [quotes, e]

theorem quotes_seq (E : Env) {v : Val} {xs : List Val} (h : Members v xs) : quotes E v = match flatten2 xs with
    | .error e => .error e
    | .ok ys => quotesOf v (ys.map (evalRepr E)) := by
  have ha := (asSeq_iff v xs).2 h
  cases v with
  | str s => cases h
  | _ => simp only [quotes, ha] <;> rfl

theorem quotesOf_outcomes {E : Env} {v : Val} {rs : List (Res QVal)} (h : QuoteOutcomes E v rs) : quotes E v = quotesOf v rs := by
  cases h with
  | text s ws rs hw hr => rw [quotes_text, hw.splitWs, (tokenOutcomes_iff E ws rs).2 hr]
  | groups _ xs gs rs hm hg hr =>
    obtain ⟨h1, h2⟩ := (memberOutcomes_iff E _ _).2 hr
    rw [quotes_seq E hm, (flatten2_iff xs gs.flatten).2 ⟨⟨gs, hg, rfl⟩, h1⟩]
    simp only [h2]

theorem quotes_plain {E : Env} {v : Val} (hm : ∀ e, ¬ Mistake E .quotes v e) : Plain v (quotes E v) := by
  have key : ∀ rs, QuoteOutcomes E v rs → Plain v (quotesOf v rs) := by
    intro rs hr e he
    unfold quotesOf at he
    split at he
    · rename_i hc
      simp only [Bool.and_eq_true, decide_eq_true_eq, beq_iff_eq] at hc
      split at he
      · rename_i e' hp
        cases he
        rcases quotePairs_error v (rs.length / 2) rs (by omega) e hp with h | h | ⟨ps, o, c, rest, rfl, h1, h2, h3⟩
        · exact Or.inl h
        · exact Or.inr h
        · by_cases hv : e.isValueError = true
          · exact Or.inl hv
          · exact absurd (Mistake.pair v ps o c rest e hr h1 h2 h3 (by rintro rfl; exact hv rfl) (by rintro rfl; exact hv rfl)) (hm e)
      · cases he
    · cases he; exact Or.inl rfl
  by_cases hi : v.Iterable
  · rcases hi with ⟨s, rfl⟩ | ⟨xs, hx⟩
    · have := key _ (.text s _ _ (words_splitWs s) ((tokenOutcomes_iff E _ _).1 rfl))
      rwa [← quotes_text] at this
    · rw [quotes_seq E hx]
      split
      · rename_i e hf
        intro e' he
        cases he
        rcases flatten2_error xs e hf with h | ⟨rfl, ys, g, zs, rfl, h1, h2⟩
        · exact Or.inr ((members_fmtErr hx).symm.trans h)
        · exact absurd (Mistake.group v g ys zs hx h1 h2) (hm _)
      · rename_i ys hf
        obtain ⟨⟨gs, hg, rfl⟩, hp⟩ := (flatten2_iff xs ys).1 hf
        exact key _ (.groups v xs gs _ hx hg ((memberOutcomes_iff E _ _).1 ⟨hp, rfl⟩))
  · cases v with
    | str s => exact absurd (Or.inl ⟨s, rfl⟩) hi
    | seq t xs => exact absurd (Or.inr ⟨xs, .seq t xs⟩) hi
    | cursor xs => exact absurd (Or.inr ⟨_, .cursor xs⟩) hi
    | _ => exact plain_raise rfl

/-- The exception of `validate` where there is no mistake. -/
theorem validate_plain {E : Env} (L : E.fp.Laws) {at_ : List Nat} {p : LH} {v : Val} (hs : v.Sound E.fp) (hm : ∀ k e', kindOf p = some k → ¬ Mistake E k v e') :
    Plain v (p.choices.validate E at_ v) := by
  have key : ∀ e, tryValidators E at_ v p.choices.validators = some (.error e) → e.isValueError = true ∨ v.fmtErr = some e := by
    have hv := validators_kind p
    cases hk : kindOf p with
    | none => rw [hk] at hv; simp only at hv; rw [hv]; intro e h; cases h
    | some k =>
      rw [hk] at hv
      have hm := fun e => hm k e hk
      cases k <;> simp only [Kind.validators] at hv
      · intro e he
        have hu := (plain_units E.fp v).toValidation
        cases hx : toValidation (units E.fp v) with
        | ok u =>
          rcases hv with hv | hv <;> rw [hv] at he <;> simp [tryValidators, Validator.run, isLength, hx, Except.map] at he
        | error e' =>
          have h1 := hu e' hx
          have h2 : isLength E.fp v = .error e' := by simp only [isLength, hx, Except.map]
          have h3 : isPercentage E.fp v = .error e' := by simp only [isPercentage, hx]
          rcases hv with hv | hv <;> rw [hv] at he
          · exact try_plain (by simp only [Validator.run, h2]; intro e h; cases h; exact h1) e he
          · by_cases hval : e' = .validation
            · subst hval; simp [tryValidators, Validator.run, h2, h3] at he
            · rw [tryValidators] at he
              simp only [Validator.run, h2] at he
              cases he; exact h1
      all_goals rw [hv]; refine fun e he => try_plain ?_ e he
      · refine Plain.toValidation ?_
        cases v with
        | str s =>
          exact plain_only (onlyValue_colorStr _ _ _ fun h => hm .index (by rw [h]; exact .noColor))
        | color r c => intro e h; cases h
        | _ => exact plain_raise rfl
      · intro e he
        simp only [Validator.run, isInteger, numericValidator, belowMin, aboveMax] at he
        split at he
        · rename_i ho
          exfalso
          obtain ⟨b, rfl⟩ := coerce_overflow ho
          exact hm _ (.infinite b)
        · exact plain_raise rfl e he
        · cases he
      · exact (spacing_plain L at_ hs hm).toValidation
      · refine Plain.toValidation ?_
        cases v with
        | str s => exact plain_only (onlyValue_rect s)
        | _ => exact absurd (Mistake.rect _ fun s h => by cases h) (hm _)
      · intro e he
        simp only [Validator.run, isQuote] at he
        split at he
        · cases he
        · rename_i e' hq
          split at he
          · exact plain_raise rfl e he
          · cases he; exact quotes_plain hm _ hq
      · exact (cursor_plain at_ hm).toValidation
  intro e h
  unfold Choices.validate at h
  split at h
  · rename_i r hr
    subst h
    exact key e hr
  · split at h
    · cases h
    · split at h <;> cases h
      exact Or.inl rfl

theorem mistake_validate {E : Env} (L : E.fp.Laws) {at_ : List Nat} {p : LH} {k : Kind} {v : Val} (hs : v.Sound E.fp) {e : Err} (hk : kindOf p = some k)
    (h : Mistake E k v e) : p.choices.validate E at_ v = .error e ∧ e.isValueError = false := by
  have hv := validators_kind p
  rw [hk] at hv
  have single : ∀ a : Validator, p.choices.validators = [a] → a.run E at_ v = .error e → e.isValueError = false → p.choices.validate E at_ v = .error e := by
    intro a h1 h2 h3
    unfold Choices.validate
    rw [h1]
    simp only [tryValidators, h2]
    cases e <;> first | rfl | cases h3
  cases h with
  | noColor => exact ⟨single _ hv rfl rfl, rfl⟩
  | infinite b => exact ⟨single _ hv rfl rfl, rfl⟩
  | spacing _ h1 h2 =>
    refine ⟨single _ hv ?_ rfl, rfl⟩
    cases v with
    | str s => exact absurd (Or.inl ⟨s, rfl⟩) h1
    | seq t xs => exact absurd (Or.inr ⟨xs, .seq t xs⟩) h1
    | cursor xs => exact absurd (Or.inr ⟨_, .cursor xs⟩) h1
    | num x => exact absurd rfl (h2 x)
    | _ => rfl
  | rect _ h1 =>
    refine ⟨single _ hv ?_ rfl, rfl⟩
    cases v <;> first | rfl | exact absurd rfl (h1 _)
  | cursor _ h1 =>
    refine ⟨single _ hv ?_ rfl, rfl⟩
    cases v with
    | str s => exact absurd (Or.inl ⟨s, rfl⟩) h1
    | seq t xs => exact absurd (Or.inr ⟨xs, .seq t xs⟩) h1
    | cursor xs => exact absurd (Or.inr ⟨_, .cursor xs⟩) h1
    | _ => rfl
  | part _ _ a hc ha =>
    cases k with
    | spacing =>
      refine ⟨single _ hv ?_ rfl, rfl⟩
      simp only [Validator.run, isBorderSpacing, spacing_culprit L at_ hs hc ha]
      rfl
    | cursor =>
      refine ⟨single _ hv ?_ rfl, rfl⟩
      cases hc with
      | cursor _ _ xs ys hx h1 h2 =>
        simp only [Validator.run, isCursor, cursor_seq at_ hx, cursorLoop_culprit at_ v a ys h2 ((complaint_overflow a).1 ha) xs 0 h1]
        rfl
    | _ => cases hc
  | group _ g xs ys hx h1 h2 =>
    refine ⟨single _ hv ?_ rfl, rfl⟩
    simp only [Validator.run, isQuote, quotes_seq E hx, flatten2_group g ys h2 xs h1]
    rfl
  | pair _ ps o c rest _ hr hl hp hf h1 h2 =>
    have hb : e.isValueError = false := by cases e <;> first | rfl | exact absurd rfl h1 | exact absurd rfl h2
    refine ⟨single _ hv ?_ hb, hb⟩
    have hlen : ∀ ps : List (QVal × QVal), (ps.flatMap fun p => [Except.ok (ε := Err) p.1, Except.ok p.2]).length = 2 * ps.length := by
      intro ps
      induction ps with
      | nil => rfl
      | cons p ps ih => rw [List.flatMap_cons, List.length_append, ih]; simp only [List.length_cons, List.length_nil]; omega
    have hq : quotes E v = .error e := by
      rw [quotesOf_outcomes hr]
      unfold quotesOf
      rw [if_pos (by simp only [List.length_append, List.length_cons, hlen, Bool.and_eq_true, decide_eq_true_eq, beq_iff_eq]; omega), quotePairs_fault v hf ps hp]
    simp only [Validator.run, isQuote, hq]
    cases e <;> first | rfl | cases hb

theorem Mistake.unique {E : Env} (L : E.fp.Laws) {p : LH} {k : Kind} {v : Val} (hv : v.Sound E.fp) (hk : kindOf p = some k) {e e' : Err} (h : Mistake E k v e)
    (h' : Mistake E k v e') : e = e' := by
  have h1 := (mistake_validate L (at_ := []) hv hk h).1
  rw [(mistake_validate L (at_ := []) hv hk h').1] at h1
  exact (Except.error.inj h1).symm

theorem Refuses.unique {E : Env} (L : E.fp.Laws) {p : LH} {v : Val} (hv : v.Sound E.fp) {e e' : Err} (h : Refuses E p v e) (h' : Refuses E p v e') : e = e' := by
  rcases h with ⟨k, hk, h⟩ | ⟨h, rfl⟩
  · rcases h' with ⟨k', hk', h'⟩ | ⟨h', rfl⟩
    · cases hk.symm.trans hk'
      exact h.unique L hv hk h'
    · exact absurd h (h' k e hk)
  · rcases h' with ⟨k', hk', h'⟩ | ⟨h', rfl⟩
    · exact absurd h' (h k' e' hk')
    · rfl

/-- C98. Every other value is refused with the exception of `Refuses`, and nothing has changed. -/
theorem C98_refused (E : Env) (L : E.fp.Laws) (at_ : List Nat) (d : Decl) (p : LH) (v : Val) (hv : v.Sound E.fp) (hn : ∀ w, ¬ Takes E p v w) :
    ∃ e, d.setAttr E at_ (.lh p) v = (d, some e) ∧ ∀ e', Refuses E p v e' ↔ e' = e := by
  cases hx : p.choices.validate E at_ v with
  | ok w => exact absurd ((validate_takes L at_ hv p).1 w hx) (hn w)
  | error e0 =>
    have hs : d.setAttr E at_ (.lh p) v = (d, some (if e0.isValueError then v.fmtErr.getD .value else e0)) := by
      change d.set E at_ p v = _
      unfold Decl.set
      rw [hx]
      simp only
      split
      · cases v.fmtErr <;> rfl
      · rfl
    refine ⟨_, hs, ?_⟩
    have hr : Refuses E p v (if e0.isValueError then v.fmtErr.getD .value else e0) := by
      by_cases hm : ∃ k e', kindOf p = some k ∧ Mistake E k v e'
      · obtain ⟨k, e', hk, hm⟩ := hm
        obtain ⟨h1, h2⟩ := mistake_validate L (at_ := at_) hv hk hm
        rw [hx] at h1
        cases h1
        rw [h2]
        exact Or.inl ⟨k, hk, hm⟩
      · push Not at hm
        refine Or.inr ⟨hm, ?_⟩
        rw [complaint_eq]
        rcases validate_plain L (at_ := at_) hv hm e0 hx with h | h
        · rw [h]; rfl
        · rw [h]; cases e0.isValueError <;> rfl
    exact fun e' => ⟨fun h => h.unique L hv hr, fun h => h ▸ hr⟩

/-! ## Concrete cases -/

theorem sound_text (fp : FP) (s : PyStr) : (Val.str s).Sound fp := ⟨trivial, fun xs h => by cases h⟩

/-- `border_spacing = "1px 2em"`. -/
theorem sample_spacing (E : Env) (hE : E.fp = .b64) : Takes E .borderSpacing (.str (lit "1px 2em")) (.borderSpacing (.shared 0) ⟨.len .px, .fin (.flt 1)⟩ (some ⟨.len .em, .fin (.flt 2)⟩)) := by
  refine Or.inr ⟨.spacing, rfl, ?_⟩
  have h1 : Denotes E.fp (.str (lit "1px")) ⟨.len .px, .fin (.flt 1)⟩ := by
    rw [hE]; exact .suffixed (lit "1") "px" _ _ (by simp [cssUnits]) (parseFloat_iff.1 (by decide +kernel))
  have h2 : Denotes E.fp (.str (lit "2em")) ⟨.len .em, .fin (.flt 2)⟩ := by
    rw [hE]; exact .suffixed (lit "2") "em" _ _ (by simp [cssUnits]) (parseFloat_iff.1 (by decide +kernel))
  refine .twoSpacings _ _ _ _ _ _ (.text _ [lit "1px", lit "2em"] ?_) h1 h2
  exact words_splitWs (lit "1px 2em")

example (E : Env) (hE : E.fp = .b64) (d : Decl) (hl : d.link ≠ .noBox) : (d.setAttr E [] (.lh .borderSpacing) (.str (lit "1px 2em"))).2 = none :=
  (C98_accepts E (hE ▸ b64_laws) [] d hl .borderSpacing _ (sound_text _ _)).2 ⟨_, sample_spacing E hE⟩

/-- `color = None` is refused with a `ValueError`, `color = ""` with an `IndexError`. -/
example (E : Env) (hE : E.fp = .b64) (d : Decl) : d.setAttr E [] (.lh .color) .none = (d, some .value) := by
  obtain ⟨e, h1, h2⟩ := C98_refused E (hE ▸ b64_laws) [] d .color .none ⟨trivial, fun xs h => by cases h⟩ (by
    rintro w (h | ⟨k, hk, h⟩)
    · cases h with | none h => exact absurd h (by decide)
    · cases hk; cases h)
  rw [h1, (h2 .value).1 (Or.inr ⟨(fun k e' hk h => by cases hk; cases h with | part _ _ _ hc => cases hc), rfl⟩)]

example (E : Env) : Refuses E .color (.str []) .index := Or.inl ⟨.color, rfl, .noColor⟩

/-- `quotes = [3]`: a number is no group, `TypeError`. -/
example (E : Env) : Refuses E .quotes (.seq false [.num (.fin (.int 3))]) .type :=
  Or.inl ⟨.quotes, rfl, .group _ (.num (.fin (.int 3))) [] [] (.seq false _) (by simp) (by decide)⟩

/-- `border_spacing = [inf * deg]`: the message about the angle cannot be written, `OverflowError`. -/
example (E : Env) : Refuses E .borderSpacing (.seq false [.unit ⟨.ang .deg, .inf false⟩]) .overflow :=
  Or.inl ⟨.spacing, rfl, .part _ _ (.unit ⟨.ang .deg, .inf false⟩) (.spacing _ _ [] [] (.members _ _ (.seq false _)) (by simp) (by simp)
    (fun u h => by cases h)) rfl⟩

/-- `quotes = "1 2"`: the words are numbers, which have no length, `TypeError`. -/
example (E : Env) (h : ∀ w, w = lit "1" ∨ w = lit "2" → E.literalEvalOther w = .ok (.other w none)) : Refuses E .quotes (.str (lit "1 2")) .type := by
  have hw : ∀ w, w = lit "1" ∨ w = lit "2" → TokenOutcome E w (.ok (.other w none)) := by
    intro w hw
    refine (tokenOutcome_iff E w _).1 ?_
    have hs : simpleLit w = none := by rcases hw with rfl | rfl <;> decide +kernel
    rw [literalEval, hs, h w hw]
  refine Or.inl ⟨.quotes, rfl, .pair _ [] (.ok (.other (lit "1") none)) (.ok (.other (lit "2") none)) [] .type (.text _ [lit "1", lit "2"] _ ?_ ?_) rfl (by simp)
    (.unsizedOpening _ _) (by decide) (by decide)⟩
  · exact words_splitWs (lit "1 2")
  · exact .cons (hw _ (Or.inl rfl)) (.cons (hw _ (Or.inr rfl)) .nil)

end Colosseum
