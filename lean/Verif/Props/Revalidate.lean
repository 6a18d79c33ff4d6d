import Verif.Lemmas.Survive
import Verif.Props.Style

/-!
# Assigning current values again, copying: C25, C26
-/

namespace Colosseum

/-! ## C25 -/

theorem set_self {E : Env} {at_ : List Nat} {d : Decl} {p : LH} {v : Val}
    (hv : p.choices.validate E at_ v = .ok v) (hd : differs d.css p v = false) : d.set E at_ p v = (d, none) := by
  unfold Decl.set
  rw [hv]
  simp only [hd]
  rfl

/-- C25. Full statement: `css.p = css.p` never raises and changes nothing. Missing: values that do not
survive validation (`C25_exactly`), border spacings, and unset followers (the `C25_false_…` theorems). -/
theorem C25_reassign_partial (E : Env) (at_ : List Nat) (d : Decl) (hr : Reachable E d) (p : LH) (v : Val)
    (h : d.css.read p = .ok v) (hf : follows p = none ∨ d.css p ≠ none) (hs : Survives v) :
    d.setAttr E at_ (.lh p) v = (d, none) := by
  have hc := canon_reachable hr
  rw [read_value hc] at h
  cases h
  have hcan : Canonical p (d.css.value p) := by
    unfold CSS.value
    cases hp : d.css p with
    | some v => exact hc p v hp
    | none => exact initial_canonical _ p (hf.resolve_right (by simp [hp]))
  refine set_self (survives_validate hcan hs) ?_
  rw [differs_value _ _ _ hf, survives_eq hcan hs]
  rfl

/-- Every unset property other than `border_spacing` and the followers can be assigned its own value. -/
example (f : LH → Val) (p : LH) (h : follows p = none) (hp : p ≠ .borderSpacing) : Survives (cssInitial f p) :=
  initial_survives f p h hp

/-- Which stored values can be assigned again without effect: exactly the surviving ones (on a clean box,
so that dirtiness shows). -/
theorem C25_exactly (E : Env) (at_ : List Nat) (d : Decl) (hr : Reachable E d) (hl : d.link = .box (some false))
    (p : LH) (v : Val) (h : d.css p = some v) : d.setAttr E at_ (.lh p) v = (d, none) ↔ Survives v := by
  have hc := canon_reachable hr
  constructor
  · intro hs
    replace hs : d.set E at_ p v = (d, none) := hs
    have hno : (∀ w, p.choices.validate E at_ v ≠ .ok w) → False := by
      intro hn
      obtain ⟨w, hw, _⟩ := set_ok_cases hs
      exact hn w hw
    rcases hc p v h with hk | ⟨k, hk, hv⟩
    · rcases keyword_cases hk with ⟨s, _, rfl⟩ | ⟨rfl, _⟩
      · unfold keywordVal; split <;> trivial
      · trivial
    · have hkw : ∀ w, KeywordOf p v w → False := by
        intro w hw
        cases k with
        | length => obtain ⟨u, rfl⟩ := hv; cases hw
        | color => obtain ⟨_, _, rfl⟩ := hv; cases hw
        | integer => obtain ⟨_, rfl⟩ := hv; cases hw
        | spacing => obtain ⟨_, _, _, rfl⟩ := hv; cases hw
        | rect => obtain ⟨_, _, _, _, rfl⟩ := hv; cases hw
        | quotes => obtain ⟨_, rfl, _⟩ := hv; cases hw
        | cursor => obtain ⟨_, _, rfl, _⟩ := hv; cases hw
      have hparse : ∀ w, k.parse E at_ v = .ok w ↔ p.choices.validate E at_ v = .ok w := by
        intro w
        rw [validate_iff]
        constructor
        · exact fun h => Or.inr ⟨k, hk, h⟩
        · rintro (h | ⟨k', h1, h2⟩)
          · exact (hkw w h).elim
          · rw [hk] at h1; cases h1; exact h2
      cases k with
      | length =>
        obtain ⟨⟨kd, x⟩, rfl⟩ := hv
        cases kd with
        | ang a => exact (hno fun w hw => absurd ((hparse w).2 hw) (by
            intro h
            obtain ⟨u, hu, _⟩ := except_map_ok h
            exact absurd hu (raiseFmt_ne_ok _ _ _))).elim
        | len l =>
          refine ⟨⟨l, rfl⟩, ?_⟩
          rintro rfl
          have hval := (hparse (.unit ⟨.len l, .nan⟩)).1 rfl
          have hd : differs d.css p (.unit ⟨.len l, .nan⟩) = true := by
            unfold differs
            rw [h]
            cases l <;> rfl
          unfold Decl.set at hs
          rw [hval] at hs
          simp only [hd, if_true, Decl.markDirty, hl] at hs
          have := congrArg (fun o : Out => o.1.link) hs
          simp only [hl] at this
          cases this
      | color => obtain ⟨_, _, rfl⟩ := hv; trivial
      | integer => obtain ⟨_, rfl⟩ := hv; trivial
      | spacing =>
        obtain ⟨r, x, y, rfl⟩ := hv
        exact (hno fun w hw => by have := (hparse w).2 hw; cases this).elim
      | rect =>
        obtain ⟨a, b, c, e, rfl⟩ := hv
        exact (hno fun w hw => by have := (hparse w).2 hw; cases this).elim
      | quotes =>
        obtain ⟨q, rfl, _⟩ := hv
        exact (hno fun w hw => by have := (hparse w).2 hw; cases this).elim
      | cursor =>
        obtain ⟨urls, kws, rfl, _, hu, hw⟩ := hv
        intro x hx
        cases urls with
        | nil =>
          obtain ⟨w, _, rfl⟩ := hw x hx
          exact ⟨_, rfl⟩
        | cons u us =>
          obtain ⟨r, t, rfl⟩ := hu u (by simp)
          exact (hno fun w hw => by have := (hparse w).2 hw; cases this).elim
  · intro hs
    refine C25_reassign_partial E at_ d hr p v ?_ (Or.inr (by simp [h])) hs
    rw [read_value hc, CSS.value, h]
    rfl

/-- C25 is false: `css.border_spacing = css.border_spacing` raises even on a new declaration. -/
theorem C25_false_border_spacing (E : Env) (at_ : List Nat) : ∃ v,
    CSS.empty.read .borderSpacing = .ok v ∧
    (Decl.mk CSS.empty .unbound).setAttr E at_ (.lh .borderSpacing) v
      = (Decl.mk CSS.empty .unbound, some .attribute) := ⟨_, rfl, rfl⟩

/-- C25 is false for `text_align`: assigning its unset value stores it. -/
theorem C25_false_text_align (E : Env) (at_ : List Nat) : ∃ v d',
    CSS.empty.read .textAlign = .ok v ∧
    (Decl.mk CSS.empty .unbound).setAttr E at_ (.lh .textAlign) v = (d', none) ∧
    d'.css .textAlign = some v := ⟨_, _, rfl, rfl, rfl⟩

/-- C25 is false for the border colours: the unset value of a new declaration is refused. -/
theorem C25_false_border_color (E : Env) (at_ : List Nat) (s : Side) : ∃ v,
    CSS.empty.read (.borderColor s) = .ok v ∧
    (Decl.mk CSS.empty .unbound).setAttr E at_ (.lh (.borderColor s)) v
      = (Decl.mk CSS.empty .unbound, some .value) := ⟨_, rfl, rfl⟩

theorem quotes_set (E : Env) : Decl.run E 0 ⟨CSS.empty, .unbound⟩
    [.setAttr (.lh .quotes) (.str (lit "'<' '>'"))]
      = ⟨CSS.empty.store .quotes (.quotes [(.str (lit "<"), .str (lit ">"))]), .unbound⟩ := by
  let v : Val := .quotes [(.str (lit "<"), .str (lit ">"))]
  have hv : LH.quotes.choices.validate E [0] (.str (lit "'<' '>'")) = .ok v := by
    have hw : splitWs (lit "'<' '>'") = [lit "'<'", lit "'>'"] := by decide
    refine (validate_iff ..).2 (Or.inr ⟨.quotes, rfl, ?_⟩)
    have h1 : literalEval E (strip (lit "'<'")) = .ok (.str (lit "<")) := by
      unfold literalEval; rw [show simpleLit (strip (lit "'<'")) = some (lit "<") by decide]
    have h2 : literalEval E (strip (lit "'>'")) = .ok (.str (lit ">")) := by
      unfold literalEval; rw [show simpleLit (strip (lit "'>'")) = some (lit ">") by decide]
    simp only [Kind.parse, quotes, hw, List.map_cons, List.map_nil, h1, h2]
    rfl
  simp only [Decl.run, Decl.step, Decl.setAttr, Decl.set, hv]
  rfl

/-- C25 is false for `quotes`: a stored pair of quotes is refused when assigned again. -/
theorem C25_false_quotes (E : Env) : ∃ d v, Reachable E d ∧ d.css.read .quotes = .ok v ∧
    d.setAttr E [1] (.lh .quotes) v = (d, some .value) := by
  have h := quotes_set E
  exact ⟨_, _, ⟨_, h.symm⟩, rfl, rfl⟩

/-! ## C26: copy -/

/-- What copying a set of stored values into a declaration has achieved for the properties `done`. -/
structure Copied (src : CSS) (done : List LH) (c : CSS) : Prop where
  sub : ∀ p, c p = none ∨ c p = src p
  all : ∀ p ∈ done, c p = src p ∨
    ∃ v, src p = some v ∧ c p = none ∧ follows p = none ∧ v.pyEq (cssInitial c.get p) = true

theorem copied_set {E : Env} {at_ : List Nat} {src : CSS} {done : List LH} {d : Decl} {p : LH} {v : Val}
    (hsrc : src.Canon) (h : Copied src done d.css) (hp : src p = some v) (hs : Survives v) :
    Copied src (p :: done) (d.set E at_ p v).1.css ∧
      ((d.set E at_ p v).2 = none ∨ (d.set E at_ p v).2 = some .attribute) := by
  have hv := survives_validate (E := E) (at_ := at_) (hsrc p v hp) hs
  have hcss : (d.set E at_ p v).1.css = d.css ∧ differs d.css p v = false ∨
      (d.set E at_ p v).1.css = d.css.store p v := by
    rcases set_cases E at_ d p v with ⟨e, he, _⟩ | ⟨w, hw, hd, e⟩ | ⟨w, hw, hd, e⟩
    · rw [hv] at he; cases he
    · rw [hv] at hw; cases hw
      exact Or.inl ⟨by rw [e], hd⟩
    · rw [hv] at hw; cases hw
      exact Or.inr (by rw [e, markDirty_css])
  have herr : (d.set E at_ p v).2 = none ∨ (d.set E at_ p v).2 = some .attribute := by
    rcases set_cases E at_ d p v with ⟨e, he, _⟩ | ⟨w, hw, hd, e⟩ | ⟨w, hw, hd, e⟩
    · rw [hv] at he; cases he
    · exact Or.inl (by rw [e])
    · rw [e]; unfold Decl.markDirty; split
      · exact Or.inl rfl
      · exact Or.inr rfl
      · exact Or.inl rfl
  refine ⟨?_, herr⟩
  have hinit : ∀ (f g : LH → Val) q, follows q = none → cssInitial f q = cssInitial g q := by
    intro f g q hq
    cases q <;> first | rfl | cases hq
  rcases hcss with ⟨e, hd⟩ | e
  · rw [e]
    refine ⟨h.sub, ?_⟩
    intro q hq
    rcases List.mem_cons.1 hq with rfl | hq
    · rcases h.sub q with hn | hn
      · refine Or.inr ⟨v, hp, hn, ?_⟩
        obtain ⟨h1, h2⟩ := differs_false hd
        have h2 := h2.resolve_right (by simp [hn])
        refine ⟨h2, ?_⟩
        rw [CSS.value, hn] at h1
        exact h1
      · exact Or.inl hn
    · exact h.all q hq
  · rw [e]
    refine ⟨?_, ?_⟩
    · intro q
      by_cases hq : q = p
      · subst hq; rw [store_same, hp]; exact Or.inr rfl
      · rw [store_other _ _ hq]; exact h.sub q
    · intro q hq
      by_cases hqp : q = p
      · subst hqp; rw [store_same, hp]; exact Or.inl rfl
      · rw [store_other _ _ hqp]
        rcases h.all q ((List.mem_cons.1 hq).resolve_left hqp) with h1 | ⟨u, h1, h2, h3, h4⟩
        · exact Or.inl h1
        · exact Or.inr ⟨u, h1, h2, h3, hinit d.css.get _ q h3 ▸ h4⟩

theorem copied_loop {E : Env} {at_ : List Nat} {src : CSS} (hsrc : src.Canon)
    (hs : ∀ p v, src p = some v → Survives v) (ps : List LH) :
    ∀ i done (d : Decl), Copied src done d.css →
      (copyLoop E at_ src i ps d).2 = none ∧
      ∃ done', (∀ p, p ∈ done ∨ p ∈ ps → p ∈ done') ∧ Copied src done' (copyLoop E at_ src i ps d).1.css := by
  induction ps with
  | nil => intro i done d h; exact ⟨rfl, done, by simp, h⟩
  | cons p ps ih =>
    intro i done d h
    simp only [copyLoop]
    cases hp : src p with
    | none =>
      have h' : Copied src (p :: done) d.css := by
        refine ⟨h.sub, ?_⟩
        intro q hq
        rcases List.mem_cons.1 hq with rfl | hq
        · rcases h.sub q with hn | hn
          · exact Or.inl (by rw [hn, hp])
          · exact Or.inl hn
        · exact h.all q hq
      obtain ⟨h1, done', h2, h3⟩ := ih (i + 1) _ d h'
      refine ⟨h1, done', ?_, h3⟩
      intro q hq
      exact h2 q (by simp only [List.mem_cons] at hq ⊢; tauto)
    | some v =>
      simp only
      obtain ⟨h1, h2⟩ := copied_set (E := E) (at_ := i :: at_) hsrc h hp (hs p v hp)
      generalize hset : d.set E (i :: at_) p v = o at h1 h2
      obtain ⟨d', e⟩ := o
      simp only at h1 h2
      have hih := ih (i + 1) _ d' h1
      have fin : (copyLoop E at_ src (i + 1) ps d').2 = none ∧ ∃ done',
          (∀ q, q ∈ done ∨ q ∈ p :: ps → q ∈ done') ∧
          Copied src done' (copyLoop E at_ src (i + 1) ps d').1.css := by
        obtain ⟨h1, done', h2, h3⟩ := hih
        refine ⟨h1, done', ?_, h3⟩
        intro q hq
        exact h2 q (by simp only [List.mem_cons] at hq ⊢; tauto)
      rcases h2 with rfl | rfl
      · exact fin
      · exact fin

/-- C26. Full statement: a copy of any reachable declaration succeeds, has the same keys and the same
values. Missing: declarations holding values that do not survive validation (`C26_false_…`) and the keys
whose stored value equals the initial value (`C26_false_keys`). For the others, in whatever order the
properties are visited and whatever node the copy is for: nothing is raised; every getter of the copy gives
the value of the original, or a value equal to it; every stored value is either stored in the copy too or
equal to the initial value. -/
theorem C26_copy_partial (E : Env) (at_ : List Nat) (src : Decl) (hr : Reachable E src)
    (hs : ∀ p v, src.css p = some v → Survives v) (order : List LH) (ho : ∀ p, p ∈ order) (link : Link) :
    ∃ d', CSS.copy E at_ order src.css link = (d', none) ∧
    (∀ p, ∃ u u', src.css.read p = .ok u ∧ d'.css.read p = .ok u' ∧ (u' = u ∨ u.pyEq u' = true)) ∧
    (∀ p, d'.css p = src.css p ∨
      ∃ v, src.css p = some v ∧ d'.css p = none ∧ follows p = none ∧
        ∃ u, CSS.empty.read p = .ok u ∧ v.pyEq u = true) := by
  have hc := canon_reachable hr
  have hco : (CSS.copy E at_ order src.css link).1.css.Canon := (canon_stable E).copyLoop src.css order 0 canon_empty
  obtain ⟨h1, done, h2, h3⟩ := copied_loop (E := E) (at_ := at_) hc hs order 0 [] ⟨CSS.empty, link⟩
    ⟨fun p => Or.inl rfl, fun p hp => by cases hp⟩
  have hall : ∀ p, p ∈ done := fun p => h2 p (Or.inr (ho p))
  change Copied src.css done (CSS.copy E at_ order src.css link).1.css at h3
  refine ⟨(CSS.copy E at_ order src.css link).1, Prod.ext rfl h1, ?_⟩
  generalize (CSS.copy E at_ order src.css link).1.css = c at hco h3 ⊢
  have hinit : ∀ (f g : LH → Val) q, follows q = none → cssInitial f q = cssInitial g q := by
    intro f g q hq
    cases q <;> first | rfl | cases hq
  have hval : ∀ p, follows p = none → c.value p = src.css.value p ∨ (src.css.value p).pyEq (c.value p) = true := by
    intro p hp
    rcases h3.all p (hall p) with h | ⟨v, h1, h2, _, h4⟩
    · refine Or.inl ?_
      unfold CSS.value
      rw [h, hinit c.get src.css.get p hp]
    · refine Or.inr ?_
      unfold CSS.value
      rw [h1, h2]
      exact h4
  refine ⟨?_, ?_⟩
  · intro p
    refine ⟨_, _, read_value hc p, read_value hco p, ?_⟩
    by_cases hp : follows p = none
    · exact hval p hp
    · have hst : c p = src.css p := by
        rcases h3.all p (hall p) with h | ⟨_, _, _, h, _⟩
        · exact h
        · exact absurd h hp
      unfold CSS.value
      rw [hst]
      cases src.css p with
      | some v => exact Or.inl rfl
      | none =>
        cases p <;> first
          | exact absurd rfl hp
          | exact hval .color rfl
          | skip
        refine Or.inl ?_
        have hd : c.get .direction = src.css.get .direction := by
          rcases hval .direction rfl with h | h
          · exact h
          · have hcd := direction_get hco
            refine (((pyEq_atom ?_).1 h).symm : _)
            rw [value_get _ _ rfl]
            rcases hcd with e | e <;> rw [e] <;> decide
        simp only [Option.getD_none, cssInitial, hd]
  · intro p
    rcases h3.all p (hall p) with h | ⟨v, h1, h2, h3, h4⟩
    · exact Or.inl h
    · refine Or.inr ⟨v, h1, h2, h3, _, read_value canon_empty p, ?_⟩
      rw [CSS.value]
      exact hinit c.get CSS.empty.get p h3 ▸ h4

/-- The hypotheses are met by a declaration with a keyword and a colour name, visited in the order of
`allLH`. -/
example (E : Env) : ∃ d, Reachable E d ∧ (d.css .display).isSome ∧ (∀ p v, d.css p = some v → Survives v) ∧
    ∀ p, p ∈ allLH := by
  refine ⟨_, ⟨[.setAttr (.lh .display) (.str (lit "flex"))], rfl⟩, rfl, ?_, mem_allLH⟩
  intro p v h
  by_cases e : p = .display
  · subst e; cases h; trivial
  · simp only [Decl.run, Decl.step, Decl.setAttr] at h
    have : (Decl.set E [0] ⟨CSS.empty, .unbound⟩ .display (.str (lit "flex"))).1.css p = none := by
      show CSS.store CSS.empty .display _ p = none
      rw [store_other _ _ e]; rfl
    rw [this] at h; cases h

/-- C26 is false: `float` set to `left` and back to `none` is a key of the original but not of the
copy. -/
theorem C26_false_keys (E : Env) : ∃ d, Reachable E d ∧ d.css .float = some .none ∧
    (CSS.copy E [2] allLH d.css .unbound).2 = none ∧
    (CSS.copy E [2] allLH d.css .unbound).1.css .float = none :=
  ⟨_, ⟨[.setAttr (.lh .float) (.str (lit "left")), .setAttr (.lh .float) (.str (lit "none"))], rfl⟩, rfl, rfl, rfl⟩

theorem units_str_ok {fp : FP} {s : PyStr} (h : (unitsStr FP.exact baseRegistry s).isSome = true) :
    ∃ u, units fp (.str s) = .ok u := by
  rw [unitsStr_isSome FP.exact fp] at h
  obtain ⟨u, hu⟩ := Option.isSome_iff_exists.1 h
  exact ⟨u, by simp only [units, unitsIn, hu]⟩

theorem clip_set (E : Env) : ∃ a b c e, Decl.run E 0 ⟨CSS.empty, .unbound⟩
    [.setAttr (.lh .clip) (.str (lit "rect(1 2 3 4)"))] = ⟨CSS.empty.store .clip (.rect a b c e), .unbound⟩ := by
  obtain ⟨a, ha⟩ := units_str_ok (fp := E.fp) (s := lit "1") (by decide +kernel)
  obtain ⟨b, hb⟩ := units_str_ok (fp := E.fp) (s := lit "2") (by decide +kernel)
  obtain ⟨c, hc⟩ := units_str_ok (fp := E.fp) (s := lit "3") (by decide +kernel)
  obtain ⟨e, he⟩ := units_str_ok (fp := E.fp) (s := lit "4") (by decide +kernel)
  have hp : rectParts (lit "rect(1 2 3 4)") = some [lit "1", lit "2", lit "3", lit "4"] := by decide
  have hv : LH.clip.choices.validate E [0] (.str (lit "rect(1 2 3 4)")) = .ok (.rect a b c e) := by
    refine (validate_iff ..).2 (Or.inr ⟨.rect, rfl, ?_⟩)
    simp only [Kind.parse, rect, hp, show strip (lit "1") = lit "1" by decide, show strip (lit "2") = lit "2" by decide,
      show strip (lit "3") = lit "3" by decide, show strip (lit "4") = lit "4" by decide, ha, hb, hc, he]
    rfl
  refine ⟨a, b, c, e, ?_⟩
  simp only [Decl.run, Decl.step, Decl.setAttr, Decl.set, hv]
  rfl

/-- C25 is false for `clip`: assigning a stored rectangle again raises `AttributeError`. -/
theorem C25_false_clip (E : Env) : ∃ d v, Reachable E d ∧ d.css.read .clip = .ok v ∧
    d.setAttr E [1] (.lh .clip) v = (d, some .attribute) := by
  obtain ⟨a, b, c, e, h⟩ := clip_set E
  exact ⟨_, _, ⟨_, h.symm⟩, rfl, rfl⟩

/-- C26 is false: a `clip` rectangle is silently lost, the copy is an empty declaration. -/
theorem C26_false_clip (E : Env) : ∃ d v, Reachable E d ∧ d.css .clip = some v ∧
    CSS.copy E [1] allLH d.css .unbound = (⟨CSS.empty, .unbound⟩, none) := by
  obtain ⟨a, b, c, e, h⟩ := clip_set E
  exact ⟨_, _, ⟨_, h.symm⟩, rfl, rfl⟩

/-- C26 is false: copying a declaration with quotes raises `ValueError`. -/
theorem C26_false_quotes (E : Env) : ∃ d, Reachable E d ∧
    (CSS.copy E [1] allLH d.css .unbound).2 = some .value := by
  have h := quotes_set E
  exact ⟨_, ⟨_, h.symm⟩, rfl⟩

end Colosseum
