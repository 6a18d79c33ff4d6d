import Verif.Lemmas.Decl
import Verif.Lemmas.Accept

/-!
# Single properties of a declaration: C09, C21, C22, C23, C24, C36, C57, C60

Helper lemmas are in `Verif/Lemmas/Style.lean`, `Verif/Lemmas/Accept.lean` and `Verif/Lemmas/Decl.lean`.
-/

namespace Colosseum

/-- An environment used by the examples. -/
def exampleEnv : Env := ⟨FP.b64, fun _ => [], fun _ => .error .value, fun _ => .error .value⟩

/-! ## C21: a rejected assignment changes nothing -/

/-- C21. Full statement: if `css.p = v` raises, the declaration is as before. What is missing: a
declaration on a node whose layout is `None` (see `C21_false_no_box`). -/
theorem C21_rejected_partial (E : Env) (at_ : List Nat) (d d' : Decl) (p : LH) (v : Val) (e : Err)
    (h : d.setAttr E at_ (.lh p) v = (d', some e)) (hl : d.link ≠ .noBox) : d' = d := by
  have h : d.set E at_ p v = (d', some e) := h
  rcases set_cases E at_ d p v with ⟨_, _, _, hs⟩ | ⟨_, _, _, hs⟩ | ⟨w, _, _, hs⟩
  · rw [hs] at h; cases h; rfl
  · rw [hs] at h; cases h
  · rw [hs] at h
    unfold Decl.markDirty at h
    split at h
    · cases h
    · rename_i e; exact absurd e hl
    · cases h

example : (Decl.mk CSS.empty .unbound).setAttr exampleEnv [] (.lh .display) (.str (lit "bogus"))
    = (Decl.mk CSS.empty .unbound, some .value) := rfl

/-- Without the restriction: the only failing assignment that changes anything is an accepted one on a
node without a box, which stores the value and then raises `AttributeError`. -/
theorem C21_failures (E : Env) (at_ : List Nat) (d d' : Decl) (p : LH) (v : Val) (e : Err)
    (h : d.setAttr E at_ (.lh p) v = (d', some e)) :
    d' = d ∨ (d.link = .noBox ∧ e = .attribute ∧ d'.link = .noBox ∧
      ∃ w, Canonical p w ∧ d'.css p = some w ∧ ∀ q ≠ p, d'.css q = d.css q) := by
  have h : d.set E at_ p v = (d', some e) := h
  rcases set_cases E at_ d p v with ⟨_, _, _, hs⟩ | ⟨_, _, _, hs⟩ | ⟨w, hw, _, hs⟩
  · rw [hs] at h; cases h; exact Or.inl rfl
  · rw [hs] at h; cases h
  · rw [hs] at h
    unfold Decl.markDirty at h
    split at h
    · cases h
    · rename_i hl
      cases h
      exact Or.inr ⟨hl, rfl, hl, w, validate_canonical hw, store_same .., fun q hq => store_other _ _ hq⟩
    · cases h

/-- C21 is false on a node whose layout is `None` (its display was `none` in the last layout): the
assignment stores the value, then raises `AttributeError` while marking the layout dirty. -/
theorem C21_false_no_box (E : Env) : ∃ d d', Reachable E d ∧
    d.setAttr E [1] (.lh .display) (.str (lit "block")) = (d', some .attribute) ∧
    d.css .display = none ∧ d'.css .display = some (.str (lit "block")) :=
  ⟨_, _, ⟨[.bind .noBox], rfl⟩, rfl, rfl, rfl⟩

/-! ## C22: an accepted assignment is read back and touches nothing else -/

theorem set_ok_cases {E : Env} {at_ : List Nat} {d d' : Decl} {p : LH} {v : Val}
    (h : d.set E at_ p v = (d', none)) :
    ∃ w, p.choices.validate E at_ v = .ok w ∧
      ((differs d.css p w = false ∧ d' = d) ∨ (differs d.css p w = true ∧ d'.css = d.css.store p w)) := by
  rcases set_cases E at_ d p v with ⟨_, _, _, hs⟩ | ⟨w, hw, hd, hs⟩ | ⟨w, hw, hd, hs⟩
  · rw [hs] at h; cases h
  · rw [hs] at h; cases h; exact ⟨w, hw, Or.inl ⟨hd, rfl⟩⟩
  · have := markDirty_css { d with css := d.css.store p w }
    rw [← hs, h] at this
    exact ⟨w, hw, Or.inr ⟨hd, this⟩⟩

/-- C22, the assigned property. In every reachable state a successful `css.p = v` makes `css.p` the
validated form of `v`, or leaves the declaration alone because the validated form equals what `css.p`
already is. -/
theorem C22_read_back (E : Env) (at_ : List Nat) (d d' : Decl) (hr : Reachable E d) (p : LH) (v : Val)
    (h : d.setAttr E at_ (.lh p) v = (d', none)) :
    ∃ w, (KeywordOf p v w ∨ ∃ k, kindOf p = some k ∧ k.parse E at_ v = .ok w) ∧
      (d'.css.read p = .ok w ∨ (d' = d ∧ ∃ u, d.css.read p = .ok u ∧ w.pyEq u = true)) := by
  have hc := canon_reachable hr
  obtain ⟨w, hw, h1⟩ := set_ok_cases h
  refine ⟨w, (validate_iff ..).1 hw, ?_⟩
  rcases h1 with ⟨hd, rfl⟩ | ⟨_, hcss⟩
  · exact Or.inr ⟨rfl, _, read_value hc p, (differs_false hd).1⟩
  · refine Or.inl ?_
    have hc' : d'.css.Canon := by
      have := (canon_stable E).set at_ d p v hc
      have h : d.set E at_ p v = (d', none) := h
      rwa [h] at this
    rw [read_value hc', CSS.value, hcss, store_same]
    rfl

/-- Assigning `"BLOCK"`-like text is refused, `"block"` is read back. -/
example (E : Env) : ∃ d', (Decl.mk CSS.empty (.box none)).setAttr E [] (.lh .display) (.str (lit "block"))
    = (d', none) ∧ d'.css.read .display = .ok (.str (lit "block")) := ⟨_, rfl, rfl⟩

/-- C22, the other properties. A successful `css.p = v` leaves what every other property reads as, except
an unset property that follows `p`: the border colours follow `color`, `text_align` follows
`direction`. -/
theorem C22_others_unchanged (E : Env) (at_ : List Nat) (d d' : Decl) (hr : Reachable E d) (p q : LH) (v : Val)
    (h : d.setAttr E at_ (.lh p) v = (d', none)) (hq : q ≠ p) (hf : follows q = some p → d.css q ≠ none) :
    d'.css.read q = d.css.read q ∧ d'.css q = d.css q := by
  have hc := canon_reachable hr
  have hc' : d'.css.Canon := by
    have := (canon_stable E).set at_ d p v hc
    have h : d.set E at_ p v = (d', none) := h
    rwa [h] at this
  obtain ⟨w, hw, h1⟩ := set_ok_cases h
  rcases h1 with ⟨_, rfl⟩ | ⟨_, hcss⟩
  · exact ⟨rfl, rfl⟩
  · have hs : d'.css q = d.css q := by rw [hcss, store_other _ _ hq]
    refine ⟨?_, hs⟩
    rw [read_value hc', read_value hc, CSS.value, CSS.value, hs]
    cases hdq : d.css q with
    | some u => rfl
    | none =>
      simp only [Option.getD_none]
      have hg : ∀ r, r ≠ p → d'.css.get r = d.css.get r := by
        intro r hr
        unfold CSS.get
        rw [hcss, store_other _ _ hr]
      cases q <;> first
        | rfl
        | (exact congrArg Except.ok (hg .color fun e => hf (congrArg some e) hdq))
        | (simp only [cssInitial, hg .direction fun e => hf (congrArg some e) hdq])

/-- The followers do follow: assigning `color` changes what an unset border colour reads as. -/
example (E : Env) : ∃ d', (Decl.mk CSS.empty .unbound).setAttr E [] (.lh .direction) (.str (lit "rtl"))
    = (d', none) ∧ d'.css.read .textAlign = .ok (.str (lit "right")) ∧
      CSS.empty.read .textAlign = .ok (.str (lit "left")) := ⟨_, rfl, rfl, rfl⟩

/-! ## C23: reading and deleting -/

/-- What a declaration shows, in every reachable state: there are values, one for each property, that the
getters return; the value of a property that is set is the one stored, the value of an unset one is its
initial value, computed from the shown values of the other properties. -/
theorem C23_reads (E : Env) (d : Decl) (hr : Reachable E d) :
    ∃ value : LH → Val, ∀ p, d.css.read p = .ok (value p) ∧
      value p = (d.css p).getD (cssInitial value p) := by
  have hc := canon_reachable hr
  refine ⟨d.css.value, fun p => ⟨read_value hc p, ?_⟩⟩
  conv_lhs => rw [CSS.value]
  cases p <;> rfl

/-- The three ways of deleting a single property. -/
inductive DeletionOf (p : LH) : Op → Prop
  | attr : DeletionOf p (.delAttr (.lh p))
  | item (n : PyStr) : attrOfName (normName n) = some (.lh p) → DeletionOf p (.delItem n)
  | update (n : PyStr) : attrOfName (normName n) = some (.lh p) → DeletionOf p (.update [(n, .none)])

theorem deletion_step {E : Env} {at_ : List Nat} {d : Decl} {p : LH} {o : Op} (h : DeletionOf p o) :
    d.step E at_ o = (d.del p, none) := by
  cases h with
  | attr => rfl
  | item n hn => simp only [Decl.step, Decl.delItem, hn]; rfl
  | update n hn => simp only [Decl.step, Decl.update, Decl.updateFrom, Decl.updateOne, hn]; rfl

/-- C23. Deleting a property, in any of the three forms and in any reachable state, does not raise; the
property then reads as its initial value and is absent from `keys()`; no other property is changed;
deleting it again changes nothing at all. -/
theorem C23_delete (E : Env) (at_ at' : List Nat) (d : Decl) (hr : Reachable E d) (p : LH) (o o' : Op)
    (h : DeletionOf p o) (h' : DeletionOf p o') :
    ∃ d', d.step E at_ o = (d', none) ∧
      (∃ value : LH → Val, (∀ q, d'.css.read q = .ok (value q)) ∧
        d'.css.read p = .ok (cssInitial value p)) ∧
      p ∉ d'.css.keys ∧ (∀ q ≠ p, d'.css q = d.css q) ∧ d'.step E at' o' = (d', none) := by
  have hc' := (canon_stable E).del d p (canon_reachable hr)
  refine ⟨_, deletion_step h, ?_, ?_, ?_, ?_⟩
  · refine ⟨(d.del p).css.value, fun q => read_value hc' q, ?_⟩
    rw [read_value hc', CSS.value, del_css, erase_same]
    simp only [Option.getD_none]
    cases p <;> rfl
  · simp only [CSS.keys, List.mem_filter, del_css, erase_same]
    simp
  · intro q hq
    rw [del_css, erase_other _ hq]
  · rw [deletion_step h', Decl.del]
    have : (d.del p).css p = none := by rw [del_css, erase_same]
    rw [this]

example : DeletionOf (.margin .top) (.delItem (lit "margin-top")) := .item _ rfl
example : DeletionOf .zIndex (.update [(lit "z_index", .none)]) := .update _ rfl

/-! ## C24: every stored value is canonical -/

/-- C24. In every state a program can reach by any sequence of assignments, deletions, updates, shorthand
and four-sided assignments, whether they succeed or fail, every stored value is a keyword of its property
or a value of its kind. -/
theorem C24_canonical (E : Env) (d : Decl) (hr : Reachable E d) (p : LH) (v : Val) (h : d.css p = some v) :
    Canonical p v := canon_reachable hr p v h

/-- A reachable declaration that stores something: a length set through a four-sided property. -/
example (E : Env) : ∃ d, Reachable E d ∧ (d.css .display).isSome ∧ (d.css .float).isSome :=
  ⟨_, ⟨[.setAttr (.lh .display) (.str (lit "flex")), .setItem (lit "float") (.str (lit "left"))], rfl⟩, rfl, rfl⟩

/-- C24, sharper: every stored value is what the grammar of its property makes of some value. -/
theorem C24_produced (E : Env) (d : Decl) (hr : Reachable E d) (p : LH) (v : Val) (h : d.css p = some v) :
    ∃ at_ v₀, KeywordOf p v₀ v ∨ ∃ k, kindOf p = some k ∧ k.parse E at_ v₀ = .ok v :=
  (stored_stable E (fun p v => ∃ at_ v₀, KeywordOf p v₀ v ∨ ∃ k, kindOf p = some k ∧ k.parse E at_ v₀ = .ok v)
    fun p at_ v₀ w hw => ⟨at_, v₀, (validate_iff E at_ p v₀ w).1 hw⟩).reachable (fun _ _ h => h)
      (fun _ _ h => by cases h) hr p v h

/-- C24 for copies: whatever is copied, in whatever order and even if the copy is interrupted. -/
theorem C24_copy (E : Env) (at_ : List Nat) (order : List LH) (src : CSS) (link : Link) (p : LH) (v : Val)
    (h : (CSS.copy E at_ order src link).1.css p = some v) : Canonical p v :=
  (canon_stable E).copyLoop src order 0 canon_empty p v h

/-! ## C36: dirtiness -/

theorem clean_stable (E : Env) (c : CSS) (b : Option Bool) :
    Stable E fun d => (d.css = c ∧ d.link = .box b) ∨ d.link = .box (some true) where
  set at_ d p v h := by
    rcases set_cases E at_ d p v with ⟨_, _, _, hs⟩ | ⟨_, _, _, hs⟩ | ⟨w, hw, _, hs⟩
    · rw [hs]; exact h
    · rw [hs]; exact h
    · rw [hs]
      refine Or.inr ?_
      unfold Decl.markDirty
      rcases h with ⟨_, h⟩ | h <;> simp only [h]
  del d p h := by
    unfold Decl.del
    split
    · exact h
    · refine Or.inr ?_
      unfold Decl.markDirty
      rcases h with ⟨_, h⟩ | h <;> simp only [h]
  mark d h := by
    refine Or.inr ?_
    unfold Decl.markDirty
    rcases h with ⟨_, h⟩ | h <;> simp only [h]

/-- C36, first half. Any operation on a declaration whose node has a box, successful or not, either
leaves the declaration exactly as it was or leaves the box marked dirty. -/
theorem C36_changes_mark (E : Env) (at_ : List Nat) (d : Decl) (b : Option Bool) (hl : d.link = .box b) (o : Op)
    (ho : ∀ l, o ≠ .bind l) :
    (d.step E at_ o).1 = d ∨ (d.step E at_ o).1.link = .box (some true) := by
  rcases (clean_stable E d.css b).step (at_ := at_) o (fun l h => absurd h (ho l)) (Or.inl ⟨rfl, hl⟩) with
    ⟨h1, h2⟩ | h
  · refine Or.inl ?_
    rw [← hl] at h2
    generalize (d.step E at_ o).1 = d' at h1 h2
    cases d'; cases d
    simp only at h1 h2
    rw [h1, h2]
  · exact Or.inr h

/-- A change that marks: a clean box becomes dirty. -/
example (E : Env) : ((Decl.mk CSS.empty (.box (some false))).step E [] (.setItem (lit "display")
    (.str (lit "block")))).1.link = .box (some true) := rfl

/-- C36, second half. Full statement: assigning a value equal to the current one, deleting an unset
property and a rejected assignment leave the declaration and its dirtiness as they were. Missing: the
unset border colours and `text_align` (`C36_false_follower`), and deleting a shorthand
(`C36_false_shorthand`). -/
theorem C36_no_change_partial (E : Env) (at_ : List Nat) (d : Decl) (hr : Reachable E d) (p : LH) (v : Val) (hf : follows p = none ∨ d.css p ≠ none)
    (hv : ∀ w, (KeywordOf p v w ∨ ∃ k, kindOf p = some k ∧ k.parse E at_ v = .ok w) →
      ∃ u, d.css.read p = .ok u ∧ w.pyEq u = true) :
    (d.setAttr E at_ (.lh p) v).1 = d := by
  show (d.set E at_ p v).1 = d
  rcases set_cases E at_ d p v with ⟨_, _, _, hs⟩ | ⟨_, _, _, hs⟩ | ⟨w, hw, hd, hs⟩
  · rw [hs]
  · rw [hs]
  · exfalso
    obtain ⟨u, hu, he⟩ := hv w ((validate_iff ..).1 hw)
    rw [read_value (canon_reachable hr)] at hu
    cases hu
    rw [differs_value _ _ _ hf, he] at hd
    cases hd

/-- The hypotheses are met by assigning `"inline"` to a fresh declaration on a clean box. -/
example (E : Env) : ((Decl.mk CSS.empty (.box (some false))).setAttr E [] (.lh .display) (.str (lit "inline"))).1.link
    = .box (some false) := rfl

/-- Deleting an unset single property changes nothing. -/
theorem C36_delete_unset (d : Decl) (p : LH) (h : d.css p = none) : d.delAttr (.lh p) = d := by
  show d.del p = d
  unfold Decl.del
  rw [h]

/-- C36 is false for an unset property that follows another: assigning to `text_align` the value it
already has stores it and marks the layout dirty. -/
theorem C36_false_follower (E : Env) : ∃ d, Reachable E d ∧ d.link = .box (some false) ∧
    d.css.read .textAlign = .ok (.str (lit "left")) ∧
    (d.setAttr E [1] (.lh .textAlign) (.str (lit "left"))).1.link = .box (some true) :=
  ⟨_, ⟨[.bind (.box (some false))], rfl⟩, rfl, rfl, rfl⟩

/-- C36 is false for shorthands: `del css.border_top` on a declaration without any border marks the
layout dirty. -/
theorem C36_false_shorthand (E : Env) : ∃ d, Reachable E d ∧ d.link = .box (some false) ∧
    (∀ p, d.css p = none) ∧ (d.delAttr (.sh (.borderSide .top))).link = .box (some true) :=
  ⟨_, ⟨[.bind (.box (some false))], rfl⟩, rfl, fun _ => rfl, rfl⟩

/-! ## C57: which values a property accepts -/

/-- Whether an assignment is accepted, in any state: exactly when the value is a way of writing one of
the property's keywords or the parser of the property's kind takes it. -/
theorem C57_accepts (E : Env) (at_ : List Nat) (d : Decl) (hl : d.link ≠ .noBox) (p : LH) (v : Val) :
    (d.setAttr E at_ (.lh p) v).2 = none ↔
      ∃ w, KeywordOf p v w ∨ ∃ k, kindOf p = some k ∧ k.parse E at_ v = .ok w := by
  show (d.set E at_ p v).2 = none ↔ _
  rcases set_cases E at_ d p v with ⟨e, he, e', hs⟩ | ⟨w, hw, _, hs⟩ | ⟨w, hw, _, hs⟩
  · rw [hs]
    refine ⟨fun h => (by cases h), ?_⟩
    rintro ⟨w, h⟩
    rw [(validate_iff E at_ p v w).2 h] at he
    cases he
  · rw [hs]
    exact ⟨fun _ => ⟨w, (validate_iff ..).1 hw⟩, fun _ => rfl⟩
  · rw [hs]
    refine ⟨fun _ => ⟨w, (validate_iff ..).1 hw⟩, fun _ => ?_⟩
    unfold Decl.markDirty
    split
    · rfl
    · rename_i h; exact absurd h hl
    · rfl

/-- C57. A string that the parser of the property's kind does not take is accepted exactly when it is one
of the property's keywords; then `css.p` is that keyword (`None` for `none`). -/
theorem C57_keywords (E : Env) (at_ : List Nat) (d : Decl) (hr : Reachable E d) (hl : d.link ≠ .noBox) (p : LH)
    (s : PyStr) (hp : ∀ k w, kindOf p = some k → k.parse E at_ (.str s) ≠ .ok w) :
    ((d.setAttr E at_ (.lh p) (.str s)).2 = none ↔ ∃ n ∈ keywordNames p, s = n.toList) ∧
    ∀ n ∈ keywordNames p, s = n.toList →
      (d.setAttr E at_ (.lh p) (.str s)).1.css.read p = .ok (keywordVal n) := by
  have hk : ∀ w, KeywordOf p (.str s) w → ∃ n ∈ keywordNames p, s = n.toList ∧ w = keywordVal n := by
    intro w h
    generalize hv : Val.str s = v at h
    cases h with
    | word n hn => cases hv; exact ⟨n, hn, rfl, rfl⟩
    | none => cases hv
    | dflt => cases hv
  constructor
  · rw [C57_accepts E at_ d hl]
    constructor
    · rintro ⟨w, h | ⟨k, h1, h2⟩⟩
      · obtain ⟨n, hn, e, _⟩ := hk w h
        exact ⟨n, hn, e⟩
      · exact absurd h2 (hp k w h1)
    · rintro ⟨n, hn, rfl⟩
      exact ⟨_, Or.inl (.word n hn)⟩
  · rintro n hn rfl
    obtain ⟨d', hs⟩ : ∃ d', d.setAttr E at_ (.lh p) (.str n.toList) = (d', none) := by
      refine ⟨(d.setAttr E at_ (.lh p) (.str n.toList)).1, Prod.ext rfl ?_⟩
      exact (C57_accepts E at_ d hl p _).2 ⟨_, Or.inl (.word n hn)⟩
    obtain ⟨w, hw, hrd⟩ := C22_read_back E at_ d d' hr p _ hs
    have e : w = keywordVal n := by
      rcases hw with h | ⟨k, h1, h2⟩
      · have h1 := (keywordOf_iff p _ w).1 h
        have h2 := (keywordOf_iff p _ _).1 (KeywordOf.word (p := p) n hn)
        rw [h1.1, h2.1]
      · exact absurd h2 (hp k w h1)
    subst e
    rw [hs]
    rcases hrd with h | ⟨rfl, u, h1, h2⟩
    · exact h
    · show d'.css.read p = _
      rw [h1]
      have hm : keywordVal n ∈ keywords p := List.mem_append.2 (Or.inl (List.mem_map.2 ⟨n, hn, rfl⟩))
      have : keywordVal n = u := by
        have hc := keywords_code p _ hm
        revert h2 hc
        generalize keywordVal n = k
        intro h2 hc
        cases k <;> first
          | exact absurd rfl hc
          | (cases u <;> first | rfl | exact Bool.noConfusion h2 | exact congrArg Val.str (by simpa [Val.pyEq] using h2))
      rw [this]

/-- The hypothesis holds for a keyword-only property and any string, and for a length property and a
word. -/
example (E : Env) (at_ : List Nat) (s : PyStr) (k : Kind) (w : Val) (h : kindOf .display = some k) :
    k.parse E at_ (.str s) ≠ .ok w := by cases h

/-- C57 for the length-valued properties: exactly the lengths (and angles, see C09) and the keywords are
accepted. -/
theorem C57_lengths (E : Env) (L : E.fp.Laws) (at_ : List Nat) (d : Decl) (hl : d.link ≠ .noBox) (p : LH)
    (hk : kindOf p = some .length) (v : Val) (hv : v.Held E.fp) :
    (d.setAttr E at_ (.lh p) v).2 = none ↔ (∃ w, KeywordOf p v w) ∨ ∃ u, Denotes E.fp v u := by
  rw [C57_accepts E at_ d hl]
  constructor
  · rintro ⟨w, h | ⟨k, h1, h2⟩⟩
    · exact Or.inl ⟨w, h⟩
    · rw [hk] at h1
      cases h1
      obtain ⟨u, hu, _⟩ := except_map_ok h2
      exact Or.inr ⟨u, (C03_units_accepts E.fp L v hv u).1 hu⟩
  · rintro (⟨w, h⟩ | ⟨u, h⟩)
    · exact ⟨w, Or.inl h⟩
    · refine ⟨.unit u, Or.inr ⟨_, hk, ?_⟩⟩
      simp only [Kind.parse, (C03_units_accepts E.fp L v hv u).2 h]
      rfl

/-! ## C09: angles -/

/-- C09. Full statement: a length-valued property never stores an angle. Missing: strings consisting of a
number and an angle suffix, which are accepted (`C09_false_angle`). For every other value of any type the
stored value is a keyword or a length. -/
theorem C09_lengths_partial (E : Env) (L : E.fp.Laws) (at_ : List Nat) (d d' : Decl) (p : LH)
    (hk : kindOf p = some .length) (v : Val) (h : d.setAttr E at_ (.lh p) v = (d', none))
    (hs : ∀ n t k x, (t, UKind.ang k) ∈ cssUnits → FloatLit E.fp n x → v ≠ .str (n ++ t.toList))
    (hd : d'.css ≠ d.css) :
    ∃ w, d'.css p = some w ∧ (w ∈ keywords p ∨ ∃ (k : LKind) (x : PyNum), w = .unit ⟨.len k, x⟩) := by
  obtain ⟨w, hw, h1⟩ := set_ok_cases h
  rcases h1 with ⟨_, rfl⟩ | ⟨_, hcss⟩
  · exact absurd rfl hd
  · refine ⟨w, by rw [hcss, store_same], ?_⟩
    rcases (validate_iff ..).1 hw with hkw | ⟨k, h1, h2⟩
    · exact Or.inl (((keywordOf_iff p v w).1 hkw).1 ▸ ((keywordOf_iff p v w).1 hkw).2)
    · rw [hk] at h1
      cases h1
      obtain ⟨u, hu, rfl⟩ := except_map_ok h2
      refine Or.inr ?_
      cases v with
      | str s =>
        have := (C03_units_accepts E.fp L (.str s) trivial u).1 hu
        generalize hv : Val.str s = v at this hs
        cases this with
        | unit => cases hv
        | number => cases hv
        | bare => exact ⟨_, _, rfl⟩
        | suffixed n t k x ht hn =>
          cases k with
          | len k => exact ⟨_, _, rfl⟩
          | ang k => exact absurd rfl (hs n t k x ht hn)
      | num x => cases hu; exact ⟨_, _, rfl⟩
      | unit u' =>
        obtain ⟨k, x⟩ := u'
        cases k with
        | len k => cases hu; exact ⟨_, _, rfl⟩
        | ang k => exact absurd hu (raiseFmt_ne_ok _ _ _)
      | _ => simp only [units, unitsIn] at hu; exact absurd hu (raiseFmt_ne_ok _ _ _)

/-- C09 is false: `css.width = "90deg"` is accepted and stores an angle. -/
theorem C09_false_angle (E : Env) (L : E.fp.Laws) : ∃ d x, Reachable E d ∧
    d.css .width = some (.unit ⟨.ang .deg, x⟩) := by
  have hx : (parseFloat E.fp (lit "90")).isSome = true := by
    rw [parseFloat_some E.fp FP.exact]; decide +kernel
  obtain ⟨x, hx⟩ := Option.isSome_iff_exists.1 hx
  have hu : units E.fp (.str (lit "90deg")) = .ok ⟨.ang .deg, x⟩ :=
    C02_suffix_exact E.fp L (lit "90") "deg" (.ang .deg) x (by decide) (parseFloat_iff.1 hx)
  have hv : LH.width.choices.validate E [0] (.str (lit "90deg")) = .ok (.unit ⟨.ang .deg, x⟩) :=
    (validate_iff ..).2 (Or.inr ⟨.length, rfl, by simp only [Kind.parse, hu]; rfl⟩)
  refine ⟨_, x, ⟨[.setAttr (.lh .width) (.str (lit "90deg"))], rfl⟩, ?_⟩
  simp only [Decl.run, Decl.step, Decl.setAttr, Decl.set, hv]
  rfl

/-! ## C60: the order of the keyword set -/

/-- C60. Whatever order the keyword set of a property iterates in, `validate` gives the same result for
every value. -/
theorem C60_order (E : Env) (at_ : List Nat) (p : LH) (cs ds : List Val)
    (hc : cs.Perm p.choices.constants) (hd : ds.Perm p.choices.defaults) (v : Val) :
    (Choices.mk cs p.choices.validators ds).validate E at_ v = p.choices.validate E at_ v := by
  have key : ∀ (v : Val) (l l' : List Val), l.Perm l' → (∀ c ∈ l', c.code.1 ≠ 3) →
      findConst v l = findConst v l' := by
    intro v l l' hp ha
    have ha' : ∀ c ∈ l, c.code.1 ≠ 3 := fun c h => ha c (hp.mem_iff.1 h)
    by_cases hm : v ∈ l'
    · rw [findConst_mem ha hm, findConst_mem ha' (hp.mem_iff.2 hm)]
    · rw [findConst_not_mem ha hm, findConst_not_mem ha' fun h => hm (hp.mem_iff.1 h)]
  unfold Choices.validate
  rw [key _ _ _ hc (atoms_of p).1, key _ _ _ hd (atoms_of p).2]

/-- C60 for every `Choices` object whose constants are strings and `None`, not only for those of the properties. -/
theorem C60_any (E : Env) (at_ : List Nat) (cs cs' ds ds' : List Val) (vs : List Validator) (hc : cs.Perm cs') (hd : ds.Perm ds')
    (ha : ∀ c, c ∈ cs ∨ c ∈ ds → c = .none ∨ ∃ s, c = .str s) (v : Val) :
    (Choices.mk cs vs ds).validate E at_ v = (Choices.mk cs' vs ds').validate E at_ v := by
  have atom : ∀ c, c ∈ cs ∨ c ∈ ds → c.code.1 ≠ 3 := fun c h => by
    rcases ha c h with rfl | ⟨s, rfl⟩ <;> exact nofun
  have key : ∀ (v : Val) (l l' : List Val), l.Perm l' → (∀ c ∈ l, c.code.1 ≠ 3) → findConst v l = findConst v l' := by
    intro v l l' hp ha
    have ha' : ∀ c ∈ l', c.code.1 ≠ 3 := fun c h => ha c (hp.mem_iff.2 h)
    by_cases hm : v ∈ l
    · rw [findConst_mem ha hm, findConst_mem ha' (hp.mem_iff.1 hm)]
    · rw [findConst_not_mem ha hm, findConst_not_mem ha' fun h => hm (hp.mem_iff.2 h)]
  unfold Choices.validate
  rw [key _ _ _ hc fun c h => atom c (Or.inl h), key _ _ _ hd fun c h => atom c (Or.inr h)]

example : ∀ c, c ∈ [kw "a", .none, kw "b"] ∨ c ∈ [kw "x"] → c = Val.none ∨ ∃ s, c = .str s := by
  rintro c h
  simp only [List.mem_cons, List.not_mem_nil, or_false] at h
  rcases h with (rfl | rfl | rfl) | rfl
  exacts [Or.inr ⟨_, rfl⟩, Or.inl rfl, Or.inr ⟨_, rfl⟩, Or.inr ⟨_, rfl⟩]

example : ([kw "thick", kw "thin", kw "medium"] : List Val).Perm (LH.borderWidth .top).choices.constants := by
  show ([kw "thick", kw "thin", kw "medium"] : List Val).Perm [kw "thin", kw "medium", kw "thick"]
  exact (List.Perm.swap _ _ _).trans (List.Perm.cons _ (List.Perm.swap _ _ _))

end Colosseum
