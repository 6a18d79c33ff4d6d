import Verif.Props.Shorthands
import Verif.Props.Errors
import Verif.Props.Messages
import Verif.Props.Wrapped
import Verif.Props.Sides

/-!
# Which exceptions an assignment to a shorthand or to four sides raises: C58 for `border`, `border_<side>`, `outline`, `margin`, `padding` and so on
-/

namespace Colosseum

/-- The part can be printed and is no empty text, and the value it stands for can be printed. -/
def PartFine (E : Env) (s : SH) (x : Val) : Prop :=
  x.fmtErr = none ∧ x ≠ .str [] ∧ ∀ k w, FallsTo E s x k w → w.fmtErr = none

theorem part_validate_error {E : Env} {a : List Nat} {s : SH} {k : Part} {x : Val} {e : Err} (hf : x.fmtErr = none) (hx : x ≠ .str [])
    (h : (partProp s k).choices.validate E a x = .error e) : e = .value := by
  refine validate_error hf ?_ h
  intro kd hk
  rw [kindOf_part] at hk
  cases k <;> cases hk
  · trivial
  · exact hx

theorem parsePart_value {E : Env} {a : List Nat} {s : SH} {x : Val} {dict : List (Part × Val)} {e : Err} (hf : x.fmtErr = none) (hx : x ≠ .str [])
    (ks : List Part) (h : parsePart E a x dict (ks.map fun k => (k, (partProp s k).choices)) = .error e) : e = .value := by
  induction ks with
  | nil =>
    simp only [List.map_nil, parsePart, raiseFmt_none hf] at h
    cases h; rfl
  | cons k ks ih =>
    simp only [List.map_cons, parsePart] at h
    split at h
    · rename_i e' he
      have := part_validate_error hf hx he
      subst this
      exact ih h
    · split at h <;> cases h
      rfl

theorem parseParts_value {E : Env} {at_ : List Nat} {s : SH} (xs : List Val) (hx : ∀ x ∈ xs, x.fmtErr = none ∧ x ≠ .str []) :
    ∀ {i : Nat} {dict : List (Part × Val)} {e : Err}, parseParts E at_ s.tries i dict xs = .error e → e = .value := by
  induction xs with
  | nil => intro i dict e h; cases h
  | cons x xs ih =>
    intro i dict e h
    unfold parseParts at h
    split at h
    · cases h; rfl
    · split at h
      · rename_i e' he
        cases h
        rw [tries_eq] at he
        exact parsePart_value (hx x (by simp)).1 (hx x (by simp)).2 _ he
      · exact ih (fun y hy => hx y (by simp [hy])) h

theorem set_value {E : Env} {a : List Nat} {d d' : Decl} {p : LH} {v : Val} {e : Err} (hl : d.link ≠ .noBox) (hf : v.fmtErr = none)
    (hv : ∀ e0, p.choices.validate E a v = .error e0 → e0 = .value) (h : d.set E a p v = (d', some e)) : e = .value := by
  unfold Decl.set at h
  split at h
  · rename_i e' he
    have := hv e' he
    subst this
    rw [hf] at h
    simp only [Err.isValueError, if_true] at h
    cases h; rfl
  · rename_i w _
    split at h
    · have := (mark_link (d := { d with css := d.css.store p w }) hl).2
      rw [h] at this
      cases this
    · cases h

theorem runActs_link {E : Env} {as : List Act} : ∀ {d d' : Decl}, d.link ≠ .noBox → runActs E as d = (d', none) → d'.link ≠ .noBox := by
  induction as with
  | nil => intro d d' hl h; cases h; exact hl
  | cons a as ih =>
    intro d d' hl h
    obtain ⟨d1, h1, h2⟩ := andThen_none h
    have hl1 := act_link (E := E) a hl
    rw [h1] at hl1
    exact ih hl1 h2

theorem canonical_not_empty {s : SH} {k : Part} {w : Val} (h : Canonical (partProp s k) w) : w ≠ .str [] := by
  rintro rfl
  rcases h with hk | ⟨kd, hk, hv⟩
  · have hc : ∀ p ∈ allLH, ∀ c ∈ (keywords p).map Val.code, c ≠ (2, []) := by decide +kernel
    exact hc _ (mem_allLH _) _ (List.mem_map_of_mem (f := Val.code) hk) rfl
  · rw [kindOf_part] at hk
    cases k <;> cases hk
    · obtain ⟨u, e⟩ := hv; cases e
    · obtain ⟨r, c, e⟩ := hv; cases e

/-- C58 for the shorthands: in every state of a declaration whose node has a box or which belongs to no node, an assignment of a value whose
parts are fine raises nothing but `ValueError`. -/
theorem C58_shorthand (E : Env) (at_ : List Nat) (d d' : Decl) (s : SH) (v : Val) (xs : List Val) (e : Err) (hl : d.link ≠ .noBox)
    (hp : PartsOf v xs) (hx : ∀ x ∈ xs, PartFine E s x) (h : d.setAttr E at_ (.sh s) v = (d', some e)) : e = .value := by
  have h : d.setSH E at_ s v = (d', some e) := h
  rcases setSH_acts (E := E) (at_ := at_) (d := d) (s := s) hp with ⟨e0, h0, e', h'⟩ | ⟨kws, hk, hF, hN, hlen, h'⟩
  · have h1 : e0 = .value := by
      rw [parts_parse hp] at h0
      exact parseParts_value xs (fun x hxm => ⟨(hx x hxm).1, (hx x hxm).2.1⟩) h0
    unfold Decl.setSH at h
    rw [h0, h1] at h
    cases h; rfl
  · rw [h'] at h
    rcases andThen_some h with h | ⟨d1, h1, h2⟩
    · obtain ⟨pre, a, post, d1, e1, h3, h4⟩ := runActs_stops h
      have hl1 := runActs_link hl h3
      obtain ⟨k, p, hpp, rfl | ⟨b, w, rfl, hw⟩⟩ := mem_shActs (x := a) (by rw [e1]; simp)
      · cases h4
      · rw [lookup_mem hN] at hw
        obtain ⟨x, hxm, hf⟩ := forall₂_mem hF hw
        have hfm := (hx x hxm).2.2 k w hf
        refine set_value hl1 hfm ?_ h4
        intro e0 he
        rw [(partProps_choices hpp).1] at he
        exact part_validate_error hfm (canonical_not_empty (fallsTo_canonical hf)) he
    · have := (mark_link (runActs_link hl h1)).2
      rw [h2] at this
      cases this

/-- Texts: every text of which no word stands for an infinite or undefined angle, the empty text too. -/
theorem C58_shorthand_text (E : Env) (at_ : List Nat) (d d' : Decl) (s : SH) (t : PyStr) (ws : List PyStr) (e : Err) (hl : d.link ≠ .noBox)
    (ht : Words t ws) (hw : ∀ w ∈ ws, ∀ k u, FallsTo E s (.str w) k u → u.fmtErr = none)
    (h : d.setAttr E at_ (.sh s) (.str t) = (d', some e)) : e = .value := by
  by_cases h0 : t = []
  · subst h0
    have h : (d, some Err.value) = (d', some e) := h
    cases h; rfl
  · refine C58_shorthand E at_ d d' s _ _ e hl (.text t ws h0 ht) ?_ h
    intro x hx
    obtain ⟨w, hwm, rfl⟩ := List.mem_map.1 hx
    refine ⟨rfl, ?_, hw w hwm⟩
    intro hn
    cases hn
    exact (splitWs_words t [] (by rw [ht.splitWs]; exact hwm)).2 rfl

/-- What has no parts - an empty text or sequence, `None`, a number, any other object - is refused with `ValueError` if it can be printed,
else with the exception of printing it; nothing has changed. -/
theorem C58_shorthand_neither (E : Env) (at_ : List Nat) (d : Decl) (s : SH) (v : Val) (hp : ¬ ∃ xs, PartsOf v xs) :
    d.setAttr E at_ (.sh s) v = (d, some (v.fmtErr.getD .value)) := by
  show d.setSH E at_ s v = _
  unfold Decl.setSH
  have key : parseShorthand E at_ s v = .error (v.fmtErr.getD .value) := by
    have fmt : ∀ v : Val, (raiseFmt .value v : Res (List (Part × Val))) = .error (v.fmtErr.getD .value) := by
      intro v
      unfold raiseFmt
      cases v.fmtErr <;> rfl
    cases v with
    | str t =>
      cases t with
      | nil => rfl
      | cons c cs => exact absurd ⟨_, .text _ _ (by simp) (words_splitWs _)⟩ hp
    | seq t xs =>
      cases xs with
      | nil => rfl
      | cons c cs => exact absurd ⟨_, .seq _ _ (by simp)⟩ hp
    | cursor xs =>
      cases xs with
      | nil => rfl
      | cons c cs => exact absurd ⟨_, .cursor _ (by simp)⟩ hp
    | _ => simp only [parseShorthand, asSeq]; exact fmt _
  rw [key]
  cases hf : v.fmtErr with
  | none => rfl
  | some e =>
    have := v.fmtErr_kind
    cases e <;> first | rfl | exact absurd hf this

theorem width_empty (E : Env) (a : List Nat) (s : SH) : (partProp s .width).choices.validate E a (.str []) = .error .value := by
  cases h : (partProp s .width).choices.validate E a (.str []) with
  | error e =>
    have := validate_error (E := E) (at_ := a) (v := .str []) rfl (fun k hk => by rw [kindOf_part] at hk; cases hk; trivial) h
    rw [this]
  | ok w =>
    exfalso
    rcases accepts_iff.2 h with h | ⟨kd, hk, h⟩
    · have h := ((keywordOf_iff ..).1 h).2
      have hc : ∀ p ∈ allLH, ∀ c ∈ (keywords p).map Val.code, c ≠ (2, []) := by decide +kernel
      exact hc _ (mem_allLH _) _ (List.mem_map_of_mem (f := Val.code) h) rfl
    · rw [kindOf_part] at hk
      cases hk
      simp only [Kind.parse] at h
      obtain ⟨u, hu, _⟩ := except_map_ok h
      rw [units_str_error (fp := E.fp) (s := []) (by decide +kernel)] at hu
      cases hu

theorem color_empty (E : Env) (a : List Nat) (s : SH) : (partProp s .color).choices.validate E a (.str []) = .error .index := by
  cases s <;> rfl

theorem style_empty (E : Env) (a : List Nat) (s : SH) : (partProp s .style).choices.validate E a (.str []) = .error .value := by
  cases s <;> rfl

/-- C58 is false for the shorthands: an empty text among the parts raises `IndexError`, because the parser of colours looks at its first character. -/
theorem C58_false_shorthand_empty (E : Env) (at_ : List Nat) (d : Decl) (s : SH) (t : Bool) :
    d.setAttr E at_ (.sh s) (.seq t [.str []]) = (d, some .index) := by
  show d.setSH E at_ s _ = _
  have h : parsePart E (0 :: at_) (.str []) [] s.tries = .error .index := by
    rw [tries_eq]
    cases s <;>
      simp only [partOrder, List.map_cons, List.map_nil, parsePart, width_empty, style_empty, color_empty, Err.isValueError, if_true, Bool.false_eq_true, if_false]
  unfold Decl.setSH
  rw [parts_parse (.seq t [.str []] (by simp))]
  simp only [parseParts, h, gt_iff_lt, Nat.not_lt_zero, if_false]

theorem first_angle (E : Env) (a : List Nat) (b : Bool) (k : AKind) :
    borderWidthChoices.validate E a (.unit ⟨.ang k, .inf b⟩) = .error .overflow ∧
    outlineColorChoices.validate E a (.unit ⟨.ang k, .inf b⟩) = .error .overflow := ⟨rfl, rfl⟩

/-- C58 is false for the shorthands: an infinite angle among the parts raises `OverflowError` while the message is being formatted. -/
theorem C58_false_shorthand_angle (E : Env) (at_ : List Nat) (d : Decl) (s : SH) (t b : Bool) (k : AKind) :
    d.setAttr E at_ (.sh s) (.seq t [.unit ⟨.ang k, .inf b⟩]) = (d, some .overflow) := by
  show d.setSH E at_ s _ = _
  have h : parsePart E (0 :: at_) (.unit ⟨.ang k, .inf b⟩) [] s.tries = .error .overflow := by
    cases s <;> simp only [SH.tries, parsePart, first_angle, Err.isValueError, Bool.false_eq_true, if_false]
  unfold Decl.setSH
  rw [parts_parse (.seq t _ (by simp))]
  simp only [parseParts, h, gt_iff_lt, Nat.not_lt_zero, if_false]

/-! ## Four sides -/

/-- C58 for the four-sided properties: if the values of the sides can be printed, and are no empty texts where colours are expected, nothing but
`ValueError` is raised, in every state of a declaration whose node has a box or which belongs to no node. -/
theorem C58_sides (E : Env) (at_ : List Nat) (d d' : Decl) (k : Dir) (v : Val) (f : Side → Val) (e : Err) (hl : d.link ≠ .noBox)
    (hv : FourSides v f) (hf : ∀ s, (f s).fmtErr = none ∧ (k = .borderColor → f s ≠ .str []))
    (h : d.setAttr E at_ (.dir k) v = (d', some e)) : e = .value := by
  have h : d.setDir E at_ k v = (d', some e) := h
  rw [setDir_sides hv] at h
  obtain ⟨pre, a, post, d1, e1, h1, h2⟩ := runActs_stops h
  have hl1 := runActs_link hl h1
  have ha : ∃ s b, a = .set b (k.side s) (f s) := by
    have : a ∈ sideActs at_ k f := by rw [e1]; simp
    simp only [sideActs, List.mem_cons, List.not_mem_nil, or_false] at this
    rcases this with rfl | rfl | rfl | rfl <;> exact ⟨_, _, rfl⟩
  obtain ⟨s, b, rfl⟩ := ha
  refine set_value hl1 (hf s).1 (fun e0 he => validate_error (hf s).1 ?_ he) h2
  intro kd hk
  cases k <;> cases hk <;> first | trivial | exact (hf s).2 rfl

/-- A tuple of no or of more than four values is refused with `ValueError`, and nothing has changed. -/
theorem C58_sides_length (E : Env) (at_ : List Nat) (d : Decl) (k : Dir) (xs : List Val) (h : xs.length = 0 ∨ 4 < xs.length) :
    d.setAttr E at_ (.dir k) (.seq true xs) = (d, some .value) := setDir_length h

/-- C58 is false for the four-sided properties: `border_color = ""` raises `IndexError`, `margin = inf * deg` raises `OverflowError`. -/
theorem C58_false_sides (E : Env) (at_ : List Nat) (d : Decl) :
    d.setAttr E at_ (.dir .borderColor) (.str []) = (d, some .index) ∧
    ∀ k b, d.setAttr E at_ (.dir .margin) (.unit ⟨.ang k, .inf b⟩) = (d, some .overflow) := ⟨rfl, fun _ _ => rfl⟩

/-! ## Concrete cases -/

/-- `margin = (1, "bad")`: refused, with `ValueError`. -/
example (E : Env) (d d' : Decl) (e : Err) (hl : d.link ≠ .noBox)
    (h : d.setAttr E [] (.dir .margin) (.seq true [.num (.fin (.int 1)), .str (lit "bad")]) = (d', some e)) : e = .value :=
  C58_sides E [] d d' .margin _ _ e hl (.two _ _) (fun s => by cases s <;> exact ⟨rfl, nofun⟩) h

/-- A word that is no length stands for nothing that cannot be printed. -/
theorem word_fine {E : Env} {s : SH} {w : PyStr} {k : Part} {u : Val} (hu : ∀ r, units E.fp (.str w) ≠ .ok r) (hf : FallsTo E s (.str w) k u) :
    u.fmtErr = none := by
  have hc := fallsTo_canonical hf
  obtain ⟨_, _, _, _, hf⟩ := hf
  obtain ⟨a, ha⟩ := hf (partProp s k) (partProp_mem s k)
  rcases hc with hk | ⟨kd, hk, hv⟩
  · rcases keyword_cases hk with ⟨t, _, e⟩ | ⟨e, _⟩
    · subst e; unfold keywordVal; split <;> rfl
    · subst e; rfl
  · rw [kindOf_part] at hk
    cases k <;> cases hk
    · rcases ha with h | ⟨kd, hk, h⟩
      · cases h
        unfold keywordVal; split <;> rfl
      · rw [kindOf_part] at hk
        cases hk
        simp only [Kind.parse] at h
        obtain ⟨r, hr, _⟩ := except_map_ok h
        exact absurd hr (hu r)
    · obtain ⟨r, c, rfl⟩ := hv; rfl

/-- `border = "thin bogus"`: refused, with `ValueError`. -/
example (E : Env) (d d' : Decl) (e : Err) (hl : d.link ≠ .noBox) (h : d.setAttr E [] (.sh .border) (.str (lit "thin bogus")) = (d', some e)) :
    e = .value :=
  C58_shorthand_text E [] d d' .border (lit "thin bogus") [lit "thin", lit "bogus"] e hl (words_splitWs (lit "thin bogus")) (by
    intro w hw k u hf
    have hu : ∀ r, units E.fp (.str w) ≠ .ok r := by
      intro r hr
      have hn : units E.fp (.str w) = .error .value := by
        simp only [List.mem_cons, List.not_mem_nil, or_false] at hw
        rcases hw with rfl | rfl <;> exact units_str_error (by decide +kernel)
      rw [hn] at hr
      cases hr
    exact word_fine hu hf) h

example (E : Env) (d : Decl) : d.setAttr E [] (.sh .outline) (.seq false []) = (d, some .value) :=
  C58_shorthand_neither E [] d .outline _ (by rintro ⟨xs, h⟩; cases h with | seq _ _ h => exact h rfl)

example (E : Env) (d : Decl) : d.setAttr E [] (.sh .outline) (.str []) = (d, some .value) :=
  C58_shorthand_neither E [] d .outline _ (by rintro ⟨xs, h⟩; cases h with | text _ _ h _ => exact h rfl)

end Colosseum
