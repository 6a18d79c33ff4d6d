import Verif.Lemmas.Shorthand
import Verif.Props.Sides

/-! # Helper lemmas: applying the parts of a shorthand -/

namespace Colosseum

/-- The acts of one key of a shorthand. -/
def keyActs (at_ : List Nat) (dict : List (Part × Val)) : Part × Attr → List Act
  | (k, .lh p) =>
    match lookupPart k dict with
    | some w => [.set at_ p w]
    | none => [.del p]
  | (k, .dir d) =>
    match lookupPart k dict with
    | some w => sideActs at_ d fun _ => w
    | none => [.del (d.side .top), .del (d.side .right), .del (d.side .bottom), .del (d.side .left)]
  | (_, .sh _) => []

theorem delDir_acts (E : Env) (d : Decl) (k : Dir) : (d.delDir k, none) =
    runActs E [.del (k.side .top), .del (k.side .right), .del (k.side .bottom), .del (k.side .left)] d := rfl

theorem applyParts_acts (E : Env) (at_ : List Nat) (dict : List (Part × Val))
    (hd : ∀ k w, lookupPart k dict = some w → ∀ xs, w ≠ .seq true xs) (ks : List (Part × Attr)) (d : Decl) :
    applyParts E at_ dict ks d = runActs E (ks.flatMap (keyActs at_ dict)) d := by
  induction ks generalizing d with
  | nil => rfl
  | cons x ks ih =>
    obtain ⟨k, a⟩ := x
    rw [List.flatMap_cons, runActs_append]
    simp only [applyParts]
    have e : (match lookupPart k dict with
      | some w => d.setBasic E at_ a w
      | none => (d.delBasic a, none)) = runActs E (keyActs at_ dict (k, a)) d := by
      cases a with
      | lh p =>
        simp only [keyActs]
        cases lookupPart k dict with
        | none => rfl
        | some w =>
          simp only [runActs, Act.run, andThen_pure]
          rfl
      | dir q =>
        simp only [keyActs]
        cases h : lookupPart k dict with
        | none => exact delDir_acts E d q
        | some w => exact setDir_sides (.single w (hd k w h))
      | sh s =>
        simp only [keyActs]
        cases lookupPart k dict <;> rfl
    exact congrArg₂ Out.andThen e (funext ih)

/-- The acts of a shorthand assignment. -/
def shActs (at_ : List Nat) (dict : List (Part × Val)) (s : SH) : List Act := s.keys.flatMap (keyActs at_ dict)

/-- All properties a shorthand covers. -/
def covered (s : SH) : List LH := (partOrder s).flatMap (partProps s)

theorem shActs_props (at_ : List Nat) (dict : List (Part × Val)) (s : SH) :
    (shActs at_ dict s).map Act.prop = covered s := by
  have key : ∀ s x, x ∈ s.keys → ((keyActs at_ dict x).map Act.prop) = partProps s x.1 := by
    intro s x hx
    cases s <;> simp only [SH.keys, List.mem_cons, List.not_mem_nil, or_false] at hx <;>
      rcases hx with rfl | rfl | rfl <;> simp only [keyActs] <;> cases lookupPart _ dict <;> rfl
  unfold shActs covered
  rw [List.map_flatMap]
  cases s with
  | outline =>
    have := key .outline
    simp only [SH.keys, List.mem_cons, List.not_mem_nil, or_false, forall_eq_or_imp, forall_eq] at this
    simp [SH.keys, partOrder, List.flatMap_cons, this.1, this.2.1, this.2.2]
  | border =>
    have := key .border
    simp only [SH.keys, List.mem_cons, List.not_mem_nil, or_false, forall_eq_or_imp, forall_eq] at this
    simp [SH.keys, partOrder, List.flatMap_cons, this.1, this.2.1, this.2.2]
  | borderSide t =>
    have := key (.borderSide t)
    simp only [SH.keys, List.mem_cons, List.not_mem_nil, or_false, forall_eq_or_imp, forall_eq] at this
    simp [SH.keys, partOrder, List.flatMap_cons, this.1, this.2.1, this.2.2]

theorem covered_nodup (s : SH) : (covered s).Nodup := by
  cases s with
  | borderSide t => cases t <;> decide
  | _ => decide

theorem covered_follows (s : SH) : ∀ p ∈ covered s, ∀ q ∈ covered s, follows p ≠ some q := by
  cases s with
  | borderSide t => cases t <;> decide
  | _ => decide

theorem mem_covered {s : SH} {p : LH} : p ∈ covered s ↔ ∃ k, p ∈ partProps s k := by
  simp only [covered, List.mem_flatMap]
  constructor
  · rintro ⟨k, _, h⟩; exact ⟨k, h⟩
  · rintro ⟨k, h⟩
    refine ⟨k, ?_, h⟩
    cases s <;> cases k <;> simp [partOrder]

/-- The attribute a part of a shorthand is assigned to. -/
def partAttr : SH → Part → Attr
  | .border, .width => .dir .borderWidth
  | .border, .style => .dir .borderStyle
  | .border, .color => .dir .borderColor
  | s, k => .lh (partProp s k)

/-- The single properties behind an attribute. -/
def attrProps : Attr → List LH
  | .lh p => [p]
  | .dir d => [d.side .top, d.side .right, d.side .bottom, d.side .left]
  | .sh _ => []

theorem partProps_attr (s : SH) (k : Part) : partProps s k = attrProps (partAttr s k) := by
  cases s <;> cases k <;> rfl

theorem mem_keys {s : SH} {k : Part} {a : Attr} : (k, a) ∈ s.keys ↔ a = partAttr s k := by
  cases s <;> cases k <;> simp [SH.keys, partAttr, partProp]

theorem keyActs_mem (at_ : List Nat) (dict : List (Part × Val)) {k : Part} {a : Attr} {p : LH} (hp : p ∈ attrProps a) :
    (∀ w, lookupPart k dict = some w → ∃ b, Act.set b p w ∈ keyActs at_ dict (k, a)) ∧
    (lookupPart k dict = none → Act.del p ∈ keyActs at_ dict (k, a)) := by
  cases a with
  | lh q =>
    simp only [attrProps, List.mem_singleton] at hp
    subst hp
    exact ⟨fun w hw => ⟨at_, by simp [keyActs, hw]⟩, fun hw => by simp [keyActs, hw]⟩
  | dir d =>
    have : ∃ t, p = d.side t := by
      simp only [attrProps, List.mem_cons, List.not_mem_nil, or_false] at hp
      rcases hp with rfl | rfl | rfl | rfl <;> exact ⟨_, rfl⟩
    obtain ⟨t, rfl⟩ := this
    refine ⟨fun w hw => ?_, fun hw => ?_⟩
    · obtain ⟨b, hb⟩ := sideActs_mem at_ d (fun _ => w) t
      exact ⟨b, by simp only [keyActs, hw]; exact hb⟩
    · simp only [keyActs, hw]; cases t <;> simp
  | sh s => cases hp

theorem mem_keyActs {at_ : List Nat} {dict : List (Part × Val)} {k : Part} {a : Attr} {x : Act}
    (h : x ∈ keyActs at_ dict (k, a)) :
    ∃ p ∈ attrProps a, x = .del p ∨ ∃ b w, x = .set b p w ∧ lookupPart k dict = some w := by
  cases a with
  | lh q =>
    simp only [keyActs] at h
    cases hw : lookupPart k dict with
    | none =>
      rw [hw] at h
      simp only [List.mem_singleton] at h
      exact ⟨q, by simp [attrProps], Or.inl h⟩
    | some w =>
      rw [hw] at h
      simp only [List.mem_singleton] at h
      exact ⟨q, by simp [attrProps], Or.inr ⟨_, _, h, rfl⟩⟩
  | dir d =>
    simp only [keyActs] at h
    cases hw : lookupPart k dict with
    | none =>
      rw [hw] at h
      simp only [List.mem_cons, List.not_mem_nil, or_false] at h
      rcases h with h | h | h | h <;> exact ⟨_, by simp [attrProps], Or.inl h⟩
    | some w =>
      rw [hw] at h
      simp only [sideActs, List.mem_cons, List.not_mem_nil, or_false] at h
      rcases h with h | h | h | h
      · exact ⟨d.side .top, by simp [attrProps], Or.inr ⟨_, _, h, rfl⟩⟩
      · exact ⟨d.side .right, by simp [attrProps], Or.inr ⟨_, _, h, rfl⟩⟩
      · exact ⟨d.side .bottom, by simp [attrProps], Or.inr ⟨_, _, h, rfl⟩⟩
      · exact ⟨d.side .left, by simp [attrProps], Or.inr ⟨_, _, h, rfl⟩⟩
  | sh s => cases h

theorem shActs_mem (at_ : List Nat) (dict : List (Part × Val)) {s : SH} {k : Part} {p : LH} (hp : p ∈ partProps s k) :
    (∀ w, lookupPart k dict = some w → ∃ a, Act.set a p w ∈ shActs at_ dict s) ∧
    (lookupPart k dict = none → Act.del p ∈ shActs at_ dict s) := by
  rw [partProps_attr] at hp
  obtain ⟨h1, h2⟩ := keyActs_mem at_ dict (k := k) hp
  constructor
  · intro w hw
    obtain ⟨b, hb⟩ := h1 w hw
    exact ⟨b, List.mem_flatMap.2 ⟨_, mem_keys.2 rfl, hb⟩⟩
  · exact fun hw => List.mem_flatMap.2 ⟨_, mem_keys.2 rfl, h2 hw⟩

/-- Every act of a shorthand assignment is one of those. -/
theorem mem_shActs {at_ : List Nat} {dict : List (Part × Val)} {s : SH} {x : Act} (h : x ∈ shActs at_ dict s) :
    ∃ k, ∃ p ∈ partProps s k, x = .del p ∨ ∃ a w, x = .set a p w ∧ lookupPart k dict = some w := by
  obtain ⟨⟨k, a⟩, hk, hx⟩ := List.mem_flatMap.1 h
  rw [mem_keys] at hk
  subst hk
  obtain ⟨p, hp, h⟩ := mem_keyActs hx
  exact ⟨k, p, by rw [partProps_attr]; exact hp, h⟩

/-! ## Validating a part again -/

/-- What validating a part value again gives. -/
theorem revalidate {E : Env} {b : List Nat} {s : SH} {k : Part} {p : LH} {w : Val}
    (hp : p ∈ partProps s k) (hc : Canonical (partProp s k) w) :
    (¬ IsAngle w → p.choices.validate E b w = .ok w) ∧
    (IsAngle w → k = .width ∧ ∃ e, p.choices.validate E b w = .error e) := by
  rw [(partProps_choices hp).1]
  rcases hc with hk | ⟨kd, hk, hv⟩
  · refine ⟨fun _ => keyword_stable hk, ?_⟩
    rintro ⟨a, x, rfl⟩
    rcases keyword_cases hk with ⟨t, _, e⟩ | ⟨e, _⟩
    · unfold keywordVal at e; split at e <;> cases e
    · cases e
  · have hk' := hk
    rw [kindOf_part] at hk'
    cases k with
    | style => cases hk'
    | width =>
      cases hk'
      obtain ⟨⟨u, x⟩, rfl⟩ := hv
      cases u with
      | len l =>
        refine ⟨fun _ => (validate_iff ..).2 (Or.inr ⟨_, hk, rfl⟩), ?_⟩
        rintro ⟨a, y, e⟩; cases e
      | ang a =>
        refine ⟨fun h => absurd ⟨a, x, rfl⟩ h, fun _ => ⟨rfl, ?_⟩⟩
        cases h : (partProp s .width).choices.validate E b (.unit ⟨.ang a, x⟩) with
        | error e => exact ⟨e, rfl⟩
        | ok w =>
          rcases (validate_iff ..).1 h with h | ⟨kd, hk2, h⟩
          · cases h
          · rw [hk] at hk2
            cases hk2
            simp only [Kind.parse, units, unitsIn] at h
            unfold raiseFmt at h
            split at h <;> cases h
    | color =>
      cases hk'
      obtain ⟨r, c, rfl⟩ := hv
      refine ⟨fun _ => (validate_iff ..).2 (Or.inr ⟨_, hk, rfl⟩), ?_⟩
      rintro ⟨a, y, e⟩; cases e

theorem fallsTo_canonical {E : Env} {s : SH} {x : Val} {k : Part} {w : Val} (h : FallsTo E s x k w) :
    Canonical (partProp s k) w := by
  obtain ⟨_, _, _, _, a, h⟩ := fallsTo_iff.1 h
  exact validate_canonical (accepts_iff.1 h)

theorem canonical_not_tuple {s : SH} {k : Part} {w : Val} (h : Canonical (partProp s k) w) (xs : List Val) :
    w ≠ .seq true xs := by
  rintro rfl
  rcases h with hk | ⟨kd, hk, hv⟩
  · rcases keyword_cases hk with ⟨t, _, e⟩ | ⟨e, _⟩
    · unfold keywordVal at e; split at e <;> cases e
    · cases e
  · rw [kindOf_part] at hk
    cases k <;> cases hk
    · obtain ⟨u, e⟩ := hv; cases e
    · obtain ⟨r, c, e⟩ := hv; cases e

theorem forall₂_mem {α β : Type} {R : α → β → Prop} {xs : List α} {ys : List β} (h : List.Forall₂ R xs ys) {y : β}
    (hy : y ∈ ys) : ∃ x ∈ xs, R x y := by
  induction h with
  | nil => cases hy
  | cons h1 _ ih =>
    rcases List.mem_cons.1 hy with rfl | hy
    · exact ⟨_, by simp, h1⟩
    · obtain ⟨x, hx, hr⟩ := ih hy
      exact ⟨x, List.mem_cons_of_mem _ hx, hr⟩

/-- What an assignment to a shorthand is, once the value is parsed. -/
theorem setSH_acts {E : Env} {at_ : List Nat} {d : Decl} {s : SH} {v : Val} {xs : List Val} (hp : PartsOf v xs) :
    (∃ e, parseShorthand E at_ s v = .error e ∧ ∃ e', d.setSH E at_ s v = (d, some e')) ∨
    ∃ kws, parseShorthand E at_ s v = .ok kws ∧
      List.Forall₂ (fun x (kw : Part × Val) => FallsTo E s x kw.1 kw.2) xs kws ∧ (kws.map Prod.fst).Nodup ∧
      xs.length ≤ 3 ∧
      d.setSH E at_ s v = (runActs E (shActs (9 :: at_) kws s) d).andThen Decl.markDirty := by
  unfold Decl.setSH
  rw [parts_parse hp]
  cases h : parseParts E at_ s.tries 0 [] xs with
  | error e =>
    refine Or.inl ⟨e, rfl, ?_⟩
    cases e <;> exact ⟨_, rfl⟩
  | ok dict =>
    refine Or.inr ?_
    obtain ⟨hl, kws, e, hF, hN⟩ := parseParts_ok xs h (by simp)
    rw [List.nil_append] at e
    subst e
    refine ⟨dict, rfl, hF, hN, ?_, ?_⟩
    · rcases hl with rfl | hl
      · simp
      · omega
    · show (applyParts E (9 :: at_) dict s.keys d).andThen Decl.markDirty = _
      rw [applyParts_acts]
      · rfl
      · intro k w hw
        rw [lookup_mem hN] at hw
        obtain ⟨x, _, hx⟩ := forall₂_mem hF hw
        exact canonical_not_tuple (fallsTo_canonical hx)

end Colosseum
