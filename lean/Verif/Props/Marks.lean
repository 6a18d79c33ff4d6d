import Verif.Props.Shorthands
import Verif.Props.Style

/-!
# C36: exactly when an assignment marks; C32: exactly what a rejected `outline` leaves behind
-/

namespace Colosseum

/-- C36. On a clean box, an assignment to a single property marks the layout exactly if the value is accepted and what is to be stored differs
from what the property reads as, or the property is unset and follows another one. -/
theorem C36_marks_iff (E : Env) (at_ : List Nat) (d : Decl) (hr : Reachable E d) (hl : d.link = .box (some false)) (p : LH) (v : Val) :
    (d.setAttr E at_ (.lh p) v).1.link = .box (some true) ↔
      ∃ w, (KeywordOf p v w ∨ ∃ k, kindOf p = some k ∧ k.parse E at_ v = .ok w) ∧
        ((follows p ≠ none ∧ d.css p = none) ∨ ∃ u, d.Reads p u ∧ w.pyEq u = false) := by
  have key : ∀ w, differs d.css p w = true ↔ ((follows p ≠ none ∧ d.css p = none) ∨ ∃ u, d.Reads p u ∧ w.pyEq u = false) := by
    intro w
    have hu : ∀ u, d.Reads p u ↔ u = d.css.value p := by
      intro u
      rw [Decl.Reads, read_value (canon_reachable hr)]
      exact ⟨fun h => by cases h; rfl, fun h => by rw [h]⟩
    by_cases hf : follows p ≠ none ∧ d.css p = none
    · simp [hf, differs_follower _ _ w hf.1 hf.2]
    · have hf' : follows p = none ∨ d.css p ≠ none := by
        by_cases h : follows p = none
        · exact Or.inl h
        · exact Or.inr fun h' => hf ⟨h, h'⟩
      rw [differs_value _ _ _ hf']
      simp only [hf, hu, false_or, Bool.not_eq_true', exists_eq_left]
  show (d.set E at_ p v).1.link = _ ↔ _
  rcases set_cases E at_ d p v with ⟨e, he, _, hs⟩ | ⟨w, hw, hd, hs⟩ | ⟨w, hw, hd, hs⟩
  · rw [hs, hl]
    refine ⟨fun h => (by cases h), fun ⟨w, hw, _⟩ => ?_⟩
    rw [(validate_iff ..).2 hw] at he
    cases he
  · rw [hs, hl]
    refine ⟨fun h => (by cases h), fun ⟨w', hw', h⟩ => ?_⟩
    rw [(validate_iff ..).2 hw'] at hw
    cases hw
    rw [(key w).2 h] at hd
    cases hd
  · rw [hs]
    refine ⟨fun _ => ⟨w, (validate_iff ..).1 hw, (key w).1 hd⟩, fun _ => ?_⟩
    simp only [Decl.markDirty, hl]

/-- Both outcomes: `"block"` marks, `"inline"`, which the property reads as already, does not. -/
example (E : Env) : ∃ d, Reachable E d ∧ d.link = .box (some false) ∧
    (d.setAttr E [1] (.lh .display) (.str (lit "block"))).1.link = .box (some true) ∧
    (d.setAttr E [1] (.lh .display) (.str (lit "inline"))).1.link = .box (some false) :=
  ⟨_, ⟨[.bind (.box (some false))], rfl⟩, rfl, rfl, rfl⟩

/-- C36. On a clean box, deleting a single property marks the layout exactly if the property was set. -/
theorem C36_delete_iff (d : Decl) (hl : d.link = .box (some false)) (p : LH) :
    (d.delAttr (.lh p)).link = .box (some true) ↔ d.css p ≠ none := by
  show (d.del p).link = _ ↔ _
  unfold Decl.del
  cases h : d.css p with
  | none => simp [hl]
  | some v => simp [Decl.markDirty, hl]

example (E : Env) : ∃ d, Reachable E d ∧ d.link = .box (some false) ∧ (d.delAttr (.lh .display)).link = .box (some true) ∧
    (d.delAttr (.lh .color)).link = .box (some false) :=
  ⟨_, ⟨[.setAttr (.lh .display) (.str (lit "block")), .bind (.box (some false))], rfl⟩, rfl, rfl, rfl⟩

/-- C36. On a clean box, deleting a four-sided property marks the layout exactly if one of the sides was set. -/
theorem C36_delete_sides_iff (d : Decl) (hl : d.link = .box (some false)) (k : Dir) :
    (d.delAttr (.dir k)).link = .box (some true) ↔ ∃ t, d.css (k.side t) ≠ none := by
  have step : ∀ (d : Decl) (b : Bool) (p : LH), d.link = .box (some b) → (d.del p).link = .box (some (b || (d.css p).isSome)) := by
    intro d b p h
    unfold Decl.del
    cases hp : d.css p with
    | none => simp [h]
    | some v => simp [Decl.markDirty, h]
  have inj : ∀ s t, k.side s = k.side t → s = t := by intro s t; cases k <;> cases s <;> cases t <;> simp [Dir.side]
  have other : ∀ (d : Decl) s t, s ≠ t → (d.del (k.side s)).css (k.side t) = d.css (k.side t) := by
    intro d s t h
    rw [del_css, erase_other]
    exact fun e => h (inj _ _ e).symm
  show (d.delDir k).link = _ ↔ _
  unfold Decl.delDir
  rw [step _ _ _ (step _ _ _ (step _ _ _ (step d false _ hl)))]
  simp only [other _ .top .right (by decide), other _ .bottom .left (by decide), other _ .right .left (by decide), other _ .top .left (by decide),
    other _ .right .bottom (by decide), other _ .top .bottom (by decide)]
  simp only [Link.box.injEq, Option.some.injEq, Bool.false_or, Bool.or_eq_true, Option.isSome_iff_ne_none]
  constructor
  · rintro (((h | h) | h) | h) <;> exact ⟨_, h⟩
  · rintro ⟨t, h⟩
    cases t <;> simp [h]

example (E : Env) : ∃ d, Reachable E d ∧ d.link = .box (some false) ∧ (d.delAttr (.dir .margin)).link = .box (some true) ∧
    (d.delAttr (.dir .padding)).link = .box (some false) :=
  ⟨_, ⟨[.setAttr (.lh (.margin .left)) (.num (.fin (.int 3))), .bind (.box (some false))], rfl⟩, rfl, rfl, rfl⟩

/-- C36. Shorthands mark even without a change: an accepted value and a deletion always leave the layout marked. -/
theorem C36_shorthand (E : Env) (at_ : List Nat) (d : Decl) (b : Option Bool) (hl : d.link = .box b) (s : SH) :
    (∀ v d', d.setAttr E at_ (.sh s) v = (d', none) → d'.link = .box (some true)) ∧ (d.delAttr (.sh s)).link = .box (some true) := by
  have nl : d.link ≠ .unbound := by rw [hl]; simp
  constructor
  · intro v d' h
    have h0 := h
    rcases C36_changes_mark E at_ d b hl (.setAttr (.sh s) v) (fun l h => by cases h) with h1 | h1
    · have h : d.setSH E at_ s v = (d', none) := h
      unfold Decl.setSH at h
      split at h
      · cases h
      · cases h
      · obtain ⟨d1, h2, h3⟩ := andThen_none h
        have hx : d1.markDirty = (d', none) := h3
        have : d' = d := by
          have h4 : (d.setAttr E at_ (.sh s) v).1 = d := h1
          rw [h0] at h4
          exact h4
        subst this
        unfold Decl.markDirty at hx
        split at hx
        · rename_i hu; cases hx; exact absurd hu nl
        · cases hx
        · cases hx; rfl
    · have h : (d.step E at_ (.setAttr (.sh s) v)) = (d', none) := h
      rw [h] at h1
      exact h1
  · have box : ∀ (ks : List (Part × Attr)) (d : Decl), d.link = .box (some true) → (delKeys ks d).link = .box (some true) := by
      intro ks
      induction ks with
      | nil => exact fun d h => h
      | cons k ks ih =>
        intro d h
        obtain ⟨k, a⟩ := k
        simp only [delKeys]
        refine ih _ ?_
        have hd : ∀ (d : Decl) p, d.link = .box (some true) → (d.del p).link = .box (some true) := by
          intro d p h
          unfold Decl.del
          cases d.css p with
          | none => exact h
          | some v => simp [Decl.markDirty, h]
        have : (d.delBasic a).link = .box (some true) := by
          cases a with
          | lh p => exact hd _ _ h
          | dir k => exact hd _ _ (hd _ _ (hd _ _ (hd _ _ h)))
          | sh s => exact h
        simp [Decl.markDirty, this]
    have hd : ∀ (d : Decl) p, (∃ b, d.link = .box b) → ∃ b, (d.del p).link = .box b := by
      rintro d p ⟨b, h⟩
      unfold Decl.del
      cases d.css p with
      | none => exact ⟨b, h⟩
      | some v => exact ⟨some true, by simp [Decl.markDirty, h]⟩
    have first : ∀ a, ∃ b, (d.delBasic a).link = .box b := by
      intro a
      cases a with
      | lh p => exact hd _ _ ⟨b, hl⟩
      | dir k => exact hd _ _ (hd _ _ (hd _ _ (hd _ _ ⟨b, hl⟩)))
      | sh s => exact ⟨b, hl⟩
    show (delKeys s.keys d).link = _
    have hk : ∃ k a ks, s.keys = (k, a) :: ks := by cases s <;> exact ⟨_, _, _, rfl⟩
    obtain ⟨k, a, ks, hk⟩ := hk
    rw [hk]
    simp only [delKeys]
    obtain ⟨b', hb⟩ := first a
    exact box _ _ (by simp [Decl.markDirty, hb])

/-- The hypotheses are met: `outline = "solid"` twice; the second assignment changes nothing and marks. -/
example (E : Env) : ∃ d d', Reachable E d ∧ d.link = .box (some false) ∧ d.setAttr E [1] (.sh .outline) (.str (lit "solid")) = (d', none) ∧
    d'.css = d.css ∧ d'.link = .box (some true) :=
  ⟨_, _, ⟨[.setAttr (.sh .outline) (.str (lit "solid")), .bind (.box (some false))], rfl⟩, rfl, rfl, by
    funext p
    by_cases h1 : p = .outlineStyle
    · subst h1; rfl
    · by_cases h2 : p = .outlineColor
      · subst h2; rfl
      · by_cases h3 : p = .outlineWidth
        · subst h3; rfl
        · cases p <;> first | rfl | exact absurd rfl h1 | exact absurd rfl h2 | exact absurd rfl h3, rfl⟩

/-! ## C32 -/

/-- C32. What a rejected `outline` leaves behind: nothing, or, if the width is an angle, exactly what the colour and the style in it (or their
absence) would have done; the width keeps its value. `C32_false_outline` is a case of the second kind, the example beside `C32_border` one of
the first. -/
theorem C32_outline (E : Env) (at_ : List Nat) (d d' : Decl) (hr : Reachable E d) (v : Val) (e : Err)
    (h : d.setAttr E at_ (.sh .outline) v = (d', some e)) (hl : d.link ≠ .noBox) :
    d' = d ∨ ∃ xs kws w, PartsOf v xs ∧ OfKinds E .outline xs kws ∧ (Part.width, w) ∈ kws ∧ IsAngle w ∧
      (∀ q, q ≠ .outlineColor → q ≠ .outlineStyle → d'.css q = d.css q) ∧
      ∀ k p, (k = .color ∧ p = .outlineColor) ∨ (k = .style ∧ p = .outlineStyle) →
        (∀ u, (k, u) ∈ kws → d'.Reads p u ∨ (d'.css p = d.css p ∧ ∃ o, d.Reads p o ∧ u.pyEq o = true)) ∧
        (k ∉ kws.map Prod.fst → d'.css p = none) := by
  by_cases hang : ∀ xs, PartsOf v xs → ∀ x ∈ xs, ¬ ∃ w, FallsTo E .outline x .width w ∧ IsAngle w
  · exact Or.inl (C32_rejected_partial E at_ d d' .outline v e h hl fun _ => hang)
  push Not at hang
  obtain ⟨xs, hp, _⟩ := hang
  have h : d.setSH E at_ .outline v = (d', some e) := h
  have hc' : d'.css.Canon := by
    have := (canon_stable E).setSH (at_ := at_) .outline v (canon_reachable hr)
    rwa [h] at this
  rcases setSH_acts (E := E) (at_ := at_) (d := d) (s := .outline) hp with ⟨_, _, _, h'⟩ | ⟨kws, _, hF, hN, _, h'⟩
  · rw [h] at h'; cases h'; exact Or.inl rfl
  by_cases ha : ∃ w, lookupPart .width kws = some w ∧ IsAngle w
  swap
  · exfalso
    obtain ⟨d1, h1, h2⟩ := runActs_succeeds (E := E) (as := shActs (9 :: at_) kws .outline) hl (by
      intro a hact
      obtain ⟨k, p, hpk, rfl | ⟨b, w, rfl, hw⟩⟩ := mem_shActs hact
      · trivial
      · obtain ⟨x, _, hx⟩ := forall₂_mem hF ((lookup_mem hN).1 hw)
        obtain ⟨r1, r2⟩ := revalidate (E := E) (b := b) hpk (fallsTo_canonical hx)
        refine ⟨w, r1 fun ha' => ?_⟩
        obtain ⟨rfl, _⟩ := r2 ha'
        exact ha ⟨w, hw, ha'⟩)
    rw [h1, h] at h'
    have h' : (d', some e) = d1.markDirty := h'
    have := (mark_link h2).2
    rw [← h'] at this
    cases this
  obtain ⟨w, hw, ha⟩ := ha
  have hm := (lookup_mem hN).1 hw
  refine Or.inr ⟨xs, kws, w, hp, ⟨hF, hN⟩, hm, ha, ?_⟩
  obtain ⟨A, hA⟩ : ∃ A, A = keyActs (9 :: at_) kws (.color, .lh .outlineColor) ++ keyActs (9 :: at_) kws (.style, .lh .outlineStyle) := ⟨_, rfl⟩
  have hacts : shActs (9 :: at_) kws .outline = A ++ [.set (9 :: at_) .outlineWidth w] := by
    have hk : keyActs (9 :: at_) kws (.width, .lh .outlineWidth) = [.set (9 :: at_) .outlineWidth w] := by simp only [keyActs, hw]
    rw [shActs, SH.keys, List.flatMap_cons, List.flatMap_cons, List.flatMap_cons, hk, hA]
    simp
  have memA : ∀ a ∈ A, a ∈ shActs (9 :: at_) kws .outline := fun a h => by rw [hacts]; exact List.mem_append_left _ h
  have propA : ∀ a ∈ A, a.prop = .outlineColor ∨ a.prop = .outlineStyle := by
    intro a h
    rw [hA, List.mem_append] at h
    rcases h with h | h
    · obtain ⟨p, hp, h⟩ := mem_keyActs h
      simp only [attrProps, List.mem_singleton] at hp
      subst hp
      left
      rcases h with rfl | ⟨_, _, rfl, _⟩ <;> rfl
    · obtain ⟨p, hp, h⟩ := mem_keyActs h
      simp only [attrProps, List.mem_singleton] at hp
      subst hp
      right
      rcases h with rfl | ⟨_, _, rfl, _⟩ <;> rfl
  obtain ⟨d1, h1, h2⟩ := runActs_succeeds (E := E) (as := A) hl (by
    intro a hact
    obtain ⟨k, p, hpk, hx⟩ := mem_shActs (memA a hact)
    rcases hx with rfl | ⟨b, u, rfl, hu⟩
    · trivial
    · obtain ⟨x, _, hx⟩ := forall₂_mem hF ((lookup_mem hN).1 hu)
      obtain ⟨r1, r2⟩ := revalidate (E := E) (b := b) hpk (fallsTo_canonical hx)
      refine ⟨u, r1 fun ha' => ?_⟩
      obtain ⟨rfl, _⟩ := r2 ha'
      have := propA _ hact
      simp only [partProps, List.mem_singleton, partProp] at hpk
      subst hpk
      rcases this with h | h <;> cases h)
  have hd1 : d' = d1 := by
    rw [hacts, runActs_append, h1] at h'
    obtain ⟨_, e1, he1⟩ := (revalidate (E := E) (b := 9 :: at_) (s := .outline) (k := .width) (p := .outlineWidth) (by simp [partProps, partProp])
      (by obtain ⟨x, hx, hf⟩ := forall₂_mem hF hm; exact fallsTo_canonical hf)).2 ha
    rcases set_cases E (9 :: at_) d1 .outlineWidth w with ⟨_, _, _, hs⟩ | ⟨u, hu, _⟩ | ⟨u, hu, _⟩
    · have h' : d.setSH E at_ .outline v = ((d1.set E (9 :: at_) .outlineWidth w).andThen fun d => (d, none)).andThen Decl.markDirty := h'
      rw [hs, h] at h'
      cases h'; rfl
    · rw [he1] at hu; cases hu
    · rw [he1] at hu; cases hu
  subst hd1
  have hprops : List.Sublist (A.map Act.prop) (covered .outline) := by
    rw [← shActs_props (9 :: at_) kws, hacts, List.map_append]
    exact List.sublist_append_left _ _
  obtain ⟨hd, ho⟩ := runActs_done ((covered_nodup .outline).sublist hprops) (by
    intro a ha b hb
    exact covered_follows .outline _ (hprops.subset (List.mem_map_of_mem ha)) _ (hprops.subset (List.mem_map_of_mem hb))) h1
  refine ⟨fun q q1 q2 => ho q ?_, ?_⟩
  · rw [List.mem_map]
    rintro ⟨a, ha, rfl⟩
    exact (propA a ha).elim q1 q2
  · intro k p hkp
    obtain ⟨m1, m2⟩ : (∀ u, lookupPart k kws = some u → ∃ b, Act.set b p u ∈ A) ∧ (lookupPart k kws = none → Act.del p ∈ A) := by
      rw [hA]
      rcases hkp with ⟨rfl, rfl⟩ | ⟨rfl, rfl⟩
      · obtain ⟨m1, m2⟩ := keyActs_mem (9 :: at_) kws (k := .color) (a := .lh .outlineColor) (p := .outlineColor) (by simp [attrProps])
        exact ⟨fun u hu => (m1 u hu).imp fun b hb => List.mem_append_left _ hb, fun hu => List.mem_append_left _ (m2 hu)⟩
      · obtain ⟨m1, m2⟩ := keyActs_mem (9 :: at_) kws (k := .style) (a := .lh .outlineStyle) (p := .outlineStyle) (by simp [attrProps])
        exact ⟨fun u hu => (m1 u hu).imp fun b hb => List.mem_append_right _ hb, fun hu => List.mem_append_right _ (m2 hu)⟩
    have hpk : p ∈ partProps .outline k ∧ k ≠ .width := by
      rcases hkp with ⟨rfl, rfl⟩ | ⟨rfl, rfl⟩ <;> simp [partProps, partProp]
    refine ⟨fun u hu => ?_, fun hk => ?_⟩
    · obtain ⟨b, hb⟩ := m1 u ((lookup_mem hN).2 hu)
      obtain ⟨x, _, hx⟩ := forall₂_mem hF hu
      obtain ⟨u', hu', ht⟩ := hd _ hb
      obtain ⟨r1, r2⟩ := revalidate (E := E) (b := b) hpk.1 (fallsTo_canonical hx)
      by_cases ha' : IsAngle u
      · exact absurd (r2 ha').1 hpk.2
      · rw [r1 ha'] at hu'
        cases hu'
        exact took_reads hr hc' ht
    · refine hd _ (m2 ?_)
      cases hlk : lookupPart k kws with
      | none => rfl
      | some u => exact absurd (List.mem_map_of_mem (f := Prod.fst) ((lookup_mem hN).1 hlk)) hk

end Colosseum
