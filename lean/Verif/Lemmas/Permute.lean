import Verif.Lemmas.Apply

/-! # Helper lemmas: the parts of a shorthand in another order -/

namespace Colosseum

theorem parsePart_label {E : Env} {a : List Nat} {s : SH} {x : Val} {dict dict' : List (Part × Val)}
    (h : parsePart E a x dict s.tries = .ok dict') :
    ∃ k w, FallsTo E s x k w ∧ Accepts E a (partProp s k) x w ∧ dict' = dict ++ [(k, w)] := by
  obtain ⟨pre, k, c, post, w, h0, h1, h2, h3, rfl⟩ := (parsePart_list _).1 h
  obtain ⟨k', w', hf, _, e⟩ := parsePart_ok h
  rw [List.append_cancel_left_eq] at e
  simp only [List.cons.injEq, Prod.mk.injEq, and_true] at e
  obtain ⟨rfl, rfl⟩ := e
  refine ⟨k, w, hf, ?_, rfl⟩
  have hm : (k, c) ∈ s.tries := by rw [h0]; simp
  rw [tries_eq, List.mem_map] at hm
  obtain ⟨j, _, e⟩ := hm
  simp only [Prod.mk.injEq] at e
  obtain ⟨rfl, rfl⟩ := e
  exact accepts_iff.2 h2

theorem parseParts_label {E : Env} {at_ : List Nat} {s : SH} (xs : List Val) :
    ∀ {idx dict dict'}, parseParts E at_ s.tries idx dict xs = .ok dict' →
      ∃ kws, dict' = dict ++ kws ∧ List.Forall₂ (fun x (kw : Part × Val) =>
        FallsTo E s x kw.1 kw.2 ∧ ∃ i, Accepts E (i :: at_) (partProp s kw.1) x kw.2) xs kws := by
  induction xs with
  | nil => intro idx dict dict' h; cases h; exact ⟨[], by simp, .nil⟩
  | cons x xs ih =>
    intro idx dict dict' h
    simp only [parseParts] at h
    split at h
    · cases h
    · split at h
      · cases h
      · rename_i hp
        obtain ⟨k, w, hf, ha, rfl⟩ := parsePart_label hp
        obtain ⟨kws, rfl, hF⟩ := ih h
        exact ⟨(k, w) :: kws, by simp, .cons ⟨hf, _, ha⟩ hF⟩

/-- Parsing a part twice gives the same value, except that colours other than named ones are new
objects. -/
theorem accepts_twice {E : Env} {a b : List Nat} {s : SH} {k : Part} {x w w' : Val}
    (h : Accepts E a (partProp s k) x w) (h' : Accepts E b (partProp s k) x w') :
    w = w' ∨ ∃ c, w = .color (.heap a) c ∧ w' = .color (.heap b) c := by
  have hfor := accepts_forget h h'
  have hcan : Canonical (partProp s k) w := validate_canonical (accepts_iff.1 h)
  have hcan' : Canonical (partProp s k) w' := validate_canonical (accepts_iff.1 h')
  by_cases hw : ∃ r c, w = .color r c
  swap
  · left
    have plain : ∀ w, Canonical (partProp s k) w → (¬ ∃ r c, w = .color r c) → w.forget = w := by
      intro w hc hn
      rcases hc with hk | ⟨kd, hk, hv⟩
      · rcases keyword_cases hk with ⟨t, _, rfl⟩ | ⟨rfl, _⟩
        · unfold keywordVal; split <;> rfl
        · rfl
      · rw [kindOf_part] at hk
        cases k <;> cases hk
        · obtain ⟨u, rfl⟩ := hv; rfl
        · exact absurd hv hn
    have hw' : ¬ ∃ r c, w' = .color r c := by
      rintro ⟨r, c, rfl⟩
      apply hw
      rw [plain w hcan hw] at hfor
      exact ⟨_, _, hfor.symm⟩
    rw [← plain w hcan hw, ← plain w' hcan' hw', hfor]
  obtain ⟨r, c, rfl⟩ := hw
  -- a colour: the part is a colour object or a text
  have hpart : ∀ {a w}, Accepts E a (partProp s k) x w → (∃ r c, w = .color r c) → Colosseum.color E.fp a x = .ok w := by
    rintro a w h ⟨r, c, rfl⟩
    rcases h with h | ⟨kd, hk, h⟩
    · generalize hz : Val.color r c = z at h
      cases h with
      | word t _ => unfold keywordVal at hz; split at hz <;> cases hz
      | none => cases hz
      | dflt => cases hz
    · rw [kindOf_part] at hk
      cases k <;> cases hk
      · simp only [Kind.parse] at h
        cases hu : units E.fp x with
        | ok u => rw [hu] at h; cases h
        | error e => rw [hu] at h; cases h
      · exact h
  have h1 := hpart h ⟨r, c, rfl⟩
  have hw' : ∃ r c, w' = .color r c := by
    cases w' <;> first | exact ⟨_, _, rfl⟩ | cases hfor
  have h2 := hpart h' hw'
  cases x with
  | color r' c' => cases h1; cases h2; exact Or.inl rfl
  | str t =>
    simp only [Colosseum.color, colorStr] at h1 h2
    have map_ok : ∀ {r : Res Color} {f : Color → Val} {w : Val}, r.map f = .ok w → ∃ c, r = .ok c ∧ w = f c := by
      intro r f w h
      cases r with
      | ok c => cases h; exact ⟨c, rfl, rfl⟩
      | error e => cases h
    cases t with
    | nil => cases h1
    | cons t0 ts =>
      simp only at h1 h2
      have fin : ∀ {r : Res Color}, r.map (Val.color (.heap a)) = .ok (.color ‹Ref› c) →
          r.map (Val.color (.heap b)) = .ok w' → (Val.color ‹Ref› c = w' ∨
            ∃ c', Val.color ‹Ref› c = .color (.heap a) c' ∧ w' = .color (.heap b) c') := by
        intro r h1 h2
        obtain ⟨c1, e1, e2⟩ := map_ok h1
        obtain ⟨c2, e3, e4⟩ := map_ok h2
        rw [e1] at e3
        cases e3
        exact Or.inr ⟨c1, e2, e4⟩
      split at h1
      · rename_i hc; rw [if_pos hc] at h2; exact fin h1 h2
      · rename_i hc; rw [if_neg hc] at h2
        split at h1
        · rename_i hc; rw [if_pos hc] at h2; exact fin h1 h2
        · rename_i hc; rw [if_neg hc] at h2
          split at h1
          · rename_i hc; rw [if_pos hc] at h2; exact fin h1 h2
          · rename_i hc; rw [if_neg hc] at h2
            split at h1
            · rename_i hc; rw [if_pos hc] at h2; exact fin h1 h2
            · rename_i hc; rw [if_neg hc] at h2
              split at h1
              · rename_i hc; rw [if_pos hc] at h2; exact fin h1 h2
              · rename_i hc; rw [if_neg hc] at h2
                rw [h1] at h2
                cases h2
                exact Or.inl rfl
  | _ => simp only [Colosseum.color] at h1; exact absurd h1 (raiseFmt_ne_ok _ _ _)

/-! ## Acts that store different colour objects of the same colour -/

/-- Two acts that are the same, or assign two new colour objects of the same colour. -/
def Twin (c : CSS) (x y : Act) : Prop :=
  x = y ∨ ∃ l p r r' k, x = .set l p (.color r k) ∧ y = .set l p (.color r' k) ∧ kindOf p = some .color ∧
    ∀ s z, c p = some (.color s z) → s ≠ r ∧ s ≠ r'

theorem Twin.prop {c : CSS} {x y : Act} (h : Twin c x y) : x.prop = y.prop := by
  rcases h with rfl | ⟨_, _, _, _, _, rfl, rfl, _⟩ <;> rfl

/-- Two declarations that agree up to the identity of stored objects. -/
def Decl.Like (d e : Decl) : Prop := d.link = e.link ∧ ∀ p, (d.css p).map Val.forget = (e.css p).map Val.forget

theorem like_store {d e : Decl} (h : d.Like e) (p : LH) {w w' : Val} (hw : w.forget = w'.forget) :
    Decl.Like ⟨d.css.store p w, d.link⟩ ⟨e.css.store p w', e.link⟩ := by
  refine ⟨h.1, fun q => ?_⟩
  by_cases hq : q = p
  · subst hq
    simp [store_same, hw]
  · simp only [store_other _ _ hq]; exact h.2 q

theorem like_mark {d e : Decl} (h : d.Like e) : d.markDirty.1.Like e.markDirty.1 ∧ d.markDirty.2 = e.markDirty.2 := by
  unfold Decl.markDirty
  rw [← h.1]
  cases d.link
  · exact ⟨h, rfl⟩
  · exact ⟨h, rfl⟩
  · exact ⟨⟨rfl, h.2⟩, rfl⟩

theorem differs_congr {c c' : CSS} {p : LH} {w : Val} (h : c p = c' p) : differs c p w = differs c' p w := by
  unfold differs
  rw [h]

theorem color_initial {p : LH} (h : kindOf p = some .color) (r : Ref) (k : Color) (v : Val) (hi : p.initial = .const v) :
    (Val.color r k).pyEq v = false := by
  cases p <;> cases h <;> cases hi <;> rfl

theorem color_differs {c : CSS} {p : LH} (h : kindOf p = some .color) {r : Ref} {k : Color}
    (hs : ∀ s z, c p = some (.color s z) → s ≠ r) : differs c p (.color r k) = true := by
  unfold differs
  cases hc : c p with
  | some v =>
    cases v <;> simp [Val.pyEq]
    rename_i s z
    exact fun e => hs s z hc e.symm
  | none =>
    simp only
    split
    · rename_i v hi; rw [color_initial h r k v hi]; rfl
    · rfl

theorem color_validate {E : Env} {l : List Nat} {p : LH} (h : kindOf p = some .color) (r : Ref) (k : Color) :
    p.choices.validate E l (.color r k) = .ok (.color r k) :=
  (validate_iff ..).2 (Or.inr ⟨.color, h, rfl⟩)

theorem act_twin {E : Env} {d e : Decl} {x y : Act} (hl : d.Like e) (hp : d.css x.prop = e.css x.prop)
    (h : Twin d.css x y) : (x.run E d).1.Like (y.run E e).1 ∧ (x.run E d).2 = (y.run E e).2 ∧
      ∀ q ≠ x.prop, (x.run E d).1.css q = d.css q ∧ (y.run E e).1.css q = e.css q := by
  rcases h with rfl | ⟨l, p, r, r', k, rfl, rfl, hk, hr⟩
  · cases x with
    | set l p v =>
      simp only [Act.prop] at hp
      simp only [Act.run, Act.prop]
      unfold Decl.set
      cases p.choices.validate E l v with
      | error e' =>
        simp only
        split <;> (try split) <;> exact ⟨hl, rfl, fun _ _ => ⟨rfl, rfl⟩⟩
      | ok w =>
        simp only
        rw [differs_congr hp]
        split
        · obtain ⟨h1, h2⟩ := like_mark (like_store hl p (w := w) (w' := w) rfl)
          refine ⟨h1, h2, fun q hq => ?_⟩
          rw [markDirty_css, markDirty_css]
          exact ⟨store_other _ _ hq, store_other _ _ hq⟩
        · exact ⟨hl, rfl, fun _ _ => ⟨rfl, rfl⟩⟩
    | del p =>
      simp only [Act.prop] at hp
      simp only [Act.run, Act.prop, del_css]
      refine ⟨?_, trivial, fun q hq => ⟨erase_other _ hq, erase_other _ hq⟩⟩
      unfold Decl.del
      rw [← hp]
      cases d.css p with
      | none => exact hl
      | some v =>
        refine (like_mark (d := { d with css := d.css.erase p }) (e := { e with css := e.css.erase p }) ⟨hl.1, fun q => ?_⟩).1
        by_cases hq : q = p
        · subst hq; simp [erase_same]
        · simp only [erase_other _ hq]; exact hl.2 q
  · simp only [Act.prop] at hp
    simp only [Act.run, Act.prop]
    have e1 : d.set E l p (.color r k) = Decl.markDirty { d with css := d.css.store p (.color r k) } := by
      unfold Decl.set
      rw [color_validate hk]
      simp only
      rw [color_differs hk fun s z hs => (hr s z hs).1]
      rfl
    have e2 : e.set E l p (.color r' k) = Decl.markDirty { e with css := e.css.store p (.color r' k) } := by
      unfold Decl.set
      rw [color_validate hk]
      simp only
      rw [color_differs hk fun s z hs => (hr s z (hp ▸ hs)).2]
      rfl
    rw [e1, e2]
    obtain ⟨h1, h2⟩ := like_mark (like_store hl p (w := .color r k) (w' := .color r' k) rfl)
    refine ⟨h1, h2, fun q hq => ?_⟩
    rw [markDirty_css, markDirty_css]
    exact ⟨store_other _ _ hq, store_other _ _ hq⟩

theorem acts_twin {E : Env} {xs ys : List Act} {c : CSS} (h : List.Forall₂ (Twin c) xs ys) (hn : (xs.map Act.prop).Nodup)
    {d e : Decl} (hl : d.Like e) (hp : ∀ x ∈ xs, d.css x.prop = c x.prop ∧ e.css x.prop = c x.prop) :
    (runActs E xs d).1.Like (runActs E ys e).1 ∧ (runActs E xs d).2 = (runActs E ys e).2 := by
  induction h generalizing d e with
  | nil => exact ⟨hl, rfl⟩
  | @cons x y xs ys hxy _ ih =>
    rw [List.map_cons, List.nodup_cons] at hn
    obtain ⟨hd, he⟩ := hp x (by simp)
    have ht : Twin d.css x y := by
      rcases hxy with rfl | ⟨l, p, r, r', k, rfl, rfl, hk, hr⟩
      · exact Or.inl rfl
      · refine Or.inr ⟨l, p, r, r', k, rfl, rfl, hk, fun s z hs => hr s z ?_⟩
        rw [← hs]; exact hd.symm
    obtain ⟨h1, h2, h3⟩ := act_twin (E := E) hl (hd.trans he.symm) ht
    simp only [runActs]
    cases hx : x.run E d with
    | mk dx ex =>
      cases hy : y.run E e with
      | mk dy ey =>
        rw [hx, hy] at h1 h2 h3
        simp only at h1 h2 h3
        subst h2
        cases ex with
        | some er => exact ⟨h1, rfl⟩
        | none =>
          refine ih hn.2 h1 fun z hz => ?_
          have hne : z.prop ≠ x.prop := fun e => hn.1 (e ▸ List.mem_map_of_mem hz)
          obtain ⟨h4, h5⟩ := h3 _ hne
          rw [h4, h5]
          exact hp z (by simp [hz])

/-- How the values two orders of parts give to a kind relate. -/
def SameParts (c : CSS) (s : SH) (k : Part) (o o' : Option Val) : Prop :=
  o = o' ∨ (k = .color ∧ ∃ r r' z, o = some (.color r z) ∧ o' = some (.color r' z) ∧
    ∀ p ∈ partProps s k, ∀ t z, c p = some (.color t z) → t ≠ r ∧ t ≠ r')

theorem keyActs_twin (at_ : List Nat) {c : CSS} {s : SH} {k : Part} {d d' : List (Part × Val)}
    (h : SameParts c s k (lookupPart k d) (lookupPart k d')) :
    List.Forall₂ (Twin c) (keyActs at_ d (k, partAttr s k)) (keyActs at_ d' (k, partAttr s k)) := by
  rcases h with h | ⟨rfl, r, r', z, h1, h2, h3⟩
  · have : keyActs at_ d (k, partAttr s k) = keyActs at_ d' (k, partAttr s k) := by
      cases partAttr s k <;> simp only [keyActs, h]
    rw [this]
    exact List.forall₂_same.2 fun _ _ => Or.inl rfl
  · have tw : ∀ l p, p ∈ partProps s .color → Twin c (.set l p (.color r z)) (.set l p (.color r' z)) := by
      intro l p hp
      refine Or.inr ⟨l, p, r, r', z, rfl, rfl, ?_, h3 p hp⟩
      rw [(partProps_choices hp).2.1, kindOf_part]
    have hP := partProps_attr s .color
    cases ha : partAttr s .color with
    | lh p =>
      rw [ha] at hP
      simp only [keyActs, h1, h2]
      exact .cons (tw _ _ (by rw [hP]; simp [attrProps])) .nil
    | dir q =>
      rw [ha] at hP
      simp only [keyActs, h1, h2, sideActs]
      exact .cons (tw _ _ (by rw [hP]; simp [attrProps])) (.cons (tw _ _ (by rw [hP]; simp [attrProps]))
        (.cons (tw _ _ (by rw [hP]; simp [attrProps])) (.cons (tw _ _ (by rw [hP]; simp [attrProps])) .nil)))
    | sh q => exact .nil

theorem shActs_twin (at_ : List Nat) {c : CSS} {s : SH} {d d' : List (Part × Val)}
    (h : ∀ k, SameParts c s k (lookupPart k d) (lookupPart k d')) :
    List.Forall₂ (Twin c) (shActs at_ d s) (shActs at_ d' s) := by
  unfold shActs
  have : ∀ ks : List (Part × Attr), (∀ x ∈ ks, x.2 = partAttr s x.1) →
      List.Forall₂ (Twin c) (ks.flatMap (keyActs at_ d)) (ks.flatMap (keyActs at_ d')) := by
    intro ks hk
    induction ks with
    | nil => exact .nil
    | cons x ks ih =>
      obtain ⟨k, a⟩ := x
      have e : a = partAttr s k := hk (k, a) (by simp)
      subst e
      simp only [List.flatMap_cons]
      exact List.rel_append (keyActs_twin at_ (h k)) (ih fun x hx => hk x (by simp [hx]))
  exact this _ fun x hx => mem_keys.1 hx

end Colosseum
