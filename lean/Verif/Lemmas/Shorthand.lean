import Verif.Lemmas.Acts
import Verif.Lemmas.Survive
import Verif.Lemmas.Text
import Verif.Spec.Shorthand
import Verif.Props.Errors

/-! # Helper lemmas on shorthand parsing and assignment -/

namespace Colosseum

/-- One property whose grammar a part of a shorthand has. -/
def partProp : SH → Part → LH
  | .outline, .width => .outlineWidth
  | .outline, .style => .outlineStyle
  | .outline, .color => .outlineColor
  | .borderSide s, .width => .borderWidth s
  | .borderSide s, .style => .borderStyle s
  | .borderSide s, .color => .borderColor s
  | .border, .width => .borderWidth .top
  | .border, .style => .borderStyle .top
  | .border, .color => .borderColor .top

theorem partProp_mem (s : SH) (k : Part) : partProp s k ∈ partProps s k := by
  cases s <;> cases k <;> simp [partProp, partProps]

theorem partProps_choices {s : SH} {k : Part} {p : LH} (h : p ∈ partProps s k) :
    p.choices = (partProp s k).choices ∧ kindOf p = kindOf (partProp s k) ∧ keywords p = keywords (partProp s k) ∧
      keywordNames p = keywordNames (partProp s k) := by
  cases s <;> cases k <;> simp only [partProps, List.mem_cons, List.not_mem_nil, or_false] at h <;>
    (try rcases h with rfl | rfl | rfl | rfl) <;>
    exact ⟨rfl, rfl, by simp [keywords, keywordNames, partProp], rfl⟩

theorem tries_eq (s : SH) : s.tries = (partOrder s).map fun k => (k, (partProp s k).choices) := by
  cases s <;> rfl

theorem kindOf_part (s : SH) (k : Part) : kindOf (partProp s k) =
    match k with
    | .width => some .length
    | .style => none
    | .color => some .color := by
  cases s <;> cases k <;> rfl

theorem accepts_iff {E : Env} {a : List Nat} {p : LH} {v w : Val} : Accepts E a p v w ↔ p.choices.validate E a v = .ok w :=
  (validate_iff E a p v w).symm

theorem accepts_relabel {E : Env} {a : List Nat} (b : List Nat) {p : LH} {v w : Val} (h : Accepts E a p v w) :
    ∃ w', Accepts E b p v w' ∧ w'.forget = w.forget := by
  obtain ⟨w', h1, h2⟩ := validate_ok_relabel (b := b) (accepts_iff.1 h)
  exact ⟨w', accepts_iff.2 h1, h2⟩

theorem accepts_forget {E : Env} {a b : List Nat} {p : LH} {v w w' : Val} (h : Accepts E a p v w)
    (h' : Accepts E b p v w') : w'.forget = w.forget := by
  obtain ⟨u, h1, h2⟩ := accepts_relabel b h
  rw [accepts_iff] at h1 h'
  rw [h'] at h1
  cases h1
  exact h2

/-- A part that some grammar of the shorthand accepts is not empty, and can be printed unless it is a
width. -/
theorem accepts_plain {E : Env} {a : List Nat} {s : SH} {k : Part} {x w : Val}
    (h : Accepts E a (partProp s k) x w) : x ≠ .str [] ∧ (x.fmtErr = none ∨ k = .width) := by
  rcases h with h | ⟨kd, hk, h⟩
  · cases h with
    | word t ht =>
      refine ⟨?_, Or.inl rfl⟩
      intro e
      have e : t = "" := by
        have : t.toList = [] := by simpa using e
        exact String.ext (by simpa using this)
      subst e
      revert ht
      have : ∀ p ∈ allLH, "" ∉ keywordNames p := by decide +kernel
      exact this _ (mem_allLH _)
    | none => exact ⟨by simp, Or.inl rfl⟩
    | dflt => exact ⟨by simp, Or.inl rfl⟩
  · rw [kindOf_part] at hk
    cases k with
    | width =>
      refine ⟨?_, Or.inr rfl⟩
      rintro rfl
      cases hk
      cases h
    | style => cases hk
    | color =>
      cases hk
      cases x with
      | str t =>
        refine ⟨?_, Or.inl rfl⟩
        intro e
        cases e
        cases h
      | color r c => exact ⟨by simp, Or.inl rfl⟩
      | _ =>
        simp only [Kind.parse, Colosseum.color] at h
        exact absurd h (raiseFmt_ne_ok _ _ _)

theorem part_error {E : Env} {a : List Nat} {s : SH} {k : Part} {x : Val} {e : Err} (hx : x ≠ .str [])
    (hf : x.fmtErr = none) (h : (partProp s k).choices.validate E a x = .error e) : e.isValueError = true := by
  rw [validate_error hf _ h]
  · rfl
  · intro kd hk
    rw [kindOf_part] at hk
    cases k <;> cases hk
    · trivial
    · exact hx

/-- A part is quiet when the grammars tried before the one that accepts it raise `ValueError`: always for
borders, whenever it can be printed for outlines. -/
def Quiet (s : SH) (x : Val) : Prop := s = .outline → ¬ Boundless x

/-- A width that cannot be printed is a unit object. -/
theorem accepts_width {E : Env} {a : List Nat} {s : SH} {x w : Val}
    (h : Accepts E a (partProp s .width) x w) : x.fmtErr = none ∨ ∃ k y, x = .unit ⟨.len k, y⟩ := by
  rcases h with h | ⟨kd, hk, h⟩
  · cases h <;> exact Or.inl rfl
  · rw [kindOf_part] at hk
    cases hk
    cases x with
    | unit u =>
      obtain ⟨k, y⟩ := u
      cases k with
      | len k => exact Or.inr ⟨k, y, rfl⟩
      | ang k =>
        simp only [Kind.parse, units, unitsIn] at h
        unfold raiseFmt at h
        split at h <;> cases h
    | num y => exact Or.inl rfl
    | str t => exact Or.inl rfl
    | none => exact Or.inl rfl
    | dflt => exact Or.inl rfl
    | color r c => exact Or.inl rfl
    | uri r c => exact Or.inl rfl
    | quotes q => exact Or.inl rfl
    | cursor q => exact Or.inl rfl
    | _ =>
      simp only [Kind.parse, units, unitsIn] at h
      unfold raiseFmt at h
      split at h <;> cases h

theorem outline_nan {E : Env} {a : List Nat} {k : LKind} {j : Part} (hj : j ≠ .width) :
    (partProp .outline j).choices.validate E a (.unit ⟨.len k, .nan⟩) = .error .value := by
  cases j
  · exact absurd rfl hj
  · rfl
  · rfl

theorem outline_inf {E : Env} {a : List Nat} {k : LKind} {b : Bool} :
    (partProp .outline .color).choices.validate E a (.unit ⟨.len k, .inf b⟩) = .error .overflow := rfl

/-- Parsing one part, in terms of the list of grammars. -/
theorem parsePart_list {E : Env} {a : List Nat} {x : Val} {dict dict' : List (Part × Val)}
    (ts : List (Part × Choices)) : parsePart E a x dict ts = .ok dict' ↔
      ∃ pre k c post w, ts = pre ++ (k, c) :: post ∧
        (∀ t ∈ pre, ∃ e, t.2.validate E a x = .error e ∧ e.isValueError = true) ∧
        c.validate E a x = .ok w ∧ k ∉ dict.map Prod.fst ∧ dict' = dict ++ [(k, w)] := by
  induction ts with
  | nil =>
    simp only [parsePart]
    constructor
    · intro h; exact absurd h (raiseFmt_ne_ok _ _ _)
    · rintro ⟨pre, k, c, post, w, h, _⟩; simp at h
  | cons t ts ih =>
    obtain ⟨k, c⟩ := t
    simp only [parsePart]
    have anyk : (dict.any fun y => y.1 == k) = true ↔ k ∈ dict.map Prod.fst := by
      simp
    cases hv : c.validate E a x with
    | error e =>
      simp only
      by_cases he : e.isValueError = true
      · rw [if_pos he, ih]
        constructor
        · rintro ⟨pre, k', c', post, w, rfl, h1, h2⟩
          refine ⟨(k, c) :: pre, k', c', post, w, rfl, ?_, h2⟩
          intro t ht
          rcases List.mem_cons.1 ht with rfl | ht
          · exact ⟨e, hv, he⟩
          · exact h1 t ht
        · rintro ⟨pre, k', c', post, w, h0, h1, h2, h3⟩
          cases pre with
          | nil =>
            simp only [List.nil_append, List.cons.injEq, Prod.mk.injEq] at h0
            obtain ⟨⟨rfl, rfl⟩, rfl⟩ := h0
            rw [hv] at h2; cases h2
          | cons q qs =>
            simp only [List.cons_append, List.cons.injEq] at h0
            obtain ⟨rfl, rfl⟩ := h0
            exact ⟨qs, k', c', post, w, rfl, fun t ht => h1 t (by simp [ht]), h2, h3⟩
      · rw [if_neg he]
        constructor
        · intro h; cases h
        · rintro ⟨pre, k', c', post, w, h0, h1, h2, h3⟩
          cases pre with
          | nil =>
            simp only [List.nil_append, List.cons.injEq, Prod.mk.injEq] at h0
            obtain ⟨⟨rfl, rfl⟩, rfl⟩ := h0
            rw [hv] at h2; cases h2
          | cons q qs =>
            simp only [List.cons_append, List.cons.injEq] at h0
            obtain ⟨rfl, rfl⟩ := h0
            obtain ⟨e', h4, h5⟩ := h1 (k, c) (by simp)
            rw [hv] at h4
            cases h4
            exact absurd h5 he
    | ok w =>
      simp only
      constructor
      · intro h
        split at h
        · cases h
        · rename_i hk
          cases h
          exact ⟨[], k, c, ts, w, rfl, by simp, hv, fun hm => hk (anyk.2 hm), rfl⟩
      · rintro ⟨pre, k', c', post, w', h0, h1, h2, h3, rfl⟩
        cases pre with
        | nil =>
          simp only [List.nil_append, List.cons.injEq, Prod.mk.injEq] at h0
          obtain ⟨⟨rfl, rfl⟩, rfl⟩ := h0
          rw [hv] at h2; cases h2
          rw [if_neg (fun hk => h3 (anyk.1 hk))]
        | cons q qs =>
          simp only [List.cons_append, List.cons.injEq] at h0
          obtain ⟨rfl, rfl⟩ := h0
          obtain ⟨e', h4, _⟩ := h1 (k, c) (by simp)
          rw [hv] at h4
          cases h4

theorem fallsTo_iff {E : Env} {s : SH} {x : Val} {k : Part} {w : Val} : FallsTo E s x k w ↔
    ∃ pre post, partOrder s = pre ++ k :: post ∧
      (∀ j ∈ pre, ¬ ∃ a w, Accepts E a (partProp s j) x w) ∧ ∃ a, Accepts E a (partProp s k) x w := by
  have tr : ∀ {j p}, p ∈ partProps s j → ∀ a w, Accepts E a p x w ↔ Accepts E a (partProp s j) x w := by
    intro j p hp a w
    rw [accepts_iff, accepts_iff, (partProps_choices hp).1]
  constructor
  · rintro ⟨pre, post, h1, h2, h3⟩
    exact ⟨pre, post, h1, fun j hj => h2 j hj _ (partProp_mem s j), h3 _ (partProp_mem s k)⟩
  · rintro ⟨pre, post, h1, h2, a, h3⟩
    refine ⟨pre, post, h1, fun j hj p hp => ?_, fun p hp => ⟨a, (tr hp a w).2 h3⟩⟩
    rintro ⟨b, u, h⟩
    exact h2 j hj ⟨b, u, (tr hp b u).1 h⟩

/-- Parsing one part. -/
theorem parsePart_ok {E : Env} {a : List Nat} {s : SH} {x : Val} {dict dict' : List (Part × Val)}
    (h : parsePart E a x dict s.tries = .ok dict') :
    ∃ k w, FallsTo E s x k w ∧ k ∉ dict.map Prod.fst ∧ dict' = dict ++ [(k, w)] := by
  obtain ⟨pre, k, c, post, w, h0, h1, h2, h3, h4⟩ := (parsePart_list _).1 h
  rw [tries_eq] at h0
  obtain ⟨ps, r, hp, hps, hr⟩ := List.map_eq_append_iff.1 h0
  obtain ⟨j, qs, hr', hj, _⟩ := List.map_eq_cons_iff.1 hr
  simp only [Prod.mk.injEq] at hj
  obtain ⟨rfl, rfl⟩ := hj
  refine ⟨j, w, fallsTo_iff.2 ⟨ps, qs, by rw [hp, hr'], ?_, a, accepts_iff.2 h2⟩, h3, h4⟩
  rintro i hi ⟨b, u, hu⟩
  obtain ⟨e, he, _⟩ := h1 (i, (partProp s i).choices) (by rw [← hps]; exact List.mem_map_of_mem hi)
  obtain ⟨u', hu', _⟩ := accepts_relabel a hu
  rw [accepts_iff] at hu'
  simp only at he
  rw [hu'] at he
  cases he

theorem parsePart_succeeds {E : Env} (a : List Nat) {s : SH} {x : Val} {k : Part} {w : Val} {dict : List (Part × Val)}
    (hq : Quiet s x) (h : FallsTo E s x k w) (hk : k ∉ dict.map Prod.fst) :
    ∃ w', FallsTo E s x k w' ∧ parsePart E a x dict s.tries = .ok (dict ++ [(k, w')]) := by
  obtain ⟨pre, post, h1, h2, b, h3⟩ := fallsTo_iff.1 h
  obtain ⟨w', hw', _⟩ := accepts_relabel a h3
  refine ⟨w', fallsTo_iff.2 ⟨pre, post, h1, h2, a, hw'⟩, (parsePart_list _).2 ?_⟩
  refine ⟨pre.map fun j => (j, (partProp s j).choices), k, (partProp s k).choices,
    post.map fun j => (j, (partProp s j).choices), w', by rw [tries_eq, h1]; simp, ?_, accepts_iff.1 hw', hk, rfl⟩
  intro t ht
  obtain ⟨j, hj, rfl⟩ := List.mem_map.1 ht
  simp only
  have nb : ∀ u, (partProp s j).choices.validate E a x ≠ .ok u := fun u hv => h2 j hj ⟨a, u, accepts_iff.2 hv⟩
  have quiet : x.fmtErr = none → ∃ e, (partProp s j).choices.validate E a x = .error e ∧ e.isValueError = true := by
    intro hf
    cases hv : (partProp s j).choices.validate E a x with
    | ok u => exact absurd hv (nb u)
    | error e => exact ⟨e, rfl, part_error (accepts_plain h3).1 hf hv⟩
  rcases (accepts_plain h3).2 with hf | rfl
  · exact quiet hf
  · by_cases ho : s = .outline
    · subst ho
      rcases accepts_width h3 with hf | ⟨l, y, rfl⟩
      · exact quiet hf
      · cases y with
        | fin y => exact quiet rfl
        | inf y => exact absurd ⟨l, y, rfl⟩ (hq rfl)
        | nan =>
          refine ⟨.value, outline_nan ?_, rfl⟩
          rintro rfl
          have h1 : [Part.color, .style, .width] = pre ++ .width :: post := h1
          have hn : (pre ++ Part.width :: post).Nodup := by rw [← h1]; decide
          exact (List.nodup_append.1 hn).2.2 _ hj _ (by simp) rfl
    · exfalso
      have : pre = [] := by
        cases pre with
        | nil => rfl
        | cons q qs =>
          have hn : partOrder s = [.width, .style, .color] := by cases s <;> first | rfl | exact absurd rfl ho
          rw [hn] at h1
          simp only [List.cons_append, List.cons.injEq] at h1
          have : Part.width ∈ [Part.style, .color] := by rw [h1.2]; simp
          simp at this
      rw [this] at hj
      cases hj

/-- A part that is parsed is quiet. -/
theorem parsePart_quiet {E : Env} {a : List Nat} {s : SH} {x : Val} {dict dict' : List (Part × Val)}
    (h : parsePart E a x dict s.tries = .ok dict') : Quiet s x := by
  rintro rfl ⟨k, b, rfl⟩
  have : SH.outline.tries = (.color, (partProp .outline .color).choices) :: SH.outline.tries.tail := rfl
  rw [this, parsePart, outline_inf] at h
  cases h

theorem parseParts_quiet {E : Env} {at_ : List Nat} {s : SH} (xs : List Val) :
    ∀ {idx dict dict'}, parseParts E at_ s.tries idx dict xs = .ok dict' → ∀ x ∈ xs, Quiet s x := by
  induction xs with
  | nil => intro _ _ _ _ x hx; cases hx
  | cons y xs ih =>
    intro idx dict dict' h x hx
    simp only [parseParts] at h
    split at h
    · cases h
    · split at h
      · cases h
      · rename_i hp
        rcases List.mem_cons.1 hx with rfl | hx
        · exact parsePart_quiet hp
        · exact ih h x hx

/-- The kind of a part is determined. -/
theorem fallsTo_unique {E : Env} {s : SH} {x : Val} {k k' : Part} {w w' : Val} (h : FallsTo E s x k w)
    (h' : FallsTo E s x k' w') : k = k' ∧ w.forget = w'.forget := by
  obtain ⟨pre, post, h1, h2, a, h3⟩ := fallsTo_iff.1 h
  obtain ⟨pre', post', h1', h2', a', h3'⟩ := fallsTo_iff.1 h'
  have e : k = k' := by
    rw [h1] at h1'
    rcases List.append_eq_append_iff.1 h1' with ⟨t, ht, ht'⟩ | ⟨t, ht, ht'⟩
    · cases t with
      | nil => simp at ht'; exact ht'.1
      | cons u us =>
        simp only [List.cons_append, List.cons.injEq] at ht'
        exact absurd ⟨a, w, h3⟩ (h2' k (by rw [ht, ht'.1]; simp))
    · cases t with
      | nil => simp at ht'; exact ht'.1.symm
      | cons u us =>
        simp only [List.cons_append, List.cons.injEq] at ht'
        exact absurd ⟨a', w', h3'⟩ (h2 k' (by rw [ht, ht'.1]; simp))
  subst e
  exact ⟨rfl, accepts_forget h3' h3⟩

theorem parseParts_ok {E : Env} {at_ : List Nat} {s : SH} (xs : List Val) :
    ∀ {idx dict dict'}, parseParts E at_ s.tries idx dict xs = .ok dict' → (dict.map Prod.fst).Nodup →
      (xs = [] ∨ idx + xs.length ≤ 3) ∧ ∃ kws, dict' = dict ++ kws ∧
        List.Forall₂ (fun x (kw : Part × Val) => FallsTo E s x kw.1 kw.2) xs kws ∧ (dict'.map Prod.fst).Nodup := by
  induction xs with
  | nil =>
    intro idx dict dict' h hn
    cases h
    exact ⟨Or.inl rfl, [], by simp, .nil, hn⟩
  | cons x xs ih =>
    intro idx dict dict' h hn
    simp only [parseParts] at h
    split at h
    · cases h
    · rename_i hi
      split at h
      · cases h
      · rename_i dict1 h1
        obtain ⟨k, w, hf, hk, rfl⟩ := parsePart_ok h1
        have hn1 : ((dict ++ [(k, w)]).map Prod.fst).Nodup := by
          rw [List.map_append, List.nodup_append]
          refine ⟨hn, by simp, ?_⟩
          intro a ha b hb
          simp only [List.map_cons, List.map_nil, List.mem_singleton] at hb
          rintro rfl
          exact hk (hb ▸ ha)
        obtain ⟨hl, kws, hd, hF, hN⟩ := ih h hn1
        refine ⟨Or.inr ?_, (k, w) :: kws, by rw [hd]; simp, .cons hf hF, hN⟩
        rcases hl with rfl | hl
        · simp; omega
        · simp at hl ⊢; omega

theorem parseParts_succeeds {E : Env} {at_ : List Nat} {s : SH} (xs : List Val) (ks : List (Part × Val))
    (hF : List.Forall₂ (fun x (kw : Part × Val) => FallsTo E s x kw.1 kw.2) xs ks) (hq : ∀ x ∈ xs, Quiet s x) :
    ∀ {idx dict}, idx + xs.length ≤ 3 → (dict.map Prod.fst ++ ks.map Prod.fst).Nodup →
      ∃ dict', parseParts E at_ s.tries idx dict xs = .ok dict' := by
  induction hF with
  | nil => exact fun _ _ => ⟨_, rfl⟩
  | @cons x kw xs ks hx hF ih =>
    intro idx dict hl hn
    obtain ⟨k, w⟩ := kw
    simp only [List.map_cons] at hn
    have hk : k ∉ dict.map Prod.fst := by
      intro hm
      exact (List.nodup_append.1 hn).2.2 k hm k (by simp) rfl
    obtain ⟨w', hw', hp⟩ := parsePart_succeeds (idx :: at_) (hq x (by simp)) hx hk
    simp only [parseParts]
    have : ¬ idx > 2 := by simp at hl; omega
    rw [if_neg this, hp]
    refine ih (fun y hy => hq y (by simp [hy])) (by simp at hl ⊢; omega) ?_
    simpa using hn

theorem parts_parse {E : Env} {at_ : List Nat} {s : SH} {v : Val} {xs : List Val} (h : PartsOf v xs) :
    parseShorthand E at_ s v = parseParts E at_ s.tries 0 [] xs := by
  cases h with
  | text t ws ht hw =>
    cases t with
    | nil => exact absurd rfl ht
    | cons c cs =>
      simp only [parseShorthand]
      congr 1
      have := splitWs_map_strip (c :: cs)
      rw [hw.splitWs] at this ⊢
      conv_rhs => rw [← this]
      simp
  | seq t xs hx =>
    cases xs with
    | nil => exact absurd rfl hx
    | cons y ys => rfl
  | cursor xs hx =>
    have e : asSeq (.cursor xs) = some (xs.map CurItem.val) := by
      simp only [asSeq]
      refine congrArg some (List.map_congr_left ?_)
      intro i _
      cases i <;> rfl
    simp only [parseShorthand, e]
    cases xs with
    | nil => exact absurd rfl hx
    | cons y ys => rfl

theorem not_parts {E : Env} {at_ : List Nat} {s : SH} {v : Val} (h : ¬ ∃ xs, PartsOf v xs) :
    ∃ e, parseShorthand E at_ s v = .error e := by
  have fmt : ∀ v : Val, ∃ e, (raiseFmt .value v : Res (List (Part × Val))) = .error e := by
    intro v
    unfold raiseFmt
    split <;> exact ⟨_, rfl⟩
  cases v with
  | str t =>
    cases t with
    | nil => exact ⟨_, rfl⟩
    | cons c cs => exact absurd ⟨_, .text _ _ (by simp) (words_splitWs _)⟩ h
  | seq t xs =>
    cases xs with
    | nil => exact ⟨_, rfl⟩
    | cons c cs => exact absurd ⟨_, .seq _ _ (by simp)⟩ h
  | cursor xs =>
    cases xs with
    | nil => exact ⟨_, rfl⟩
    | cons c cs => exact absurd ⟨_, .cursor _ (by simp)⟩ h
  | _ => simp only [parseShorthand, asSeq]; exact fmt _

theorem lookup_mem {k : Part} {dict : List (Part × Val)} {w : Val} (hn : (dict.map Prod.fst).Nodup) :
    lookupPart k dict = some w ↔ (k, w) ∈ dict := by
  unfold lookupPart
  induction dict with
  | nil => simp
  | cons x dict ih =>
    obtain ⟨j, u⟩ := x
    rw [List.map_cons, List.nodup_cons] at hn
    by_cases e : j = k
    · subst e
      simp only [List.find?_cons, beq_self_eq_true, Option.map_some, Option.some.injEq, List.mem_cons,
        Prod.mk.injEq, true_and]
      constructor
      · exact fun h => Or.inl h.symm
      · rintro (h | h)
        · exact h.symm
        · exact absurd (List.mem_map_of_mem (f := Prod.fst) h) hn.1
    · have : (j == k) = false := by simpa using e
      simp only [List.find?_cons, this, ih hn.2, List.mem_cons, Prod.mk.injEq]
      constructor
      · exact Or.inr
      · rintro (⟨rfl, _⟩ | h)
        · exact absurd rfl e
        · exact h

end Colosseum
