import Verif.Spec.Names
import Verif.Lemmas.Acts
import Mathlib.Data.List.Forall2

/-!
# C33–C35: names, `update`, and listing a declaration
-/

namespace Colosseum

/-! ## C33 -/

theorem mem_allAttrs (a : Attr) : a ∈ allAttrs := by
  unfold allAttrs
  cases a with
  | lh p => simp [mem_allLH p]
  | dir k => cases k <;> simp [allDir]
  | sh s =>
    cases s with
    | borderSide t => cases t <;> simp [allSH, allSides]
    | _ => simp [allSH]

theorem normName_char {c d : Char} : (if c == '-' then '_' else c) = (if d == '-' then '_' else d) ↔
    c = d ∨ (Joint c ∧ Joint d) := by
  unfold Joint
  by_cases hc : c = '-' <;> by_cases hd : d = '-' <;> simp [hc, hd]
  · constructor
    · intro h; exact Or.inr h.symm
    · rintro (h | h)
      · exact absurd h.symm hd
      · exact h.symm
  · rintro rfl rfl; rfl

theorem sameName_iff {a b : PyStr} : SameName a b ↔ normName a = normName b := by
  unfold SameName normName replaceChar
  induction a generalizing b with
  | nil => cases b <;> simp
  | cons c a ih =>
    cases b with
    | nil => simp
    | cons d b => rw [List.forall₂_cons, ih, List.map_cons, List.map_cons, List.cons.injEq, normName_char]

theorem attr_names : ∀ a ∈ allAttrs, normName (cssName a).toList = a.name ∧ attrOfName a.name = some a := by
  decide +kernel

theorem attrOfName_iff {n : PyStr} {a : Attr} : attrOfName (normName n) = some a ↔ SameName n (cssName a).toList := by
  obtain ⟨h1, h2⟩ := attr_names a (mem_allAttrs a)
  rw [sameName_iff, h1]
  constructor
  · intro h
    have := List.find?_some h
    simpa using (beq_iff_eq.1 this).symm
  · intro h; rw [h]; exact h2

/-- C33. A name written with any mixture of hyphens and underscores means the property CSS gives that
name: item access, item assignment, item deletion and `update` with it do what the attribute does. -/
theorem C33_names (E : Env) (at_ : List Nat) (d : Decl) (a : Attr) (n : PyStr) (h : SameName n (cssName a).toList) :
    d.css.getItem n = d.css.readAttr a ∧
    (∀ v, d.setItem E at_ n v = d.setAttr E at_ a v) ∧
    d.delItem n = (d.delAttr a, none) ∧
    d.update E at_ [(n, .none)] = (d.delAttr a, none) ∧
    ∀ v, v ≠ .none → d.update E at_ [(n, v)] = d.setAttr E (0 :: at_) a v := by
  have h := attrOfName_iff.2 h
  refine ⟨?_, ?_, ?_, ?_, ?_⟩
  · unfold CSS.getItem; rw [h]
  · intro v; unfold Decl.setItem; rw [h]
  · unfold Decl.delItem; rw [h]
  · simp only [Decl.update, Decl.updateFrom, Decl.updateOne, h]; rfl
  · intro v hv
    have : d.updateOne E (0 :: at_) n v = d.setAttr E (0 :: at_) a v := by
      unfold Decl.updateOne
      rw [h]
      cases v <;> first | rfl | exact absurd rfl hv
    simp only [Decl.update, Decl.updateFrom, this]
    exact andThen_pure _

/-- Two ways of writing the same name always do the same. -/
theorem C33_same (E : Env) (at_ : List Nat) (d : Decl) (n m : PyStr) (h : SameName n m) :
    d.css.getItem n = d.css.getItem m ∧ (∀ v, d.setItem E at_ n v = d.setItem E at_ m v) ∧
    d.delItem n = d.delItem m ∧ ∀ v, d.update E at_ [(n, v)] = d.update E at_ [(m, v)] := by
  rw [sameName_iff] at h
  simp only [CSS.getItem, Decl.setItem, Decl.delItem, Decl.update, Decl.updateFrom, Decl.updateOne, h]
  exact ⟨trivial, fun _ => trivial, trivial, fun _ => trivial⟩

/-- A name that is no property, however written, is refused: `KeyError` from item access, `NameError`
from `update`; nothing changes. -/
theorem C33_unknown (E : Env) (at_ : List Nat) (d : Decl) (n : PyStr) (h : ∀ a, ¬ SameName n (cssName a).toList) :
    d.css.getItem n = .error .key ∧ (∀ v, d.setItem E at_ n v = (d, some .key)) ∧ d.delItem n = (d, some .key) ∧
    ∀ v, d.update E at_ [(n, v)] = (d, some .name) := by
  have h : attrOfName (normName n) = none := by
    cases hn : attrOfName (normName n) with
    | none => rfl
    | some a => exact absurd (attrOfName_iff.1 hn) (h a)
  simp only [CSS.getItem, Decl.setItem, Decl.delItem, Decl.update, Decl.updateFrom, Decl.updateOne, h]
  exact ⟨trivial, fun _ => trivial, trivial, fun _ => rfl⟩

/-- No name means two properties. -/
theorem C33_unambiguous (n : PyStr) (a b : Attr) (ha : SameName n (cssName a).toList)
    (hb : SameName n (cssName b).toList) : a = b := by
  have := (attrOfName_iff.2 ha).symm.trans (attrOfName_iff.2 hb)
  exact Option.some.inj this

example : SameName (lit "page_break-before") (cssName (.lh .pageBreakBefore)).toList :=
  sameName_iff.2 (by decide +kernel)
example : ∀ a, ¬ SameName (lit "margin--top") (cssName a).toList := by
  intro a h
  rw [sameName_iff] at h
  have : ∀ a ∈ allAttrs, normName (lit "margin--top") ≠ normName (cssName a).toList := by decide +kernel
  exact this a (mem_allAttrs a) h

/-! ## C34 -/

/-- The name of a property. -/
def Known (n : PyStr) : Prop := ∃ a, SameName n (cssName a).toList

/-- The individual assignments, in order, all succeed: item deletions for `None`, item assignments for
anything else. The assignments are labelled from `i` on. -/
inductive Chain (E : Env) (at_ : List Nat) : Nat → Decl → List (PyStr × Val) → Decl → Prop
  | nil (i : Nat) (d : Decl) : Chain E at_ i d [] d
  | del {i : Nat} {d d1 d2 : Decl} {n : PyStr} {r : List (PyStr × Val)} : d.delItem n = (d1, none) →
      Chain E at_ (i + 1) d1 r d2 → Chain E at_ i d ((n, .none) :: r) d2
  | set {i : Nat} {d d1 d2 : Decl} {n : PyStr} {v : Val} {r : List (PyStr × Val)} : v ≠ .none →
      d.setItem E (i :: at_) n v = (d1, none) → Chain E at_ (i + 1) d1 r d2 → Chain E at_ i d ((n, v) :: r) d2

/-- The assignment `n = v` raises `e` and leaves `d'`. -/
inductive Raises (E : Env) (l : List Nat) (d : Decl) (n : PyStr) (v : Val) : Decl → Err → Prop
  | unknown : ¬ Known n → Raises E l d n v d .name
  | refused {d' : Decl} {e : Err} : Known n → v ≠ .none → d.setItem E l n v = (d', some e) → Raises E l d n v d' e

theorem updateOne_cases (E : Env) (l : List Nat) (d : Decl) (n : PyStr) (v : Val) :
    (¬ Known n ∧ d.updateOne E l n v = (d, some .name) ∧ d.delItem n = (d, some .key) ∧ d.setItem E l n v = (d, some .key)) ∨
    (Known n ∧ v = .none ∧ d.updateOne E l n v = d.delItem n ∧ (d.delItem n).2 = none) ∨
    (Known n ∧ v ≠ .none ∧ d.updateOne E l n v = d.setItem E l n v) := by
  unfold Decl.updateOne Decl.delItem Decl.setItem
  cases h : attrOfName (normName n) with
  | none =>
    refine Or.inl ⟨?_, rfl, rfl, rfl⟩
    rintro ⟨a, ha⟩
    rw [attrOfName_iff.2 ha] at h; cases h
  | some a =>
    have hk : Known n := ⟨a, attrOfName_iff.1 h⟩
    cases v with
    | none => exact Or.inr (Or.inl ⟨hk, rfl, rfl, rfl⟩)
    | _ => exact Or.inr (Or.inr ⟨hk, by simp, rfl⟩)

theorem updateFrom_chain (E : Env) (at_ : List Nat) (kvs : List (PyStr × Val)) : ∀ (i : Nat) (d d' : Decl),
    d.updateFrom E at_ i kvs = (d', none) ↔ Chain E at_ i d kvs d' := by
  induction kvs with
  | nil =>
    intro i d d'
    simp only [Decl.updateFrom]
    constructor
    · intro h; cases h; exact .nil i d
    · intro h; cases h; rfl
  | cons x r ih =>
    intro i d d'
    obtain ⟨n, v⟩ := x
    simp only [Decl.updateFrom]
    rcases updateOne_cases E (i :: at_) d n v with ⟨_, h1, h2, h3⟩ | ⟨_, rfl, h1, h2⟩ | ⟨_, hv, h1⟩
    · rw [h1]
      constructor
      · intro h; cases h
      · intro h
        cases h with
        | del hd _ => rw [h2] at hd; cases hd
        | set _ hd _ => rw [h3] at hd; cases hd
    · rw [h1]
      constructor
      · intro h
        obtain ⟨d1, hd, hr⟩ := andThen_none h
        exact .del hd ((ih ..).1 hr)
      · intro h
        cases h with
        | del hd hr => rw [hd]; exact (ih ..).2 hr
        | set hv _ _ => exact absurd rfl hv
    · rw [h1]
      constructor
      · intro h
        obtain ⟨d1, hd, hr⟩ := andThen_none h
        exact .set hv hd ((ih ..).1 hr)
      · intro h
        cases h with
        | del _ _ => exact absurd rfl hv
        | set _ hd hr => rw [hd]; exact (ih ..).2 hr

/-- C34. `update` succeeds exactly when the individual assignments in order do, and then has their
effect. -/
theorem C34_success (E : Env) (at_ : List Nat) (d d' : Decl) (kvs : List (PyStr × Val)) :
    d.update E at_ kvs = (d', none) ↔ Chain E at_ 0 d kvs d' := updateFrom_chain E at_ kvs 0 d d'

theorem updateFrom_raises (E : Env) (at_ : List Nat) (kvs : List (PyStr × Val)) : ∀ (i : Nat) (d d' : Decl) (e : Err),
    d.updateFrom E at_ i kvs = (d', some e) ↔ ∃ pre n v post d1, kvs = pre ++ (n, v) :: post ∧
      Chain E at_ i d pre d1 ∧ Raises E ((i + pre.length) :: at_) d1 n v d' e := by
  induction kvs with
  | nil =>
    intro i d d' e
    simp only [Decl.updateFrom]
    constructor
    · intro h; cases h
    · rintro ⟨pre, n, v, post, d1, h, _⟩; simp at h
  | cons x r ih =>
    intro i d d' e
    obtain ⟨n, v⟩ := x
    simp only [Decl.updateFrom]
    constructor
    · intro h
      rcases andThen_some h with h | ⟨d1, h1, h2⟩
      · refine ⟨[], n, v, r, d, rfl, .nil i d, ?_⟩
        simp only [List.length_nil, Nat.add_zero]
        rcases updateOne_cases E (i :: at_) d n v with ⟨hk, h1, _, _⟩ | ⟨_, rfl, h1, h2⟩ | ⟨hk, hv, h1⟩
        · rw [h1] at h; cases h; exact .unknown hk
        · rw [h1] at h; rw [h] at h2; cases h2
        · rw [h1] at h; exact .refused hk hv h
      · obtain ⟨pre, n', v', post, d2, rfl, hc, hr⟩ := (ih ..).1 h2
        refine ⟨(n, v) :: pre, n', v', post, d2, rfl, ?_, ?_⟩
        · rcases updateOne_cases E (i :: at_) d n v with ⟨hk, h3, _, _⟩ | ⟨_, rfl, h3, _⟩ | ⟨hk, hv, h3⟩
          · rw [h3] at h1; cases h1
          · rw [h3] at h1; exact .del h1 hc
          · rw [h3] at h1; exact .set hv h1 hc
        · have : i + 1 + pre.length = i + ((n, v) :: pre).length := by simp; omega
          rw [← this]; exact hr
    · rintro ⟨pre, n', v', post, d1, hs, hc, hr⟩
      cases pre with
      | nil =>
        simp only [List.nil_append, List.cons.injEq, Prod.mk.injEq] at hs
        obtain ⟨⟨rfl, rfl⟩, rfl⟩ := hs
        cases hc
        simp only [List.length_nil, Nat.add_zero] at hr
        have : d.updateOne E (i :: at_) n v = (d', some e) := by
          rcases updateOne_cases E (i :: at_) d n v with ⟨hk, h3, _, _⟩ | ⟨hk, rfl, h3, _⟩ | ⟨hk, hv, h3⟩
          · cases hr with
            | unknown _ => exact h3
            | refused hk' _ _ => exact absurd hk' hk
          · cases hr with
            | unknown hk' => exact absurd hk hk'
            | refused _ hv _ => exact absurd rfl hv
          · cases hr with
            | unknown hk' => exact absurd hk hk'
            | refused _ _ h => rw [h3]; exact h
        rw [this]; rfl
      | cons y pre =>
        simp only [List.cons_append, List.cons.injEq] at hs
        obtain ⟨rfl, rfl⟩ := hs
        have step : ∃ d2, d.updateOne E (i :: at_) n v = (d2, none) ∧ Chain E at_ (i + 1) d2 pre d1 := by
          rcases updateOne_cases E (i :: at_) d n v with ⟨hk, _, h4, h5⟩ | ⟨_, rfl, h3, _⟩ | ⟨hk, hv, h3⟩
          · cases hc with
            | del hd _ => rw [h4] at hd; cases hd
            | set _ hd _ => rw [h5] at hd; cases hd
          · cases hc with
            | del hd hr => exact ⟨_, h3.trans hd, hr⟩
            | set hv _ _ => exact absurd rfl hv
          · cases hc with
            | del _ _ => exact absurd rfl hv
            | set _ hd hr => exact ⟨_, h3.trans hd, hr⟩
        obtain ⟨d2, h2, hc'⟩ := step
        rw [h2]
        refine (ih ..).2 ⟨pre, n', v', post, d1, rfl, hc', ?_⟩
        have : i + 1 + pre.length = i + ((n, v) :: pre).length := by simp; omega
        rw [this]; exact hr

/-- C34. `update` raises exactly when one of the individual assignments does, after those before it have
succeeded; their effects stay, those after it have none. -/
theorem C34_failure (E : Env) (at_ : List Nat) (d d' : Decl) (kvs : List (PyStr × Val)) (e : Err) :
    d.update E at_ kvs = (d', some e) ↔ ∃ pre n v post d1, kvs = pre ++ (n, v) :: post ∧
      Chain E at_ 0 d pre d1 ∧ Raises E (pre.length :: at_) d1 n v d' e := by
  have := updateFrom_raises E at_ kvs 0 d d' e
  simp only [Nat.zero_add] at this
  exact this

/-- `update(margin_top=1, bogus=2, width=3)`: the first assignment stays, the third has no effect. -/
example (E : Env) : ∃ d', (Decl.mk CSS.empty .unbound).update E [0]
      [(lit "margin_top", .num (.fin (.int 1))), (lit "bogus", .num (.fin (.int 2))), (lit "width", .num (.fin (.int 3)))]
        = (d', some .name) ∧
    d'.css (.margin .top) = some (.unit ⟨.len .px, .fin (.int 1)⟩) ∧ d'.css .width = none := ⟨_, rfl, rfl, rfl⟩

/-! ## C35 -/

theorem mem_items {c : CSS} {p : LH} {v : Val} : (p, v) ∈ c.items ↔ c p = some v := by
  unfold CSS.items
  rw [List.mem_filterMap]
  constructor
  · rintro ⟨q, _, h⟩
    cases hq : c q with
    | none => rw [hq] at h; cases h
    | some w => rw [hq] at h; cases h; exact hq
  · intro h
    exact ⟨p, mem_allLH p, by rw [h]; rfl⟩

/-- C35. `items()` has exactly the stored properties with their values, `keys()` exactly the names in
`items()`; no property appears twice in either. -/
theorem C35_keys_items (c : CSS) :
    (∀ p v, (p, v) ∈ c.items ↔ c p = some v) ∧ (∀ p, p ∈ c.keys ↔ ∃ v, (p, v) ∈ c.items) ∧
    (c.items.map Prod.fst).Nodup ∧ c.keys.Nodup := by
  have hn : allLH.Nodup := by decide +kernel
  refine ⟨fun p v => mem_items, fun p => ?_, ?_, hn.filter _⟩
  · simp only [CSS.keys, List.mem_filter, mem_items, Option.isSome_iff_exists]
    exact ⟨fun h => h.2, fun h => ⟨mem_allLH p, h⟩⟩
  · have : c.items.map Prod.fst = c.keys := by
      unfold CSS.items CSS.keys
      induction allLH with
      | nil => rfl
      | cons q qs ih =>
        rw [List.filterMap_cons, List.filter_cons]
        cases c q with
        | none => simpa using ih
        | some v => simpa using ih
    rw [this]
    exact hn.filter _

theorem before_of_strLe {a b : PyStr} (h : strLe a b = true) : a = b ∨ Before a b := by
  induction a generalizing b with
  | nil =>
    cases b with
    | nil => exact Or.inl rfl
    | cons c s => exact Or.inr (.nil c s)
  | cons c a ih =>
    cases b with
    | nil => cases h
    | cons d b =>
      simp only [strLe] at h
      split at h
      · rename_i e
        subst e
        rcases ih h with rfl | h
        · exact Or.inl rfl
        · exact Or.inr (.tail c h)
      · exact Or.inr (.head (by simpa using h))

theorem strLe_total (a b : PyStr) : strLe a b = true ∨ strLe b a = true := by
  induction a generalizing b with
  | nil => exact Or.inl rfl
  | cons c a ih =>
    cases b with
    | nil => exact Or.inr rfl
    | cons d b =>
      simp only [strLe]
      by_cases h : c = d
      · subst h; simpa using ih b
      · have h' : d ≠ c := fun e => h e.symm
        have hn : c.toNat ≠ d.toNat := fun e => h (Char.toNat_inj.1 e)
        rw [if_neg h, if_neg h']
        simp only [decide_eq_true_eq]
        omega

theorem strLe_trans {a b c : PyStr} (h : strLe a b = true) (h' : strLe b c = true) : strLe a c = true := by
  induction a generalizing b c with
  | nil => rfl
  | cons x a ih =>
    cases b with
    | nil => cases h
    | cons y b =>
      cases c with
      | nil => cases h'
      | cons z c =>
        simp only [strLe] at h h' ⊢
        by_cases h1 : x = y
        · subst h1
          rw [if_pos rfl] at h
          by_cases h2 : x = z
          · subst h2
            rw [if_pos rfl] at h' ⊢
            exact ih h h'
          · rw [if_neg h2] at h' ⊢; exact h'
        · rw [if_neg h1] at h
          by_cases h2 : y = z
          · subst h2
            rw [if_neg h1]; exact h
          · rw [if_neg h2] at h'
            simp only [decide_eq_true_eq] at h h'
            have : x ≠ z := by rintro rfl; omega
            rw [if_neg this]
            simp only [decide_eq_true_eq]
            omega

theorem insert_perm (x : PyStr × Val) (ys : List (PyStr × Val)) : (insertByName x ys).Perm (x :: ys) := by
  induction ys with
  | nil => exact .refl _
  | cons y ys ih =>
    simp only [insertByName]
    split
    · exact .refl _
    · exact (ih.cons y).trans (.swap x y ys)

theorem sort_perm (xs : List (PyStr × Val)) : (sortByName xs).Perm xs := by
  induction xs with
  | nil => exact .refl _
  | cons x xs ih => exact (insert_perm x _).trans (ih.cons x)

theorem insert_sorted (x : PyStr × Val) (ys : List (PyStr × Val)) (h : ys.Pairwise fun a b => strLe a.1 b.1 = true) :
    (insertByName x ys).Pairwise fun a b => strLe a.1 b.1 = true := by
  induction ys with
  | nil => simp [insertByName]
  | cons y ys ih =>
    rw [List.pairwise_cons] at h
    simp only [insertByName]
    split
    · rename_i hxy
      rw [List.pairwise_cons]
      refine ⟨?_, List.pairwise_cons.2 h⟩
      intro z hz
      rcases List.mem_cons.1 hz with rfl | hz
      · exact hxy
      · exact strLe_trans hxy (h.1 z hz)
    · rename_i hxy
      rw [List.pairwise_cons]
      refine ⟨?_, ih h.2⟩
      intro z hz
      rcases List.mem_cons.1 ((insert_perm x ys).mem_iff.1 hz) with rfl | hz
      · rcases strLe_total y.1 z.1 with h | h
        · exact h
        · exact absurd h hxy
      · exact h.1 z hz

theorem sort_sorted (xs : List (PyStr × Val)) : (sortByName xs).Pairwise fun a b => strLe a.1 b.1 = true := by
  induction xs with
  | nil => exact .nil
  | cons x xs ih => exact insert_sorted x _ ih

theorem rendered_names : ∀ p ∈ allLH, replaceChar '_' '-' p.name = (cssName (.lh p)).toList := by decide +kernel

theorem cssName_inj {a b : Attr} (h : cssName a = cssName b) : a = b := by
  refine C33_unambiguous (cssName a).toList a b (sameName_iff.2 rfl) (sameName_iff.2 ?_)
  rw [h]

/-- C35. `str()` lists exactly the stored properties, each once, under its CSS name, in ascending order
of the names. -/
theorem C35_str_order (c : CSS) :
    (∀ n v, (n, v) ∈ c.rendered ↔ ∃ p, n = (cssName (.lh p)).toList ∧ c p = some v) ∧
    c.rendered.Pairwise (fun x y => Before x.1 y.1) := by
  have hm : ∀ n v, (n, v) ∈ c.rendered ↔ ∃ p, n = (cssName (.lh p)).toList ∧ c p = some v := by
    intro n v
    unfold CSS.rendered
    rw [(sort_perm _).mem_iff, List.mem_map]
    constructor
    · rintro ⟨⟨p, w⟩, h, e⟩
      simp only [Prod.mk.injEq] at e
      obtain ⟨rfl, rfl⟩ := e
      exact ⟨p, rendered_names p (mem_allLH p), mem_items.1 h⟩
    · rintro ⟨p, rfl, h⟩
      exact ⟨(p, v), mem_items.2 h, by simp only [rendered_names p (mem_allLH p)]⟩
  refine ⟨hm, ?_⟩
  have hnod : (c.rendered.map Prod.fst).Nodup := by
    unfold CSS.rendered
    rw [((sort_perm _).map Prod.fst).nodup_iff, List.map_map]
    have hn := (C35_keys_items c).2.2.1
    have : (c.items.map (Prod.fst ∘ fun x : LH × Val => (replaceChar '_' '-' x.1.name, x.2))) =
        (c.items.map Prod.fst).map fun p => (cssName (.lh p)).toList := by
      rw [List.map_map]
      refine List.map_congr_left ?_
      rintro ⟨p, v⟩ _
      exact rendered_names p (mem_allLH p)
    rw [this]
    refine hn.map_on ?_
    intro p _ q _ e
    have : cssName (.lh p) = cssName (.lh q) := String.ext (by simpa using e)
    exact Attr.lh.inj (cssName_inj this)
  have hs : c.rendered.Pairwise fun a b => strLe a.1 b.1 = true := sort_sorted _
  have hne : c.rendered.Pairwise fun a b => a.1 ≠ b.1 := by
    rw [List.Nodup, List.pairwise_map] at hnod
    exact hnod
  refine (hs.and hne).imp ?_
  rintro a b ⟨h1, h2⟩
  rcases before_of_strLe h1 with h | h
  · exact absurd h h2
  · exact h

/-- Alphabetical order is a strict order, so the order of the names in `str()` is determined. -/
theorem C35_before_strict (a b : PyStr) (h : Before a b) : a ≠ b ∧ ¬ Before b a := by
  induction h with
  | nil c s => exact ⟨by simp, fun h => by cases h⟩
  | @head c d s t h =>
    refine ⟨fun e => ?_, fun h' => ?_⟩
    · cases e; omega
    · cases h' with
      | head h' => omega
      | tail _ h' => omega
  | @tail c s t _ ih =>
    refine ⟨fun e => ih.1 (by cases e; rfl), fun h' => ?_⟩
    cases h' with
    | head h' => omega
    | tail _ h' => exact ih.2 h'

/-- No name of a four-sided or shorthand property is listed. -/
theorem C35_single (c : CSS) (n : PyStr) (v : Val) (h : (n, v) ∈ c.rendered) (a : Attr)
    (ha : n = (cssName a).toList) : ∃ p, a = .lh p := by
  obtain ⟨p, hp, _⟩ := ((C35_str_order c).1 n v).1 h
  refine ⟨p, cssName_inj (String.ext ?_)⟩
  rw [← ha]; exact hp

/-- The text: `name: value` for each, separated by `"; "`. -/
theorem C35_str_text (showVal : Val → PyStr) (c : CSS) :
    c.show showVal = List.intercalate (lit "; ") (c.rendered.map fun x => x.1 ++ lit ": " ++ showVal x.2) := by
  have go : ∀ xs : List PyStr, CSS.show.go xs = List.intercalate (lit "; ") xs := by
    intro xs
    induction xs with
    | nil => rfl
    | cons a r ih =>
      cases r with
      | nil => simp [CSS.show.go]
      | cons b r =>
        simp only [CSS.show.go, ih]
        simp [List.intercalate, List.intersperse]
  exact go _

/-- A declaration with two properties: hyphenated names in alphabetical order. -/
example (E : Env) : ((Decl.mk CSS.empty .unbound).update E []
      [(lit "z_index", .num (.fin (.int 3))), (lit "margin_top", .num (.fin (.int 1)))]).1.css.rendered =
    [(lit "margin-top", .unit ⟨.len .px, .fin (.int 1)⟩), (lit "z-index", .num (.fin (.int 3)))] := by rfl

/-! ## C62: the initial values -/

/-- The `initial=` literals of the declaration, written as in the source. -/
def initialLiteral : LH → Option Val
  | .margin _ | .padding _ | .borderWidth _ | .textIndent | .borderSpacing => some (.num (.fin (.int 0)))
  | .orphans | .widows => some (.num (.fin (.int 2)))
  | .borderStyle _ | .outlineStyle | .float | .clear | .maxWidth | .maxHeight | .textDecoration | .textTransform =>
    some .none
  | .color | .backgroundColor => some .dflt
  | .borderColor _ | .textAlign => none
  | .display => some (.str (lit "inline"))
  | .position => some (.str (lit "static"))
  | .direction => some (.str (lit "ltr"))
  | .unicodeBidi | .letterSpacing | .wordSpacing | .whiteSpace => some (.str (lit "normal"))
  | .overflow | .visibility => some (.str (lit "visible"))
  | .quotes => some (.str (lit "initial"))
  | .captionSide => some (.str (lit "top"))
  | .borderCollapse => some (.str (lit "separate"))
  | .emptyCells => some (.str (lit "show"))
  | .outlineWidth => some (.str (lit "medium"))
  | .outlineColor => some (.str (lit "invert"))
  | _ => some (.str (lit "auto"))

/-- C62. The initial value of every property that does not follow another is what the property makes of
the literal in its declaration, up to the identity of the object. -/
theorem C62_initial_is_validated (E : Env) (at_ : List Nat) (p : LH) (v : Val) (h : initialLiteral p = some v) :
    ∃ w, p.choices.validate E at_ v = .ok w ∧ ∃ i, p.initial = .const i ∧ i.forget = w.forget := by
  cases p <;> cases h <;> exact ⟨_, rfl, _, rfl, rfl⟩

/-- The remaining properties follow `color` and `direction`. -/
theorem C62_followers (p : LH) : initialLiteral p = none ↔ follows p ≠ none := by
  cases p <;> simp [initialLiteral, follows]

end Colosseum
