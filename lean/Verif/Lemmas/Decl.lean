import Verif.Lemmas.Style
import Verif.Model.History

/-! # Helper lemmas on the setters and on histories -/

namespace Colosseum

/-- Every value held is canonical. -/
def CSS.Canon (c : CSS) : Prop := ∀ p v, c p = some v → Canonical p v

theorem store_same (c : CSS) (p : LH) (v : Val) : c.store p v p = some v := by simp [CSS.store]
theorem store_other (c : CSS) {p q : LH} (v : Val) (h : q ≠ p) : c.store p v q = c q := by simp [CSS.store, h]
theorem erase_same (c : CSS) (p : LH) : c.erase p p = none := by simp [CSS.erase]
theorem erase_other (c : CSS) {p q : LH} (h : q ≠ p) : c.erase p q = c q := by simp [CSS.erase, h]

theorem markDirty_css (d : Decl) : d.markDirty.1.css = d.css := by
  unfold Decl.markDirty
  split <;> rfl

theorem del_css (d : Decl) (p : LH) : (d.del p).css = d.css.erase p := by
  unfold Decl.del
  split
  · rename_i h
    funext q
    by_cases e : q = p
    · subst e; rw [erase_same, h]
    · rw [erase_other _ e]
  · rw [markDirty_css]

/-- The cases of an assignment to a single property. -/
theorem set_cases (E : Env) (at_ : List Nat) (d : Decl) (p : LH) (v : Val) :
    (∃ e, p.choices.validate E at_ v = .error e ∧ ∃ e', d.set E at_ p v = (d, some e')) ∨
    (∃ w, p.choices.validate E at_ v = .ok w ∧ differs d.css p w = false ∧ d.set E at_ p v = (d, none)) ∨
    (∃ w, p.choices.validate E at_ v = .ok w ∧ differs d.css p w = true ∧
      d.set E at_ p v = Decl.markDirty { d with css := d.css.store p w }) := by
  unfold Decl.set
  cases h : p.choices.validate E at_ v with
  | error e =>
    refine Or.inl ⟨e, rfl, ?_⟩
    simp only
    split
    · split <;> exact ⟨_, rfl⟩
    · exact ⟨_, rfl⟩
  | ok w =>
    refine Or.inr ?_
    simp only
    cases hd : differs d.css p w with
    | false => exact Or.inl ⟨w, rfl, hd, by simp⟩
    | true => exact Or.inr ⟨w, rfl, hd, by simp⟩

/-- A property of declarations preserved by single assignments, deletions and marking is preserved by
every operation. -/
structure Stable (E : Env) (P : Decl → Prop) : Prop where
  set : ∀ at_ d p v, P d → P (d.set E at_ p v).1
  del : ∀ d p, P d → P (d.del p)
  mark : ∀ d : Decl, P d → P d.markDirty.1

namespace Stable

variable {E : Env} {P : Decl → Prop} (S : Stable E P)
include S

omit S in
theorem andThen {o : Out} {f : Decl → Out} (ho : P o.1) (hf : ∀ d, P d → P (f d).1) :
    P (o.andThen f).1 := by
  obtain ⟨d, e⟩ := o
  cases e with
  | none => exact hf d ho
  | some e => exact ho

theorem setSides {at_ : List Nat} {d : Decl} (k : Dir) (t r b l : Val) (h : P d) :
    P (d.setSides E at_ k t r b l).1 := by
  unfold Decl.setSides
  refine Stable.andThen (Stable.andThen (Stable.andThen (S.set _ _ _ _ h) ?_) ?_) ?_ <;>
    exact fun d h => S.set _ _ _ _ h

theorem setDir {at_ : List Nat} {d : Decl} (k : Dir) (v : Val) (h : P d) : P (d.setDir E at_ k v).1 := by
  unfold Decl.setDir
  split <;> first | exact S.setSides _ _ _ _ _ h | exact h

theorem delDir {d : Decl} (k : Dir) (h : P d) : P (d.delDir k) :=
  S.del _ _ (S.del _ _ (S.del _ _ (S.del _ _ h)))

theorem setBasic {at_ : List Nat} {d : Decl} (a : Attr) (v : Val) (h : P d) :
    P (d.setBasic E at_ a v).1 := by
  cases a with
  | lh p => exact S.set _ _ _ _ h
  | dir k => exact S.setDir k v h
  | sh s => exact h

theorem delBasic {d : Decl} (a : Attr) (h : P d) : P (d.delBasic a) := by
  cases a with
  | lh p => exact S.del _ _ h
  | dir k => exact S.delDir k h
  | sh s => exact h

theorem applyParts {at_ : List Nat} (dict : List (Part × Val)) (ks : List (Part × Attr)) :
    ∀ {d : Decl}, P d → P (applyParts E at_ dict ks d).1 := by
  induction ks with
  | nil => exact fun h => h
  | cons x ks ih =>
    intro d h
    obtain ⟨k, a⟩ := x
    simp only [Colosseum.applyParts]
    refine Stable.andThen ?_ fun d h => ih h
    split
    · exact S.setBasic a _ h
    · exact S.delBasic a h

theorem setSH {at_ : List Nat} {d : Decl} (s : SH) (v : Val) (h : P d) : P (d.setSH E at_ s v).1 := by
  unfold Decl.setSH
  split
  · exact h
  · exact h
  · exact Stable.andThen (S.applyParts _ _ h) fun d h => S.mark d h

theorem delKeys (ks : List (Part × Attr)) : ∀ {d : Decl}, P d → P (delKeys ks d) := by
  induction ks with
  | nil => exact fun h => h
  | cons x ks ih =>
    intro d h
    exact ih (S.mark _ (S.delBasic _ h))

theorem setAttr {at_ : List Nat} {d : Decl} (a : Attr) (v : Val) (h : P d) : P (d.setAttr E at_ a v).1 := by
  cases a with
  | lh p => exact S.set _ _ _ _ h
  | dir k => exact S.setDir k v h
  | sh s => exact S.setSH s v h

theorem delAttr {d : Decl} (a : Attr) (h : P d) : P (d.delAttr a) := by
  cases a with
  | lh p => exact S.del _ _ h
  | dir k => exact S.delDir k h
  | sh s => exact S.delKeys _ h

theorem updateOne {at_ : List Nat} {d : Decl} (n : PyStr) (v : Val) (h : P d) :
    P (d.updateOne E at_ n v).1 := by
  unfold Decl.updateOne
  split
  · exact h
  · split
    · exact S.delAttr _ h
    · exact S.setAttr _ _ h

theorem updateFrom {at_ : List Nat} (kvs : List (PyStr × Val)) :
    ∀ (i : Nat) {d : Decl}, P d → P (Decl.updateFrom E at_ i d kvs).1 := by
  induction kvs with
  | nil => exact fun _ _ h => h
  | cons x kvs ih =>
    intro i d h
    obtain ⟨n, v⟩ := x
    exact Stable.andThen (S.updateOne n v h) fun d h => ih _ h

theorem step {at_ : List Nat} {d : Decl} (o : Op) (ho : ∀ l, o = .bind l → P { d with link := l }) (h : P d) : P (d.step E at_ o).1 := by
  cases o with
  | setAttr a v => exact S.setAttr a v h
  | delAttr a => exact S.delAttr a h
  | setItem n v =>
    simp only [Decl.step, Decl.setItem]
    split
    · exact h
    · exact S.setAttr _ v h
  | delItem n =>
    simp only [Decl.step, Decl.delItem]
    split
    · exact h
    · exact S.delAttr _ h
  | update kvs => exact S.updateFrom kvs 0 h
  | bind l => exact ho l rfl

theorem run (hl : ∀ (d : Decl) l, P d → P { d with link := l }) (ops : List Op) : ∀ (i : Nat) {d : Decl}, P d → P (Decl.run E i d ops) := by
  induction ops with
  | nil => exact fun _ _ h => h
  | cons o ops ih => exact fun i d h => ih (i + 1) (S.step o (fun l _ => hl d l h) h)

theorem reachable (hl : ∀ (d : Decl) l, P d → P { d with link := l }) {d : Decl} (h0 : P ⟨CSS.empty, .unbound⟩) (h : Reachable E d) : P d := by
  obtain ⟨ops, rfl⟩ := h
  exact S.run hl ops 0 h0

theorem copyLoop {at_ : List Nat} (src : CSS) (ps : List LH) :
    ∀ (i : Nat) {d : Decl}, P d → P (copyLoop E at_ src i ps d).1 := by
  induction ps with
  | nil => exact fun _ _ h => h
  | cons p ps ih =>
    intro i d h
    simp only [Colosseum.copyLoop]
    split
    · exact ih _ h
    · rename_i v hv
      have h1 := S.set (i :: at_) d p v h
      split
      · rename_i d' hs; rw [hs] at h1; exact ih _ h1
      · rename_i d' hs; rw [hs] at h1; exact ih _ h1
      · rename_i d' e _ hs; rw [hs] at h1; exact h1

end Stable

/-- A property of stored values that validation establishes is preserved by every operation. -/
theorem stored_stable (E : Env) (Q : LH → Val → Prop)
    (hQ : ∀ p at_ v w, p.choices.validate E at_ v = .ok w → Q p w) :
    Stable E fun d => ∀ p v, d.css p = some v → Q p v where
  set at_ d p v h := by
    rcases set_cases E at_ d p v with ⟨_, _, _, hs⟩ | ⟨_, _, _, hs⟩ | ⟨w, hw, _, hs⟩
    · rw [hs]; exact h
    · rw [hs]; exact h
    · rw [hs, markDirty_css]
      intro q u hq
      replace hq : d.css.store p w q = some u := hq
      by_cases e : q = p
      · subst e
        rw [store_same] at hq
        cases hq
        exact hQ _ _ _ _ hw
      · rw [store_other _ _ e] at hq
        exact h q u hq
  del d p h := by
    rw [del_css]
    intro q u hq
    by_cases e : q = p
    · subst e; rw [erase_same] at hq; cases hq
    · rw [erase_other _ e] at hq; exact h q u hq
  mark d h := by rw [markDirty_css]; exact h

/-- Being canonical is preserved by every operation. -/
theorem canon_stable (E : Env) : Stable E fun d => d.css.Canon :=
  stored_stable E Canonical fun _ _ _ _ h => validate_canonical h

theorem canon_empty : CSS.empty.Canon := fun _ _ h => by cases h

theorem canon_reachable {E : Env} {d : Decl} (h : Reachable E d) : d.css.Canon :=
  (canon_stable E).reachable (fun _ _ h => h) canon_empty h

/-! ## Reading -/

theorem direction_get {c : CSS} (hc : c.Canon) : c.get .direction = kw "ltr" ∨ c.get .direction = kw "rtl" := by
  unfold CSS.get
  cases h : c .direction with
  | none => exact Or.inl rfl
  | some v =>
    rcases hc _ _ h with hk | ⟨k, hk, _⟩
    · rcases keyword_cases hk with ⟨s, hs, rfl⟩ | ⟨_, e | e⟩
      · simp only [keywordNames, List.mem_cons, List.not_mem_nil, or_false] at hs
        rcases hs with rfl | rfl
        · exact Or.inl rfl
        · exact Or.inr rfl
      · cases e
      · cases e
    · cases hk

/-- The values a declaration shows. -/
def CSS.value (c : CSS) (p : LH) : Val := (c p).getD (cssInitial c.get p)

theorem get_const {c : CSS} {p : LH} {v : Val} (h : p.initial = .const v) : c.get p = (c p).getD v := by
  simp [CSS.get, LH.constInit, h]

theorem read_value {c : CSS} (hc : c.Canon) (p : LH) : c.read p = .ok (c.value p) := by
  unfold CSS.value
  cases p <;> first
    | rfl
    | skip
  -- text_align
  unfold CSS.read
  rcases direction_get hc with h | h
  · simp [LH.initial, h, Val.pyEq, cssInitial, keywordVal]
    rfl
  · simp [LH.initial, h, Val.pyEq, cssInitial, keywordVal]
    rfl

/-- The initial values of the code are those of the specification. -/
theorem initial_const (f : LH → Val) (p : LH) (h : follows p = none) : p.initial = .const (cssInitial f p) := by
  cases p <;> first | rfl | cases h

theorem differs_value (c : CSS) (p : LH) (w : Val) (h : follows p = none ∨ c p ≠ none) :
    differs c p w = !w.pyEq (c.value p) := by
  unfold differs CSS.value
  cases hc : c p with
  | some v => rfl
  | none => rw [initial_const c.get p (h.resolve_right (by simp [hc]))]; rfl

theorem differs_follower (c : CSS) (p : LH) (w : Val) (h : follows p ≠ none) (hc : c p = none) :
    differs c p w = true := by
  unfold differs
  rw [hc]
  cases p <;> first | rfl | exact absurd rfl h

theorem differs_false {c : CSS} {p : LH} {w : Val} (h : differs c p w = false) :
    w.pyEq (c.value p) = true ∧ (follows p = none ∨ c p ≠ none) := by
  have hf : follows p = none ∨ c p ≠ none := by
    by_contra hn
    rw [not_or, not_not] at hn
    rw [differs_follower c p w hn.1 hn.2] at h
    cases h
  refine ⟨?_, hf⟩
  rw [differs_value c p w hf] at h
  simpa using h

theorem value_get (c : CSS) (p : LH) (h : follows p = none) : c.value p = c.get p := by
  cases p <;> first | rfl | cases h

end Colosseum
