import Verif.Props.Boxes
import Verif.Props.Independent

/-!
# C115: elements that have no box yet
-/

namespace Colosseum

/-- Writes to the box itself: `node.layout.x = v`, `node.layout.reset()`. -/
def NodeOp.OnBox : NodeOp → Prop
  | .move _ _ | .margin _ _ | .collapse _ _ | .dirty _ | .reset => True
  | .size _ | .setStyle _ _ _ | .delStyle _ => False

/-- C115. Without a box there is nothing to write to: `AttributeError`, and the document is as before. -/
theorem C115_box (E : Env) (n : Node) (o : NodeOp) (ho : o.OnBox) :
    (n.layout = none → n.apply E o = (n, some .attribute)) ∧ (n.layout ≠ none → (n.apply E o).2 = none) := by
  cases n with
  | mk s z l cs =>
    cases l with
    | none =>
      refine ⟨fun _ => ?_, fun h => absurd rfl h⟩
      cases o with
      | reset => simp only [Node.apply, Node.reset, Node.depth, Node.resetFuel]; rfl
      | dirty v => simp only [Node.apply, Node.markLayout, Node.setDirty]; rfl
      | size _ | setStyle _ _ _ | delStyle _ => cases ho
      | _ => rfl
    | some b =>
      refine ⟨(fun h => by cases h), fun _ => ?_⟩
      cases o with
      | size _ | setStyle _ _ _ | delStyle _ => cases ho
      | _ => rfl

/-- The same for an intrinsic size: a change is stored although it raises `AttributeError`. -/
theorem C115_size (E : Env) (n : Node) (x : SizeAttr) (hn : n.layout = none) :
    (n.apply E (.size x)).1.intrinsic.Has x ∧ (n.apply E (.size x)).1.style = n.style ∧
      ((n.apply E (.size x)).2 = some .attribute ↔ ¬ n.intrinsic.Has x) ∧ ((n.apply E (.size x)).2 = none ↔ n.intrinsic.Has x) := by
  change (n.setSize x).1.intrinsic.Has x ∧ (n.setSize x).1.style = n.style ∧ ((n.setSize x).2 = some .attribute ↔ _) ∧ ((n.setSize x).2 = none ↔ _)
  obtain ⟨h1, h2⟩ := C38_size n x
  by_cases h : n.intrinsic.Has x
  · rw [h1 h]; simp [h]
  · obtain ⟨-, a, b, -, -, c⟩ := h2 h
    rw [c, hn]; simp [h, a, b]

/-- The style of a node without box is written by way of a declaration that has none. -/
theorem C115_style (E : Env) (n : Node) (hn : n.layout = none) (a : Attr) :
    (∀ at_ v, (n.apply E (.setStyle at_ a v)).2 = ((⟨n.style, .noBox⟩ : Decl).setAttr E at_ a v).2 ∧
      (n.apply E (.setStyle at_ a v)).1 = .mk ((⟨n.style, .noBox⟩ : Decl).setAttr E at_ a v).1.css n.intrinsic none n.children) ∧
    (n.apply E (.delStyle a)).2 = none ∧ (n.apply E (.delStyle a)).1 = .mk ((⟨n.style, .noBox⟩ : Decl).delAttr a).css n.intrinsic none n.children := by
  cases n with
  | mk s z l cs => cases hn; exact ⟨fun _ _ => ⟨rfl, rfl⟩, rfl, rfl⟩

/-! ## Deleting -/

/-- Two declarations with the same values, the first without box, the second with one. -/
structure Unboxed (d d' : Decl) : Prop where
  css : d.css = d'.css
  boxless : d.link = .noBox
  boxed : ∃ b, d'.link = .box b

theorem Unboxed.del {d d' : Decl} (h : Unboxed d d') (p : LH) : Unboxed (d.del p) (d'.del p) := by
  obtain ⟨b, hb⟩ := h.boxed
  unfold Decl.del
  rw [h.css]
  cases d'.css p with
  | none => exact h
  | some v => exact ⟨by simp [Decl.markDirty, h.boxless, hb, h.css], by simp [Decl.markDirty, h.boxless], by simp [Decl.markDirty, hb]⟩

theorem Unboxed.mark {d d' : Decl} (h : Unboxed d d') : Unboxed d.markDirty.1 d'.markDirty.1 := by
  obtain ⟨b, hb⟩ := h.boxed
  exact ⟨by simp [Decl.markDirty, h.boxless, hb, h.css], by simp [Decl.markDirty, h.boxless], by simp [Decl.markDirty, hb]⟩

theorem Unboxed.delBasic {d d' : Decl} (h : Unboxed d d') (a : Attr) : Unboxed (d.delBasic a) (d'.delBasic a) := by
  cases a with
  | lh p => exact h.del p
  | dir k => exact (((h.del _).del _).del _).del _
  | sh s => exact h

theorem Unboxed.delAttr {d d' : Decl} (h : Unboxed d d') (a : Attr) : Unboxed (d.delAttr a) (d'.delAttr a) := by
  cases a with
  | lh p => exact h.del p
  | dir k => exact (((h.del _).del _).del _).del _
  | sh s =>
    have go : ∀ (ks : List (Part × Attr)) {d d' : Decl}, Unboxed d d' → Unboxed (delKeys ks d) (delKeys ks d') := by
      intro ks
      induction ks with
      | nil => exact fun h => h
      | cons k ks ih => exact fun h => ih (h.delBasic k.2).mark
    exact go _ h

/-- C115. Deleting works without a box as it does with one. -/
theorem C115_delete (c : CSS) (a : Attr) (b : Option Bool) :
    (⟨c, .noBox⟩ : Decl).delAttr a = ⟨((⟨c, .box b⟩ : Decl).delAttr a).css, .noBox⟩ := by
  have h := Unboxed.delAttr (d := ⟨c, .noBox⟩) (d' := ⟨c, .box b⟩) ⟨rfl, rfl, b, rfl⟩ a
  rw [← h.css]
  generalize (⟨c, .noBox⟩ : Decl).delAttr a = x at h ⊢
  cases x
  cases h.boxless
  rfl

/-! ## Assigning -/

/-- What an assignment does without a box, seen from what it does with a clean one: the same if that stays clean, and then the values are as they were; else
`AttributeError` with a single new value in store. -/
def Stopped (c : CSS) (r r' : Out) : Prop :=
  (r'.1 = ⟨c, .box (some false)⟩ ∧ r = (⟨c, .noBox⟩, r'.2)) ∨
  (r'.1.link = .box (some true) ∧ r.2 = some .attribute ∧ r.1.link = .noBox ∧ ∃ q w, r.1.css = c.store q w)

theorem stopped_set (E : Env) (at_ : List Nat) (c : CSS) (p : LH) (v : Val) :
    Stopped c ((⟨c, .noBox⟩ : Decl).set E at_ p v) ((⟨c, .box (some false)⟩ : Decl).set E at_ p v) := by
  unfold Decl.set
  cases p.choices.validate E at_ v with
  | error e =>
    refine Or.inl ?_
    simp only
    split
    · split <;> exact ⟨rfl, rfl⟩
    · exact ⟨rfl, rfl⟩
  | ok w =>
    simp only
    split
    · exact Or.inr ⟨rfl, rfl, rfl, p, w, rfl⟩
    · exact Or.inl ⟨rfl, rfl⟩

theorem set_keeps_mark (E : Env) (at_ : List Nat) (d : Decl) (p : LH) (v : Val) (h : d.link = .box (some true)) : (d.set E at_ p v).1.link = .box (some true) := by
  unfold Decl.set
  split
  · split
    · split <;> exact h
    · exact h
  · split
    · simp [Decl.markDirty, h]
    · exact h

theorem Stopped.andThen {E : Env} {c : CSS} {r r' : Out} (h : Stopped c r r') (at_ : List Nat) (p : LH) (v : Val) :
    Stopped c (r.andThen fun d => d.set E at_ p v) (r'.andThen fun d => d.set E at_ p v) := by
  rcases h with ⟨h1, h2⟩ | ⟨h1, h2, h3, q, w, h4⟩
  · obtain ⟨d', e⟩ := r'
    subst h2
    cases h1
    cases e with
    | none => exact stopped_set E at_ c p v
    | some e => exact Or.inl ⟨rfl, rfl⟩
  · obtain ⟨d, e⟩ := r
    obtain ⟨d', e'⟩ := r'
    cases h2
    refine Or.inr ⟨?_, rfl, h3, q, w, h4⟩
    cases e' with
    | none => exact set_keeps_mark E at_ d' p v h1
    | some e' => exact h1

/-- C115. An assignment to a property or to the four sides of one, on an element without box: nothing is different as long as the same assignment would leave
the clean box of an element clean; where it would mark it, the first new value is stored, the rest is not reached, and `AttributeError` is raised. -/
theorem C115_assign (E : Env) (at_ : List Nat) (c : CSS) (a : Attr) (ha : ∀ s, a ≠ .sh s) (v : Val) :
    let r := (⟨c, .noBox⟩ : Decl).setAttr E at_ a v
    let r' := (⟨c, .box (some false)⟩ : Decl).setAttr E at_ a v
    (r'.1 = ⟨c, .box (some false)⟩ ∧ r = (⟨c, .noBox⟩, r'.2)) ∨
    (r'.1.link = .box (some true) ∧ r.2 = some .attribute ∧ r.1.link = .noBox ∧ ∃ q w, r.1.css = c.store q w) := by
  cases a with
  | lh p => exact stopped_set E at_ c p v
  | sh s => exact absurd rfl (ha s)
  | dir k =>
    have go : ∀ t r b l, Stopped c ((⟨c, .noBox⟩ : Decl).setSides E at_ k t r b l) ((⟨c, .box (some false)⟩ : Decl).setSides E at_ k t r b l) :=
      fun t r b l => (((stopped_set E _ c _ t).andThen _ _ r).andThen _ _ b).andThen _ _ l
    show Stopped c ((⟨c, .noBox⟩ : Decl).setDir E at_ k v) ((⟨c, .box (some false)⟩ : Decl).setDir E at_ k v)
    unfold Decl.setDir
    split
    · exact go _ _ _ _
    · exact go _ _ _ _
    · exact go _ _ _ _
    · exact go _ _ _ _
    · exact Or.inl ⟨rfl, rfl⟩
    · exact go _ _ _ _

/-- C115. An assignment to a shorthand never succeeds on an element without box. -/
theorem C115_shorthand (E : Env) (at_ : List Nat) (c : CSS) (s : SH) (v : Val) : ((⟨c, .noBox⟩ : Decl).setAttr E at_ (.sh s) v).2 ≠ none := by
  have hset : ∀ (d : Decl) (at_ : List Nat) (p : LH) (v : Val), d.link = .noBox → (d.set E at_ p v).1.link = .noBox := by
    intro d at_ p v h
    rcases set_cases E at_ d p v with ⟨_, _, _, hs⟩ | ⟨_, _, _, hs⟩ | ⟨_, _, _, hs⟩
    · rw [hs]; exact h
    · rw [hs]; exact h
    · rw [hs]; simp [Decl.markDirty, h]
  have hthen : ∀ (o : Out) (f : Decl → Out), o.1.link = .noBox → (∀ d, d.link = .noBox → (f d).1.link = .noBox) → (o.andThen f).1.link = .noBox := by
    rintro ⟨d, _ | e⟩ f h hf
    · exact hf d h
    · exact h
  have hsides : ∀ (d : Decl) (at_ : List Nat) (k : Dir) (t r b l : Val), d.link = .noBox → (d.setSides E at_ k t r b l).1.link = .noBox :=
    fun d at_ k t r b l h => hthen _ _ (hthen _ _ (hthen _ _ (hset d _ _ _ h) fun d h => hset d _ _ _ h) fun d h => hset d _ _ _ h) fun d h => hset d _ _ _ h
  have hbasic : ∀ (d : Decl) (at_ : List Nat) (a : Attr) (v : Val), d.link = .noBox → (d.setBasic E at_ a v).1.link = .noBox := by
    intro d at_ a v h
    cases a with
    | lh p => exact hset d _ p v h
    | sh s => exact h
    | dir k =>
      show (d.setDir E at_ k v).1.link = .noBox
      unfold Decl.setDir
      split
      · exact hsides _ _ _ _ _ _ _ h
      · exact hsides _ _ _ _ _ _ _ h
      · exact hsides _ _ _ _ _ _ _ h
      · exact hsides _ _ _ _ _ _ _ h
      · exact h
      · exact hsides _ _ _ _ _ _ _ h
  have hdel : ∀ (d : Decl) (a : Attr), d.link = .noBox → (d.delBasic a).link = .noBox :=
    fun d a h => (Unboxed.delBasic (d := d) (d' := ⟨d.css, .box none⟩) ⟨rfl, h, none, rfl⟩ a).boxless
  have happ : ∀ (ks : List (Part × Attr)) (at_ : List Nat) (dict : List (Part × Val)) (d : Decl), d.link = .noBox → (applyParts E at_ dict ks d).1.link = .noBox := by
    intro ks at_ dict
    induction ks with
    | nil => exact fun d h => h
    | cons k ks ih =>
      intro d h
      refine hthen _ _ ?_ ih
      split
      · exact hbasic d _ _ _ h
      · exact hdel d _ h
  show ((⟨c, .noBox⟩ : Decl).setSH E at_ s v).2 ≠ none
  unfold Decl.setSH
  split
  · exact fun h => by cases h
  · exact fun h => by cases h
  · rename_i dict _
    have := happ s.keys (9 :: at_) dict ⟨c, .noBox⟩ rfl
    generalize applyParts E (9 :: at_) dict s.keys ⟨c, .noBox⟩ = o at this
    obtain ⟨d, _ | e⟩ := o
    · simp only [Out.andThen, Decl.markDirty, show d.link = .noBox from this]; exact fun h => by cases h
    · exact fun h => by cases h

/-! ## Concrete cases -/

/-- `node.style.margin = 3` on a node that has not been laid out: only `margin_top` is stored. -/
example (E : Env) : let r := (⟨CSS.empty, .noBox⟩ : Decl).setAttr E [] (.dir .margin) (.num (.fin (.int 3)))
    r.2 = some .attribute ∧ r.1.css (.margin .top) = some (.unit ⟨.len .px, .fin (.int 3)⟩) ∧ r.1.css (.margin .right) = none := ⟨rfl, rfl, rfl⟩

/-- `node.style.margin = 0`: nothing would change, nothing is raised. -/
example (E : Env) : let r := (⟨CSS.empty, .noBox⟩ : Decl).setAttr E [] (.dir .margin) (.num (.fin (.int 0)))
    r.2 = none := rfl

example (E : Env) : (Node.mk CSS.empty .initial none []).apply E (.dirty (some true)) = (.mk CSS.empty .initial none [], some .attribute) :=
  (C115_box E (Node.mk CSS.empty .initial none []) (.dirty (some true)) trivial).1 rfl

example (E : Env) : ((Node.mk CSS.empty .initial none []).apply E (.size (.width (some (.int 5))))).2 = some .attribute :=
  (C115_size E (Node.mk CSS.empty .initial none []) (.width (some (.int 5))) rfl).2.2.1.2 (by
    intro h; obtain h := (C38_size (Node.mk CSS.empty .initial none []) (.width (some (.int 5)))).1 h; cases congrArg Prod.snd h)

end Colosseum
