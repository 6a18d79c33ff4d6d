import Verif.Lemmas.Decl
import Verif.Model.History
import Verif.Lemmas.Sample

/-!
# C103: a property is changed only by what names it
-/

namespace Colosseum

/-- The single properties that the name of a property stands for: itself, the four sides, or the parts of a shorthand. -/
def Attr.covers : Attr → LH → Bool
  | .lh q, p => p = q
  | .dir .margin, .margin _ => true
  | .dir .padding, .padding _ => true
  | .dir .borderWidth, .borderWidth _ => true
  | .dir .borderColor, .borderColor _ => true
  | .dir .borderStyle, .borderStyle _ => true
  | .sh .outline, .outlineColor => true
  | .sh .outline, .outlineStyle => true
  | .sh .outline, .outlineWidth => true
  | .sh .border, .borderWidth _ => true
  | .sh .border, .borderStyle _ => true
  | .sh .border, .borderColor _ => true
  | .sh (.borderSide s), .borderWidth t => s = t
  | .sh (.borderSide s), .borderStyle t => s = t
  | .sh (.borderSide s), .borderColor t => s = t
  | _, _ => false

/-- An operation names a property, alone or with others. -/
def Op.names (p : LH) : Op → Bool
  | .setAttr a _ => a.covers p
  | .delAttr a => a.covers p
  | .setItem n _ => (attrOfName (normName n)).any (·.covers p)
  | .delItem n => (attrOfName (normName n)).any (·.covers p)
  | .update kvs => kvs.any fun nv => (attrOfName (normName nv.1)).any (·.covers p)
  | .bind _ => false

/-- The link after an operation that marks the layout, or does not. -/
def Link.marked : Bool → Link → Link
  | true, .box _ => .box (some true)
  | _, l => l

theorem marked_marked (a b : Bool) (l : Link) : (l.marked a).marked b = l.marked (a || b) := by
  cases a <;> cases b <;> cases l <;> rfl

theorem marked_noBox (m : Bool) (l : Link) : l.marked m = .noBox ↔ l = .noBox := by cases m <;> cases l <;> simp [Link.marked]

/-- What an operation does to the properties in `S` depends on them only, and it does nothing to others. -/
structure Local (S : LH → Prop) (f : Decl → Out) : Prop where
  outside : ∀ d p, ¬ S p → (f d).1.css p = d.css p
  inside : ∀ d d', (∀ p, S p → d.css p = d'.css p) → (d.link = .noBox ↔ d'.link = .noBox) →
    (∀ p, S p → (f d).1.css p = (f d').1.css p) ∧ (f d).2 = (f d').2 ∧
      ∃ m, (f d).1.link = d.link.marked m ∧ (f d').1.link = d'.link.marked m

theorem andThen_out (o : Out) (f : Decl → Out) : o.andThen f = if o.2 = none then f o.1 else o := by
  obtain ⟨d, e⟩ := o
  cases e <;> rfl

theorem Local.andThen {S : LH → Prop} {f g : Decl → Out} (hf : Local S f) (hg : Local S g) : Local S fun d => (f d).andThen g where
  outside d p hp := by
    simp only [andThen_out]
    split
    · rw [hg.outside _ _ hp, hf.outside _ _ hp]
    · exact hf.outside _ _ hp
  inside d d' h hl := by
    obtain ⟨h1, h2, m, h3, h4⟩ := hf.inside d d' h hl
    simp only [andThen_out]
    rw [← h2]
    split
    · obtain ⟨g1, g2, m', g3, g4⟩ := hg.inside (f d).1 (f d').1 h1 (by rw [h3, h4, marked_noBox, marked_noBox]; exact hl)
      exact ⟨g1, g2, m || m', by rw [g3, h3, marked_marked], by rw [g4, h4, marked_marked]⟩
    · exact ⟨h1, h2, m, h3, h4⟩

theorem Local.weaken {S T : LH → Prop} {f : Decl → Out} (hf : Local S f) (h : ∀ p, S p → T p) : Local T f where
  outside d p hp := hf.outside d p fun hs => hp (h p hs)
  inside d d' he hl := by
    obtain ⟨h1, h2, h3⟩ := hf.inside d d' (fun p hp => he p (h p hp)) hl
    refine ⟨fun p hp => ?_, h2, h3⟩
    by_cases hs : S p
    · exact h1 p hs
    · rw [hf.outside _ _ hs, hf.outside _ _ hs, he p hp]

theorem Local.id {S : LH → Prop} (e : Option Err) : Local S fun d => (d, e) :=
  ⟨fun _ _ _ => rfl, fun _ _ h _ => ⟨h, rfl, false, by cases ‹Decl› <;> rfl, rfl⟩⟩

theorem differs_local {c c' : CSS} {p : LH} (h : c p = c' p) (w : Val) : differs c p w = differs c' p w := by
  unfold differs
  rw [h]

theorem mark_cases (d : Decl) : (d.markDirty.1.css = d.css ∧ d.markDirty.1.link = d.link.marked true) ∧ d.markDirty.2 = if d.link = .noBox then some .attribute else none := by
  obtain ⟨c, l⟩ := d
  cases l <;> exact ⟨⟨rfl, rfl⟩, rfl⟩

theorem Local.mark {S : LH → Prop} : Local S Decl.markDirty where
  outside d p _ := by rw [(mark_cases d).1.1]
  inside d d' h hl := by
    refine ⟨fun p hp => by rw [(mark_cases d).1.1, (mark_cases d').1.1]; exact h p hp, ?_, true, (mark_cases d).1.2, (mark_cases d').1.2⟩
    rw [(mark_cases d).2, (mark_cases d').2]
    simp only [hl]

theorem Local.set (E : Env) (at_ : List Nat) (p : LH) (v : Val) : Local (· = p) fun d => d.set E at_ p v where
  outside d q hq := by
    rcases set_cases E at_ d p v with ⟨_, _, _, hs⟩ | ⟨_, _, _, hs⟩ | ⟨w, _, _, hs⟩ <;> rw [hs]
    rw [(mark_cases _).1.1]
    simp only [CSS.store, if_neg hq]
  inside d d' h hl := by
    have hp := h p rfl
    simp only [Decl.set]
    cases p.choices.validate E at_ v with
    | error e =>
      simp only
      split
      · split <;> exact ⟨h, rfl, false, rfl, rfl⟩
      · exact ⟨h, rfl, false, rfl, rfl⟩
    | ok w =>
      simp only [differs_local hp]
      split
      · have m := mark_cases { d with css := d.css.store p w }
        have m' := mark_cases { d' with css := d'.css.store p w }
        refine ⟨fun q hq => ?_, ?_, true, m.1.2, m'.1.2⟩
        · rw [m.1.1, m'.1.1]
          cases hq
          simp only [CSS.store, if_true]
        · rw [m.2, m'.2]
          simp only [hl]
      · exact ⟨h, rfl, false, rfl, rfl⟩

theorem Local.del (p : LH) : Local (· = p) fun d => (d.del p, none) where
  outside d q hq := by
    simp only [Decl.del]
    split
    · rfl
    · rw [(mark_cases _).1.1]
      simp only [CSS.erase, if_neg hq]
  inside d d' h hl := by
    have hp := h p rfl
    simp only [Decl.del, hp]
    split
    · exact ⟨h, trivial, false, rfl, rfl⟩
    · have m := mark_cases { d with css := d.css.erase p }
      have m' := mark_cases { d' with css := d'.css.erase p }
      refine ⟨fun q hq => ?_, trivial, true, m.1.2, m'.1.2⟩
      rw [m.1.1, m'.1.1]
      cases hq
      simp only [CSS.erase, if_true]

theorem Local.setSides (E : Env) (at_ : List Nat) (k : Dir) (t r b l : Val) :
    Local (fun p => ∃ s, p = k.side s) fun d => d.setSides E at_ k t r b l := by
  unfold Decl.setSides
  have one : ∀ (at_ : List Nat) (s : Side) (v : Val), Local (fun p => ∃ s, p = k.side s) fun d => d.set E at_ (k.side s) v :=
    fun at_ s v => (Local.set E at_ (k.side s) v).weaken fun p hp => ⟨s, hp⟩
  exact (((one _ _ _).andThen (one _ _ _)).andThen (one _ _ _)).andThen (one _ _ _)

theorem Local.setDir (E : Env) (at_ : List Nat) (k : Dir) (v : Val) : Local (fun p => ∃ s, p = k.side s) fun d => d.setDir E at_ k v := by
  unfold Decl.setDir
  split
  case h_5 => exact Local.id _
  all_goals exact Local.setSides ..

theorem Local.delDir (k : Dir) : Local (fun p => ∃ s, p = k.side s) fun d => (d.delDir k, none) := by
  have one : ∀ (s : Side), Local (fun p => ∃ s, p = k.side s) fun d => (d.del (k.side s), none) :=
    fun s => (Local.del (k.side s)).weaken fun p hp => ⟨s, hp⟩
  exact (((one .top).andThen (one .right)).andThen (one .bottom)).andThen (one .left)

theorem side_covers (k : Dir) (s : Side) : (Attr.dir k).covers (k.side s) = true := by cases k <;> rfl

theorem Local.setBasic (E : Env) (at_ : List Nat) (a : Attr) (v : Val) : Local (fun p => a.covers p = true) fun d => d.setBasic E at_ a v := by
  cases a with
  | lh q => exact (Local.set E at_ q v).weaken fun p hp => by cases hp; simp [Attr.covers]
  | dir k => exact (Local.setDir E at_ k v).weaken fun p ⟨s, hp⟩ => by cases hp; exact side_covers k s
  | sh s => exact Local.id _

theorem Local.delBasic (a : Attr) : Local (fun p => a.covers p = true) fun d => (d.delBasic a, none) := by
  cases a with
  | lh q => exact (Local.del q).weaken fun p hp => by cases hp; simp [Attr.covers]
  | dir k => exact (Local.delDir k).weaken fun p ⟨s, hp⟩ => by cases hp; exact side_covers k s
  | sh s => exact Local.id _

theorem keys_covers (s : SH) : ∀ x ∈ s.keys, ∀ p, x.2.covers p = true → (Attr.sh s).covers p = true := by
  intro x hx p hp
  cases s with
  | outline =>
    simp only [SH.keys, List.mem_cons, List.not_mem_nil, or_false] at hx
    rcases hx with rfl | rfl | rfl <;> (simp only [Attr.covers, decide_eq_true_eq] at hp; subst hp; rfl)
  | border =>
    simp only [SH.keys, List.mem_cons, List.not_mem_nil, or_false] at hx
    rcases hx with rfl | rfl | rfl <;> (cases p <;> first | rfl | (simp [Attr.covers] at hp))
  | borderSide s =>
    simp only [SH.keys, List.mem_cons, List.not_mem_nil, or_false] at hx
    rcases hx with rfl | rfl | rfl <;> (simp only [Attr.covers, decide_eq_true_eq] at hp; subst hp; simp [Attr.covers])

theorem Local.applyParts (E : Env) (at_ : List Nat) (dict : List (Part × Val)) {S : LH → Prop} :
    ∀ (keys : List (Part × Attr)), (∀ x ∈ keys, ∀ p, x.2.covers p = true → S p) → Local S (applyParts E at_ dict keys)
  | [], _ => Local.id _
  | (k, a) :: rest, h => by
    have ih := Local.applyParts E at_ dict rest fun x hx => h x (List.mem_cons_of_mem _ hx)
    have h0 := h (k, a) (List.mem_cons_self ..)
    have e : Colosseum.applyParts E at_ dict ((k, a) :: rest) = fun d => (match lookupPart k dict with
      | some w => d.setBasic E at_ a w
      | none => (d.delBasic a, none)).andThen (Colosseum.applyParts E at_ dict rest) := by
      funext d
      rfl
    rw [e]
    cases lookupPart k dict with
    | some w => exact ((Local.setBasic E at_ a w).weaken h0).andThen ih
    | none => exact ((Local.delBasic a).weaken h0).andThen ih

theorem Local.delKeys {S : LH → Prop} : ∀ (keys : List (Part × Attr)), (∀ x ∈ keys, ∀ p, x.2.covers p = true → S p) → Local S fun d => (delKeys keys d, none)
  | [], _ => Local.id _
  | (k, a) :: rest, h => by
    have ih := Local.delKeys rest fun x hx => h x (List.mem_cons_of_mem _ hx)
    have h0 := (Local.delBasic a).weaken (h (k, a) (List.mem_cons_self ..))
    have hm : Local S fun d => (d.markDirty.1, none) := by
      refine ⟨Local.mark.outside, fun d d' h hl => ?_⟩
      obtain ⟨h1, _, h3⟩ := (Local.mark (S := S)).inside d d' h hl
      exact ⟨h1, rfl, h3⟩
    exact (h0.andThen hm).andThen ih

theorem Local.setAttr (E : Env) (at_ : List Nat) (a : Attr) (v : Val) : Local (fun p => a.covers p = true) fun d => d.setAttr E at_ a v := by
  cases a with
  | lh q => exact Local.setBasic E at_ (.lh q) v
  | dir k => exact Local.setBasic E at_ (.dir k) v
  | sh s =>
    show Local _ fun d => d.setSH E at_ s v
    unfold Decl.setSH
    split
    · exact Local.id _
    · exact Local.id _
    · exact (Local.applyParts E _ _ s.keys (keys_covers s)).andThen Local.mark

theorem Local.delAttr (a : Attr) : Local (fun p => a.covers p = true) fun d => (d.delAttr a, none) := by
  cases a with
  | lh q => exact Local.delBasic (.lh q)
  | dir k => exact Local.delBasic (.dir k)
  | sh s => exact Local.delKeys s.keys (keys_covers s)

theorem Local.updateOne (E : Env) (at_ : List Nat) (n : PyStr) (v : Val) :
    Local (fun p => (attrOfName (normName n)).any (·.covers p) = true) fun d => d.updateOne E at_ n v := by
  unfold Decl.updateOne
  cases attrOfName (normName n) with
  | none => exact Local.id _
  | some a =>
    simp only [Option.any_some]
    split
    · exact Local.delAttr a
    · exact Local.setAttr E at_ a _

theorem Local.updateFrom (E : Env) (at_ : List Nat) {S : LH → Prop} : ∀ (kvs : List (PyStr × Val)) (i : Nat),
    (∀ x ∈ kvs, ∀ p, (attrOfName (normName x.1)).any (·.covers p) = true → S p) → Local S fun d => d.updateFrom E at_ i kvs
  | [], _, _ => Local.id _
  | (n, v) :: r, i, h =>
    ((Local.updateOne E (i :: at_) n v).weaken (h (n, v) (List.mem_cons_self ..))).andThen
      (Local.updateFrom E at_ r (i + 1) fun x hx => h x (List.mem_cons_of_mem _ hx))

theorem Local.step (E : Env) (at_ : List Nat) (o : Op) (ho : ∀ l, o ≠ .bind l) : Local (fun p => o.names p = true) fun d => d.step E at_ o := by
  cases o with
  | setAttr a v => exact Local.setAttr E at_ a v
  | delAttr a => exact Local.delAttr a
  | setItem n v =>
    simp only [Op.names, Decl.step, Decl.setItem]
    cases attrOfName (normName n) with
    | none => exact Local.id _
    | some a => exact Local.setAttr E at_ a v
  | delItem n =>
    simp only [Op.names, Decl.step, Decl.delItem]
    cases attrOfName (normName n) with
    | none => exact Local.id _
    | some a => exact Local.delAttr a
  | update kvs => exact Local.updateFrom E at_ kvs 0 fun x hx p hp => List.any_eq_true.2 ⟨x, hx, hp⟩
  | bind l => exact absurd rfl (ho l)

/-- **C103.** Operations that name no property in common can be exchanged, whatever the state: the declaration and the mark on the layout are the same in the
end, and each raises the same exception, if any. (The labels tell the objects apart that the operations create.) -/
theorem C103_exchange (E : Env) (at₁ at₂ : List Nat) (o₁ o₂ : Op) (h₁ : ∀ l, o₁ ≠ .bind l) (h₂ : ∀ l, o₂ ≠ .bind l)
    (h : ∀ p, ¬ (o₁.names p = true ∧ o₂.names p = true)) (d : Decl) :
    ((d.step E at₁ o₁).1.step E at₂ o₂).1 = ((d.step E at₂ o₂).1.step E at₁ o₁).1 ∧
    ((d.step E at₁ o₁).1.step E at₂ o₂).2 = (d.step E at₂ o₂).2 ∧ ((d.step E at₂ o₂).1.step E at₁ o₁).2 = (d.step E at₁ o₁).2 := by
  have l₁ := Local.step E at₁ o₁ h₁
  have l₂ := Local.step E at₂ o₂ h₂
  obtain ⟨_, _, m₁, k₁, _⟩ := l₁.inside d d (fun _ _ => rfl) Iff.rfl
  obtain ⟨_, _, m₂, k₂, _⟩ := l₂.inside d d (fun _ _ => rfl) Iff.rfl
  obtain ⟨a1, a2, m, a3, a4⟩ := l₁.inside (d.step E at₂ o₂).1 d (fun p hp => l₂.outside d p fun hq => h p ⟨hp, hq⟩) (by rw [k₂, marked_noBox])
  obtain ⟨b1, b2, m', b3, b4⟩ := l₂.inside (d.step E at₁ o₁).1 d (fun p hp => l₁.outside d p fun hq => h p ⟨hq, hp⟩) (by rw [k₁, marked_noBox])
  refine ⟨?_, b2, a2⟩
  have css : ((d.step E at₁ o₁).1.step E at₂ o₂).1.css = ((d.step E at₂ o₂).1.step E at₁ o₁).1.css := by
    funext p
    by_cases hp : o₂.names p = true
    · have hq : ¬ o₁.names p = true := fun hq => h p ⟨hq, hp⟩
      rw [b1 p hp, l₁.outside _ p hq]
    · rw [l₂.outside _ p hp]
      by_cases hq : o₁.names p = true
      · rw [a1 p hq]
      · rw [l₁.outside _ p hq, l₁.outside _ p hq, l₂.outside _ p hp]
  have link : ((d.step E at₁ o₁).1.step E at₂ o₂).1.link = ((d.step E at₂ o₂).1.step E at₁ o₁).1.link := by
    rw [b3, a3, k₁, k₂, marked_marked, marked_marked]
    have e₁ : d.link.marked m₁ = d.link.marked m := k₁.symm.trans a4
    have e₂ : d.link.marked m₂ = d.link.marked m' := k₂.symm.trans b4
    rw [← marked_marked m₁, e₁, marked_marked, Bool.or_comm, ← marked_marked m', ← e₂, marked_marked]
  generalize ((d.step E at₁ o₁).1.step E at₂ o₂).1 = x at css link
  generalize ((d.step E at₂ o₂).1.step E at₁ o₁).1 = y at css link
  cases x; cases y
  simp only at css link
  rw [css, link]

/-- Where there is no layout that is missing, what an operation does to one property depends on this property only, and whether it raises on nothing. -/
def Fine (f : Decl → Out) : Prop := ∀ d d' p, d.css p = d'.css p → d.link ≠ .noBox → d'.link ≠ .noBox →
  (f d).1.css p = (f d').1.css p ∧ (f d).2 = (f d').2 ∧ (f d).1.link ≠ .noBox ∧ (f d').1.link ≠ .noBox

theorem Fine.andThen {f g : Decl → Out} (hf : Fine f) (hg : Fine g) : Fine fun d => (f d).andThen g := by
  intro d d' p h hl hl'
  obtain ⟨h1, h2, h3, h4⟩ := hf d d' p h hl hl'
  simp only [andThen_out]
  rw [← h2]
  split
  · exact hg _ _ p h1 h3 h4
  · exact ⟨h1, h2, h3, h4⟩

theorem Fine.id (e : Option Err) : Fine fun d => (d, e) := fun _ _ _ h hl hl' => ⟨h, rfl, hl, hl'⟩

theorem Fine.mark : Fine Decl.markDirty := by
  intro d d' p h hl hl'
  refine ⟨by rw [(mark_cases d).1.1, (mark_cases d').1.1]; exact h, ?_, ?_, ?_⟩
  · rw [(mark_cases d).2, (mark_cases d').2, if_neg hl, if_neg hl']
  · rw [(mark_cases d).1.2]; exact fun e => hl ((marked_noBox _ _).1 e)
  · rw [(mark_cases d').1.2]; exact fun e => hl' ((marked_noBox _ _).1 e)

theorem Fine.set (E : Env) (at_ : List Nat) (q : LH) (v : Val) : Fine fun d => d.set E at_ q v := by
  intro d d' p h hl hl'
  obtain ⟨_, _, m, k, _⟩ := (Local.set E at_ q v).inside d d (fun _ _ => rfl) Iff.rfl
  obtain ⟨_, _, m', k', _⟩ := (Local.set E at_ q v).inside d' d' (fun _ _ => rfl) Iff.rfl
  have e : ∀ d : Decl, d.link ≠ .noBox → (d.set E at_ q v).2 = ((⟨CSS.empty, .unbound⟩ : Decl).set E at_ q v).2 := by
    intro d hd
    simp only [Decl.set]
    cases q.choices.validate E at_ v with
    | error e =>
      simp only
      split
      · split <;> rfl
      · rfl
    | ok w =>
      have a : ∀ d : Decl, d.link ≠ .noBox → (if differs d.css q w = true then Decl.markDirty { d with css := d.css.store q w } else (d, none)).2 = none := by
        intro d hd
        split
        · rw [(mark_cases _).2]; exact if_neg hd
        · rfl
      simp only
      exact (a d hd).trans (a ⟨CSS.empty, .unbound⟩ nofun).symm
  refine ⟨?_, (e d hl).trans (e d' hl').symm, ?_, ?_⟩
  · by_cases hp : p = q
    · subst hp
      exact ((Local.set E at_ p v).inside d d' (fun q hq => by cases hq; exact h) ⟨fun a => absurd a hl, fun a => absurd a hl'⟩).1 p rfl
    · rw [(Local.set E at_ q v).outside d p hp, (Local.set E at_ q v).outside d' p hp, h]
  · rw [k]; exact fun e => hl ((marked_noBox _ _).1 e)
  · rw [k']; exact fun e => hl' ((marked_noBox _ _).1 e)

theorem Fine.del (q : LH) : Fine fun d => (d.del q, none) := by
  intro d d' p h hl hl'
  obtain ⟨_, _, m, k, _⟩ := (Local.del q).inside d d (fun _ _ => rfl) Iff.rfl
  obtain ⟨_, _, m', k', _⟩ := (Local.del q).inside d' d' (fun _ _ => rfl) Iff.rfl
  refine ⟨?_, rfl, ?_, ?_⟩
  · by_cases hp : p = q
    · subst hp
      exact ((Local.del p).inside d d' (fun q hq => by cases hq; exact h) ⟨fun a => absurd a hl, fun a => absurd a hl'⟩).1 p rfl
    · rw [(Local.del q).outside d p hp, (Local.del q).outside d' p hp, h]
  · rw [k]; exact fun e => hl ((marked_noBox _ _).1 e)
  · rw [k']; exact fun e => hl' ((marked_noBox _ _).1 e)

theorem Fine.setBasic (E : Env) (at_ : List Nat) (a : Attr) (v : Val) : Fine fun d => d.setBasic E at_ a v := by
  have sides : ∀ k t r b l, Fine fun d => d.setSides E at_ k t r b l := by
    intro k t r b l
    exact (((Fine.set E _ _ _).andThen (Fine.set E _ _ _)).andThen (Fine.set E _ _ _)).andThen (Fine.set E _ _ _)
  cases a with
  | lh q => exact Fine.set E at_ q v
  | dir k =>
    show Fine fun d => d.setDir E at_ k v
    unfold Decl.setDir
    split
    case h_5 => exact Fine.id _
    all_goals exact sides _ _ _ _ _
  | sh s => exact Fine.id _

theorem Fine.delBasic (a : Attr) : Fine fun d => (d.delBasic a, none) := by
  cases a with
  | lh q => exact Fine.del q
  | dir k => exact (((Fine.del (k.side .top)).andThen (Fine.del (k.side .right))).andThen (Fine.del (k.side .bottom))).andThen (Fine.del (k.side .left))
  | sh s => exact Fine.id _

theorem Fine.applyParts (E : Env) (at_ : List Nat) (dict : List (Part × Val)) : ∀ (keys : List (Part × Attr)), Fine (applyParts E at_ dict keys)
  | [] => Fine.id _
  | (k, a) :: rest => by
    have ih := Fine.applyParts E at_ dict rest
    have e : Colosseum.applyParts E at_ dict ((k, a) :: rest) = fun d => (match lookupPart k dict with
      | some w => d.setBasic E at_ a w
      | none => (d.delBasic a, none)).andThen (Colosseum.applyParts E at_ dict rest) := by
      funext d
      rfl
    rw [e]
    cases lookupPart k dict with
    | some w => exact (Fine.setBasic E at_ a w).andThen ih
    | none => exact (Fine.delBasic a).andThen ih

theorem Fine.delKeys : ∀ (keys : List (Part × Attr)), Fine fun d => (delKeys keys d, none)
  | [] => Fine.id _
  | (k, a) :: rest => by
    have hm : Fine fun d => (d.markDirty.1, none) := by
      intro d d' p h hl hl'
      obtain ⟨h1, _, h3⟩ := Fine.mark d d' p h hl hl'
      exact ⟨h1, rfl, h3⟩
    exact ((Fine.delBasic a).andThen hm).andThen (Fine.delKeys rest)

theorem Fine.setAttr (E : Env) (at_ : List Nat) (a : Attr) (v : Val) : Fine fun d => d.setAttr E at_ a v := by
  cases a with
  | lh q => exact Fine.setBasic E at_ (.lh q) v
  | dir k => exact Fine.setBasic E at_ (.dir k) v
  | sh s =>
    show Fine fun d => d.setSH E at_ s v
    unfold Decl.setSH
    split
    · exact Fine.id _
    · exact Fine.id _
    · exact (Fine.applyParts E _ _ s.keys).andThen Fine.mark

theorem Fine.delAttr (a : Attr) : Fine fun d => (d.delAttr a, none) := by
  cases a with
  | lh q => exact Fine.delBasic (.lh q)
  | dir k => exact Fine.delBasic (.dir k)
  | sh s => exact Fine.delKeys s.keys

theorem Fine.updateFrom (E : Env) (at_ : List Nat) : ∀ (kvs : List (PyStr × Val)) (i : Nat), Fine fun d => d.updateFrom E at_ i kvs
  | [], _ => Fine.id _
  | (n, v) :: r, i => by
    have one : Fine fun d => d.updateOne E (i :: at_) n v := by
      unfold Decl.updateOne
      cases attrOfName (normName n) with
      | none => exact Fine.id _
      | some a =>
        simp only
        split
        · exact Fine.delAttr a
        · exact Fine.setAttr E _ a _
    exact one.andThen (Fine.updateFrom E at_ r (i + 1))

theorem Fine.step (E : Env) (at_ : List Nat) (o : Op) (ho : ∀ l, o ≠ .bind l) : Fine fun d => d.step E at_ o := by
  cases o with
  | setAttr a v => exact Fine.setAttr E at_ a v
  | delAttr a => exact Fine.delAttr a
  | setItem n v =>
    simp only [Decl.step, Decl.setItem]
    cases attrOfName (normName n) with
    | none => exact Fine.id _
    | some a => exact Fine.setAttr E at_ a v
  | delItem n =>
    simp only [Decl.step, Decl.delItem]
    cases attrOfName (normName n) with
    | none => exact Fine.id _
    | some a => exact Fine.delAttr a
  | update kvs => exact Fine.updateFrom E at_ kvs 0
  | bind l => exact absurd rfl (ho l)

/-- The declaration after a history whose operations carry their labels. -/
def Decl.after (E : Env) : Decl → List (List Nat × Op) → Decl
  | d, [] => d
  | d, (at_, o) :: os => Decl.after E (d.step E at_ o).1 os

/-- **C103.** What a property holds after any history of assignments, deletions and updates is what it holds after those of them that name it, in the same
order: nothing that is done to other properties between them, accepted or not, has an effect. (The declaration never belongs to an element without a box.) -/
theorem C103_history (E : Env) (p : LH) (os : List (List Nat × Op)) (d : Decl) (hl : d.link ≠ .noBox) (hb : ∀ x ∈ os, x.2 ≠ .bind .noBox) :
    (d.after E os).css p = (d.after E (os.filter fun x => x.2.names p)).css p := by
  suffices ∀ (os : List (List Nat × Op)) (d d' : Decl), d.css p = d'.css p → d.link ≠ .noBox → d'.link ≠ .noBox → (∀ x ∈ os, x.2 ≠ .bind .noBox) →
      (d.after E os).css p = (d'.after E (os.filter fun x => x.2.names p)).css p from this os d d rfl hl hl hb
  intro os
  induction os with
  | nil => intro d d' h _ _ _; exact h
  | cons x os ih =>
    obtain ⟨at_, o⟩ := x
    intro d d' h hl hl' hb
    have hb' := fun x hx => hb x (List.mem_cons_of_mem _ hx)
    by_cases ho : ∃ l, o = .bind l
    · obtain ⟨l, rfl⟩ := ho
      have hl : l ≠ .noBox := fun e => hb _ (List.mem_cons_self ..) (by rw [e])
      exact ih _ d' h hl hl' hb'
    · have ho : ∀ l, o ≠ .bind l := fun l e => ho ⟨l, e⟩
      obtain ⟨h1, _, h3, h4⟩ := Fine.step E at_ o ho d d' p h hl hl'
      cases hn : o.names p with
      | true =>
        simp only [List.filter_cons, hn, if_true]
        exact ih _ _ h1 h3 h4 hb'
      | false =>
        simp only [List.filter_cons, hn, Bool.false_eq_true, if_false]
        refine ih _ _ ?_ h3 hl' hb'
        rw [← h]
        exact (Local.step E at_ o ho).outside d p (by rw [hn]; exact Bool.false_ne_true)

/-- Operations without a property in common. -/
example : ∀ p, ¬ ((Op.setAttr (.sh (.borderSide .top)) (.str (lit "thin red"))).names p = true ∧
    (Op.update [(lit "margin", px 3), (lit "border-left-width", px 2)]).names p = true) := by
  intro p
  cases p <;> first | (rintro ⟨h, _⟩; exact absurd h (by decide)) | skip
  all_goals rename_i s; cases s <;> decide +kernel

/-- A history of which two operations name the width. -/
example (E : Env) : (Decl.mk CSS.empty .unbound).after E ([([0], Op.setAttr (.lh .width) (px 3)), ([1], .setItem (lit "margin") (.str (lit "x"))), ([2], .bind (.box none)),
      ([3], .update [(lit "height", px 1), (lit "width", px 5), (lit "color", .str (lit "no"))]), ([4], .delAttr (.lh .height))].filter fun x => x.2.names .width) =
    (Decl.mk CSS.empty .unbound).after E [([0], Op.setAttr (.lh .width) (px 3)), ([3], .update [(lit "height", px 1), (lit "width", px 5), (lit "color", .str (lit "no"))])] := by
  rfl

/-- The hypothesis on the link is needed: where the element has no box, an assignment to `margin` raises at the first side that changes, so that what becomes of
`margin_right` depends on `margin_top`. -/
theorem C103_needs_box (E : Env) : ∃ os : List (List Nat × Op), (∀ x ∈ os, ∀ l, x.2 ≠ .bind l) ∧
    ((Decl.mk CSS.empty .noBox).after E os).css (.margin .right) ≠
      ((Decl.mk CSS.empty .noBox).after E (os.filter fun x => x.2.names (.margin .right))).css (.margin .right) := by
  refine ⟨[([0], .setAttr (.lh (.margin .top)) (kw "auto")), ([1], .setAttr (.dir .margin) (kw "auto"))], ?_, ?_⟩
  · intro x hx l e
    simp only [List.mem_cons, List.not_mem_nil, or_false] at hx
    rcases hx with rfl | rfl <;> cases e
  · have h1 : ((Decl.mk CSS.empty .noBox).after E [([0], .setAttr (.lh (.margin .top)) (kw "auto")), ([1], .setAttr (.dir .margin) (kw "auto"))]).css (.margin .right) =
        some (kw "auto") := rfl
    have h2 : ((Decl.mk CSS.empty .noBox).after E [([1], Op.setAttr (.dir .margin) (kw "auto"))]).css (.margin .right) = none := rfl
    intro e
    have e : ((Decl.mk CSS.empty .noBox).after E [([0], .setAttr (.lh (.margin .top)) (kw "auto")), ([1], .setAttr (.dir .margin) (kw "auto"))]).css (.margin .right) =
      ((Decl.mk CSS.empty .noBox).after E [([1], Op.setAttr (.dir .margin) (kw "auto"))]).css (.margin .right) := e
    rw [h1, h2] at e
    cases e

end Colosseum
