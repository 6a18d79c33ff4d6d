import Verif.Lemmas.Relabel

/-!
# Sequences of single assignments and deletions

The directional and shorthand setters are such sequences.
-/

namespace Colosseum

/-- One single assignment (with its label) or deletion. -/
inductive Act
  | set (a : List Nat) (p : LH) (v : Val)
  | del (p : LH)

/-- The property an act is about. -/
def Act.prop : Act → LH
  | .set _ p _ => p
  | .del p => p

/-- Perform an act. -/
def Act.run (E : Env) (d : Decl) : Act → Out
  | .set a p v => d.set E a p v
  | .del p => (d.del p, none)

/-- Perform acts until one raises. -/
def runActs (E : Env) : List Act → Decl → Out
  | [], d => (d, none)
  | a :: as, d => (a.run E d).andThen (runActs E as)

theorem andThen_assoc (o : Out) (f g : Decl → Out) : (o.andThen f).andThen g = o.andThen fun d => (f d).andThen g := by
  obtain ⟨d, e⟩ := o
  cases e <;> rfl

theorem andThen_pure (o : Out) : (o.andThen fun d => (d, none)) = o := by
  obtain ⟨d, e⟩ := o
  cases e <;> rfl

theorem runActs_append (E : Env) (as bs : List Act) (d : Decl) :
    runActs E (as ++ bs) d = (runActs E as d).andThen (runActs E bs) := by
  induction as generalizing d with
  | nil => rfl
  | cons a as ih =>
    simp only [List.cons_append, runActs, andThen_assoc]
    congr 1
    funext d
    exact ih d

/-- Property `p` takes the value `w` in the step from `c` to `c'`: `w` is stored, or nothing is because
`p` already reads as a value equal to `w`. -/
def Took (c c' : CSS) (p : LH) (w : Val) : Prop :=
  c' p = some w ∨ (c' p = c p ∧ w.pyEq (c.value p) = true ∧ (follows p = none ∨ c p ≠ none))

/-- What an act that did not raise did. -/
def Act.Done (E : Env) (c c' : CSS) : Act → Prop
  | .set a p v => ∃ w, p.choices.validate E a v = .ok w ∧ Took c c' p w
  | .del p => c' p = none

theorem set_took {E : Env} {a : List Nat} {d d' : Decl} {p : LH} {v : Val} (h : d.set E a p v = (d', none)) :
    (∃ w, p.choices.validate E a v = .ok w ∧ Took d.css d'.css p w) ∧ ∀ q ≠ p, d'.css q = d.css q := by
  rcases set_cases E a d p v with ⟨_, _, _, hs⟩ | ⟨w, hw, hd, hs⟩ | ⟨w, hw, _, hs⟩
  · rw [hs] at h; cases h
  · rw [hs] at h; cases h
    exact ⟨⟨w, hw, Or.inr ⟨rfl, differs_false hd⟩⟩, fun _ _ => rfl⟩
  · have := markDirty_css { d with css := d.css.store p w }
    rw [← hs, h] at this
    simp only at this
    refine ⟨⟨w, hw, Or.inl ?_⟩, fun q hq => ?_⟩
    · rw [this, store_same]
    · rw [this, store_other _ _ hq]

theorem act_done {E : Env} {d d' : Decl} {a : Act} (h : a.run E d = (d', none)) :
    a.Done E d.css d'.css ∧ ∀ q ≠ a.prop, d'.css q = d.css q := by
  cases a with
  | set l p v => exact set_took h
  | del p =>
    simp only [Act.run, Prod.mk.injEq, and_true] at h
    subst h
    rw [Act.Done, del_css]
    exact ⟨erase_same .., fun q hq => erase_other _ hq⟩

theorem andThen_none {o : Out} {f : Decl → Out} {d' : Decl} (h : o.andThen f = (d', none)) :
    ∃ d1, o = (d1, none) ∧ f d1 = (d', none) := by
  obtain ⟨d, e⟩ := o
  cases e with
  | none => exact ⟨d, rfl, h⟩
  | some e => cases h

theorem andThen_some {o : Out} {f : Decl → Out} {d' : Decl} {e : Err} (h : o.andThen f = (d', some e)) :
    o = (d', some e) ∨ ∃ d1, o = (d1, none) ∧ f d1 = (d', some e) := by
  obtain ⟨d, e'⟩ := o
  cases e' with
  | none => exact Or.inr ⟨d, rfl, h⟩
  | some e' => exact Or.inl h

/-- The acts of a list that touch pairwise different properties, and do not concern `p`'s default. -/
theorem runActs_done {E : Env} {as : List Act} (hn : (as.map Act.prop).Nodup)
    (hf : ∀ a ∈ as, ∀ b ∈ as, follows a.prop ≠ some b.prop) {d d' : Decl} (h : runActs E as d = (d', none)) :
    (∀ a ∈ as, a.Done E d.css d'.css) ∧ ∀ q, q ∉ as.map Act.prop → d'.css q = d.css q := by
  induction as generalizing d with
  | nil => cases h; exact ⟨by simp, fun _ _ => rfl⟩
  | cons a as ih =>
    obtain ⟨d1, h1, h2⟩ := andThen_none h
    obtain ⟨ha, ho⟩ := act_done h1
    rw [List.map_cons, List.nodup_cons] at hn
    obtain ⟨hA, hO⟩ := ih hn.2 (fun x hx y hy => hf x (by simp [hx]) y (by simp [hy])) h2
    have keep : d'.css a.prop = d1.css a.prop := hO _ hn.1
    refine ⟨?_, ?_⟩
    · intro b hb
      rcases List.mem_cons.1 hb with rfl | hb
      · cases b with
        | set l p v =>
          obtain ⟨w, hw, ht⟩ := ha
          refine ⟨w, hw, ?_⟩
          replace keep : d'.css p = d1.css p := keep
          rcases ht with ht | ht
          · exact Or.inl (keep.trans ht)
          · exact Or.inr ⟨keep.trans ht.1, ht.2⟩
        | del p => exact keep.trans ha
      · have hne : b.prop ≠ a.prop := fun e => hn.1 (by rw [← e]; exact List.mem_map_of_mem hb)
        have hv : d1.css.value b.prop = d.css.value b.prop := by
          unfold CSS.value
          rw [ho _ hne]
          cases hc : d.css b.prop with
          | some u => rfl
          | none =>
            simp only [Option.getD_none]
            have hg : ∀ r, r ≠ a.prop → d1.css.get r = d.css.get r := by
              intro r hr
              unfold CSS.get
              rw [ho r hr]
            have hfo := hf b (by simp [hb]) a (by simp)
            generalize b.prop = q at *
            cases q <;> first
              | rfl
              | exact hg .color fun e => hfo (congrArg some e)
              | (simp only [cssInitial, hg .direction fun e => hfo (congrArg some e)])
        have := hA b hb
        cases b with
        | set l p v =>
          obtain ⟨w, hw, ht⟩ := this
          refine ⟨w, hw, ?_⟩
          replace hv : d1.css.value p = d.css.value p := hv
          have hp : d1.css p = d.css p := ho _ hne
          rcases ht with ht | ⟨h1, h2, h3⟩
          · exact Or.inl ht
          · rw [hp] at h1 h3; rw [hv] at h2; exact Or.inr ⟨h1, h2, h3⟩
        | del p => exact this
    · intro q hq
      rw [List.map_cons, List.mem_cons, not_or] at hq
      rw [hO q hq.2, ho q hq.1]

/-- The link after an act on a node that is unbound or has a box is of that sort again. -/
theorem set_link {E : Env} {a : List Nat} {d : Decl} {p : LH} {v : Val} (hl : d.link ≠ .noBox) :
    (d.set E a p v).1.link ≠ .noBox := by
  rcases set_cases E a d p v with ⟨_, _, _, hs⟩ | ⟨_, _, _, hs⟩ | ⟨w, _, _, hs⟩
  · rw [hs]; exact hl
  · rw [hs]; exact hl
  · rw [hs]; unfold Decl.markDirty
    split
    · exact hl
    · rename_i h; exact absurd h hl
    · simp

theorem mark_link {d : Decl} (hl : d.link ≠ .noBox) : d.markDirty.1.link ≠ .noBox ∧ d.markDirty.2 = none := by
  unfold Decl.markDirty
  split
  · exact ⟨hl, rfl⟩
  · rename_i h; exact absurd h hl
  · exact ⟨by simp, rfl⟩

theorem act_link {E : Env} {d : Decl} (a : Act) (hl : d.link ≠ .noBox) : (a.run E d).1.link ≠ .noBox := by
  cases a with
  | set l p v => exact set_link hl
  | del p =>
    simp only [Act.run, Decl.del]
    split
    · exact hl
    · exact (mark_link (d := { d with css := d.css.erase p }) hl).1

/-- On a node that is unbound or has a box, an assignment succeeds exactly when the value is accepted. -/
theorem set_succeeds {E : Env} {a : List Nat} {d : Decl} {p : LH} {v w : Val} (hl : d.link ≠ .noBox)
    (h : p.choices.validate E a v = .ok w) : ∃ d', d.set E a p v = (d', none) := by
  rcases set_cases E a d p v with ⟨e, he, _, hs⟩ | ⟨_, _, _, hs⟩ | ⟨w, _, _, hs⟩
  · rw [h] at he; cases he
  · exact ⟨_, hs⟩
  · rw [hs]
    have := mark_link (d := { d with css := d.css.store p w }) hl
    exact ⟨_, Prod.ext rfl this.2⟩

/-- Whether an act can be performed. -/
def Act.Fine (E : Env) : Act → Prop
  | .set a p v => ∃ w, p.choices.validate E a v = .ok w
  | .del _ => True

theorem runActs_succeeds {E : Env} {as : List Act} {d : Decl} (hl : d.link ≠ .noBox) (h : ∀ a ∈ as, a.Fine E) :
    ∃ d', runActs E as d = (d', none) ∧ d'.link ≠ .noBox := by
  induction as generalizing d with
  | nil => exact ⟨d, rfl, hl⟩
  | cons a as ih =>
    have : ∃ d1, a.run E d = (d1, none) := by
      cases a with
      | set l p v =>
        obtain ⟨w, hw⟩ := h (.set l p v) (by simp)
        exact set_succeeds hl hw
      | del p => exact ⟨_, rfl⟩
    obtain ⟨d1, h1⟩ := this
    have hl1 := act_link (E := E) a hl
    rw [h1] at hl1
    obtain ⟨d', h2⟩ := ih hl1 fun b hb => h b (by simp [hb])
    exact ⟨d', by simp only [runActs, h1]; exact h2.1, h2.2⟩

/-- Where a sequence of acts that raised stopped. -/
theorem runActs_stops {E : Env} {as : List Act} {d d' : Decl} {e : Err} (h : runActs E as d = (d', some e)) :
    ∃ pre a post d1, as = pre ++ a :: post ∧ runActs E pre d = (d1, none) ∧ a.run E d1 = (d', some e) := by
  induction as generalizing d with
  | nil => cases h
  | cons a as ih =>
    rcases andThen_some h with h | ⟨d1, h1, h2⟩
    · exact ⟨[], a, as, d, rfl, rfl, h⟩
    · obtain ⟨pre, b, post, d2, rfl, h3, h4⟩ := ih h2
      exact ⟨a :: pre, b, post, d2, rfl, by simp only [runActs, h1]; exact h3, h4⟩

/-! ## The setters as sequences of acts -/

/-- The acts of a directional assignment. -/
def sideActs (at_ : List Nat) (k : Dir) (f : Side → Val) : List Act :=
  [.set (0 :: at_) (k.side .top) (f .top), .set (1 :: at_) (k.side .right) (f .right),
   .set (2 :: at_) (k.side .bottom) (f .bottom), .set (3 :: at_) (k.side .left) (f .left)]

theorem setSides_acts (E : Env) (at_ : List Nat) (d : Decl) (k : Dir) (f : Side → Val) :
    d.setSides E at_ k (f .top) (f .right) (f .bottom) (f .left) = runActs E (sideActs at_ k f) d := by
  simp only [Decl.setSides, sideActs, runActs, Act.run, andThen_assoc, andThen_pure]

theorem side_inj {k k' : Dir} {s s' : Side} (h : k.side s = k'.side s') : k = k' ∧ s = s' := by
  cases k <;> cases k' <;> cases h <;> exact ⟨rfl, rfl⟩

theorem side_follows (k : Dir) (s : Side) (k' : Dir) (s' : Side) : follows (k.side s) ≠ some (k'.side s') := by
  cases k <;> cases k' <;> simp [Dir.side, follows]

theorem sideActs_nodup (at_ : List Nat) (k : Dir) (f : Side → Val) : ((sideActs at_ k f).map Act.prop).Nodup := by
  cases k <;> simp [sideActs, Act.prop, Dir.side]

theorem sideActs_mem (at_ : List Nat) (k : Dir) (f : Side → Val) (s : Side) :
    ∃ a, Act.set a (k.side s) (f s) ∈ sideActs at_ k f := by
  cases s
  · exact ⟨0 :: at_, by simp [sideActs]⟩
  · exact ⟨1 :: at_, by simp [sideActs]⟩
  · exact ⟨2 :: at_, by simp [sideActs]⟩
  · exact ⟨3 :: at_, by simp [sideActs]⟩

theorem sideActs_follows (at_ : List Nat) (k : Dir) (f : Side → Val) :
    ∀ a ∈ sideActs at_ k f, ∀ b ∈ sideActs at_ k f, follows a.prop ≠ some b.prop := by
  intro a ha b hb
  have key : ∀ a ∈ sideActs at_ k f, ∃ s, a.prop = k.side s := by
    intro a ha
    simp only [sideActs, List.mem_cons, List.not_mem_nil, or_false] at ha
    rcases ha with rfl | rfl | rfl | rfl <;> exact ⟨_, rfl⟩
  obtain ⟨s, hs⟩ := key a ha
  obtain ⟨s', hs'⟩ := key b hb
  rw [hs, hs']
  exact side_follows k s k s'

end Colosseum
