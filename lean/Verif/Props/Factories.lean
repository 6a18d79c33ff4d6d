import Verif.Model.Factories
import Verif.Py.Float64

/-!
# C107: attributes defined by `validated_property` and `unvalidated_property`, whatever the choices and the initial value
-/

namespace Colosseum

variable {C : Type}

/-- The value some assignment of an accepted value would store. -/
def Produced (E : Env) (ch : Choices) (w : Val) : Prop := ∃ at_ v, ch.validate E at_ v = .ok w

theorem markDirty_stored (c : Cell) : c.markDirty.1.stored = c.stored := by
  unfold Cell.markDirty
  split <;> rfl

theorem put_stored (c : Cell) (init : Given C) (w : Val) :
    (c.put init w).1.stored = some w ∨ (c.put init w).1 = c ∧ c.differs init w = false := by
  unfold Cell.put
  split
  · exact .inl (markDirty_stored _)
  · rename_i h
    exact .inr ⟨rfl, by simpa using h⟩

theorem del_stored (c : Cell) : c.del.stored = none := by
  unfold Cell.del
  split
  · assumption
  · exact markDirty_stored _

/-- **C107 which initial values are taken.** A validated property can be defined exactly if the choices accept the initial value, whose validated form it then has, or
refuse it with `ValueError` and it is an object with a method `value`. -/
theorem C107_definition (E : Env) (at_ : List Nat) (ch : Choices) (g g' : Given C) :
    defineValidated E at_ ch g = .ok g' ↔
      (∃ w, ch.validate E at_ g.asVal = .ok w ∧ g' = .val w) ∨
      (∃ e n f, ch.validate E at_ g.asVal = .error e ∧ e.isValueError = true ∧ g = .obj n (.method f) ∧ g' = g) := by
  unfold defineValidated
  cases h : ch.validate E at_ g.asVal with
  | ok w =>
    constructor
    · intro h
      cases h
      exact .inl ⟨w, rfl, rfl⟩
    · rintro (⟨w', h, rfl⟩ | ⟨e, n, f, h, _⟩)
      · cases h
        rfl
      · cases h
  | error e =>
    cases hv : e.isValueError with
    | false =>
      constructor
      · intro h
        simp only [hv, Bool.false_eq_true, if_false] at h
        cases h
      · rintro (⟨w', h, rfl⟩ | ⟨e', n, f, h, h', _⟩)
        · cases h
        · cases h
          rw [hv] at h'
          cases h'
    | true =>
      constructor
      · intro h
        simp only [hv, if_true] at h
        revert h
        split
        · unfold raiseFmt
          split <;> nofun
        · nofun
        · nofun
        · rename_i n f
          intro h
          cases h
          exact .inr ⟨e, n, f, rfl, hv, rfl, rfl⟩
      · rintro (⟨w', h, rfl⟩ | ⟨e', n, f, h, h', rfl, rfl⟩)
        · cases h
        · simp [hv]

/-- **C107 only validated values are read.** After any assignments and deletions, whatever is stored is a value the choices returned. -/
theorem C107_validated (E : Env) (ch : Choices) (init : Given C) (us : List Use) : ∀ (i : Nat) (c : Cell),
    (∀ w, c.stored = some w → Produced E ch w) → ∀ w, (c.run E ch init i us).stored = some w → Produced E ch w := by
  induction us with
  | nil => exact fun _ _ h => h
  | cons u us ih =>
    intro i c h
    cases u with
    | del =>
      refine ih _ _ ?_
      rw [del_stored]
      nofun
    | set v =>
      refine ih _ _ ?_
      intro w hw
      unfold Cell.set at hw
      cases hv : ch.validate E [i] v with
      | error e =>
        rw [hv] at hw
        refine h w ?_
        revert hw
        dsimp only
        split
        · split <;> exact id
        · exact id
      | ok x =>
        rw [hv] at hw
        rcases put_stored c init x with h' | ⟨h', _⟩
        · rw [h'] at hw
          cases hw
          exact ⟨_, _, hv⟩
        · rw [h'] at hw
          exact h w hw

/-- **C107 and then read back.** An assignment of an accepted value makes the attribute read as the validated value, or leaves it reading a value equal to it. -/
theorem C107_read_back (E : Env) (at_ : List Nat) (ch : Choices) (init : Given C) (self : C) (c c' : Cell) (v w r : Val)
    (hv : ch.validate E at_ v = .ok w) (hs : c.set E at_ ch init v = (c', none)) (hr : c'.get init self = .ok r) :
    r = w ∨ w.pyEq r = true := by
  unfold Cell.set at hs
  rw [hv] at hs
  dsimp only at hs
  have hc : c' = (c.put init w).1 := by rw [hs]
  subst hc
  have key : ∀ x : Val, (c.put init w).1.stored = some w → (c.put init w).1.stored.getD x = w := by
    intro x h
    rw [h]
    rfl
  rcases put_stored c init w with h | ⟨h, hd⟩
  · left
    unfold Cell.get at hr
    split at hr
    · cases hr; exact key _ h
    · split at hr
      · cases hr; exact key _ h
      · cases hr; exact key _ h
      · cases hr
    · cases hr; exact key _ h
    · cases hr
  · right
    rw [h] at hr
    unfold Cell.differs at hd
    unfold Cell.get at hr
    cases hst : c.stored with
    | some x =>
      simp only [hst, Bool.not_eq_false'] at hd
      simp only [hst, Option.getD_some] at hr
      split at hr
      · cases hr; exact hd
      · split at hr
        · cases hr; exact hd
        · cases hr; exact hd
        · cases hr
      · cases hr; exact hd
      · cases hr
    | none =>
      simp only [hst] at hd
      cases init with
      | val x =>
        simp only [hst, Option.getD_none] at hr
        cases hr
        simpa using hd
      | obj n m => cases hd

/-- **C107 refused values change nothing**: a value the choices refuse raises and leaves the attribute and the box as they were. -/
theorem C107_refused (E : Env) (at_ : List Nat) (ch : Choices) (init : Given C) (c : Cell) (v : Val) (e : Err)
    (hv : ch.validate E at_ v = .error e) : ∃ e', c.set E at_ ch init v = (c, some e') ∧ (e' = e ∨ e.isValueError = true) := by
  unfold Cell.set
  rw [hv]
  dsimp only
  split
  · rename_i h
    split
    · exact ⟨_, rfl, .inr h⟩
    · exact ⟨_, rfl, .inr h⟩
  · exact ⟨_, rfl, .inl rfl⟩

/-- **C107 deletion restores the initial value**, also after any uses. -/
theorem C107_delete (init : Given C) (self : C) (c : Cell) (l : Link) : c.del.get init self = Cell.get ⟨none, l⟩ init self := by
  unfold Cell.get
  simp only [del_stored]

/-- C107, reading: the getter never raises `AttributeError`, and raises anything only if the method `value` of the initial object does, or `TypeError` if its `value` cannot be
called. Otherwise a stored value is what is read; if none is stored, it is the initial value, what the method returns, or the object itself. -/
theorem C107_getter (init : Given C) (self : C) (c : Cell) :
    match init with
    | .val v => c.get init self = .ok (c.stored.getD v)
    | .obj n .missing => c.get init self = .ok (c.stored.getD (.obj n))
    | .obj _ .plain => c.get init self = .error .type
    | .obj n (.method f) =>
      (∀ e, c.get init self = .error e ↔ f self = .error e ∧ e ≠ .attribute) ∧
      (∀ v, c.get init self = .ok v ↔ (∃ w, f self = .ok w ∧ c.stored.getD w = v) ∨ f self = .error .attribute ∧ c.stored.getD (.obj n) = v) := by
  cases init with
  | val v => rfl
  | obj n m =>
    cases m with
    | missing => rfl
    | plain => rfl
    | method f =>
      unfold Cell.get
      dsimp only
      cases hf : f self with
      | ok v => simp
      | error e => cases e <;> simp

/-- **C107 marks.** Below a box that is clean, an assignment marks the box as dirty exactly if it is accepted and the value differs from the stored one, or from the initial one
if none is stored. -/
theorem C107_marks (E : Env) (at_ : List Nat) (ch : Choices) (init : Given C) (c : Cell) (hl : c.link = .box (some false)) (v : Val) :
    (c.set E at_ ch init v).1.link = .box (some true) ↔
      ∃ w, ch.validate E at_ v = .ok w ∧
        (∀ x, c.stored = some x → w.pyEq x = false) ∧ (c.stored = none → ∀ x, init = .val x → w.pyEq x = false) := by
  cases hv : ch.validate E at_ v with
  | error e =>
    obtain ⟨e', h, _⟩ := C107_refused E at_ ch init c v e hv
    simp [h, hl]
  | ok w =>
    have hs : c.set E at_ ch init v = c.put init w := by
      unfold Cell.set
      rw [hv]
    rw [hs]
    have hd : (c.put init w).1.link = .box (some true) ↔ c.differs init w = true := by
      unfold Cell.put
      split
      · rename_i h
        simp [Cell.markDirty, hl, h]
      · rename_i h
        simp [hl, h]
    rw [hd]
    unfold Cell.differs
    cases hst : c.stored with
    | some x => simp
    | none => cases init <;> simp

/-- **C107 the properties of `CSS` are made this way.** Assigning, deleting and reading a property of a declaration is assigning, deleting and reading an attribute with the property's
choices and initial value. -/
theorem C107_instances (E : Env) (at_ : List Nat) (d : Decl) (p : LH) (v : Val) :
    (let r := Cell.set E at_ p.choices p.given ⟨d.css p, d.link⟩ v
     ((d.set E at_ p v).1.css p, (d.set E at_ p v).1.link, (d.set E at_ p v).2) = (r.1.stored, r.1.link, r.2)) ∧
    (let r := Cell.del ⟨d.css p, d.link⟩
     ((d.del p).css p, (d.del p).link) = (r.stored, r.link)) ∧
    d.css.read p = Cell.get ⟨d.css p, d.link⟩ p.given d.css := by
  have hdiff : ∀ w, differs d.css p w = Cell.differs ⟨d.css p, d.link⟩ p.given w := by
    intro w
    unfold differs Cell.differs LH.given
    dsimp only
    cases d.css p with
    | some x => rfl
    | none => cases p.initial <;> rfl
  refine ⟨?_, ?_, ?_⟩
  · dsimp only [Decl.set, Cell.set, Cell.put]
    cases p.choices.validate E at_ v with
    | error e =>
      dsimp only
      split
      · cases v.fmtErr <;> rfl
      · rfl
    | ok w =>
      dsimp only
      rw [hdiff]
      split
      · dsimp only [Decl.markDirty, Cell.markDirty]
        cases d.link <;> simp [CSS.store]
      · rfl
  · dsimp only [Decl.del, Cell.del]
    cases h : d.css p with
    | none => simp [h]
    | some x =>
      dsimp only [Decl.markDirty, Cell.markDirty]
      cases d.link <;> simp [CSS.erase]
  · unfold CSS.read Cell.get LH.given
    cases p.initial with
    | const x => rfl
    | other q => rfl
    | textAlign =>
      dsimp only
      split
      · rename_i h; simp [h]
      · split
        · rename_i h h'; simp [h, h']
        · rename_i h h'; simp [h, h']

/-- **C107 without validation anything is kept**: an attribute made by `unvalidated_property` reads as the value assigned last if that differs from what was read
before, whatever the choices; assigning raises only if the node has no box. -/
theorem C107_unvalidated (init : Val) (us : List Use) (v : Val) (l : Link) :
    let c := Cell.runRaw init ⟨none, l⟩ us
    (c.link ≠ .noBox → (c.put (.val init : Given Unit) v).2 = none) ∧
    (v.pyEq (c.stored.getD init) = false → (Cell.runRaw init ⟨none, l⟩ (us ++ [.set v])).stored = some v) ∧
    (v.pyEq (c.stored.getD init) = true → (Cell.runRaw init ⟨none, l⟩ (us ++ [.set v])).stored = c.stored) := by
  have app : ∀ (us : List Use) (c : Cell), Cell.runRaw init c (us ++ [.set v]) = ((Cell.runRaw init c us).put (.val init : Given Unit) v).1 := by
    intro us
    induction us with
    | nil => exact fun _ => rfl
    | cons u us ih =>
      intro c
      cases u with
      | set w => exact ih _
      | del => exact ih _
  intro c
  rw [app]
  have hd : c.differs (.val init : Given Unit) v = !v.pyEq (c.stored.getD init) := by
    unfold Cell.differs
    cases c.stored <;> rfl
  refine ⟨?_, ?_, ?_⟩
  · intro h
    unfold Cell.put Cell.markDirty
    split
    · dsimp only
      revert h
      cases c.link <;> simp
    · rfl
  · intro h
    show (c.put (.val init : Given Unit) v).1.stored = some v
    unfold Cell.put
    rw [hd, h]
    exact markDirty_stored _
  · intro h
    show (c.put (.val init : Given Unit) v).1.stored = c.stored
    unfold Cell.put
    rw [hd, h]
    rfl

/-- C107, deleting an unvalidated attribute: nothing is stored afterwards, and the box is marked as dirty if something was stored before. -/
theorem C107_unvalidated_delete (init : Val) (us : List Use) (c : Cell) :
    (Cell.runRaw init c (us ++ [.del])).stored = none ∧
    ((Cell.runRaw init c us).link = .box (some false) →
      ((Cell.runRaw init c (us ++ [.del])).link = .box (some true) ↔ (Cell.runRaw init c us).stored ≠ none)) := by
  have app : ∀ (us : List Use) (c : Cell), Cell.runRaw init c (us ++ [.del]) = (Cell.runRaw init c us).del := by
    intro us
    induction us with
    | nil => exact fun _ => rfl
    | cons u us ih => exact fun c => by cases u <;> exact ih _
  rw [app]
  generalize Cell.runRaw init c us = c
  refine ⟨del_stored _, fun h => ?_⟩
  obtain ⟨st, l⟩ := c
  cases st <;> simp_all [Cell.del, Cell.markDirty]

/-- C107, deleting a validated attribute marks the box as dirty exactly if something was stored. -/
theorem C107_delete_marks (c : Cell) (h : c.link = .box (some false)) : c.del.link = .box (some true) ↔ c.stored ≠ none := by
  obtain ⟨st, l⟩ := c
  cases st <;> simp_all [Cell.del, Cell.markDirty]

/-- **C107 is false of `unvalidated_property`**: its choices are consulted for the initial value only. With the choices of `float`, a defined attribute comes to read a value the choices refuse. -/
theorem C107_false_unvalidated (E : Env) : ∃ (init v : Val) (ch : Choices) (us : List Use),
    defineUnvalidated E [] ch init = .ok init ∧ (Cell.runRaw init ⟨none, .unbound⟩ us).stored = some v ∧ ¬Produced E ch v := by
  refine ⟨.none, kw "middle", ⟨[kw "left", kw "right", .none], [], []⟩, [.set (kw "middle")], rfl, rfl, ?_⟩
  rintro ⟨at_, x, h⟩
  simp only [Choices.validate, tryValidators, findConst, List.find?_cons, List.find?_nil] at h
  split at h
  · rename_i h'
    split at h'
    · cases h'; cases h
    · split at h'
      · cases h'; cases h
      · split at h'
        · cases h'; cases h
        · cases h'
  · cases h

theorem number_eq {fp : FP} (L : fp.Laws) (n : Int) (h : n.natAbs ≤ 2 ^ 53) : Val.pyEq (.num (.fin (.int n))) (.num (.fin (.flt (fp.rnd n)))) = true := by
  rw [L.small n h]
  simp [Val.pyEq, PyNum.pyEq, Num.pyEq, Num.val]

/-- **C107 the definitions that are commented out.** If they were put back, importing the module would raise `ValueError` for the gaps of grids and for no other; `0` is not a percentage. -/
theorem C107_commented (E : Env) (L : E.fp.Laws) (at_ : List Nat) (d : String × Choices × Val) (h : d ∈ commentedOut) :
    if d.1 = "grid_row_gap" ∨ d.1 = "grid_column_gap" then defineValidated E at_ d.2.1 (.val d.2.2 : Given CSS) = .error .value
    else ∃ w, defineValidated E at_ d.2.1 (.val d.2.2 : Given CSS) = .ok (.val w) ∧ d.2.2.pyEq w = true := by
  simp only [commentedOut, List.mem_cons, List.not_mem_nil, or_false] at h
  rcases h with rfl | rfl | rfl | rfl | rfl | rfl | rfl | rfl | rfl | rfl | rfl | rfl | rfl | rfl | rfl | rfl | rfl | rfl | rfl | rfl | rfl | rfl <;>
    first
      | (rw [if_neg (by decide)]; exact ⟨_, rfl, rfl⟩)
      | (rw [if_neg (by decide)]; refine ⟨_, rfl, ?_⟩; exact number_eq L _ (by decide))
      | (rw [if_pos (by decide)]; rfl)

/-- Hypotheses of the theorems above: with the choices of `float`, `left` is taken and then `middle` is refused. -/
example (E : Env) : (Cell.run E ⟨[kw "left", kw "right", .none], [], []⟩ (.val .none : Given Unit) 0 ⟨none, .box (some false)⟩
      [.set (kw "left"), .set (kw "middle")]).stored = some (kw "left") ∧
    (Cell.set E [] ⟨[kw "left", kw "right", .none], [], []⟩ (.val .none : Given Unit) ⟨none, .box (some false)⟩ (kw "left")).1.link = .box (some true) := by
  exact ⟨rfl, rfl⟩

/-- Objects as initial values: one with a method is taken, one without is refused. -/
example (E : Env) : (∃ g, defineValidated E [] ⟨[kw "left"], [], []⟩ (.obj 3 (.method fun _ : Unit => .ok (kw "left"))) = .ok g) ∧
    defineValidated E [] ⟨[kw "left"], [], []⟩ (.obj 3 .missing : Given Unit) = .error .value := ⟨⟨_, rfl⟩, rfl⟩

end Colosseum
