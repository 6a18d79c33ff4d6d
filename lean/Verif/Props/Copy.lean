import Verif.Props.Revalidate
import Verif.Props.Notation

/-!
# C101: what a copy of a declaration keeps
-/

namespace Colosseum

/-- The stored values which no setter takes: quotes, lengths that are angles, and lists of cursors with a url. -/
def Val.Unfit : Val → Prop
  | .quotes _ => True
  | .unit u => ∃ a, u.kind = .ang a
  | .cursor xs => ∃ r t, CurItem.uri r t ∈ xs
  | _ => False

/-- The stored values which a copy leaves out without complaint: rectangles and border spacings. -/
def Val.Omitted : Val → Prop
  | .rect _ _ _ _ => True
  | .borderSpacing _ _ _ => True
  | _ => False

/-- The stored value is the one which the property would have anyway. -/
def Val.IsInitial (p : LH) (v : Val) : Prop := follows p = Option.none ∧ v.pyEq (cssInitial (fun _ => .none) p) = true

theorem initial_any {p : LH} (h : follows p = none) (f g : LH → Val) : cssInitial f p = cssInitial g p := by
  cases p <;> first | rfl | cases h

theorem kept_validate {E : Env} {at_ : List Nat} {p : LH} {v : Val} (hc : Canonical p v) (hu : ¬ v.Unfit) (ho : ¬ v.Omitted) :
    p.choices.validate E at_ v = .ok v := by
  by_cases hs : Survives v
  · exact survives_validate hc hs
  · rcases hc with hk | ⟨k, hk, hv⟩
    · exact keyword_stable hk
    · refine (validate_iff ..).2 (Or.inr ⟨k, hk, ?_⟩)
      cases k with
      | length =>
        obtain ⟨⟨kd, x⟩, rfl⟩ := hv
        cases kd with
        | ang a => exact absurd ⟨a, rfl⟩ hu
        | len l => rfl
      | color => obtain ⟨r, c, rfl⟩ := hv; rfl
      | integer => obtain ⟨i, rfl⟩ := hv; rfl
      | spacing => obtain ⟨r, h, w, rfl⟩ := hv; exact absurd trivial ho
      | rect => obtain ⟨a, b, c, d, rfl⟩ := hv; exact absurd trivial ho
      | quotes => obtain ⟨q, rfl, _⟩ := hv; exact absurd trivial hu
      | cursor =>
        obtain ⟨urls, kws, rfl, hl, hu', hw⟩ := hv
        refine absurd (fun x hx => ?_) hs
        cases x with
        | opt s => exact ⟨s, rfl⟩
        | uri r t => exact absurd ⟨r, t, hx⟩ hu

theorem omitted_set {E : Env} {at_ : List Nat} {d : Decl} {p : LH} {v : Val} (hc : Canonical p v) (ho : v.Omitted) : d.set E at_ p v = (d, some .attribute) := by
  rcases hc with hk | ⟨k, hk, hv⟩
  · rcases keyword_cases hk with ⟨s, _, rfl⟩ | ⟨rfl, _⟩
    · unfold keywordVal at ho; split at ho <;> exact ho.elim
    · exact ho.elim
  · cases k with
    | length => obtain ⟨u, rfl⟩ := hv; exact ho.elim
    | color => obtain ⟨_, _, rfl⟩ := hv; exact ho.elim
    | integer => obtain ⟨_, rfl⟩ := hv; exact ho.elim
    | quotes => obtain ⟨_, rfl, _⟩ := hv; exact ho.elim
    | cursor => obtain ⟨_, _, rfl, _⟩ := hv; exact ho.elim
    | spacing =>
      obtain ⟨_, _, _, rfl⟩ := hv
      cases p <;> first | (cases hk; done) | rfl
    | rect =>
      obtain ⟨_, _, _, _, rfl⟩ := hv
      cases p <;> first | (cases hk; done) | rfl

theorem unfit_set {E : Env} {at_ : List Nat} {d : Decl} {p : LH} {v : Val} (hc : Canonical p v) (hu : v.Unfit) :
    ∃ e, d.set E at_ p v = (d, some e) ∧ e ≠ .attribute := by
  rcases hc with hk | ⟨k, hk, hv⟩
  · rcases keyword_cases hk with ⟨s, _, rfl⟩ | ⟨rfl, _⟩
    · unfold keywordVal at hu; split at hu <;> exact hu.elim
    · exact hu.elim
  · cases k with
    | color => obtain ⟨_, _, rfl⟩ := hv; exact hu.elim
    | integer => obtain ⟨_, rfl⟩ := hv; exact hu.elim
    | spacing => obtain ⟨_, _, _, rfl⟩ := hv; exact hu.elim
    | rect => obtain ⟨_, _, _, _, rfl⟩ := hv; exact hu.elim
    | quotes =>
      obtain ⟨_, rfl, _⟩ := hv
      cases p <;> first | (cases hk; done) | exact ⟨.value, rfl, by decide⟩
    | length =>
      obtain ⟨⟨kd, x⟩, rfl⟩ := hv
      obtain ⟨a, rfl⟩ := hu
      cases x <;> cases p <;> first
        | (cases hk; done)
        | exact ⟨.value, rfl, by decide⟩
        | exact ⟨.overflow, rfl, by decide⟩
    | cursor =>
      obtain ⟨urls, kws, rfl, _, hu', hw⟩ := hv
      cases urls with
      | nil =>
        obtain ⟨r, t, hx⟩ := hu
        obtain ⟨w, _, h⟩ := hw _ hx
        cases h
      | cons u us =>
        obtain ⟨r, t, rfl⟩ := hu' u (by simp)
        cases p <;> first | (cases hk; done) | exact ⟨.value, rfl, by decide⟩

/-- What the copy has for the property. -/
structure CopyOf (src : CSS) (p : LH) (o : Option Val) : Prop where
  unset : src p = none → o = none
  omitted : ∀ v, src p = some v → v.Omitted ∨ v.IsInitial p → o = none
  kept : ∀ v, src p = some v → ¬ v.Omitted → ¬ v.IsInitial p → o = some v

theorem copy_step {E : Env} {at_ : List Nat} {src : CSS} {d : Decl} {p : LH} {v : Val} (hc : src.Canon) (hp : src p = some v) (hu : ¬ v.Unfit)
    (h : d.css p = none ∨ CopyOf src p (d.css p)) :
    CopyOf src p ((d.set E at_ p v).1.css p) ∧ (∀ q, q ≠ p → (d.set E at_ p v).1.css q = d.css q) ∧
      ((d.set E at_ p v).2 = none ∨ (d.set E at_ p v).2 = some .attribute) := by
  by_cases ho : v.Omitted
  · rw [omitted_set (hc p v hp) ho]
    refine ⟨?_, fun _ _ => rfl, Or.inr rfl⟩
    rcases h with h | h
    · simp only [h]
      exact ⟨fun _ => rfl, fun _ _ _ => rfl, fun w hw hn => by rw [hp] at hw; cases hw; exact absurd ho hn⟩
    · exact h
  · have hv := kept_validate (E := E) (at_ := at_) (hc p v hp) hu ho
    have hcon : ¬ v.IsInitial p → CopyOf src p (some v) := fun hi =>
      { unset := fun e => by rw [hp] at e; cases e
        omitted := fun w hw h => by rw [hp] at hw; cases hw; exact absurd h (by tauto)
        kept := fun w hw _ _ => by rw [hp] at hw; exact hw }
    rcases set_cases E at_ d p v with ⟨e, he, _⟩ | ⟨w, hw, hd, e⟩ | ⟨w, hw, hd, e⟩
    · rw [hv] at he; cases he
    · rw [hv] at hw; cases hw
      rw [e]
      refine ⟨?_, fun _ _ => rfl, Or.inl rfl⟩
      rcases h with h | h
      · obtain ⟨h1, h2⟩ := differs_false hd
        have h2 := h2.resolve_right (by simp [h])
        rw [CSS.value, h] at h1
        have hi : v.IsInitial p := ⟨h2, by rw [initial_any h2 _ d.css.get]; exact h1⟩
        simp only [h]
        exact ⟨fun _ => rfl, fun _ _ _ => rfl, fun w hw _ hn => by rw [hp] at hw; cases hw; exact absurd hi hn⟩
      · exact h
    · rw [hv] at hw; cases hw
      have e1 : (d.set E at_ p v).1.css = d.css.store p v := by rw [e, markDirty_css]
      have herr : (d.set E at_ p v).2 = none ∨ (d.set E at_ p v).2 = some .attribute := by
        rw [e]; unfold Decl.markDirty; split
        · exact Or.inl rfl
        · exact Or.inr rfl
        · exact Or.inl rfl
      rw [e1, store_same]
      refine ⟨hcon ?_, fun q hq => store_other _ _ hq, herr⟩
      rintro ⟨h2, h3⟩
      have hn : d.css p = none := by
        rcases h with h | h
        · exact h
        · exact h.omitted v hp (Or.inr ⟨h2, h3⟩)
      rw [differs_value _ _ _ (Or.inl h2), CSS.value, hn] at hd
      rw [initial_any h2 _ d.css.get] at h3
      simp only [Option.getD_none, h3] at hd
      cases hd

theorem copyLoop_fits {E : Env} {at_ : List Nat} {src : CSS} (hc : src.Canon) (ps : List LH) :
    ∀ i (d : Decl), (∀ p ∈ ps, ∀ v, src p = some v → ¬ v.Unfit) → (∀ p, d.css p = none ∨ CopyOf src p (d.css p)) →
      (copyLoop E at_ src i ps d).2 = none ∧ (∀ p, (copyLoop E at_ src i ps d).1.css p = none ∨ CopyOf src p ((copyLoop E at_ src i ps d).1.css p)) ∧
      ∀ p, p ∈ ps ∨ CopyOf src p (d.css p) → CopyOf src p ((copyLoop E at_ src i ps d).1.css p) := by
  induction ps with
  | nil =>
    intro i d _ h
    exact ⟨rfl, h, fun p hp => hp.elim (fun h => by cases h) id⟩
  | cons p ps ih =>
    intro i d hu h
    have hu' : ∀ q ∈ ps, ∀ v, src q = some v → ¬ v.Unfit := fun q hq => hu q (List.mem_cons_of_mem _ hq)
    simp only [copyLoop]
    cases hp : src p with
    | none =>
      obtain ⟨h1, h2, h3⟩ := ih (i + 1) d hu' h
      refine ⟨h1, h2, fun q hq => h3 q ?_⟩
      rcases hq with hq | hq
      · rcases List.mem_cons.1 hq with rfl | hq
        · refine Or.inr ((h q).elim (fun h => ?_) id)
          rw [h]
          exact ⟨fun _ => rfl, fun _ _ _ => rfl, fun w hw => by rw [hp] at hw; cases hw⟩
        · exact Or.inl hq
      · exact Or.inr hq
    | some v =>
      simp only
      obtain ⟨h1, h2, h3⟩ := copy_step (E := E) (at_ := i :: at_) hc hp (hu p (List.mem_cons_self ..) v hp) (h p)
      generalize d.set E (i :: at_) p v = o at h1 h2 h3
      obtain ⟨d', e⟩ := o
      simp only at h1 h2 h3
      have h' : ∀ q, d'.css q = none ∨ CopyOf src q (d'.css q) := by
        intro q
        by_cases hq : q = p
        · subst hq; exact Or.inr h1
        · rw [h2 q hq]; exact h q
      obtain ⟨g1, g2, g3⟩ := ih (i + 1) d' hu' h'
      have fin : (copyLoop E at_ src (i + 1) ps d').2 = none ∧
          (∀ p, (copyLoop E at_ src (i + 1) ps d').1.css p = none ∨ CopyOf src p ((copyLoop E at_ src (i + 1) ps d').1.css p)) ∧
          ∀ q, q ∈ p :: ps ∨ CopyOf src q (d.css q) → CopyOf src q ((copyLoop E at_ src (i + 1) ps d').1.css q) := by
        refine ⟨g1, g2, fun q hq => g3 q ?_⟩
        by_cases e : q = p
        · subst e; exact Or.inr h1
        · rcases hq with hq | hq
          · exact Or.inl ((List.mem_cons.1 hq).resolve_left e)
          · exact Or.inr (by rw [h2 q e]; exact hq)
      rcases h3 with rfl | rfl
      · exact fin
      · exact fin

theorem copyLoop_unfit {E : Env} {at_ : List Nat} {src : CSS} (hc : src.Canon) (ps : List LH) : ∀ i (d : Decl),
    (∃ p ∈ ps, ∃ v, src p = some v ∧ v.Unfit) → (copyLoop E at_ src i ps d).2 ≠ none := by
  induction ps with
  | nil => rintro i d ⟨p, hp, _⟩; cases hp
  | cons p ps ih =>
    rintro i d ⟨q, hq, v, hv, hu⟩
    simp only [copyLoop]
    have next : (∀ v, src p = some v → ¬ v.Unfit) → ∃ p ∈ ps, ∃ v, src p = some v ∧ v.Unfit := by
      intro h
      rcases List.mem_cons.1 hq with rfl | hq
      · exact absurd hu (h v hv)
      · exact ⟨q, hq, v, hv, hu⟩
    cases hp : src p with
    | none => exact ih (i + 1) d (next fun w hw => by rw [hp] at hw; cases hw)
    | some w =>
      simp only
      by_cases hw : w.Unfit
      · obtain ⟨e, he, hne⟩ := unfit_set (E := E) (at_ := i :: at_) (d := d) (hc p w hp) hw
        rw [he]
        split
        · rename_i h; cases h
        · rename_i h; cases h; exact absurd rfl hne
        · simp
      · have hn := next fun w' hw' => by rw [hp] at hw'; cases hw'; exact hw
        split
        · exact ih (i + 1) _ hn
        · exact ih (i + 1) _ hn
        · simp

/-- **C101.** `copy()` of a declaration raises if and only if the declaration holds a value which no setter takes. Otherwise the copy has the stored values
of the original, but for rectangles, border spacings, and values equal to the initial value of the property. -/
theorem C101_exactly (E : Env) (at_ : List Nat) (src : Decl) (hr : Reachable E src) (order : List LH) (ho : ∀ p, p ∈ order) (link : Link) :
    ((CSS.copy E at_ order src.css link).2 = none ↔ ∀ p v, src.css p = some v → ¬ v.Unfit) ∧
    ((CSS.copy E at_ order src.css link).2 = none → ∀ p, CopyOf src.css p ((CSS.copy E at_ order src.css link).1.css p)) := by
  have hc := canon_reachable hr
  have fits : (∀ p v, src.css p = some v → ¬ v.Unfit) → _ := fun h =>
    copyLoop_fits (E := E) (at_ := at_) hc order 0 ⟨CSS.empty, link⟩ (fun p _ => h p) fun p => Or.inl rfl
  have unfit : (CSS.copy E at_ order src.css link).2 = none → ∀ p v, src.css p = some v → ¬ v.Unfit := fun h p v hp hu =>
    copyLoop_unfit (E := E) (at_ := at_) hc order 0 ⟨CSS.empty, link⟩ ⟨p, ho p, v, hp, hu⟩ h
  exact ⟨⟨unfit, fun h => (fits h).1⟩, fun h p => (fits (unfit h)).2.2 p (Or.inl (ho p))⟩

theorem initial_unit {p : LH} (hp : p.Sizing ∨ p.Offset) {u : CUnit} (h : p.constInit = .unit u) : u = ⟨.len .px, .fin (.int 0)⟩ := by
  cases p <;> first
    | (cases h; rfl)
    | (cases h; done)
    | (rcases hp with hp | hp <;> exact hp.elim)

theorem initial_like {fp : FP} (L : fp.Laws) (d : Display) {p : LH} (hp : p.Sizing ∨ p.Offset) {v : Val} (hc : Canonical p v) (hi : v.IsInitial p) :
    Like fp d v p.constInit := by
  obtain ⟨h1, h2⟩ := hi
  have hinit : p.constInit = cssInitial (fun _ => .none) p := by
    unfold LH.constInit
    rw [initial_const (fun _ => .none) p h1]
  rw [← hinit] at h2
  have hv := canonical_layout hp hc
  have hw := initial_plain hp
  have wheld : p.constInit.Held fp := by
    rcases hw with ⟨s, e⟩ | e | ⟨u, e⟩
    · rw [e]; trivial
    · rw [e]; trivial
    · rw [e, initial_unit hp e]; trivial
  have vboth : v.Held fp ∧ v.Modest d := by
    rcases hv with ⟨s, rfl⟩ | rfl | ⟨u, rfl⟩
    · exact ⟨trivial, fun _ _ e => nomatch e⟩
    · exact ⟨trivial, fun _ _ e => nomatch e⟩
    · rcases hw with ⟨s, e⟩ | e | ⟨u', e⟩
      · rw [e] at h2; cases h2
      · rw [e] at h2; cases h2
      · rw [e, initial_unit hp e] at h2
        obtain ⟨k, x⟩ := u
        simp only [Val.pyEq, CUnit.pyEq, Bool.and_eq_true, beq_iff_eq] at h2
        obtain ⟨rfl, h2⟩ := h2
        refine ⟨?_, fun k n e hk => by cases e; exact hk.elim⟩
        cases x with
        | inf b => trivial
        | nan => trivial
        | fin n =>
          cases n with
          | int i => trivial
          | flt q =>
            have : q = 0 := by simpa [PyNum.pyEq, Num.pyEq, Num.val] using h2
            subst this
            exact L.zero
  exact plain_like L hv hw vboth.1 wheld vboth.2 h2

/-- **C101.** Whenever `copy()` returns, an element is laid out with the copy as with the original, like everything else in the document. -/
theorem C101_layout (E : Env) (L : E.fp.Laws) (d : Display) (html5 : Bool) (q : Option CSS) (n m : Node) (r : List Nat) (hn : n.find r = some m)
    (old : Link) (hr : Reachable E ⟨m.style, old⟩) (at_ : List Nat) (order : List LH) (ho : ∀ p, p ∈ order) (link : Link) (c : Decl)
    (hc : CSS.copy E at_ order m.style link = (c, none)) :
    SameOutcome (layout E.fp d html5 q n) (layout E.fp d html5 q (n.atPath (Node.withStyle c.css) r)) := by
  have hx := C101_exactly E at_ ⟨m.style, old⟩ hr order ho link
  rw [hc] at hx
  have hk := hx.2 rfl
  have hcan := canon_reachable hr
  refine layout_like html5 (.refl (fun _ v => Like.refl E.fp d v) q) (docRel_atPath (fun _ v => Like.refl E.fp d v) hn ?_)
  obtain ⟨s, z, l, cs⟩ := m
  have kids := DocRel.refl (R := fun _ => Like E.fp d) (fun _ v => Like.refl E.fp d v) (.mk s z l cs)
  cases kids with
  | mk _ hlen hkids =>
    refine .mk (fun p hp => ?_) hlen hkids
    show Like E.fp d ((s p).getD p.constInit) ((c.css p).getD p.constInit)
    cases hs : s p with
    | none =>
      rw [(hk p).unset hs]
      exact Like.refl ..
    | some v =>
      have hno : ¬ v.Omitted := by
        intro h
        rcases canonical_layout hp (hcan p v hs) with ⟨_, rfl⟩ | rfl | ⟨_, rfl⟩ <;> exact h.elim
      by_cases hi : v.IsInitial p
      · rw [(hk p).omitted v hs (Or.inr hi)]
        exact initial_like L d hp (hcan p v hs) hi
      · rw [(hk p).kept v hs hno hi]
        exact Like.refl ..

/-- The hypotheses hold for a declaration with a width, and with a float that is `none` again: the copy has the first only. -/
example (E : Env) (hE : E.fp = .b64) : ∃ d c v, Reachable E d ∧ d.css .width = some v ∧ d.css .float = some .none ∧
    CSS.copy E [2] allLH d.css .unbound = (c, none) ∧ c.css .width = some v ∧ c.css .float = none := by
  obtain ⟨fp, rf, le, er⟩ := E
  cases hE
  refine ⟨_, _, _, ⟨[.setAttr (.lh .width) (.num (.fin (.int 30))), .setAttr (.lh .float) (.str (lit "left")), .setAttr (.lh .float) (.str (lit "none"))], rfl⟩,
    rfl, rfl, Prod.ext rfl ?_, ?_, ?_⟩ <;> rfl

end Colosseum
