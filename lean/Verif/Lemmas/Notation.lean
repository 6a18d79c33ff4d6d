import Verif.Lemmas.Restyle
import Verif.Spec.Notation
import Verif.Py.Float64
import Mathlib.Algebra.Order.Field.Rat
import Mathlib.Tactic.Linarith

/-!
# Replacing lengths by others that come to the same
-/

namespace Colosseum

/-- Values the engine cannot tell apart. -/
def likeSetoid (fp : FP) (d : Display) : Setoid Val := ⟨Like fp d, Like.refl fp d, Like.symm, Like.trans⟩

/-- A representative of the values the engine cannot tell apart from a value. -/
noncomputable def repr (fp : FP) (d : Display) (v : Val) : Val := (Quotient.mk (likeSetoid fp d) v).out

theorem repr_like (fp : FP) (d : Display) (v : Val) : Like fp d (repr fp d v) v := Quotient.exact (s := likeSetoid fp d) (Quotient.out_eq _)
theorem repr_eq {fp : FP} {d : Display} {v w : Val} (h : Like fp d v w) : repr fp d v = repr fp d w := by
  unfold repr
  rw [Quotient.sound (s := likeSetoid fp d) h]

/-- The style with the representatives. -/
noncomputable def CSS.repr (fp : FP) (d : Display) (s : CSS) : CSS := fun p =>
  if p.Sizing ∨ p.Offset then some (Colosseum.repr fp d (s.get p)) else none

theorem keeps_repr (fp : FP) (d : Display) : Keeps fp d (CSS.repr fp d) := by
  intro s x hx
  have : (CSS.repr fp d s).get x = Colosseum.repr fp d (s.get x) := by
    show (CSS.repr fp d s x).getD _ = _
    unfold CSS.repr
    rw [if_pos hx]
    rfl
  rw [this]
  exact repr_like ..

theorem styleRel_repr {fp : FP} {d : Display} {s s' : CSS} (h : StyleRel (fun _ => Like fp d) s s') : s.repr fp d = s'.repr fp d := by
  funext p
  unfold CSS.repr
  split
  · rw [repr_eq (h p ‹_›)]
  · rfl

theorem zip_map_eq {α β γ : Type} {f : α → γ} {g : β → γ} : ∀ {xs : List α} {ys : List β}, xs.length = ys.length → (∀ x ∈ xs.zip ys, f x.1 = g x.2) →
    xs.map f = ys.map g := by
  intro xs
  induction xs with
  | nil =>
    intro ys h _
    cases ys with
    | nil => rfl
    | cons y ys => cases h
  | cons x xs ih =>
    intro ys h hz
    cases ys with
    | nil => cases h
    | cons y ys =>
      rw [List.map_cons, List.map_cons, hz (x, y) List.mem_cons_self, ih (by simpa using h) fun p hp => hz p (List.mem_cons_of_mem _ hp)]

theorem docRel_repr {fp : FP} {d : Display} {n : Node} : ∀ {m : Node}, DocRel (fun _ => Like fp d) n m →
    n.restyle (CSS.repr fp d) = m.restyle (CSS.repr fp d) := by
  induction n using Node.ind with
  | h s z l cs ih =>
    intro m h
    cases h with
    | mk hs hlen hk =>
      rw [restyle_mk, restyle_mk, styleRel_repr hs, zip_map_eq hlen fun x hx => ih x.1 (List.of_mem_zip hx).1 (hk x hx)]

theorem parentRel_repr {fp : FP} {d : Display} {p q : Option CSS} (h : ParentRel (fun _ => Like fp d) p q) :
    p.map (CSS.repr fp d) = q.map (CSS.repr fp d) := by
  cases p with
  | none => cases q with
    | none => rfl
    | some _ => cases h
  | some s => cases q with
    | none => cases h
    | some s' => exact congrArg some (styleRel_repr h)

theorem boxAt_restyle (f : CSS → CSS) : ∀ (r : List Nat) (n : Node), (n.restyle f).boxAt r = n.boxAt r := by
  intro r
  induction r with
  | nil => intro n; exact restyle_layout _ n
  | cons i r ih =>
    rintro ⟨s, z, l, cs⟩
    rw [restyle_mk]
    simp only [Node.boxAt, Node.layout, Node.children, List.getElem?_map]
    cases l with
    | none => rfl
    | some b =>
      cases cs[i]? with
      | none => rfl
      | some c => exact ih c

/-- Documents the engine cannot tell apart are laid out in the same way. -/
theorem layout_like {fp : FP} {d : Display} (html5 : Bool) {p q : Option CSS} {n m : Node} (hp : ParentRel (fun _ => Like fp d) p q)
    (h : DocRel (fun _ => Like fp d) n m) : SameOutcome (layout fp d html5 p n) (layout fp d html5 q m) := by
  have h1 := restyle_layoutDoc (keeps_repr fp d) html5 p n
  have h2 := restyle_layoutDoc (keeps_repr fp d) html5 q m
  rw [parentRel_repr hp, docRel_repr h, h2] at h1
  cases hn : layout fp d html5 p n with
  | error e =>
    cases hm : layout fp d html5 q m with
    | error e' => rw [hn, hm] at h1; exact (Except.error.inj h1).symm
    | ok m' => rw [hn, hm] at h1; cases h1
  | ok n' =>
    cases hm : layout fp d html5 q m with
    | error e' => rw [hn, hm] at h1; cases h1
    | ok m' =>
      rw [hn, hm] at h1
      have e : m'.restyle (CSS.repr fp d) = n'.restyle (CSS.repr fp d) := Except.ok.inj h1
      intro r
      rw [← boxAt_restyle (CSS.repr fp d), ← e, boxAt_restyle]

theorem DocRel.mono {R S : LH → Val → Val → Prop} (h : ∀ p v w, p.Sizing ∨ p.Offset → R p v w → S p v w) {n : Node} : ∀ {m : Node}, DocRel R n m → DocRel S n m := by
  induction n using Node.ind with
  | h s z l cs ih =>
    intro m hr
    cases hr with
    | mk hs hlen hk => exact .mk (fun p hp => h _ _ _ hp (hs p hp)) hlen fun x hx => ih x.1 (List.of_mem_zip hx).1 (hk x hx)

theorem ParentRel.mono {R S : LH → Val → Val → Prop} (h : ∀ p v w, p.Sizing ∨ p.Offset → R p v w → S p v w) {p q : Option CSS} (hp : ParentRel R p q) : ParentRel S p q := by
  cases p with
  | none => cases q with
    | none => trivial
    | some _ => cases hp
  | some s => cases q with
    | none => cases hp
    | some s' => exact fun x hx => h _ _ _ hx (hp x hx)

/-- A length of zero pixels comes to zero. -/
theorem zero_px {fp : FP} (L : fp.Laws) {x : PyNum} (h : x.pyEq (.fin (.int 0)) = true) (c : PxCtx) : pxOf fp .px x c = .ok (.int 0) := by
  have r0 : fp.rnd 0 = 0 := by simpa using L.small 0 (by decide)
  have r64 : fp.rnd 64 = 64 := by simpa using L.small 64 (by decide)
  have done : pxOfLu fp 0 = .int 0 := by
    unfold pxOfLu
    simp only [Int.cast_zero, zero_div, r0]
    rw [if_pos (by decide +kernel)]
    rfl
  cases x with
  | inf s => cases h
  | nan => cases h
  | fin n =>
    cases n with
    | int i =>
      have : i = 0 := by
        have : ((i : Rat) == ((0 : Int) : Rat)) = true := h
        simpa using this
      subst this
      exact congrArg Except.ok done
    | flt q =>
      have : q = 0 := by
        have : (q == ((0 : Int) : Rat)) = true := h
        simpa using this
      subst this
      have : luOf fp .px (.fin (.flt 0)) c = .ok 0 := by
        show Except.ok (pyRound (fp.rnd (fp.rnd ((64 : Int) : Rat) * 0))) = _
        rw [mul_zero, r0, show (0 : Rat) = ((0 : Int) : Rat) by norm_num, pyRound_int]
      unfold pxOf
      rw [this]
      exact congrArg Except.ok done

theorem unit_size {fp : FP} (L : fp.Laws) (k : LKind) (x : PyNum) (c : PxCtx) :
    calculateSize fp (.unit ⟨.len k, x⟩) c = (pxOf fp k x c).map .num := by
  have e : ∀ s, (Val.unit ⟨.len k, x⟩).isKw s = false := fun _ => rfl
  unfold calculateSize
  simp only [e, Bool.false_eq_true, if_false]
  split
  · rename_i h
    have h : ((UKind.len k == UKind.len .px) && true && x.pyEq (.fin (.int 0)) || false) = true := h
    simp only [Bool.and_true, Bool.or_false, Bool.and_eq_true, beq_iff_eq, UKind.len.injEq] at h
    obtain ⟨rfl, hx⟩ := h
    rw [zero_px L hx]
    rfl
  · rfl

theorem SameMeaning.like {fp : FP} (L : fp.Laws) {d : Display} {v w : Val} (h : SameMeaning fp d v w) : Like fp d v w := by
  rcases h with rfl | ⟨k, k', x, x', rfl, rfl, hpx⟩
  · exact Like.refl ..
  · exact ⟨fun _ => rfl, rfl, hpx, fun z => by rw [unit_size L, unit_size L, hpx]⟩

/-- An integer as a `float` is as good as the `int`. -/
theorem lu_int_float {fp : FP} (L : fp.Laws) (k : LKind) (i : Int) (hi : fp.rnd (i : Rat) = i) (c : PxCtx)
    (hm : k.OfViewport → |64 * (i : Rat) * c.display.contentWidth.val| ≤ 2 ^ 53 ∧ |64 * (i : Rat) * c.display.contentHeight.val| ≤ 2 ^ 53) :
    luOf fp k (.fin (.flt i)) c = luOf fp k (.fin (.int i)) c := by
  have r64 : fp.rnd 64 = 64 := by simpa using L.small 64 (by decide)
  have r100 : fp.rnd 100 = 100 := by simpa using L.small 100 (by decide)
  have r0 : fp.rnd 0 = 0 := by simpa using L.small 0 (by decide)
  have h64 : fp.rnd (64 * (i : Rat)) = 64 * i := L.mul_64 hi
  have a : (PyNum.fin luPerPixel).mul fp (.fin (.flt i)) = .fin (.flt (64 * i)) := by
    show PyNum.fin (.flt (fp.rnd (fp.rnd ((64 : Int) : Rat) * i))) = _
    have e : fp.rnd ((64 : Int) : Rat) * (i : Rat) = 64 * i := by
      rw [show ((64 : Int) : Rat) = 64 by norm_num, r64]
    rw [e, h64]
  have b : (PyNum.fin luPerPixel).mul fp (.fin (.int i)) = .fin (.int (64 * i)) := rfl
  have cast : (((64 * i : Int)) : Rat) = 64 * i := by push_cast; ring
  have mulf : ∀ q : Rat, (Num.flt (64 * i)).mul fp (.flt q) = (Num.int (64 * i)).mul fp (.flt q) := by
    intro q
    show Num.flt (fp.rnd (64 * (i : Rat) * q)) = .flt (fp.rnd (fp.rnd ((64 * i : Int) : Rat) * q))
    rw [cast, h64]
  have divf : (Num.flt (64 * i)).div fp (.flt 100) = (Num.int (64 * i)).div fp (.flt 100) := by
    show Num.flt (fp.rnd (64 * (i : Rat) / 100)) = .flt (fp.rnd (fp.rnd ((64 * i : Int) : Rat) / 100))
    rw [cast, h64]
  have scaled : ∀ f dpi : Num, luScaled fp (.fin (.flt i)) f dpi = luScaled fp (.fin (.int i)) f dpi := by
    intro f dpi
    unfold luScaled
    rw [a, b]
    have : f.div fp (.int 72) = .flt (f.div fp (.int 72)).val := by cases f <;> rfl
    rw [this]
    show (PyNum.fin (((Num.flt (64 * i)).mul fp _).mul fp dpi)).round = (PyNum.fin (((Num.int (64 * i)).mul fp _).mul fp dpi)).round
    rw [mulf]
  have viewport : ∀ s : Num, |64 * (i : Rat) * s.val| ≤ 2 ^ 53 → luViewport fp (.fin (.flt i)) s = luViewport fp (.fin (.int i)) s := by
    intro s hs
    unfold luViewport
    rw [a, b]
    cases s with
    | flt q =>
      show (PyNum.fin (((Num.flt (64 * i)).mul fp (.flt q)).div fp _)).round = (PyNum.fin (((Num.int (64 * i)).mul fp (.flt q)).div fp _)).round
      rw [mulf]
    | int m =>
      show (PyNum.fin (.flt (fp.rnd (fp.rnd (64 * (i : Rat) * fp.rnd (m : Rat)) / fp.rnd ((100 : Int) : Rat))))).round =
        (PyNum.fin (.flt (fp.rnd (((64 * i * m : Int) : Rat) / ((100 : Int) : Rat))))).round
      have hs : |64 * (i : Rat) * m| ≤ 2 ^ 53 := hs
      have big : fp.rnd (64 * (i : Rat) * m) = 64 * i * m := by
        have := L.small (64 * i * m) (by
          have hs' : ((|64 * i * m| : Int) : Rat) ≤ ((2 ^ 53 : Int) : Rat) := by push_cast; exact hs
          have := Int.cast_le.1 hs'
          rw [Int.abs_eq_natAbs] at this
          exact_mod_cast this)
        push_cast at this
        exact this
      have inner : fp.rnd (64 * (i : Rat) * fp.rnd (m : Rat)) = 64 * i * m := by
        rcases eq_or_ne i 0 with rfl | hne
        · simp [r0]
        · have : fp.rnd (m : Rat) = m := by
            apply L.small
            have h1 : |(m : Rat)| ≤ |64 * (i : Rat) * m| := by
              rw [abs_mul]
              have : (1 : Rat) ≤ |64 * (i : Rat)| := by
                have : (1 : Int) ≤ |64 * i| := by
                  have := Int.one_le_abs (show 64 * i ≠ 0 by omega)
                  exact this
                exact_mod_cast this
              nlinarith [abs_nonneg (m : Rat)]
            have hs' : ((|m| : Int) : Rat) ≤ ((2 ^ 53 : Int) : Rat) := by push_cast; exact le_trans h1 hs
            have := Int.cast_le.1 hs'
            rw [Int.abs_eq_natAbs] at this
            exact_mod_cast this
          rw [this, big]
      rw [inner, show ((100 : Int) : Rat) = 100 by norm_num, r100]
      push_cast
      rfl
  cases k with
  | px =>
    unfold luOf
    simp only
    rw [a, b]
    show Except.ok (pyRound (64 * (i : Rat))) = .ok (64 * i)
    rw [← cast, pyRound_int]
  | vh => exact viewport _ (hm trivial).2
  | vw => exact viewport _ (hm trivial).1
  | vmax =>
    apply viewport
    unfold vmaxScale Num.pyMax
    split
    · exact (hm trivial).2
    · exact (hm trivial).1
  | vmin =>
    apply viewport
    unfold vminScale Num.pyMin
    split
    · exact (hm trivial).2
    · exact (hm trivial).1
  | percent =>
    unfold luOf
    cases c.size with
    | none => rfl
    | some s =>
      simp only
      rw [a, b]
      show (PyNum.fin (((Num.flt (64 * i)).div fp _).mul fp s)).round = (PyNum.fin (((Num.int (64 * i)).div fp _).mul fp s)).round
      rw [divf]
  | _ => exact scaled _ _

/-- Equal numbers give the same length. -/
theorem lu_equal {fp : FP} (L : fp.Laws) (k : LKind) {x y : PyNum} (h : x.pyEq y = true) (hx : x.Held fp) (hy : y.Held fp) (c : PxCtx)
    (hm : ∀ n, x = .fin n → k.OfViewport → |64 * n.val * c.display.contentWidth.val| ≤ 2 ^ 53 ∧ |64 * n.val * c.display.contentHeight.val| ≤ 2 ^ 53) :
    luOf fp k x c = luOf fp k y c := by
  cases x with
  | nan => cases y <;> cases h
  | inf s =>
    cases y with
    | inf t =>
      have : s = t := by
        have h : (s == t) = true := h
        simpa using h
      rw [this]
    | fin _ => cases h
    | nan => cases h
  | fin n =>
    cases y with
    | inf _ => cases h
    | nan => cases h
    | fin m =>
      have h : n.val = m.val := by
        have h : (n.val == m.val) = true := h
        simpa using h
      cases n with
      | int i =>
        cases m with
        | int j =>
          have h : (i : Rat) = (j : Rat) := h
          have : i = j := by exact_mod_cast h
          rw [this]
        | flt q =>
          obtain rfl : (i : Rat) = q := h
          exact (lu_int_float L k i (show fp.rnd (i : Rat) = i from hy) c fun hk => by
            have := hm (.int i) (Eq.refl _) hk
            rw [Num.val_int] at this
            exact this).symm
      | flt q =>
        cases m with
        | flt r =>
          obtain rfl : q = r := h
          rfl
        | int j =>
          obtain rfl : q = (j : Rat) := h
          exact lu_int_float L k j (show fp.rnd (j : Rat) = j from hx) c fun hk => by
            have := hm (.flt (j : Rat)) (Eq.refl _) hk
            rw [Num.val_flt] at this
            exact this

theorem canonical_layout {p : LH} (hp : p.Sizing ∨ p.Offset) {v : Val} (h : Canonical p v) : (∃ s, v = .str s) ∨ v = .none ∨ ∃ u, v = .unit u := by
  rcases h with h | ⟨k, hk, h⟩
  · unfold keywords at h
    rw [if_neg (by cases p <;> simp_all [LH.Sizing, LH.Offset])] at h
    simp only [List.append_nil, List.mem_map] at h
    obtain ⟨s, -, rfl⟩ := h
    unfold keywordVal
    split
    · exact Or.inr (Or.inl rfl)
    · exact Or.inl ⟨_, rfl⟩
  · cases p <;> simp only [kindOf, Option.some.injEq, reduceCtorEq] at hk <;> first
      | (subst hk; exact Or.inr (Or.inr h))
      | (rcases hp with hp | hp <;> exact hp.elim)

/-- The values properties that matter for layout can hold. -/
def Val.Plain (v : Val) : Prop := (∃ s, v = .str s) ∨ v = .none ∨ ∃ u, v = .unit u

theorem plain_like {fp : FP} (L : fp.Laws) {d : Display} {v w : Val} (hv : v.Plain) (hw : w.Plain) (hl : v.Held fp) (hr : w.Held fp) (hm : v.Modest d)
    (e : v.pyEq w = true) : Like fp d v w := by
  rcases hv with ⟨s, rfl⟩ | rfl | ⟨u, rfl⟩
  · rcases hw with ⟨t, rfl⟩ | rfl | ⟨u, rfl⟩
    · have e : (s == t) = true := e
      exact Like.of_eq fp d (congrArg Val.str (by simpa using e))
    · cases e
    · cases e
  · rcases hw with ⟨t, rfl⟩ | rfl | ⟨u, rfl⟩
    · cases e
    · exact Like.refl ..
    · cases e
  · rcases hw with ⟨t, rfl⟩ | rfl | ⟨u', rfl⟩
    · cases e
    · cases e
    · obtain ⟨k, x⟩ := u
      obtain ⟨k', y⟩ := u'
      have e : (k == k' && x.pyEq y) = true := e
      simp only [Bool.and_eq_true, beq_iff_eq] at e
      obtain ⟨rfl, e1⟩ := e
      cases k with
      | len k =>
        apply SameMeaning.like L
        refine Or.inr ⟨k, k, x, y, rfl, rfl, fun z => ?_⟩
        unfold pxOf
        rw [lu_equal L k e1 hl hr]
        rintro n rfl hv
        exact hm k n rfl hv
      | ang k =>
        refine ⟨fun _ => rfl, rfl, fun _ => rfl, fun _ => ?_⟩
        unfold calculateSize
        rfl

theorem equal_like {fp : FP} (L : fp.Laws) {d : Display} {p : LH} (hp : p.Sizing ∨ p.Offset) {v w : Val} (h : EqualValues fp d p v w) : Like fp d v w :=
  plain_like L (canonical_layout hp h.left) (canonical_layout hp h.right) h.heldLeft h.heldRight h.modest h.equal

theorem initial_plain {p : LH} (hp : p.Sizing ∨ p.Offset) : p.constInit.Plain := by
  cases p <;> first
    | exact Or.inr (Or.inr ⟨_, rfl⟩)
    | exact Or.inl ⟨_, rfl⟩
    | exact Or.inr (Or.inl rfl)
    | (rcases hp with hp | hp <;> exact hp.elim)

theorem get_plain {c : CSS} (hc : ∀ p v, c p = some v → Canonical p v) {p : LH} (hp : p.Sizing ∨ p.Offset) : (c.get p).Plain := by
  show ((c p).getD p.constInit).Plain
  cases h : c p with
  | none => exact initial_plain hp
  | some v => exact canonical_layout hp (hc p v h)

theorem DocRel.refl {R : LH → Val → Val → Prop} (h : ∀ p v, R p v v) (n : Node) : DocRel R n n := by
  induction n using Node.ind with
  | h s z l cs ih =>
    refine .mk (fun p _ => h p _) rfl fun x hx => ?_
    have : x.1 = x.2 := by
      obtain ⟨i, hi, rfl⟩ := List.getElem_of_mem hx
      simp
    rw [← this]
    exact ih x.1 (List.of_mem_zip hx).1

theorem docRel_atPath {R : LH → Val → Val → Prop} (h : ∀ p v, R p v v) {f : Node → Node} : ∀ {r : List Nat} {n m : Node}, n.find r = some m →
    DocRel R m (f m) → DocRel R n (n.atPath f r) := by
  intro r
  induction r with
  | nil =>
    intro n m hm hr
    cases n
    obtain rfl : _ = m := Option.some.inj hm
    exact hr
  | cons i r ih =>
    rintro ⟨s, z, l, cs⟩ m hm hr
    refine .mk (fun p _ => h p _) (by simp) fun x hx => ?_
    obtain ⟨j, hj, rfl⟩ := List.getElem_of_mem hx
    simp only [List.getElem_zip, List.getElem_modify]
    split
    · rename_i hij
      subst hij
      have hlt : i < cs.length := by simp at hj; omega
      have : (cs[i]'hlt).find r = some m := by
        simp only [Node.find, Node.children, List.getElem?_eq_getElem hlt] at hm
        exact hm
      exact ih this hr
    · exact .refl h _

theorem ParentRel.refl {R : LH → Val → Val → Prop} (h : ∀ p v, R p v v) (p : Option CSS) : ParentRel R p p := by
  cases p with
  | none => trivial
  | some s => exact fun x _ => h x _

end Colosseum
