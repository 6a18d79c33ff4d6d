import Verif.Lemmas.Offsets
import Verif.Props.Blueprint

/-!
# C50: offsets move an element and nothing else

Two layouts are compared: of a document, and of the document in which an element has other offsets. Positions are relative to the content of the parent, so
that what is inside the element moves with it.
-/

namespace Colosseum

theorem butFor_at {E : Figures → Figures → Prop} {q : List Nat} : ∀ {k k' : Blueprint}, k.ButFor E q k' →
    (∀ r, r ≠ q → k'.at r = k.at r) ∧ Option.Rel E (k.at q) (k'.at q) := by
  induction q with
  | nil =>
    intro k k' h
    cases k with
    | absent => cases k' with
      | absent => exact ⟨fun _ _ => rfl, .none⟩
      | mk => exact h.elim
    | mk f ks => cases k' with
      | absent => exact h.elim
      | mk f' ks' =>
        refine ⟨fun r hr => ?_, .some h.1⟩
        cases r with
        | nil => exact absurd rfl hr
        | cons i r => simp only [Blueprint.at, h.2]
  | cons i q ih =>
    intro k k' h
    cases k with
    | absent => cases k' with
      | absent => exact ⟨fun _ _ => rfl, .none⟩
      | mk => exact h.elim
    | mk f ks => cases k' with
      | absent => exact h.elim
      | mk f' ks' =>
        have hk := h.2.get
        refine ⟨fun r hr => ?_, ?_⟩
        · cases r with
          | nil => simp only [Blueprint.at, h.1]
          | cons j r =>
            have := hk j
            simp only [Blueprint.at]
            revert this
            cases ks[j]? <;> cases ks'[j]? <;> intro this
            · rfl
            · cases this
            · cases this
            · cases this with
              | some this =>
                split at this
                · rename_i e
                  subst e
                  exact (ih this).1 r (fun e => hr (by rw [e]))
                · rw [this]
        · have := hk i
          simp only [Blueprint.at]
          revert this
          cases ks[i]? <;> cases ks'[i]? <;> intro this
          · exact .none
          · cases this
          · cases this
          · cases this with
            | some this =>
              rw [if_pos rfl] at this
              exact (ih this).2

theorem allBoxed_atPath {f : Node → Node} {P : LH → Prop} (hP : ¬ P .display) : ∀ {q : List Nat} {n m : Node}, n.find q = some m → ReOffset P f m →
    AllBoxed n → AllBoxed (n.atPath f q)
  | [], n, m, h, h', hb => by
    cases h
    obtain ⟨s, s', z, l, cs, e1, e2, hs⟩ := h'
    simp only [Node.atPath, e2]
    rw [e1, allBoxed_mk] at hb
    rw [allBoxed_mk, hs _ hP]
    exact hb
  | i :: q, .mk s z l cs, m, h, h', hb => by
    simp only [Node.atPath]
    rw [allBoxed_mk] at hb ⊢
    intro hd
    refine ⟨(hb hd).1, fun c hc => ?_⟩
    rw [List.mem_iff_getElem?] at hc
    obtain ⟨j, hj⟩ := hc
    rw [List.getElem?_modify] at hj
    cases hx : cs[j]? with
    | none => rw [hx] at hj; cases hj
    | some c' =>
      rw [hx] at hj
      have hc' := (hb hd).2 c' (List.mem_iff_getElem?.2 ⟨j, hx⟩)
      simp only [Option.map_some, Option.map_eq_map, Option.some.injEq] at hj
      subst hj
      split
      · rename_i e
        subst e
        simp only [Node.find, Node.children, hx, Option.bind_some] at h
        exact allBoxed_atPath hP h h' hc'
      · exact hc'

theorem figures_but {fp : FP} {d : Display} {E : Figures → Figures → Prop} {P : LH → Prop} {f : Node → Node} {html5 : Bool} {p : Option CSS} {q : List Nat}
    {n m n1 n2 : Node} (hE : Shifts fp d E P) (h : n.find q = some m) (h' : ReOffset P f m) (hS : Secure fp E n q)
    (hr : ∀ f f' h, E f f' → E { f with height := h } { f' with height := h }) (hb : AllBoxed n) (h1 : layout fp d html5 p n = .ok n1)
    (h2 : layout fp d html5 p (n.atPath f q) = .ok n2) :
    (∀ r, r ≠ q → (n2.boxAt r).map Box.figures = (n1.boxAt r).map Box.figures) ∧
      Option.Rel (fun b b' => E b.figures b'.figures) (n1.boxAt q) (n2.boxAt q) := by
  have hd : ¬ P .display := fun hp => by rcases hE.offsets _ hp with h | h | h | h <;> cases h
  have k1 := C91_blueprint (fp := fp) (d := d) (html5 := html5) (p := p) hb
  have k2 := C91_blueprint (fp := fp) (d := d) (html5 := html5) (p := p) (allBoxed_atPath hd h h' hb)
  rw [h1] at k1
  rw [h2] at k2
  obtain ⟨h3, h4⟩ := butFor_at (blueprint_but hE h h' hS hr html5 p _ _ k1.symm k2.symm)
  refine ⟨fun r hr => ?_, ?_⟩
  · have := h3 r hr
    rw [drawn_at, drawn_at] at this
    exact this
  · rw [drawn_at, drawn_at] at h4
    revert h4
    cases n1.boxAt q <;> cases n2.boxAt q <;> intro h4
    · exact .none
    · cases h4
    · cases h4
    · cases h4 with
      | some h4 => exact .some h4

/-- C50, two layouts, sideways. Whatever else there is in the document and whatever the arithmetic: if `left` and `right` of an element are changed, then
after the layout all boxes have the same numbers as before, except that the box of this element may be elsewhere horizontally. -/
theorem C50_left_only (fp : FP) (d : Display) (html5 : Bool) (p : Option CSS) (n n1 n2 : Node) (q : List Nat) (s s' : CSS) (z : Intrinsic) (l : Option Box)
    (cs : List Node) (hb : AllBoxed n) (hm : n.find q = some (.mk s z l cs)) (hs : ∀ p, p ≠ .left → p ≠ .right → s'.get p = s.get p)
    (h1 : layout fp d html5 p n = .ok n1) (h2 : layout fp d html5 p (n.atPath (fun _ => .mk s' z l cs) q) = .ok n2) :
    (∀ r, r ≠ q → (n2.boxAt r).map Box.figures = (n1.boxAt r).map Box.figures) ∧
      Option.Rel (fun b b' => b'.figures = { b.figures with x := b'.figures.x }) (n1.boxAt q) (n2.boxAt q) := by
  refine figures_but (E := fun f f' => f' = { f with x := f'.x }) (P := fun p => p = .left ∨ p = .right) ⟨⟨fun f => rfl, ?_, ?_, ?_, ?_, ?_, ?_, ?_⟩, ?_, ?_⟩
    hm ⟨s, s', z, l, cs, rfl, rfl, fun p hp => hs p (fun e => hp (.inl e)) (fun e => hp (.inr e))⟩ (.inl ?_) ?_ hb h1 h2
  · intro f f' dy e
    rw [e]
    rfl
  · intro f f' e; rw [e]
  · intro f f' e; rw [e]
  · intro f f' e; rw [e]
  · intro f f' e; rw [e]
  · intro f f' e; rw [e]
  · intro f f' e; rw [e]
  · rintro p (rfl | rfl) <;> simp
  · intro s s' hs r dx dy dx' dy' h h' f x y
    have e : dy' = dy := by
      simp only [CSS.moves, hs .top (by simp), hs .bottom (by simp)] at h h'
      obtain ⟨_, _, h⟩ := Option.bind_eq_some_iff.1 h
      obtain ⟨_, _, h'⟩ := Option.bind_eq_some_iff.1 h'
      obtain ⟨_, h3, h⟩ := Option.bind_eq_some_iff.1 h
      obtain ⟨_, h4, h'⟩ := Option.bind_eq_some_iff.1 h'
      rw [h3] at h4
      cases h; cases h'; cases h4
      rfl
    rw [e]
  · intro f f' e; rw [e]; rfl
  · intro f f' h e
    exact congrArg (fun g : Figures => { g with height := h }) e

/-- C50, two layouts, up and down. If `top` and `bottom` of an element are changed that is not the last child of a block of automatic height, then after the
layout all boxes have the same numbers as before, except that the box of this element may be elsewhere vertically. For the last child it is false: the block
around it grows (`C46_false_relative`). -/
theorem C50_top_only_partial (fp : FP) (d : Display) (html5 : Bool) (p : Option CSS) (n n1 n2 : Node) (q : List Nat) (s s' : CSS) (z : Intrinsic) (l : Option Box)
    (cs : List Node) (hb : AllBoxed n) (hm : n.find q = some (.mk s z l cs)) (hs : ∀ p, p ≠ .top → p ≠ .bottom → s'.get p = s.get p)
    (hq : ∀ q0 i m, q = q0 ++ [i] → n.find q0 = some m → m.BlockLevel → m.style.get .height = kw "auto" → i + 1 < m.children.length)
    (h1 : layout fp d html5 p n = .ok n1) (h2 : layout fp d html5 p (n.atPath (fun _ => .mk s' z l cs) q) = .ok n2) :
    (∀ r, r ≠ q → (n2.boxAt r).map Box.figures = (n1.boxAt r).map Box.figures) ∧
      Option.Rel (fun b b' => b'.figures = { b.figures with y := b'.figures.y }) (n1.boxAt q) (n2.boxAt q) := by
  refine figures_but (E := fun f f' => f' = { f with y := f'.y }) (P := fun p => p = .top ∨ p = .bottom) ⟨⟨fun f => rfl, ?_, ?_, ?_, ?_, ?_, ?_, ?_⟩, ?_, ?_⟩
    hm ⟨s, s', z, l, cs, rfl, rfl, fun p hp => hs p (fun e => hp (.inl e)) (fun e => hp (.inr e))⟩ (.inr ?_) ?_ hb h1 h2
  · intro f f' dy e
    rw [e]
    rfl
  · intro f f' e; rw [e]
  · intro f f' e; rw [e]
  · intro f f' e; rw [e]
  · intro f f' e; rw [e]
  · intro f f' e; rw [e]
  · intro f f' e; rw [e]
  · rintro p (rfl | rfl) <;> simp
  · intro s s' hs r dx dy dx' dy' h h' f x y
    have e : dx' = dx := by
      simp only [CSS.moves, hs .left (by simp), hs .right (by simp)] at h h'
      obtain ⟨_, h3, h⟩ := Option.bind_eq_some_iff.1 h
      obtain ⟨_, h4, h'⟩ := Option.bind_eq_some_iff.1 h'
      rw [h3] at h4
      cases h4
      obtain ⟨_, _, h⟩ := Option.bind_eq_some_iff.1 h
      obtain ⟨_, _, h'⟩ := Option.bind_eq_some_iff.1 h'
      cases h; cases h'
      rfl
    rw [e]
  · intro q0 i m e hm
    by_cases hh : m.style.get .height = kw "auto"
    · by_cases hk : m.manner = some .block
      · refine .inl (hq q0 i m e hm ?_ hh)
        unfold Node.manner at hk
        split at hk
        · cases hk
        · split at hk
          · split at hk <;> cases hk
          · split at hk
            · rename_i h
              simp only [Node.blockish, Bool.and_eq_true, List.any_cons, List.any_nil, Bool.or_eq_true, Bool.or_false, isKw_iff] at h
              exact h.1
            · cases hk
      · exact .inr (.inr hk)
    · exact .inr (.inl hh)
  · intro f f' h e
    exact congrArg (fun g : Figures => { g with height := h }) e

/-- A relatively positioned block between two others, with something inside. -/
def between3 (o : List (LH × Val)) : Node :=
  block [(.margin .top, px 4)] [block [(.height, px 10)] [], block ((.position, kw "relative") :: (.padding .top, px 3) :: o) [block [(.height, px 5)] []],
    block [(.margin .top, px 2)] [span [] 7 8]]

/-- The hypotheses hold for it, and it is moved: by 6 pixels to the right, or by 9 up. -/
example : ∃ n1 n2 n3, layout .b64 screen true none (between3 []) = .ok n1 ∧ layout .b64 screen true none (between3 [(.left, px 6)]) = .ok n2 ∧
    layout .b64 screen true none (between3 [(.bottom, px 9)]) = .ok n3 ∧ AllBoxed (between3 []) ∧
    [n1, n2, n3].map (fun n => (n.boxAt [1]).map fun b => (b.figures.x, b.figures.y)) =
      [some (.int 0, .int 16), some (.int 6, .int 16), some (.int 0, .int 7)] := by
  have h : ∀ o, (layout .b64 screen true none (between3 o)).toOption.isSome = true →
      layout .b64 screen true none (between3 o) = .ok ((layout .b64 screen true none (between3 o)).toOption.getD (between3 o)) := by
    intro o
    cases layout .b64 screen true none (between3 o) with
    | error e => intro h; cases h
    | ok n => intro _; rfl
  refine ⟨_, _, _, h _ (by decide +kernel), h _ (by decide +kernel), h _ (by decide +kernel), full_boxed _ (by decide +kernel), by decide +kernel⟩

end Colosseum
