import Verif.Lemmas.Boundary
import Verif.Props.Offsets

/-!
# C99: what is inside an element of given height has no effect outside

Two layouts are compared: of a document, and of the document in which an element has other children. Its height does not come from its children: it is not a
block, or its height is given. Positions are relative to the content of the parent.
-/

namespace Colosseum

theorem around_at {q : List Nat} : ∀ {k k' : Blueprint}, k.Around q k' → ∀ r,
    (∀ q', q = r ++ q' → Option.Rel (Nearly q') (k.at r) (k'.at r)) ∧ (¬ r <+: q → ¬ q <+: r → k'.at r = k.at r) := by
  induction q with
  | nil =>
    intro k k' h r
    refine ⟨fun q' e => ?_, fun _ h => absurd (List.nil_prefix) h⟩
    obtain ⟨rfl, rfl⟩ := List.append_eq_nil_iff.1 e.symm
    cases k with
    | absent => rw [around_absent h]; exact .none
    | mk g ks => obtain ⟨g', ks', rfl, e⟩ := around_mk h; exact .some e
  | cons i q ih =>
    intro k k' h r
    cases k with
    | absent =>
      rw [around_absent h]
      cases r <;> exact ⟨fun _ _ => .none, fun _ _ => rfl⟩
    | mk g ks =>
      obtain ⟨g', ks', rfl, e⟩ := around_mk h
      cases r with
      | nil => exact ⟨fun q' e' => by rw [List.nil_append] at e'; rw [← e']; exact .some e, fun h => absurd (List.nil_prefix) h⟩
      | cons j r =>
        have := h.2.get j
        simp only [Blueprint.at]
        revert this
        cases ks[j]? <;> cases ks'[j]? <;> intro this
        · exact ⟨fun _ _ => .none, fun _ _ => rfl⟩
        · cases this
        · cases this
        · rename_i c c'
          cases this with
          | some this =>
            split at this
            · rename_i hj
              subst hj
              obtain ⟨h1, h2⟩ := ih this r
              refine ⟨fun q' e' => h1 q' ?_, fun e1 e2 => h2 (fun h => e1 ?_) (fun h => e2 ?_)⟩
              · rw [List.cons_append] at e'; exact (List.cons.inj e').2
              · exact (List.prefix_cons_inj j).2 h
              · exact (List.prefix_cons_inj j).2 h
            · rename_i hj
              subst this
              refine ⟨fun q' e' => ?_, fun _ _ => rfl⟩
              rw [List.cons_append] at e'
              exact absurd (List.cons.inj e').1.symm hj

theorem optionRel_map {α β γ : Type} {R : β → γ → Prop} {f : α → β} {g : α → γ} {a b : Option α} (h : Option.Rel R (a.map f) (b.map g)) :
    Option.Rel (fun x y => R (f x) (g y)) a b := by
  cases a <;> cases b
  · exact .none
  · cases h
  · cases h
  · cases h with
    | some h => exact .some h

theorem content_around {fp : FP} {d : Display} {html5 : Bool} {p : Option CSS} {n n1 n2 : Node} {q : List Nat} {s : CSS} {z : Intrinsic} {l l' : Option Box}
    {cs cs' : List Node} (hb : AllBoxed n) (hb' : AllBoxed (n.atPath (fun _ => .mk s z l' cs') q)) (hm : n.find q = some (.mk s z l cs))
    (hl : l'.isSome = l.isSome) (hh : s.get .height ≠ kw "auto" ∨ ¬ (Node.mk s z l cs).BlockLevel)
    (h1 : layout fp d html5 p n = .ok n1) (h2 : layout fp d html5 p (n.atPath (fun _ => .mk s z l' cs') q) = .ok n2) :
    ∃ g g' ks ks', Blueprint.Around q (.mk g ks) (.mk g' ks') ∧
      n1.drawn = .mk (if html5 then { g.moved fp (.int g.above) with height := some (d.contentHeight.less fp [.int g.above, .int g.below]) } else g.moved fp (.int g.above)) ks ∧
      n2.drawn = .mk (if html5 then { g'.moved fp (.int g'.above) with height := some (d.contentHeight.less fp [.int g'.above, .int g'.below]) } else g'.moved fp (.int g'.above)) ks' := by
  have k1 := C91_blueprint (fp := fp) (d := d) (html5 := html5) (p := p) hb
  have k2 := C91_blueprint (fp := fp) (d := d) (html5 := html5) (p := p) hb'
  rw [h1] at k1
  rw [h2] at k2
  have := plan_around (fp := fp) (d := d) (f := fun _ => .mk s z l' cs') hm ⟨s, z, l, l', cs, cs', rfl, rfl, hl, hh⟩ p ⟨some d.contentWidth, some d.contentHeight, none⟩
  unfold Node.blueprint at k1 k2
  revert this k1 k2
  generalize n.plan fp d p _ = o
  generalize (n.atPath _ q).plan fp d p _ = o'
  intro k1 k2 this
  cases o with
  | none => cases k1
  | some k => cases k with
    | absent => cases k1
    | mk g ks => cases o' with
      | none => cases k2
      | some k' => cases k' with
        | absent => cases k2
        | mk g' ks' => exact ⟨g, g', ks, ks', this _ _ rfl rfl, Option.some.inj k1, Option.some.inj k2⟩

/-- **C99.** Whatever else there is in the document and whatever the arithmetic: if the children of an element are replaced by others, and it is not a block
of automatic height, then after the layout all boxes outside of it have the same numbers as before, except those of which it is the first child, the first
child of the first child, and so on. -/
theorem C99_outside (fp : FP) (d : Display) (html5 : Bool) (p : Option CSS) (n n1 n2 : Node) (q : List Nat) (s : CSS) (z : Intrinsic) (l l' : Option Box)
    (cs cs' : List Node) (hb : AllBoxed n) (hb' : AllBoxed (n.atPath (fun _ => .mk s z l' cs') q)) (hm : n.find q = some (.mk s z l cs))
    (hl : l'.isSome = l.isSome) (hh : s.get .height ≠ kw "auto" ∨ ¬ (Node.mk s z l cs).BlockLevel)
    (h1 : layout fp d html5 p n = .ok n1) (h2 : layout fp d html5 p (n.atPath (fun _ => .mk s z l' cs') q) = .ok n2)
    (r : List Nat) (hr : ¬ q <+: r) (hf : ∀ k, q ≠ r ++ List.replicate k 0) : (n2.boxAt r).map Box.figures = (n1.boxAt r).map Box.figures := by
  obtain ⟨g, g', ks, ks', ha, e1, e2⟩ := content_around hb hb' hm hl hh h1 h2
  rw [← drawn_at, ← drawn_at, e1, e2]
  have far : ∀ q' : List Nat, q = r ++ q' → ∃ j ∈ q', j ≠ 0 := by
    intro q' e
    by_contra c
    push Not at c
    exact hf q'.length (by rw [e, List.eq_replicate_iff.2 ⟨rfl, c⟩, List.length_replicate])
  cases r with
  | nil =>
    have := (around_figures ha).2 (far q rfl)
    subst this
    rfl
  | cons i r =>
    have := around_at ha (i :: r)
    simp only [Blueprint.at] at this ⊢
    by_cases hp : (i :: r) <+: q
    · obtain ⟨q', e⟩ := hp
      have := this.1 q' e.symm
      revert this
      generalize (ks[i]?.bind fun k => k.at r) = a
      generalize (ks'[i]?.bind fun k => k.at r) = b
      intro this
      cases a <;> cases b
      · rfl
      · cases this
      · cases this
      · cases this with
        | some this => rw [this.2 (far q' e.symm)]
    · exact this.2 hp hr

/-- **C99.** In those exceptions, and in the box of the element itself, only the collapsed margin above may be different, unless it is the root. -/
theorem C99_first (fp : FP) (d : Display) (html5 : Bool) (p : Option CSS) (n n1 n2 : Node) (q : List Nat) (s : CSS) (z : Intrinsic) (l l' : Option Box)
    (cs cs' : List Node) (hb : AllBoxed n) (hb' : AllBoxed (n.atPath (fun _ => .mk s z l' cs') q)) (hm : n.find q = some (.mk s z l cs))
    (hl : l'.isSome = l.isSome) (hh : s.get .height ≠ kw "auto" ∨ ¬ (Node.mk s z l cs).BlockLevel)
    (h1 : layout fp d html5 p n = .ok n1) (h2 : layout fp d html5 p (n.atPath (fun _ => .mk s z l' cs') q) = .ok n2)
    (r : List Nat) (hr : r <+: q) (hn : r ≠ []) :
    Option.Rel (fun b b' => b'.figures = { b.figures with above := b'.figures.above }) (n1.boxAt r) (n2.boxAt r) := by
  obtain ⟨g, g', ks, ks', ha, e1, e2⟩ := content_around hb hb' hm hl hh h1 h2
  refine optionRel_map (R := fun f f' : Figures => f' = { f with above := f'.above }) ?_
  rw [← drawn_at, ← drawn_at, e1, e2]
  cases r with
  | nil => exact absurd rfl hn
  | cons i r =>
    obtain ⟨q', e⟩ := hr
    have := (around_at ha (i :: r)).1 q' e.symm
    simp only [Blueprint.at] at this ⊢
    revert this
    generalize (ks[i]?.bind fun k => k.at r) = a
    generalize (ks'[i]?.bind fun k => k.at r) = b
    intro this
    cases a <;> cases b
    · exact .none
    · cases this
    · cases this
    · cases this with
      | some this => exact .some this.1

/-- **C99.** In the box of the root the collapsed margin above may be different, and then its position: it is below the margin. By the rules of HTML5 its
height is what is left of the display. -/
theorem C99_root (fp : FP) (d : Display) (html5 : Bool) (p : Option CSS) (n n1 n2 : Node) (q : List Nat) (s : CSS) (z : Intrinsic) (l l' : Option Box)
    (cs cs' : List Node) (hb : AllBoxed n) (hb' : AllBoxed (n.atPath (fun _ => .mk s z l' cs') q)) (hm : n.find q = some (.mk s z l cs))
    (hl : l'.isSome = l.isSome) (hh : s.get .height ≠ kw "auto" ∨ ¬ (Node.mk s z l cs).BlockLevel)
    (h1 : layout fp d html5 p n = .ok n1) (h2 : layout fp d html5 p (n.atPath (fun _ => .mk s z l' cs') q) = .ok n2) :
    Option.Rel (fun b b' => ∃ y : Num, b.figures.y = y.replacing (y.add fp (.int b.figures.above)) ∧ b'.figures.y = y.replacing (y.add fp (.int b'.figures.above)) ∧
      b'.figures = { b.figures with y := b'.figures.y, above := b'.figures.above, height := if html5 then b'.figures.height else b.figures.height })
      (n1.boxAt []) (n2.boxAt []) := by
  obtain ⟨g, g', ks, ks', ha, e1, e2⟩ := content_around hb hb' hm hl hh h1 h2
  refine optionRel_map (R := fun f f' : Figures => ∃ y : Num, f.y = y.replacing (y.add fp (.int f.above)) ∧ f'.y = y.replacing (y.add fp (.int f'.above)) ∧
      f' = { f with y := f'.y, above := f'.above, height := if html5 then f'.height else f.height }) ?_
  rw [← drawn_at, ← drawn_at, e1, e2]
  have e := (around_figures ha).1
  have ey : g'.y = g.y := by rw [e]
  refine .some ⟨g.y, ?_, ?_, ?_⟩
  · cases html5 <;> rfl
  · rw [← ey]; cases html5 <;> rfl
  · rw [e]; cases html5 <;> rfl

/-! ## Documents -/

/-- A block of height 20 between others, the first child of its parent. -/
def fixedIn (cs : List Node) : Node :=
  block [] [block [(.height, px 10)] [], block [] [block [(.height, px 20), (.margin .bottom, px 3)] cs, block [(.margin .top, px 8)] [span [] 5 6]]]

/-- The hypotheses hold for it, and what is inside makes a difference somewhere: in the margin above its parent. -/
example : ∃ n1 n2, layout .b64 screen false none (fixedIn []) = .ok n1 ∧ layout .b64 screen false none (fixedIn [block [(.margin .top, px 30), (.height, px 100)] []]) = .ok n2 ∧
    AllBoxed (fixedIn []) ∧ AllBoxed (fixedIn [block [(.margin .top, px 30), (.height, px 100)] []]) ∧
    (fixedIn []).atPath (fun _ => block [(.height, px 20), (.margin .bottom, px 3)] [block [(.margin .top, px 30), (.height, px 100)] []]) [1, 0] =
      fixedIn [block [(.margin .top, px 30), (.height, px 100)] []] ∧
    [n1, n2].map (fun n => [[], [0], [1], [1, 0], [1, 1]].map fun q => (n.boxAt q).map fun b => (b.figures.y.val, b.figures.height.map Num.val, b.figures.above)) =
      [[some (0, some 44, 0), some (0, some 10, 0), some (10, some 34, 0), some (0, some 20, 0), some (28, some 6, 8)],
        [some (0, some 44, 0), some (0, some 10, 0), some (10, some 34, 30), some (0, some 20, 30), some (28, some 6, 8)]] := by
  have h : ∀ o, (layout .b64 screen false none (fixedIn o)).toOption.isSome = true →
      layout .b64 screen false none (fixedIn o) = .ok ((layout .b64 screen false none (fixedIn o)).toOption.getD (fixedIn o)) := by
    intro o
    cases layout .b64 screen false none (fixedIn o) with
    | error e => intro h; cases h
    | ok n => intro _; rfl
  exact ⟨_, _, h _ (by decide +kernel), h _ (by decide +kernel), full_boxed _ (by decide +kernel), full_boxed _ (by decide +kernel), rfl, by decide +kernel⟩

/-- For a block of automatic height it would be false. -/
theorem C99_auto : (laidBox .b64 screen (block [] [block [] [], block [] []]) [1]).map (fun b => b.figures.y) = some (.int 0) ∧
    (laidBox .b64 screen (block [] [block [] [block [(.height, px 9)] []], block [] []]) [1]).map (fun b => b.figures.y) = some (.int 9) := by
  decide +kernel

end Colosseum
