import Verif.Lemmas.Reads
import Verif.Lemmas.Alike

/-!
# Layout and changes of style

Layout commutes with changes of style that keep the properties that matter.
-/

namespace Colosseum

theorem restyleAll_map (f : CSS → CSS) (cs : List Node) : restyleAll f cs = cs.map (Node.restyle f) := by
  induction cs with
  | nil => rfl
  | cons c cs ih => simp only [restyleAll, ih, List.map_cons]

theorem restyle_mk (f : CSS → CSS) (s : CSS) (z : Intrinsic) (l : Option Box) (cs : List Node) :
    (Node.mk s z l cs).restyle f = .mk (f s) z l (cs.map (Node.restyle f)) := by
  simp only [Node.restyle, restyleAll_map]

theorem restyle_style (f : CSS → CSS) (n : Node) : (n.restyle f).style = f n.style := by cases n; rfl
theorem restyle_layout (f : CSS → CSS) (n : Node) : (n.restyle f).layout = n.layout := by cases n; rfl

theorem restyle_setOrigin (f : CSS → CSS) (fp : FP) (a : Axis) (n : Node) : ∀ v, (n.setOrigin fp a v).restyle f = (n.restyle f).setOrigin fp a v := by
  induction n using Node.ind with
  | h s z l cs ih =>
    intro v
    cases l with
    | none => simp only [Node.setOrigin, restyle_mk]
    | some b =>
      simp only [Node.setOrigin, restyle_mk]
      split
      · rw [restyle_mk]
      · rw [restyle_mk, setOrigins_map, setOrigins_map, List.map_map, List.map_map]
        congr 1
        exact List.map_congr_left fun c hc => ih c hc _

theorem restyle_setOrigins (f : CSS → CSS) (fp : FP) (a : Axis) (v : Num) (cs : List Node) :
    (setOrigins fp a v cs).map (Node.restyle f) = setOrigins fp a v (cs.map (Node.restyle f)) := by
  rw [setOrigins_map, setOrigins_map, List.map_map, List.map_map]
  exact List.map_congr_left fun c _ => restyle_setOrigin f fp a c v

theorem restyle_pushAll (f : CSS → CSS) (fp : FP) (ps : List (Axis × Num)) : ∀ cs : List Node,
    (pushAll fp ps cs).map (Node.restyle f) = pushAll fp ps (cs.map (Node.restyle f)) := by
  induction ps with
  | nil => intro cs; rfl
  | cons p ps ih =>
    intro cs
    show (pushAll fp ps _).map _ = pushAll fp ps _
    rw [ih, restyle_setOrigins]

theorem restyle_resetOne (f : CSS → CSS) (fp : FP) (cs : List Node) :
    resetOne fp (cs.map (Node.restyle f)) = ((resetOne fp cs).1, (resetOne fp cs).2.map (Node.restyle f)) := by
  simp only [resetOne, restyle_setOrigins]

theorem restyle_setContent (f : CSS → CSS) (fp : FP) (a : Axis) (v : Num) (b : Box) (cs : List Node) :
    setContent fp a v b (cs.map (Node.restyle f)) = ((setContent fp a v b cs).1, (setContent fp a v b cs).2.map (Node.restyle f)) := by
  unfold setContent
  split
  · rfl
  · simp only [restyle_setOrigins]

/-- The children with other styles. -/
def restyled (f : CSS → CSS) (x : Box × List Node) : Box × List Node := (x.1, x.2.map (Node.restyle f))

theorem Uniform.restyle {fp : FP} {S : List Node → Prop} {F : List Node → Res (Box × List Node)} (h : Uniform fp S F) (f : CSS → CSS) {cs : List Node}
    (h1 : S cs) (h2 : S (cs.map (Node.restyle f))) : F (cs.map (Node.restyle f)) = (F cs).map (restyled f) := by
  rcases h with ⟨e, h⟩ | ⟨b, ps, h⟩
  · rw [h _ h1, h _ h2]; rfl
  · rw [h _ h1, h _ h2, ← restyle_pushAll]; rfl

theorem restyle_width (f : CSS → CSS) (fp : FP) (s : CSS) (z : Intrinsic) (c : PxCtx) (b : Box) (cs : List Node) :
    widthAndMargins fp s z c b (cs.map (Node.restyle f)) = (widthAndMargins fp s z c b cs).map (restyled f) :=
  (uniform_width fp (fun _ => True) s z c b).restyle f trivial trivial

theorem restyle_height (f : CSS → CSS) (fp : FP) (s : CSS) (z : Intrinsic) (p : Option CSS) (c : PxCtx) (b : Box) (cs : List Node) :
    heightAndMargins fp s z p c b (cs.map (Node.restyle f)) = (heightAndMargins fp s z p c b cs).map (restyled f) := by
  refine (uniform_height fp s z p c b (cs.getLast?.map Node.layout)).restyle f (fun _ => rfl) (fun _ => ?_)
  rw [List.getLast?_map, Option.map_map]
  congr 1
  funext n
  exact restyle_layout f n

theorem restyle_relativeHeight (f : CSS → CSS) (fp : FP) (s : CSS) (z : Intrinsic) (p : Option CSS) (c : PxCtx) (b : Box) (cs : List Node) :
    relativeHeight fp s z p c b (cs.map (Node.restyle f)) = (relativeHeight fp s z p c b cs).map (restyled f) := by
  unfold relativeHeight
  split
  · exact restyle_height ..
  · rfl

theorem restyle_relative (f : CSS → CSS) (fp : FP) (s : CSS) (cb : CB) (hz vt : PxCtx) (b : Box) (cs : List Node) :
    applyRelative fp s cb hz vt b (cs.map (Node.restyle f)) = (applyRelative fp s cb hz vt b cs).map (restyled f) :=
  (uniform_relative fp (fun _ => True) s cb hz vt b).restyle f trivial trivial

/-- A change of style that keeps what matters for layout. -/
def Keeps (fp : FP) (d : Display) (f : CSS → CSS) : Prop := ∀ s x, LH.Sizing x ∨ LH.Offset x → Like fp d ((f s).get x) (s.get x)

theorem Keeps.sizing {fp : FP} {d : Display} {f : CSS → CSS} (h : Keeps fp d f) (s : CSS) : (f s).SameSizing fp d s := fun x hx => h s x (Or.inl hx)

theorem keeps_looks (fp : FP) (d : Display) : Keeps fp d CSS.looks := by
  intro s x hx
  apply Like.of_eq
  show (CSS.looks s x).getD _ = _
  unfold CSS.looks
  rw [if_pos hx]
  rfl

theorem keeps_relative {fp : FP} {d : Display} {f : CSS → CSS} (h : Keeps fp d f) (s : CSS) (cb : CB) (x y : Option Num) (b : Box) (cs : List Node) :
    applyRelative fp (f s) cb ⟨d, dummyFont fp, x⟩ ⟨d, dummyFont fp, y⟩ b cs = applyRelative fp s cb ⟨d, dummyFont fp, x⟩ ⟨d, dummyFont fp, y⟩ b cs := by
  have o := fun y (hy : LH.Offset y) => h s y (Or.inr hy)
  unfold applyRelative relativeOffset
  simp only [reads_isRelative (h.sizing s), (o .left trivial).isKw, (o .right trivial).isKw, (o .top trivial).isKw, (o .bottom trivial).isKw,
    (o .left trivial).px, (o .right trivial).px, (o .top trivial).px, (o .bottom trivial).px]

/-- A container with other styles. -/
def Container.restyle (f : CSS → CSS) : Container → Container
  | .anon ns => .anon (ns.map (Node.restyle f))
  | .node n => .node (n.restyle f)

theorem restyle_anonymize {fp : FP} {d : Display} {f : CSS → CSS} (h : Keeps fp d f) : ∀ (cs : List Node) (x : Option (List Node)),
    anonymizeLoop (x.map (List.map (Node.restyle f))) (cs.map (Node.restyle f)) = (anonymizeLoop x cs).map (Container.restyle f) := by
  intro cs
  induction cs with
  | nil => intro x; rfl
  | cons c cs ih =>
    intro x
    simp only [List.map_cons, anonymizeLoop, restyle_style, reads_isBlockLevel (h.sizing c.style)]
    have i1 := ih none
    simp only [Option.map_none] at i1
    split
    · cases x with
      | none => simp only [Option.map_none, i1, List.map_cons, Container.restyle]
      | some xs => simp only [Option.map_some, i1, List.map_cons, Container.restyle]
    · cases x with
      | none =>
        have := ih (some [c])
        simpa using this
      | some xs =>
        have := ih (some (xs ++ [c]))
        simpa using this

theorem restyle_inlineLoop {f : CSS → CSS} {lay lay' : Node → Res Node} (hl : ∀ n, lay' (n.restyle f) = (lay n).map (Node.restyle f)) : ∀ cs : List Node,
    inlineLoop lay' (cs.map (Node.restyle f)) = (inlineLoop lay cs).map (List.map (Node.restyle f)) := by
  intro cs
  induction cs with
  | nil => rfl
  | cons c cs ih =>
    simp only [List.map_cons, inlineLoop, hl, ih]
    cases lay c with
    | error e => rfl
    | ok c' => cases inlineLoop lay cs <;> rfl

theorem restyle_stackChild (f : CSS → CSS) (fp : FP) (b : Box) (off : Num) (bm : Option Int) (c : Node) :
    stackChild fp b off bm (c.restyle f) = (stackChild fp b off bm c).map fun x => (x.1, x.2.1.restyle f, x.2.2) := by
  obtain ⟨s, z, l, cs⟩ := c
  cases l with
  | none => rfl
  | some cb =>
    rw [restyle_mk]
    simp only [stackChild]
    cases collapseAbove fp b off bm cb with
    | error e => rfl
    | ok x =>
      simp only [Bind.bind, Except.bind, restyle_setContent]
      cases (setContent fp .v (cb.v.content.add fp x.2) cb cs).1.borderBoxHeight fp with
      | none => rfl
      | some hh =>
        simp only [need, Pure.pure, Except.pure, Except.map, restyle_mk]

theorem restyle_blockLoop {f : CSS → CSS} {fp : FP} {lay lay' : Box → Node → Res Node} (hl : ∀ b n, lay' b (n.restyle f) = (lay b n).map (Node.restyle f)) :
    ∀ (ks : List Container) (b : Box) (off : Num) (bm : Option Int),
      blockLoop fp lay' b off bm (ks.map (Container.restyle f)) = (blockLoop fp lay b off bm ks).map (restyled f) := by
  intro ks
  induction ks with
  | nil => intro b off bm; rfl
  | cons k ks ih =>
    intro b off bm
    cases k with
    | anon xs => rfl
    | node c =>
      simp only [List.map_cons, Container.restyle, blockLoop, hl]
      cases lay b c with
      | error e => rfl
      | ok c' =>
        simp only [Except.map, restyle_stackChild]
        cases stackChild fp b off bm c' with
        | error e => rfl
        | ok x =>
          obtain ⟨b1, c1, o1, m1⟩ := x
          simp only [ih]
          cases blockLoop fp lay b1 o1 m1 ks with
          | error e => rfl
          | ok y => rfl

theorem restyle_children {fp : FP} {d : Display} {f : CSS → CSS} (h : Keeps fp d f) {lay lay' : Box → Node → Res Node} (hl : ∀ b n, lay' b (n.restyle f) = (lay b n).map (Node.restyle f))
    (s : CSS) (z : Intrinsic) (b : Box) (cs : List Node) : layoutChildren fp lay' s z b (cs.map (Node.restyle f)) = (layoutChildren fp lay s z b cs).map (restyled f) := by
  have hi : establishesInline s z (cs.map (Node.restyle f)) = establishesInline s z cs := by
    unfold establishesInline
    rw [List.any_map]
    congr 2
    congr 1
    funext c
    show isBlockLevel (c.restyle f).style = _
    rw [restyle_style, reads_isBlockLevel (h.sizing c.style)]
  unfold layoutChildren
  rw [hi]
  split
  · rw [restyle_inlineLoop (hl b)]
    cases inlineLoop (lay b) cs <;> rfl
  · have := restyle_anonymize h cs none
    unfold anonymize
    rw [show anonymizeLoop none (cs.map (Node.restyle f)) = _ from this, restyle_blockLoop hl]
    cases blockLoop fp lay b (.int 0) none (anonymizeLoop none cs) with
    | error e => rfl
    | ok x =>
      simp only [Except.map, restyled, List.map_append, List.map_drop, List.length_map]

theorem restyle_body {fp : FP} {d : Display} {f : CSS → CSS} (h : Keeps fp d f) {lay lay' : Box → Node → Res Node}
    (hl : ∀ b n, lay' b (n.restyle f) = (lay b n).map (Node.restyle f)) (p : Option CSS) (cb : CB) (s : CSS) (z : Intrinsic) (b : Box) (cs : List Node) :
    layoutBody fp d lay' (p.map f) cb (f s) z b (cs.map (Node.restyle f)) = (layoutBody fp d lay p cb s z b cs).map (restyled f) := by
  have hp : SameParent fp d (p.map f) p := by
    cases p with
    | none => exact .refl _
    | some q => exact h q .height (Or.inl trivial)
  have hs := h.sizing s
  unfold layoutBody
  simp only [reads_copyEdges hs, reads_width hs, reads_relativeHeight hs hp, reads_isAbsolute hs, reads_isFloat hs, reads_children hs,
    reads_heightAndMargins hs hp, keeps_relative h]
  cases copyEdges fp s ⟨d, dummyFont fp, cb.width⟩ ⟨d, dummyFont fp, cb.height⟩ b with
  | error e => rfl
  | ok b1 =>
    simp only [Bind.bind, Except.bind, restyle_width]
    cases widthAndMargins fp s z ⟨d, dummyFont fp, cb.width⟩ b1 cs with
    | error e => rfl
    | ok x2 =>
      simp only [Except.map, restyled, restyle_relativeHeight]
      cases relativeHeight fp s z p ⟨d, dummyFont fp, cb.height⟩ x2.1 x2.2 with
      | error e => rfl
      | ok x3 =>
        simp only [Except.map, restyled]
        split
        · rfl
        split
        · rfl
        rw [restyle_children h hl]
        cases layoutChildren fp lay s z x3.1 x3.2 with
        | error e => rfl
        | ok x4 =>
          simp only [Except.map, restyled, restyle_height]
          cases heightAndMargins fp s z p ⟨d, dummyFont fp, cb.height⟩ x4.1 x4.2 with
          | error e => rfl
          | ok x5 =>
            simp only [Except.map, restyled, restyle_relative]

theorem restyle_layoutBox {fp : FP} {d : Display} {f : CSS → CSS} (h : Keeps fp d f) (k : Nat) : ∀ (p : Option CSS) (cb : CB) (n : Node),
    layoutBox fp d k (p.map f) cb (n.restyle f) = (layoutBox fp d k p cb n).map (Node.restyle f) := by
  induction k with
  | zero => intro p cb n; rfl
  | succ k ih =>
    rintro p cb ⟨s, z, l, cs⟩
    rw [restyle_mk]
    simp only [layoutBox, reads_hidden (h.sizing s)]
    split
    · simp only [Except.map, restyle_mk]
    · have body := fun b cs => restyle_body h (lay := fun b n => layoutBox fp d k (some s) (.box b) n)
        (lay' := fun b n => layoutBox fp d k (some (f s)) (.box b) n) (fun b n => ih (some s) (.box b) n) p cb s z b cs
      cases l with
      | some b =>
        simp only
        rw [body]
        cases layoutBody fp d (fun b n => layoutBox fp d k (some s) (.box b) n) p cb s z b cs with
        | error e => rfl
        | ok x => simp only [Except.map, restyled, restyle_mk]
      | none =>
        simp only [restyle_resetOne]
        rw [body]
        cases layoutBody fp d (fun b n => layoutBox fp d k (some s) (.box b) n) p cb s z (resetOne fp cs).1 (resetOne fp cs).2 with
        | error e => rfl
        | ok x => simp only [Except.map, restyled, restyle_mk]

theorem restyle_depth (f : CSS → CSS) (n : Node) : (n.restyle f).depth = n.depth := by
  induction n using Node.ind with
  | h s z l cs ih =>
    rw [restyle_mk]
    simp only [Node.depth]
    rw [depths_map ih]

theorem restyle_resetFuel (f : CSS → CSS) (fp : FP) (k : Nat) : ∀ n : Node, (n.restyle f).resetFuel fp k = (n.resetFuel fp k).restyle f := by
  induction k with
  | zero => intro n; rfl
  | succ k ih =>
    rintro ⟨s, z, l, cs⟩
    rw [restyle_mk]
    cases l with
    | none => simp only [Node.resetFuel, restyle_mk]
    | some b =>
      simp only [Node.resetFuel, restyle_mk, restyle_resetOne, List.map_map]
      congr 1
      exact List.map_congr_left fun c _ => ih c

theorem restyle_finishRoot (f : CSS → CSS) (fp : FP) (d : Display) (html5 : Bool) (n : Node) :
    finishRoot fp d html5 (n.restyle f) = (finishRoot fp d html5 n).map (Node.restyle f) := by
  obtain ⟨s, z, l, cs⟩ := n
  rw [restyle_mk]
  cases l with
  | none => rfl
  | some b => simp only [finishRoot, restyle_setContent, Except.map, restyle_mk]

theorem restyle_layoutDoc {fp : FP} {d : Display} {f : CSS → CSS} (h : Keeps fp d f) (html5 : Bool) (p : Option CSS) (n : Node) :
    layout fp d html5 (p.map f) (n.restyle f) = (layout fp d html5 p n).map (Node.restyle f) := by
  unfold layout
  rw [restyle_layout]
  split
  · rfl
  · unfold Node.reset
    rw [restyle_depth, restyle_resetFuel, restyle_layoutBox h]
    cases layoutBox fp d n.depth p (.viewport d) (n.resetFuel fp n.depth) with
    | error e => rfl
    | ok m => exact restyle_finishRoot f fp d html5 m

end Colosseum
