import Verif.Lemmas.Layout
import Verif.Lemmas.Local

/-!
# Origins when boxes are created during a layout
-/

namespace Colosseum

/-! ## Which nodes have boxes -/

mutual
/-- The document with all boxes replaced by the same one. -/
def Node.bare : Node → Node
  | .mk s z l cs => .mk s z (l.map fun _ => Box.fresh) (bares cs)
/-- The same for a list. -/
def bares : List Node → List Node
  | [] => []
  | c :: cs => c.bare :: bares cs
end

theorem bares_map (cs : List Node) : bares cs = cs.map Node.bare := by
  induction cs with
  | nil => rfl
  | cons c cs ih => simp [bares, ih]

theorem bare_mk (s : CSS) (z : Intrinsic) (l : Option Box) (cs : List Node) :
    (Node.mk s z l cs).bare = .mk s z (l.map fun _ => Box.fresh) (cs.map Node.bare) := by
  rw [Node.bare, bares_map]

theorem bare_layout {n m : Node} (h : n.bare = m.bare) : n.layout = none ↔ m.layout = none := by
  obtain ⟨s, z, l, cs⟩ := n
  obtain ⟨s', z', l', cs'⟩ := m
  rw [bare_mk, bare_mk] at h
  injection h with _ _ h _
  show l = none ↔ l' = none
  cases l <;> cases l' <;> simp_all

theorem bare_children {n m : Node} (h : n.bare = m.bare) : n.children.map Node.bare = m.children.map Node.bare := by
  obtain ⟨s, z, l, cs⟩ := n
  obtain ⟨s', z', l', cs'⟩ := m
  rw [bare_mk, bare_mk] at h
  injection h

theorem bare_setOrigin (fp : FP) (a : Axis) (n : Node) : ∀ v, (n.setOrigin fp a v).bare = n.bare := by
  induction n using Node.ind with
  | h s z l cs ih =>
    intro v
    cases l with
    | none => rfl
    | some b =>
      simp only [Node.setOrigin]
      split
      · rfl
      · rw [bare_mk, bare_mk, setOrigins_map, List.map_map]
        congr 1
        exact List.map_congr_left fun c hc => ih c hc _

theorem bares_setOrigins (fp : FP) (a : Axis) (v : Num) (cs : List Node) : (setOrigins fp a v cs).map Node.bare = cs.map Node.bare := by
  rw [setOrigins_map, List.map_map]
  exact List.map_congr_left fun c _ => bare_setOrigin fp a c v

theorem bare_resetFuel (fp : FP) (f : Nat) : ∀ n : Node, (n.resetFuel fp f).bare = n.bare := by
  induction f with
  | zero => intro n; rfl
  | succ f ih =>
    rintro ⟨s, z, l, cs⟩
    cases l with
    | none => rfl
    | some b =>
      simp only [Node.resetFuel, bare_mk]
      congr 1
      rw [List.map_map]
      refine Eq.trans (List.map_congr_left fun c _ => ih c) ?_
      exact (bares_setOrigins ..).trans (bares_setOrigins ..)

theorem Steps.bares {fp : FP} {b b' : Box} {cs cs' : List Node} (h : Steps fp b cs b' cs') : cs'.map Node.bare = cs.map Node.bare := by
  induction h with
  | refl => rfl
  | write _ _ ih => exact ih
  | move a v _ ih =>
    refine ih.trans ?_
    unfold setContent
    split
    · rfl
    · exact bares_setOrigins ..

/-! ## Coherence everywhere -/

/-- Coherent, also below nodes without boxes. -/
inductive Deep (fp : FP) (a : Axis) : Node → Prop
  | none (s : CSS) (z : Intrinsic) (cs : List Node) : (∀ c ∈ cs, Deep fp a c) → Deep fp a (.mk s z none cs)
  | box (s : CSS) (z : Intrinsic) (b : Box) (cs : List Node) :
      (∀ c ∈ cs, ∀ cb, c.layout = some cb → (cb.pos a).origin.val = (b.absContent fp a).val) →
      (∀ c ∈ cs, Deep fp a c) → Deep fp a (.mk s z (some b) cs)

theorem Deep.kids {fp : FP} {a : Axis} {n : Node} (h : Deep fp a n) : ∀ c ∈ n.children, Deep fp a c := by
  cases h with
  | none _ _ _ h => exact h
  | box _ _ _ _ _ h => exact h

theorem deep_setOrigin {fp : FP} {a : Axis} (a' : Axis) {n : Node} (h : Deep fp a n) : ∀ v, Deep fp a (n.setOrigin fp a' v) := by
  induction h with
  | none s z cs h _ => intro v; exact .none s z cs h
  | box s z b cs h1 h2 ih =>
    intro v
    simp only [Node.setOrigin]
    split
    · exact .box s z b cs h1 h2
    · rw [setOrigins_map]
      refine .box _ _ _ _ ?_ ?_
      · intro c hc cb hcb
        obtain ⟨c0, hc0, rfl⟩ := List.mem_map.1 hc
        by_cases e : a' = a
        · subst e; exact setOrigin_layout _ _ _ _ hcb
        · obtain ⟨b0, hb0, e'⟩ := (setOrigin_other fp e c0 _).2 cb hcb
          rw [e', h1 c0 hc0 b0 hb0]
          simp only [Box.absContent, pos_setPos, if_neg e]
      · intro c hc
        obtain ⟨c0, hc0, rfl⟩ := List.mem_map.1 hc
        exact ih c0 hc0 _

theorem deep_setOrigins {fp : FP} {a : Axis} (a' : Axis) (v : Num) {cs : List Node} (h : ∀ c ∈ cs, Deep fp a c) : ∀ c ∈ setOrigins fp a' v cs, Deep fp a c := by
  rw [setOrigins_map]
  intro c hc
  obtain ⟨c0, hc0, rfl⟩ := List.mem_map.1 hc
  exact deep_setOrigin a' (h c0 hc0) v

theorem Steps.deep {fp : FP} {a : Axis} {b b' : Box} {cs cs' : List Node} (h : Steps fp b cs b' cs') (hd : ∀ c ∈ cs, Deep fp a c) : ∀ c ∈ cs', Deep fp a c := by
  induction h with
  | refl => exact hd
  | write _ _ ih => exact ih hd
  | move ax v _ ih =>
    refine ih ?_
    unfold setContent
    split
    · exact hd
    · exact deep_setOrigins _ _ hd

/-! ## Made by a layout -/

/-- `n` came from `o`: the origin of every displayed box is the absolute position of its parent's content, or 0 if there was no box in `o`. -/
inductive Made (fp : FP) (a : Axis) : Node → Node → Prop
  | none (o : Node) (s : CSS) (z : Intrinsic) (cs : List Node) : Made fp a o (.mk s z none cs)
  | box (o : Node) (s : CSS) (z : Intrinsic) (b : Box) (cs : List Node) :
      (∀ (i : Nat) (c oc : Node), cs[i]? = some c → o.children[i]? = some oc → ∀ cb : Box, c.layout = some cb →
        (cb.pos a).origin.val = (b.absContent fp a).val ∨ oc.layout = Option.none ∧ (cb.pos a).origin.val = 0) →
      (∀ (i : Nat) (c oc : Node), cs[i]? = some c → o.children[i]? = some oc → Made fp a oc c) → Made fp a o (.mk s z (some b) cs)

theorem Made.bare {fp : FP} {a : Axis} {o n : Node} (h : Made fp a o n) : ∀ {o' : Node}, o.bare = o'.bare → Made fp a o' n := by
  induction h with
  | none o s z cs => intro o' _; exact .none ..
  | box o s z b cs h1 _ ih =>
    intro o' e
    have key : ∀ (i : Nat) (oc' : Node), o'.children[i]? = some oc' → ∃ oc : Node, o.children[i]? = some oc ∧ oc.bare = oc'.bare := by
      intro i oc' h
      have := congrArg (fun l => l[i]?) (bare_children e)
      simp only [List.getElem?_map, h, Option.map_some] at this
      obtain ⟨oc, g1, g2⟩ := Option.map_eq_some_iff.1 this
      exact ⟨oc, g1, g2⟩
    refine .box _ _ _ _ _ ?_ ?_
    · intro i c oc' hc ho cb hcb
      obtain ⟨oc, g1, g2⟩ := key i oc' ho
      rcases h1 i c oc hc g1 cb hcb with h | ⟨h, h'⟩
      · exact Or.inl h
      · exact Or.inr ⟨(bare_layout g2).1 h, h'⟩
    · intro i c oc' hc ho
      obtain ⟨oc, g1, g2⟩ := key i oc' ho
      exact ih i c oc hc g1 g2

theorem made_refl {fp : FP} {a : Axis} {n : Node} (h : Deep fp a n) : Made fp a n n := by
  induction h with
  | none => exact .none ..
  | box s z b cs h1 _ ih =>
    refine .box _ _ _ _ _ ?_ ?_
    · intro i c oc hc ho cb hcb
      exact Or.inl (h1 c (List.mem_of_getElem? hc) cb hcb)
    · intro i c oc hc ho
      rw [show (Node.mk s z (some b) cs).children[i]? = cs[i]? from rfl, hc] at ho
      cases ho
      exact ih c (List.mem_of_getElem? hc)

/-- `Made` for the children of a box. -/
def MadeKids (fp : FP) (a : Axis) (os : List Node) (b : Box) (cs : List Node) : Prop :=
  ∀ (i : Nat) (c oc : Node), cs[i]? = some c → os[i]? = some oc → Made fp a oc c ∧ ∀ cb : Box, c.layout = some cb →
    (cb.pos a).origin.val = (b.absContent fp a).val ∨ oc.layout = none ∧ (cb.pos a).origin.val = 0

theorem made_kids {fp : FP} {a : Axis} {o : Node} {s : CSS} {z : Intrinsic} {b : Box} {cs : List Node} :
    Made fp a o (.mk s z (some b) cs) ↔ MadeKids fp a o.children b cs := by
  constructor
  · intro h
    cases h with
    | box _ _ _ _ _ h1 h2 => exact fun i c oc hc ho => ⟨h2 i c oc hc ho, h1 i c oc hc ho⟩
  · intro h
    exact .box _ _ _ _ _ (fun i c oc hc ho => (h i c oc hc ho).2) fun i c oc hc ho => (h i c oc hc ho).1

/-- Pushing the position of a box to its children. -/
theorem madeKids_push {fp : FP} {a a' : Axis} {os : List Node} {b b' : Box} {cs : List Node} (h : MadeKids fp a os b cs)
    (hm : ∀ c ∈ cs, ∀ o v, Made fp a o c → Made fp a o (c.setOrigin fp a' v)) (ho : a' ≠ a → b'.pos a = b.pos a) :
    MadeKids fp a os b' (setOrigins fp a' (b'.absContent fp a') cs) := by
  rw [setOrigins_map]
  intro i c oc hc hoc
  rw [List.getElem?_map] at hc
  obtain ⟨c0, hc0, rfl⟩ := Option.map_eq_some_iff.1 hc
  obtain ⟨h1, h2⟩ := h i c0 oc hc0 hoc
  refine ⟨hm c0 (List.mem_of_getElem? hc0) _ _ h1, fun cb hcb => ?_⟩
  by_cases e : a' = a
  · subst e; exact Or.inl (setOrigin_layout _ _ _ _ hcb)
  · obtain ⟨b0, hb0, e'⟩ := (setOrigin_other fp e c0 _).2 cb hcb
    rw [e', Box.absContent, ho e]
    exact h2 b0 hb0

theorem made_setOrigin (fp : FP) (a a' : Axis) (n : Node) : ∀ o v, Made fp a o n → Made fp a o (n.setOrigin fp a' v) := by
  induction n using Node.ind with
  | h s z l cs ih =>
    intro o v h
    cases l with
    | none => exact .none ..
    | some b =>
      simp only [Node.setOrigin]
      split
      · exact h
      · exact made_kids.2 (madeKids_push (made_kids.1 h) ih fun e => by rw [pos_setPos, if_neg e])

theorem kids_setContent {fp : FP} {a : Axis} (a' : Axis) (v : Num) {os : List Node} {b : Box} {cs : List Node} (h : MadeKids fp a os b cs) :
    MadeKids fp a os (setContent fp a' v b cs).1 (setContent fp a' v b cs).2 := by
  unfold setContent
  split
  · exact h
  · exact madeKids_push h (fun c _ => made_setOrigin fp a a' c) fun e => by rw [pos_setPos, if_neg e]

theorem Steps.kids {fp : FP} {a : Axis} {os : List Node} {b b' : Box} {cs cs' : List Node} (h : Steps fp b cs b' cs') (hk : MadeKids fp a os b cs) :
    MadeKids fp a os b' cs' := by
  induction h with
  | refl => exact hk
  | write hc _ ih =>
    refine ih fun i c oc hc' ho => ?_
    have := hk i c oc hc' ho
    rwa [Box.absContent, hc.pos.pos a] at this
  | move ax v _ ih => exact ih (kids_setContent ax v hk)

theorem layoutBox_made (fp : FP) (d : Display) (a : Axis) (f : Nat) : ∀ (p : Option CSS) (cb : CB) (n n' : Node),
    layoutBox fp d f p cb n = .ok n' → Deep fp a n →
      Made fp a n n' ∧ ∀ b', n'.layout = some b' → (∃ b, n.layout = some b ∧ (b'.pos a).origin = (b.pos a).origin) ∨
        n.layout = none ∧ (b'.pos a).origin.val = 0 := by
  induction f with
  | zero => intro p cb n n' h; cases h
  | succ f ih =>
    rintro p cb ⟨s, z, l, cs⟩ n' h hd
    rcases layoutBox_ok h with ⟨_, rfl⟩ | ⟨hs, b, cs0, b', cs', hl, hb, rfl⟩
    · exact ⟨.none .., fun b hb => (by cases hb)⟩
    · have start : MadeKids fp a cs b cs0 ∧ (∀ c ∈ cs0, Deep fp a c) ∧ cs0.map Node.bare = cs.map Node.bare ∧
          ((∃ b1, l = some b1 ∧ (b.pos a).origin = (b1.pos a).origin) ∨ l = none ∧ (b.pos a).origin.val = 0) := by
        rcases hl with ⟨rfl, rfl⟩ | ⟨rfl, hr⟩
        · exact ⟨made_kids.1 (made_refl hd), hd.kids, rfl, Or.inl ⟨b, rfl, rfl⟩⟩
        · have e1 : b = Box.fresh := hr.1
          have e2 : cs0 = setOrigins fp .h (Box.fresh.absContent fp .h) (setOrigins fp .v (Box.fresh.absContent fp .v) cs) := hr.2
          subst e1 e2
          refine ⟨?_, deep_setOrigins _ _ (deep_setOrigins _ _ hd.kids), (bares_setOrigins ..).trans (bares_setOrigins ..), Or.inr ⟨rfl, by cases a <;> rfl⟩⟩
          intro i c oc hc ho
          rw [setOrigins_map, setOrigins_map, List.map_map, List.getElem?_map] at hc
          obtain ⟨c0, hc0, rfl⟩ := Option.map_eq_some_iff.1 hc
          rw [hc0] at ho
          cases ho
          refine ⟨made_setOrigin _ _ _ _ _ _ (made_setOrigin _ _ _ _ _ _ (made_refl (hd.kids _ (List.mem_of_getElem? hc0)))), fun cb hcb => Or.inl ?_⟩
          cases a with
          | h => exact setOrigin_layout _ _ _ _ hcb
          | v =>
            obtain ⟨b0, hb0, e'⟩ := (setOrigin_other fp (a := .h) (a' := .v) (by simp) _ _).2 cb hcb
            rw [e']
            exact setOrigin_layout _ _ _ _ hb0
      obtain ⟨k0, d0, e0, o0⟩ := start
      obtain ⟨b3, cs3, b4, cs4, h1, h2, h3, h4⟩ := body_steps hb
      have k3 := h1.kids k0
      have d3 := h1.deep d0
      have e3 := h1.bares.trans e0
      have k4 : MadeKids fp a cs b4 cs4 := by
        intro i c4 oc hc4 ho
        obtain ⟨hlen, hget⟩ := List.forall₂_iff_get.1 h3
        have hi : i < cs4.length := (List.getElem?_eq_some_iff.1 hc4).1
        have hi3 : i < cs3.length := by omega
        have hc3 : cs3[i]? = some cs3[i] := List.getElem?_eq_getElem hi3
        obtain ⟨m3, q3⟩ := k3 i _ oc hc3 ho
        have hl := hget i hi3 hi
        have e4 : cs4.get ⟨i, hi⟩ = c4 := by rw [List.getElem?_eq_getElem hi] at hc4; exact Option.some.inj hc4
        rw [e4] at hl
        have hbare : (cs3[i]).bare = oc.bare := by
          have := congrArg (fun l => l[i]?) e3
          simp only [List.getElem?_map, hc3, ho, Option.map_some, Option.some.injEq] at this
          exact this
        rw [Box.absContent, ← h2.pos.pos a]
        have laid : ∀ bb c', layoutBox fp d f (some s) (.box bb) cs3[i] = .ok c' → Made fp a oc c' ∧ ∀ cb, c'.layout = some cb →
            (cb.pos a).origin.val = (b3.absContent fp a).val ∨ oc.layout = none ∧ (cb.pos a).origin.val = 0 := by
          intro bb c' hlay
          obtain ⟨g1, g2⟩ := ih _ _ _ _ hlay (d3 _ (List.getElem_mem hi3))
          refine ⟨g1.bare hbare, fun cb hcb => ?_⟩
          rcases g2 cb hcb with ⟨bb0, g3, g4⟩ | ⟨g3, g4⟩
          · rw [g4]; exact q3 bb0 g3
          · exact Or.inr ⟨(bare_layout hbare).1 g3, g4⟩
        rcases hl with hl | hl
        · subst hl; exact ⟨m3, q3⟩
        · generalize hx : cs3.get ⟨i, hi3⟩ = x at hl
          have hx' : cs3[i] = x := hx
          rw [hx'] at laid
          cases hl with
          | same h => exact laid _ _ h
          | @moved b5 cb5 _ s5 z5 cs5 v h =>
            obtain ⟨g1, g2⟩ := laid _ _ h
            refine ⟨made_kids.2 (kids_setContent .v v (made_kids.1 g1)), fun cb hcb => ?_⟩
            cases hcb
            rw [setContent_origin]
            exact g2 _ rfl
      refine ⟨made_kids.2 (h4.kids k4), ?_⟩
      intro x hx
      cases hx
      have e : (b'.pos a).origin = (b.pos a).origin := by
        rw [(h4.coh (a := a) (s := s) (z := z)).1, ← h2.pos.pos a, (h1.coh (a := a) (s := s) (z := z)).1]
      rw [e]
      exact o0

/-! ## Boxes that are left over -/

/-- Coherent below nodes without boxes. -/
inductive Stale (fp : FP) (a : Axis) : Node → Prop
  | none (s : CSS) (z : Intrinsic) (cs : List Node) : (∀ c ∈ cs, Deep fp a c) → Stale fp a (.mk s z none cs)
  | box (s : CSS) (z : Intrinsic) (b : Box) (cs : List Node) : (∀ c ∈ cs, Stale fp a c) → Stale fp a (.mk s z (some b) cs)

theorem Deep.stale {fp : FP} {a : Axis} {n : Node} (h : Deep fp a n) : Stale fp a n := by
  induction h with
  | none s z cs h _ => exact .none s z cs h
  | box s z b cs _ _ ih => exact .box s z b cs ih

theorem stale_deep {fp : FP} {a : Axis} {n : Node} (h : Stale fp a n) (hc : Coh fp a n) : Deep fp a n := by
  induction h with
  | none s z cs h => exact .none s z cs h
  | box s z b cs _ ih =>
    cases hc with
    | box _ _ _ _ h1 h2 => exact .box s z b cs h1 fun c hc => ih c hc (h2 c hc)

theorem stale_setOrigin {fp : FP} {a : Axis} (a' : Axis) {n : Node} (h : Stale fp a n) : ∀ v, Stale fp a (n.setOrigin fp a' v) := by
  induction h with
  | none s z cs h => intro v; exact .none s z cs h
  | box s z b cs h ih =>
    intro v
    simp only [Node.setOrigin]
    split
    · exact .box s z b cs h
    · rw [setOrigins_map]
      refine .box _ _ _ _ fun c hc => ?_
      obtain ⟨c0, hc0, rfl⟩ := List.mem_map.1 hc
      exact ih c0 hc0 _

theorem stale_setOrigins {fp : FP} {a : Axis} (a' : Axis) (v : Num) {cs : List Node} (h : ∀ c ∈ cs, Stale fp a c) :
    ∀ c ∈ setOrigins fp a' v cs, Stale fp a c := by
  rw [setOrigins_map]
  intro c hc
  obtain ⟨c0, hc0, rfl⟩ := List.mem_map.1 hc
  exact stale_setOrigin a' (h c0 hc0) v

theorem Steps.stale {fp : FP} {a : Axis} {b b' : Box} {cs cs' : List Node} (h : Steps fp b cs b' cs') (hd : ∀ c ∈ cs, Stale fp a c) :
    ∀ c ∈ cs', Stale fp a c := by
  induction h with
  | refl => exact hd
  | write _ _ ih => exact ih hd
  | move ax v _ ih =>
    refine ih ?_
    unfold setContent
    split
    · exact hd
    · exact stale_setOrigins _ _ hd

theorem stale_resetFuel {fp : FP} {a : Axis} (f : Nat) : ∀ {n : Node}, Stale fp a n → Stale fp a (n.resetFuel fp f) := by
  induction f with
  | zero => intro n h; exact h
  | succ f ih =>
    rintro ⟨s, z, l, cs⟩ h
    cases l with
    | none => exact h
    | some b =>
      cases h with
      | box _ _ _ _ h =>
        simp only [Node.resetFuel]
        refine .box _ _ _ _ fun c hc => ?_
        obtain ⟨c0, hc0, rfl⟩ := List.mem_map.1 hc
        exact ih (stale_setOrigins _ _ (stale_setOrigins _ _ h) c0 hc0)

theorem deep_reset {fp : FP} {a : Axis} {n : Node} (h : Stale fp a n) : Deep fp a (n.reset fp) :=
  stale_deep (stale_resetFuel _ h) (coh_iff.2 (reset_coherent fp a n))

theorem layoutBox_stale (fp : FP) (d : Display) (a : Axis) (f : Nat) : ∀ (p : Option CSS) (cb : CB) (n n' : Node),
    layoutBox fp d f p cb n = .ok n' → Deep fp a n → Stale fp a n' := by
  induction f with
  | zero => intro p cb n n' h; cases h
  | succ f ih =>
    rintro p cb ⟨s, z, l, cs⟩ n' h hd
    rcases layoutBox_ok h with ⟨_, rfl⟩ | ⟨hs, b, cs0, b', cs', hl, hb, rfl⟩
    · exact .none _ _ _ hd.kids
    · have d0 : ∀ c ∈ cs0, Deep fp a c := by
        rcases hl with ⟨rfl, rfl⟩ | ⟨rfl, hr⟩
        · exact hd.kids
        · rw [hr.2]; exact deep_setOrigins _ _ (deep_setOrigins _ _ hd.kids)
      obtain ⟨b3, cs3, b4, cs4, h1, h2, h3, h4⟩ := body_steps hb
      have d3 := h1.deep d0
      refine .box _ _ _ _ (h4.stale ?_)
      intro c4 hc4
      obtain ⟨c3, hc3, hl⟩ := forall₂_left h3.flip hc4
      rcases hl with hl | hl
      · subst hl; exact (d3 _ hc3).stale
      · cases hl with
        | same h => exact ih _ _ _ _ h (d3 _ hc3)
        | @moved b5 cb5 _ s5 z5 cs5 v h =>
          have := ih _ _ _ _ h (d3 _ hc3)
          cases this with
          | box _ _ _ _ g => exact .box _ _ _ _ ((Steps.moved fp .v v cb5 cs5).stale g)

theorem layout_stale {fp : FP} {d : Display} {html5 : Bool} {p : Option CSS} {n n' : Node} (h : layout fp d html5 p n = .ok n') {a : Axis}
    (hs : Stale fp a n) : Stale fp a n' := by
  obtain ⟨m, h1, h2, _⟩ := layout_ok h
  have g := layoutBox_stale fp d a _ _ _ _ _ h1 (deep_reset hs)
  obtain ⟨s, z, b, cs, b', cs', rfl, rfl, hst⟩ := finishRoot_steps h2
  cases g with
  | box _ _ _ _ g => exact .box _ _ _ _ (hst.stale g)

theorem layout_made {fp : FP} {d : Display} {html5 : Bool} {p : Option CSS} {n n' : Node} (h : layout fp d html5 p n = .ok n') {a : Axis}
    (hs : Stale fp a n) : Made fp a n n' ∧ ∃ b, n'.layout = some b ∧ (b.pos a).origin = .int 0 := by
  obtain ⟨m, h1, h2, hl⟩ := layout_ok h
  obtain ⟨g1, g2⟩ := layoutBox_made fp d a _ _ _ _ _ h1 (deep_reset hs)
  obtain ⟨s, z, b, cs, b', cs', rfl, rfl, hst⟩ := finishRoot_steps h2
  refine ⟨made_kids.2 (hst.kids (made_kids.1 (g1.bare (bare_resetFuel ..)))), b', rfl, ?_⟩
  rcases g2 b rfl with ⟨b0, hb0, he⟩ | ⟨e, _⟩
  · rw [reset_root hl] at hb0
    cases hb0
    rw [(hst.coh (a := a) (s := s) (z := z)).1, he]
    cases a <;> rfl
  · rw [reset_root hl] at e; cases e

/-! ## Changes between layouts -/

/-- A change to a node that moves nothing. -/
def Still (fp : FP) (a : Axis) (f : Node → Node) : Prop :=
  ∀ n, (Deep fp a n → Deep fp a (f n)) ∧ (Stale fp a n → Stale fp a (f n)) ∧
    ∀ b, (f n).layout = some b → ∃ b0, n.layout = some b0 ∧ (b.pos a) = (b0.pos a)

theorem still_dirty (fp : FP) (a : Axis) (v : Option Bool) : Still fp a (Node.setDirty v) := by
  intro n
  induction n using Node.ind with
  | h s z l cs ih =>
    cases l with
    | none => simp only [Node.setDirty]; exact ⟨fun h => h, fun h => h, fun b hb => by cases hb⟩
    | some b =>
      simp only [Node.setDirty]
      split
      · exact ⟨fun h => h, fun h => h, fun b hb => ⟨b, hb, rfl⟩⟩
      · rw [setDirties_map]
        refine ⟨fun h => ?_, fun h => ?_, fun b' hb => ?_⟩
        · cases h with
          | box _ _ _ _ h1 h2 =>
            refine .box _ _ _ _ ?_ ?_
            · intro c hc cb hcb
              obtain ⟨c0, hc0, rfl⟩ := List.mem_map.1 hc
              obtain ⟨b0, hb0, e⟩ := (ih c0 hc0).2.2 cb hcb
              rw [e, h1 c0 hc0 b0 hb0]
              cases a <;> rfl
            · intro c hc
              obtain ⟨c0, hc0, rfl⟩ := List.mem_map.1 hc
              exact (ih c0 hc0).1 (h2 c0 hc0)
        · cases h with
          | box _ _ _ _ h =>
            refine .box _ _ _ _ fun c hc => ?_
            obtain ⟨c0, hc0, rfl⟩ := List.mem_map.1 hc
            exact (ih c0 hc0).2.1 (h c0 hc0)
        · cases hb
          exact ⟨b, rfl, by cases a <;> rfl⟩

theorem still_style {fp : FP} {a : Axis} {s s' : CSS} {z z' : Intrinsic} {l : Option Box} {cs : List Node} :
    (Deep fp a (.mk s z l cs) → Deep fp a (.mk s' z' l cs)) ∧ (Stale fp a (.mk s z l cs) → Stale fp a (.mk s' z' l cs)) := by
  constructor
  · intro h
    cases h with
    | none _ _ _ h => exact .none _ _ _ h
    | box _ _ _ _ h1 h2 => exact .box _ _ _ _ h1 h2
  · intro h
    cases h with
    | none _ _ _ h => exact .none _ _ _ h
    | box _ _ _ _ h => exact .box _ _ _ _ h

theorem still_write {fp : FP} {a : Axis} {n m : Node} {s' : CSS} {z' : Intrinsic}
    (h : m = .mk s' z' n.layout n.children ∨ ∃ v, m = (Node.mk s' z' n.layout n.children).setDirty v) :
    (Deep fp a n → Deep fp a m) ∧ (Stale fp a n → Stale fp a m) ∧ ∀ b, m.layout = some b → ∃ b0, n.layout = some b0 ∧ (b.pos a) = (b0.pos a) := by
  obtain ⟨s, z, l, cs⟩ := n
  have g := still_style (fp := fp) (a := a) (s := s) (s' := s') (z := z) (z' := z') (l := l) (cs := cs)
  rcases h with rfl | ⟨v, rfl⟩
  · exact ⟨g.1, g.2, fun b hb => ⟨b, hb, rfl⟩⟩
  · obtain ⟨k1, k2, k3⟩ := still_dirty fp a v (.mk s' z' l cs)
    exact ⟨fun h => k1 (g.1 h), fun h => k2 (g.2 h), k3⟩

theorem still_atPath {fp : FP} {a : Axis} {f : Node → Node} (hf : Still fp a f) (p : List Nat) : Still fp a (Node.atPath f p) := by
  induction p with
  | nil => exact hf
  | cons i p ih =>
    rintro ⟨s, z, l, cs⟩
    have mem : ∀ c ∈ cs.modify i (Node.atPath f p), ∃ c0 ∈ cs, c = c0 ∨ c = c0.atPath f p := by
      intro c hc
      obtain ⟨j, hj, rfl⟩ := List.mem_iff_getElem.1 hc
      rw [List.length_modify] at hj
      rw [List.getElem_modify]
      refine ⟨cs[j], List.getElem_mem hj, ?_⟩
      split
      · exact Or.inr rfl
      · exact Or.inl rfl
    have kd : (∀ c ∈ cs, Deep fp a c) → ∀ c ∈ cs.modify i (Node.atPath f p), Deep fp a c := by
      intro h c hc
      obtain ⟨c0, hc0, rfl | rfl⟩ := mem c hc
      · exact h _ hc0
      · exact (ih c0).1 (h c0 hc0)
    simp only [Node.atPath]
    refine ⟨fun h => ?_, fun h => ?_, fun b hb => ⟨b, hb, rfl⟩⟩
    · cases h with
      | none _ _ _ h => exact .none _ _ _ (kd h)
      | box _ _ b _ h1 h2 =>
        refine .box _ _ _ _ ?_ (kd h2)
        intro c hc cb hcb
        obtain ⟨c0, hc0, rfl | rfl⟩ := mem c hc
        · exact h1 _ hc0 cb hcb
        · obtain ⟨b0, hb0, e⟩ := (ih c0).2.2 cb hcb
          rw [e]; exact h1 c0 hc0 b0 hb0
    · cases h with
      | none _ _ _ h => exact .none _ _ _ (kd h)
      | box _ _ b _ h =>
        refine .box _ _ _ _ fun c hc => ?_
        obtain ⟨c0, hc0, rfl | rfl⟩ := mem c hc
        · exact h _ hc0
        · exact (ih c0).2.1 (h c0 hc0)

theorem deep_fresh {fp : FP} {a : Axis} {n : Node} (h : EveryBox (· = Box.fresh) n) : Deep fp a n := by
  revert h
  induction n using Node.ind with
  | h s z l cs ih =>
    intro h
    rw [everyBox_mk] at h
    have kids : ∀ c ∈ cs, Deep fp a c := fun c hc => ih c hc (h.2 c hc)
    cases l with
    | none => exact .none _ _ _ kids
    | some b =>
      refine .box _ _ _ _ (fun c hc cb hcb => ?_) kids
      rw [h.1 b rfl, h.2 c hc c (.refl _) cb hcb]
      cases a <;> simp [Box.fresh, Box.absContent, Box.pos, Num.add]

theorem mem_addChild {i : Nat} {c x : Node} {cs : List Node} (h : x ∈ cs.take i ++ c :: cs.drop i) : x = c ∨ x ∈ cs := by
  rcases List.mem_append.1 h with h | h
  · exact Or.inr (List.mem_of_mem_take h)
  · rcases List.mem_cons.1 h with h | h
    · exact Or.inl h
    · exact Or.inr (List.mem_of_mem_drop h)

theorem stale_insert {fp : FP} {a : Axis} (i : Nat) {c : Node} (hc : Stale fp a c) (q : List Nat) :
    ∀ n : Node, (n.boxAt q).isSome → Stale fp a n → Stale fp a (n.atPath (Node.addChild i c) q) := by
  induction q with
  | nil =>
    rintro ⟨s, z, l, cs⟩ hb h
    cases h with
    | none => cases hb
    | box _ _ b _ h =>
      refine .box _ _ _ _ fun x hx => ?_
      rcases mem_addChild hx with rfl | hx
      · exact hc
      · exact h x hx
  | cons j q ih =>
    rintro ⟨s, z, l, cs⟩ hb h
    cases h with
    | none => simp [Node.boxAt, Node.layout] at hb
    | box _ _ b _ h =>
      simp only [Node.boxAt, Node.layout, Node.children, Option.isSome_some, if_true] at hb
      refine .box _ _ _ _ fun x hx => ?_
      rcases mem_modify hx with hx | ⟨c0, hc0, rfl⟩
      · exact h x hx
      · rw [hc0, Option.bind_some] at hb
        exact ih c0 hb (h c0 (List.mem_of_getElem? hc0))

theorem still_dropChild (fp : FP) (a : Axis) (i : Nat) : Still fp a (Node.dropChild i) := by
  rintro ⟨s, z, l, cs⟩
  have mem : ∀ c ∈ cs.eraseIdx i, c ∈ cs := fun c hc => List.mem_of_mem_eraseIdx hc
  refine ⟨fun h => ?_, fun h => ?_, fun b hb => ⟨b, hb, rfl⟩⟩
  · cases h with
    | none _ _ _ h => exact .none _ _ _ fun c hc => h c (mem c hc)
    | box _ _ _ _ h1 h2 => exact .box _ _ _ _ (fun c hc => h1 c (mem c hc)) fun c hc => h2 c (mem c hc)
  · cases h with
    | none _ _ _ h => exact .none _ _ _ fun c hc => h c (mem c hc)
    | box _ _ _ _ h => exact .box _ _ _ _ fun c hc => h c (mem c hc)

/-- The edge between two displayed nodes. -/
theorem made_edge {fp : FP} {a : Axis} {o n : Node} (h : Made fp a o n) : ∀ (q : List Nat) (i : Nat) (oc : Node) (b cb : Box),
    n.boxAt q = some b → n.boxAt (q ++ [i]) = some cb → o.find (q ++ [i]) = some oc →
      (cb.pos a).origin.val = (b.absContent fp a).val ∨ oc.layout = none ∧ (cb.pos a).origin.val = 0 := by
  intro q
  induction q generalizing o n with
  | nil =>
    intro i oc b cb hb hcb ho
    cases h with
    | none => cases hb
    | box _ s z b' cs h1 _ =>
      cases hb
      simp only [List.nil_append, Node.boxAt, Node.layout, Node.children, Option.isSome_some, if_true] at hcb
      simp only [List.nil_append, Node.find] at ho
      obtain ⟨c, hc, hcb⟩ := Option.bind_eq_some_iff.1 hcb
      obtain ⟨oc', hoc, ho⟩ := Option.bind_eq_some_iff.1 ho
      cases ho
      exact h1 i c _ hc hoc cb hcb
  | cons j q ih =>
    intro i oc b cb hb hcb ho
    cases h with
    | none => cases hb
    | box _ s z b' cs _ h2 =>
      simp only [List.cons_append, Node.boxAt, Node.layout, Node.children, Option.isSome_some, if_true] at hb hcb
      simp only [List.cons_append, Node.find] at ho
      obtain ⟨c, hc, hb⟩ := Option.bind_eq_some_iff.1 hb
      obtain ⟨c', hc', hcb⟩ := Option.bind_eq_some_iff.1 hcb
      rw [hc] at hc'
      cases hc'
      obtain ⟨oc', hoc, ho⟩ := Option.bind_eq_some_iff.1 ho
      exact ih (h2 j c oc' hc hoc) i oc b cb hb hcb ho

/-- From paths of boxes to nodes without boxes. -/
theorem stale_of {fp : FP} {a : Axis} {n : Node} (h : ∀ m, Sub m n → m.layout = none → ∀ c ∈ m.children, Coherent fp a c) : Stale fp a n := by
  induction n using Node.ind with
  | h s z l cs ih =>
    have kids : ∀ c ∈ cs, Stale fp a c := fun c hc => ih c hc fun m hm hl => h m (.child hc hm) hl
    cases l with
    | none => exact .none _ _ _ fun c hc => stale_deep (kids c hc) (coh_iff.2 (h _ (.refl _) rfl c hc))
    | some b => exact .box _ _ _ _ kids

end Colosseum
