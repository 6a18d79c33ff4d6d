import Verif.Lemmas.Causal
import Verif.Lemmas.Margins
import Verif.Lemmas.Reach
import Verif.Spec.Place

/-!
# The same element in different company: lemmas
-/

namespace Colosseum

/-- The width and the horizontal position. -/
def Box.girth (b : Box) : Option Num × Num := (b.contentWidth, b.h.content)

/-- The results at the ends of the paths agree but for the vertical position. -/
inductive Peer : Node → Node → List Nat → List Nat → Prop
  | here {n m : Node} : n.layout.map (Box.core true) = m.layout.map (Box.core true) → n.children.map Node.noOrigin = m.children.map Node.noOrigin → Peer n m [] []
  | deep {n m c k : Node} {i j : Nat} {q r : List Nat} : n.layout.map Box.girth = m.layout.map Box.girth → n.children[i]? = some c →
      m.children[j]? = some k → Peer c k q r → Peer n m (i :: q) (j :: r)

theorem opt_map_of {α β γ : Type} {f : α → β} {g : α → γ} (h : ∀ a b, f a = f b → g a = g b) {x y : Option α} (e : x.map f = y.map f) : x.map g = y.map g := by
  cases x <;> cases y
  · rfl
  · cases e
  · cases e
  · exact congrArg some (h _ _ (Option.some.inj e))

theorem girth_of_noOrigin {b b' : Box} (h : b.noOrigin = b'.noOrigin) : b.girth = b'.girth := by
  have : ∀ b : Box, b.girth = b.noOrigin.girth := fun _ => rfl
  rw [this, h, ← this]

theorem girth_of_core {b b' : Box} (h : b.core true = b'.core true) : b.girth = b'.girth := by
  have : ∀ b : Box, b.girth = (b.core true).girth := fun _ => rfl
  rw [this, h, ← this]

theorem peer_congr {n m : Node} {q r : List Nat} (h : Peer n m q r) : ∀ {n' m' : Node}, n'.noOrigin = n.noOrigin → m'.noOrigin = m.noOrigin → Peer n' m' q r := by
  induction h with
  | here h1 h2 =>
    intro n' m' e e'
    refine .here ?_ ((noOrigin_kids e).trans (h2.trans (noOrigin_kids e').symm))
    have c : ∀ a b : Box, a.noOrigin = b.noOrigin → a.core true = b.core true := fun _ _ => core_of_noOrigin true
    rw [opt_map_of c (noOrigin_box e), opt_map_of c (noOrigin_box e'), h1]
  | deep h1 h2 h3 _ ih =>
    intro n' m' e e'
    have c : ∀ a b : Box, a.noOrigin = b.noOrigin → a.girth = b.girth := fun _ _ => girth_of_noOrigin
    obtain ⟨c', g1, g2⟩ := map_getElem (noOrigin_kids e) h2
    obtain ⟨k', g3, g4⟩ := map_getElem (noOrigin_kids e') h3
    exact .deep (by rw [opt_map_of c (noOrigin_box e), opt_map_of c (noOrigin_box e'), h1]) g1 g3 (ih g2 g4)

/-- Moving both vertically. -/
theorem peer_moved {s s' : CSS} {z z' : Intrinsic} {b b1 b' b1' : Box} {cs cs1 ks ks1 : List Node} {q r : List Nat} (h : Peer (.mk s z (some b) cs) (.mk s' z' (some b') ks) q r)
    (e : b1.core true = b.core true) (e' : b1'.core true = b'.core true) (hc : cs1.map Node.noOrigin = cs.map Node.noOrigin) (hk : ks1.map Node.noOrigin = ks.map Node.noOrigin) :
    Peer (.mk s z (some b1) cs1) (.mk s' z' (some b1') ks1) q r := by
  cases h with
  | here h1 h2 =>
    refine .here ?_ (hc.trans (h2.trans hk.symm))
    show some (b1.core true) = some (b1'.core true)
    rw [e, e']
    exact h1
  | deep h1 h2 h3 h =>
    obtain ⟨c', g1, g2⟩ := map_getElem hc h2
    obtain ⟨k', g3, g4⟩ := map_getElem hk h3
    refine .deep ?_ g1 g3 (peer_congr h g2 g4)
    show some b1.girth = some b1'.girth
    rw [girth_of_core e, girth_of_core e']
    exact h1

/-! ## The hypothesis, the origins aside -/

theorem inline_noOrigin (s : CSS) (z : Intrinsic) (cs : List Node) : establishesInline s z (cs.map Node.noOrigin) = establishesInline s z cs := by
  unfold establishesInline
  simp [Function.comp_def, noOrigin_style]

theorem inline_congr {s : CSS} {z : Intrinsic} {cs ks : List Node} (h : cs.map Node.noOrigin = ks.map Node.noOrigin) : establishesInline s z cs = establishesInline s z ks := by
  rw [← inline_noOrigin, h, inline_noOrigin]

theorem within_inv {s s' : CSS} {z z' : Intrinsic} {l l' : Option Box} {cs ks : List Node} {q r : List Nat}
    (h : SameWithin (Node.mk s z l cs).noOrigin (Node.mk s' z' l' ks).noOrigin q r) :
    (q = [] ∧ r = [] ∧ (Node.mk s z l cs).noOrigin = (Node.mk s' z' l' ks).noOrigin) ∨
    (s = s' ∧ z = z' ∧ l.map Box.noOrigin = l'.map Box.noOrigin ∧ establishesInline s z cs = establishesInline s z ks ∧
      ∃ i j q' r' c k, q = i :: q' ∧ r = j :: r' ∧ cs[i]? = some c ∧ ks[j]? = some k ∧ SameWithin c.noOrigin k.noOrigin q' r') := by
  generalize hn : (Node.mk s z l cs).noOrigin = n at h
  generalize hm : (Node.mk s' z' l' ks).noOrigin = m at h
  cases h with
  | here => exact Or.inl ⟨rfl, rfl, rfl⟩
  | deep hb hi hj h =>
    rw [noOrigin_mk] at hn hm
    injection hn with e1 e2 e3 e4
    injection hm with f1 f2 f3 f4
    subst e1 e2 f1 f2 e4 f4
    refine Or.inr ⟨rfl, rfl, e3.trans f3.symm, ?_, ?_⟩
    · rw [← blockContext_iff, ← blockContext_iff, inline_noOrigin, inline_noOrigin] at hb
      cases h1 : establishesInline s' z' cs <;> cases h2 : establishesInline s' z' ks <;> simp_all
    · rw [List.getElem?_map] at hi hj
      obtain ⟨c, hc, rfl⟩ := Option.map_eq_some_iff.1 hi
      obtain ⟨k, hk, rfl⟩ := Option.map_eq_some_iff.1 hj
      exact ⟨_, _, _, _, c, k, rfl, rfl, hc, hk, h⟩

theorem within_style {n m : Node} {q r : List Nat} (h : SameWithin n.noOrigin m.noOrigin q r) : n.style = m.style := by
  obtain ⟨s, z, l, cs⟩ := n
  obtain ⟨s', z', l', ks⟩ := m
  rcases within_inv h with ⟨_, _, e⟩ | ⟨rfl, _⟩
  · rw [← noOrigin_style, e, noOrigin_style]
  · rfl

theorem peer_same {n m : Node} (h : n.noOrigin = m.noOrigin) : Peer n m [] [] :=
  .here (opt_map_of (fun _ _ => core_of_noOrigin true) (noOrigin_box h)) (noOrigin_kids h)

/-- Untouched elements agree. -/
theorem within_peer {n m : Node} {q r : List Nat} (h : SameWithin n m q r) : Peer n m q r := by
  induction h with
  | here => exact peer_same rfl
  | deep _ hi hj _ ih => exact .deep rfl hi hj ih

theorem within_untouched {n m : Node} {q r : List Nat} (h : SameWithin n.noOrigin m.noOrigin q r) : Peer n m q r :=
  peer_congr (within_peer h) (node_noOrigin_twice n).symm (node_noOrigin_twice m).symm

/-! ## The box of the parent while its children are laid out -/

/-- Everything but the origins and the collapsed margins. -/
def Box.bulk (b : Box) : Box := { b.noOrigin with collapse := ⟨0, 0, 0, 0⟩ }

theorem layoutBox_bulk {fp : FP} {d : Display} {f : Nat} {p : Option CSS} {b : Box} {n : Node} (x : Edge Int) :
    layoutBox fp d f p (.box { b with collapse := x }) n = layoutBox fp d f p (.box b) n := by
  cases f with
  | zero => rfl
  | succ f => obtain ⟨s, z, l, cs⟩ := n; rfl

/-- Children laid out within boxes that differ only in the margins collapsed so far. -/
theorem stackChild_bulk {fp : FP} {b b1 : Box} {off o1 : Num} {bm m1 : Option Int} {c c' : Node} (h : stackChild fp b off bm c = .ok (b1, c', o1, m1)) :
    b1.bulk = b.bulk ∧ ∃ s z cb cb' cs cs', c = .mk s z (some cb) cs ∧ c' = .mk s z (some cb') cs' ∧ cb'.core true = cb.core true ∧
      cs'.map Node.noOrigin = cs.map Node.noOrigin := by
  obtain ⟨s, z, l, cs⟩ := c
  cases l with
  | none => cases h
  | some cb =>
    simp only [stackChild] at h
    obtain ⟨⟨b2, o2⟩, h1, h⟩ := bind_eq_ok.1 h
    obtain ⟨hh, _, h⟩ := bind_eq_ok.1 h
    cases h
    refine ⟨?_, s, z, cb, _, cs, _, rfl, rfl, core_setContent .., setContent_noOrigin ..⟩
    unfold collapseAbove at h1
    split at h1
    · cases h1
      show (Box.setCollapse b .top (.num (.int cb.collapse.top))).bulk = b.bulk
      unfold Box.setCollapse
      dsimp only
      split <;> rfl
    · obtain ⟨_, _, h1⟩ := bind_eq_ok.1 h1
      cases h1; rfl

theorem stacked_peer {fp : FP} {lay : Box → Node → Res Node} {b0 : Box} {P : Node → Node → Prop} {c : Node}
    (hP : ∀ b, b.bulk = b0.bulk → ∀ c', lay b c = .ok c' → P c c') :
    ∀ {us cs1 L : List Node} {b b2 : Box} {off : Num} {bm : Option Int}, b.bulk = b0.bulk → Stacked fp lay b off bm (us ++ c :: cs1) b2 L →
      ∃ c1 c2, P c c1 ∧ L[us.length]? = some c2 ∧ ∃ s z cb cb' cs cs', c1 = .mk s z (some cb) cs ∧ c2 = .mk s z (some cb') cs' ∧ cb'.core true = cb.core true ∧
        cs'.map Node.noOrigin = cs.map Node.noOrigin := by
  intro us
  induction us with
  | nil =>
    intro cs1 L b b2 off bm hb h
    obtain ⟨c1, b1, c', o1, m1, L1, g1, g2, g3, rfl⟩ := stacked_inv h
    exact ⟨c1, c', hP b hb c1 g1, rfl, (stackChild_bulk g2).2⟩
  | cons u us ih =>
    intro cs1 L b b2 off bm hb h
    obtain ⟨c1, b1, c', o1, m1, L1, g1, g2, g3, rfl⟩ := stacked_inv h
    exact ih ((stackChild_bulk g2).1.trans hb) g3

theorem stacked_bulk {fp : FP} {lay : Box → Node → Res Node} {b b2 : Box} {off : Num} {bm : Option Int} {cs L : List Node} (h : Stacked fp lay b off bm cs b2 L) :
    b2.bulk = b.bulk := by
  induction cs generalizing b off bm L with
  | nil => cases h; rfl
  | cons c cs ih =>
    obtain ⟨c1, b1, c', o1, m1, L1, g1, g2, g3, rfl⟩ := stacked_inv h
    exact (ih g3).trans (stackChild_bulk g2).1

/-- What becomes of a child: it is laid out within the parent's box, and then moved if its parent stacks its children; or it is left alone. -/
theorem children_kid {fp : FP} {lay : Box → Node → Res Node} {s : CSS} {z : Intrinsic} {b b2 : Box} {cs cs2 : List Node} {i : Nat} {c : Node}
    (h : layoutChildren fp lay s z b cs = .ok (b2, cs2)) (hc : cs[i]? = some c) : b2.bulk = b.bulk ∧
    ((establishesInline s z cs = true ∧ ∃ c2, cs2[i]? = some c2 ∧ lay b c = .ok c2) ∨
     (establishesInline s z cs = false ∧ isBlockLevel c.style = true ∧ ∃ b' c1 c2, b'.bulk = b.bulk ∧ lay b' c = .ok c1 ∧ cs2[i]? = some c2 ∧
        ∃ s z cb cb' cs cs', c1 = .mk s z (some cb) cs ∧ c2 = .mk s z (some cb') cs' ∧ cb'.core true = cb.core true ∧ cs'.map Node.noOrigin = cs.map Node.noOrigin) ∨
     (establishesInline s z cs = false ∧ isBlockLevel c.style = false ∧ cs2[i]? = some c)) := by
  have hi : cs = cs.take i ++ c :: cs.drop (i + 1) := by
    obtain ⟨h1, h2⟩ := List.getElem?_eq_some_iff.1 hc
    rw [← h2, List.getElem_cons_drop, List.take_append_drop]
  have hlen : (cs.take i).length = i := by
    obtain ⟨h1, _⟩ := List.getElem?_eq_some_iff.1 hc
    rw [List.length_take]; omega
  rcases children_stacked h with ⟨hin, rfl, hf⟩ | ⟨hin, pre, post, laid, e1, rfl, hf, hpre, hpost⟩
  · refine ⟨rfl, Or.inl ⟨hin, ?_⟩⟩
    rw [hi] at hf
    obtain ⟨c2, g1, g2⟩ := forall₂_nth hf
    exact ⟨c2, by rw [← hlen]; exact g1, g2⟩
  · refine ⟨stacked_bulk hf, Or.inr ?_⟩
    have e2 := e1.symm.trans hi
    cases hb : isBlockLevel c.style with
    | true =>
      obtain ⟨p2, rfl⟩ := pre_block e2 hpost hb
      obtain ⟨c1, c2, ⟨b', e, g⟩, r2, r3⟩ := stacked_peer (P := fun c c' => ∃ b', b'.bulk = b.bulk ∧ lay b' c = .ok c') (b0 := b)
        (fun b' e c' g => ⟨b', e, g⟩) rfl hf
      rw [hlen] at r2
      obtain ⟨h1, _⟩ := List.getElem?_eq_some_iff.1 r2
      exact Or.inl ⟨hin, rfl, b', c1, c2, e, g, by rw [List.getElem?_append_left h1, r2], r3⟩
    | false =>
      obtain ⟨_, p2⟩ := pre_other e2 hpre hpost hb
      refine Or.inr ⟨hin, rfl, ?_⟩
      have := p2 (laid := laid) hf.length.symm
      rwa [hlen] at this

/-! ## One node -/

theorem bulk_girth {b b' : Box} (h : b.bulk = b'.bulk) : b.girth = b'.girth := by
  have : ∀ b : Box, b.girth = b.bulk.girth := fun _ => rfl
  rw [this, h, ← this]

theorem bulk_of_noOrigin {b b' : Box} (h : b.noOrigin = b'.noOrigin) : b.bulk = b'.bulk := by
  have : ∀ b : Box, b.bulk = b.noOrigin.bulk := fun _ => rfl
  rw [this, h, ← this]

theorem height_girth {fp : FP} {s : CSS} {z : Intrinsic} {p : Option CSS} {c : PxCtx} {b b1 : Box} {cs cs1 : List Node}
    (h : heightAndMargins fp s z p c b cs = .ok (b1, cs1)) : b1.girth = b.girth := by
  unfold Box.girth
  rw [height_width h, height_h h]

theorem setContent_girth (fp : FP) (v : Num) (b : Box) (cs : List Node) : (setContent fp .v v b cs).1.girth = b.girth := by
  unfold setContent
  split <;> rfl

theorem setLeft_girth (fp : FP) (v : Num) {b b' : Box} (cs ks : List Node) (h : b.girth = b'.girth) : (setContent fp .h v b cs).1.girth = (setContent fp .h v b' ks).1.girth := by
  obtain ⟨h1, h2⟩ := Prod.mk.inj h
  have h2' : (b.pos .h).content = (b'.pos .h).content := h2
  unfold setContent
  rw [h2']
  split
  · exact h
  · unfold Box.girth; rw [show (b.setPos .h { b.pos .h with content := v }).contentWidth = b.contentWidth from rfl, h1]; rfl

theorem relative_girth {fp : FP} {s : CSS} {cb cb' : CB} {hz vt : PxCtx} {b b' b1 b1' : Box} {cs ks cs1 ks1 : List Node} (hcb : cb.Agree cb')
    (hb : b.girth = b'.girth) (h : applyRelative fp s cb hz vt b cs = .ok (b1, cs1)) (h' : applyRelative fp s cb' hz vt b' ks = .ok (b1', ks1)) :
    b1.girth = b1'.girth := by
  unfold applyRelative at h h'
  split at h
  · simp only [*] at h'
    rw [hcb.offset fp] at h
    obtain ⟨dx, g, h⟩ := bind_eq_ok.1 h
    obtain ⟨dx', g', h'⟩ := bind_eq_ok.1 h'
    rw [g] at g'
    cases g'
    obtain ⟨dy, _, h⟩ := bind_eq_ok.1 h
    obtain ⟨dy', _, h'⟩ := bind_eq_ok.1 h'
    have e1 := congrArg Prod.fst (Except.ok.inj h)
    have e2 := congrArg Prod.fst (Except.ok.inj h')
    simp only at e1 e2
    rw [← e1, ← e2, setContent_girth, setContent_girth, show b.h.content = b'.h.content from (Prod.mk.inj hb).2]
    exact setLeft_girth fp _ _ _ hb
  · simp only [*] at h'
    cases h; cases h'
    exact hb

theorem bulk_lay {fp : FP} {d : Display} {f : Nat} {p : Option CSS} {b : Box} {n : Node} :
    layoutBox fp d f p (.box b) n = layoutBox fp d f p (.box { b with collapse := ⟨0, 0, 0, 0⟩ }) n := (layoutBox_bulk _).symm

theorem layoutBox_peer (fp : FP) (d : Display) (f : Nat) : ∀ (p : Option CSS) (cb cb' : CB) (n m : Node) (q r : List Nat) (n' m' : Node), cb.Agree cb' →
    Pristine n → Pristine m → SameWithin n.noOrigin m.noOrigin q r → layoutBox fp d f p cb n = .ok n' → layoutBox fp d f p cb' m = .ok m' → Peer n' m' q r := by
  induction f with
  | zero => intro p cb cb' n m q r n' m' _ _ _ _ h; cases h
  | succ f ih =>
    rintro p cb cb' ⟨s, z, l, cs⟩ ⟨s', z', l', ks⟩ q r n' m' hcb hp hp' hw h h'
    rcases within_inv hw with ⟨rfl, rfl, e⟩ | ⟨rfl, rfl, hll, hin, i, j, q, r, c, k, rfl, rfl, hi, hj, hwk⟩
    · obtain ⟨x, g, e⟩ := (layoutBox_erase fp d (f + 1) p cb cb' _ _ hcb e).ok h
      have g := h'.symm.trans g
      cases g
      exact peer_same e
    rcases layoutBox_ok h with ⟨hd, rfl⟩ | ⟨hd, b, cs0, b5, cs5, hl, hbody, rfl⟩
    · rcases layoutBox_ok h' with ⟨_, rfl⟩ | ⟨hd', _⟩
      · exact .deep rfl hi hj (within_untouched hwk)
      · exact absurd hd hd'
    · rcases layoutBox_ok h' with ⟨hd', _⟩ | ⟨_, b', ks0, b5', ks5, hl', hbody', rfl⟩
      · exact absurd hd' hd
      obtain ⟨x, rfl, hx⟩ := pristine_box hp hd
      obtain ⟨x', rfl, hx'⟩ := pristine_box hp' hd
      rcases hl with ⟨hl, rfl⟩ | ⟨hl, _⟩
      case inr => cases hl
      rcases hl' with ⟨hl', rfl⟩ | ⟨hl', _⟩
      case inr => cases hl'
      cases hl; cases hl'
      obtain ⟨b1, b2, cs2, b3, cs3, b4, cs4, b6, cs6, h1, h2, h3, _, _, h4, h5, h6⟩ := body_phases hbody
      obtain ⟨b1', b2', ks2, b3', ks3, b4', ks4, b6', ks6, h1', h2', h3', _, _, h4', h5', h6'⟩ := body_phases hbody'
      rw [← hcb.width, ← hcb.height] at h1' h6'
      rw [← hcb.width] at h2'
      rw [← hcb.height] at h3' h5'
      have e1 : b1.noOrigin = b1'.noOrigin := by
        obtain ⟨y, g, e⟩ := (copyEdges_erase fp s _ _ (hx.trans hx'.symm)).ok h1
        rw [h1'] at g
        cases g
        exact e
      have e2 := width_same e1 h2 h2'
      have c2 := (width_steps h2).noOrigin
      have c2' := (width_steps h2').noOrigin
      have ne : ∀ {cs cs' : List Node} {i : Nat} {c : Node}, cs'.map Node.noOrigin = cs.map Node.noOrigin → cs[i]? = some c → cs' ≠ [] := by
        rintro cs cs' i c h hc rfl
        rw [List.map_eq_nil_iff.1 h.symm] at hc
        simp at hc
      have e3 : b3.noOrigin = b3'.noOrigin := relativeHeight_same e2 (ne c2 hi) (ne c2' hj)
        (fresh_kids c2 (pristine_kids hp)) (fresh_kids c2' (pristine_kids hp')) h3 h3'
      have c3 := (relativeHeight_steps h3).noOrigin.trans c2
      have c3' := (relativeHeight_steps h3').noOrigin.trans c2'
      obtain ⟨c3n, hi3, hc3⟩ := map_getElem c3 hi
      obtain ⟨k3n, hj3, hk3⟩ := map_getElem c3' hj
      have hpc : Pristine c3n := pristine_passes.kid hd hp (List.mem_of_getElem? hi) hc3.symm
      have hpk : Pristine k3n := pristine_passes.kid hd hp' (List.mem_of_getElem? hj) hk3.symm
      have hw3 : SameWithin c3n.noOrigin k3n.noOrigin q r := by rw [hc3, hk3]; exact hwk
      have hst : c3n.style = k3n.style := within_style hw3
      have hin3 : establishesInline s z cs3 = establishesInline s z ks3 := by rw [inline_congr c3, inline_congr c3', hin]
      have go : ∀ {x x' : Box} {c1 k1 : Node}, x.bulk = x'.bulk → layoutBox fp d f (some s) (.box x) c3n = .ok c1 → layoutBox fp d f (some s) (.box x') k3n = .ok k1 →
          Peer c1 k1 q r := by
        intro x x' c1 k1 hx g g'
        rw [bulk_lay] at g g'
        exact ih _ _ _ _ _ _ _ _ _ (show CB.Agree (.box { x with collapse := ⟨0, 0, 0, 0⟩ }) (.box { x' with collapse := ⟨0, 0, 0, 0⟩ }) from hx) hpc hpk hw3 g g'
      obtain ⟨f4, hk⟩ := children_kid h4 hi3
      obtain ⟨f4', hk'⟩ := children_kid h4' hj3
      have f3 := bulk_of_noOrigin e3
      have key : ∃ ca ka, cs4[i]? = some ca ∧ ks4[j]? = some ka ∧ Peer ca ka q r := by
        rcases hk with ⟨t, c1, g1, g2⟩ | ⟨t, t2, x, c1, c2, hx, g1, g2, s1, z1, cb1, cb1', l1, l1', rfl, rfl, g3, g4⟩ | ⟨t, t2, g1⟩ <;>
          rcases hk' with ⟨t', k1, g1', g2'⟩ | ⟨t', t2', x', k1, k2, hx', g1', g2', s1', z1', kb1, kb1', m1, m1', rfl, rfl, g3', g4'⟩ | ⟨t', t2', g1'⟩
        · exact ⟨_, _, g1, g1', go f3 g2 g2'⟩
        · rw [hin3, t'] at t; cases t
        · rw [hin3, t'] at t; cases t
        · rw [hin3, t'] at t; cases t
        · exact ⟨_, _, g2, g2', peer_moved (go (hx.trans (f3.trans hx'.symm)) g1 g1') g3 g3' g4 g4'⟩
        · rw [hst, t2'] at t2; cases t2
        · rw [hin3, t'] at t; cases t
        · rw [hst, t2'] at t2; cases t2
        · exact ⟨_, _, g1, g1', within_untouched hw3⟩
      obtain ⟨ca, ka, g1, g2, g3⟩ := key
      have e5 : b6.girth = b6'.girth := by
        rw [height_girth h5, height_girth h5']
        exact bulk_girth (f4.trans (f3.trans f4'.symm))
      have e6 := relative_girth hcb e5 h6 h6'
      obtain ⟨cz, g4, g5⟩ := map_getElem ((relative_steps h6).noOrigin.trans (height_steps h5).noOrigin) g1
      obtain ⟨kz, g6, g7⟩ := map_getElem ((relative_steps h6').noOrigin.trans (height_steps h5').noOrigin) g2
      exact .deep (congrArg some e6) g4 g6 (peer_congr g3 g5 g7)

/-! ## Documents -/

theorem within_noOrigin {n m : Node} {q r : List Nat} (h : SameWithin n m q r) : SameWithin n.noOrigin m.noOrigin q r := by
  induction h with
  | here => exact .here
  | @deep s z l cs ks c k i j q r hb hi hj _ ih =>
    simp only [noOrigin_mk]
    refine .deep ?_ (by rw [List.getElem?_map, hi]; rfl) (by rw [List.getElem?_map, hj]; rfl) ih
    rw [← blockContext_iff, ← blockContext_iff, inline_noOrigin, inline_noOrigin]
    rw [← blockContext_iff, ← blockContext_iff] at hb
    exact hb

theorem reset_style (fp : FP) (n : Node) : (n.reset fp).noOrigin.style = n.style := by
  obtain ⟨s, z, l, cs⟩ := n
  rw [reset_noOrigin]; rfl

theorem within_reset (fp : FP) {n m : Node} {q r : List Nat} (h : SameWithin n m q r) : SameWithin (n.reset fp).noOrigin (m.reset fp).noOrigin q r := by
  induction h with
  | here => exact .here
  | @deep s z l cs ks c k i j q r hb hi hj h ih =>
    have hin : ∀ cs : List Node, establishesInline s z (cs.map fun c => (c.reset fp).noOrigin) = establishesInline s z cs := by
      intro cs
      unfold establishesInline
      simp [Function.comp_def, reset_style]
    rw [reset_noOrigin, reset_noOrigin]
    split
    · refine .deep ?_ (by rw [List.getElem?_map, hi]; rfl) (by rw [List.getElem?_map, hj]; rfl) ih
      rw [← blockContext_iff, ← blockContext_iff, hin, hin]
      rw [← blockContext_iff, ← blockContext_iff] at hb
      exact hb
    · refine .deep ?_ (by rw [List.getElem?_map, hi]; rfl) (by rw [List.getElem?_map, hj]; rfl) (within_noOrigin h)
      rw [← blockContext_iff, ← blockContext_iff, inline_noOrigin, inline_noOrigin]
      rw [← blockContext_iff, ← blockContext_iff] at hb
      exact hb

/-- The results agree but for the vertical position, and for the height at the root. -/
theorem finishRoot_peer {fp : FP} {d : Display} {html5 : Bool} {n m n' m' : Node} {i j : Nat} {q r : List Nat} (h : Peer n m (i :: q) (j :: r))
    (h1 : finishRoot fp d html5 n = .ok n') (h2 : finishRoot fp d html5 m = .ok m') : Peer n' m' (i :: q) (j :: r) := by
  obtain ⟨s, z, b, cs, b1, rfl, rfl, rfl⟩ := finishRoot_ok h1
  obtain ⟨s', z', b', ks, b1', rfl, rfl, rfl⟩ := finishRoot_ok h2
  cases h with
  | deep hg e1 e2 hp =>
    obtain ⟨c2, g3, g4⟩ := map_getElem (setContent_noOrigin fp .v (b.v.content.add fp (.int b.collapse.top)) b cs) e1
    obtain ⟨k2, g5, g6⟩ := map_getElem (setContent_noOrigin fp .v (b'.v.content.add fp (.int b'.collapse.top)) b' ks) e2
    refine .deep ?_ g3 g5 (peer_congr hp g4 g6)
    have e : ∀ {x : Bool} {b : Box} {y : Option Num}, (if x then ({ b with contentHeight := y } : Box) else b).girth = b.girth := by
      intro x b y; cases x <;> rfl
    refine congrArg some ?_
    rw [e, e, setContent_girth, setContent_girth]
    exact Option.some.inj hg

theorem layout_peer {fp : FP} {d : Display} {html5 : Bool} {p : Option CSS} {n m n' m' : Node} {i j : Nat} {q r : List Nat} (hn : AllBoxed n) (hm : AllBoxed m)
    (hw : SameWithin n m (i :: q) (j :: r)) (h : layout fp d html5 p n = .ok n') (h' : layout fp d html5 p m = .ok m') : Peer n' m' (i :: q) (j :: r) := by
  obtain ⟨n1, h1, h2, _⟩ := layout_ok h
  obtain ⟨m1, h1', h2', _⟩ := layout_ok h'
  have dn : (n.reset fp).depth = n.depth := depth_same (strip_reset fp n)
  have dm : (m.reset fp).depth = m.depth := depth_same (strip_reset fp m)
  rw [layoutBox_fuel fp d _ (max n.depth m.depth) _ _ _ (by omega) (by omega)] at h1
  rw [layoutBox_fuel fp d _ (max n.depth m.depth) _ _ _ (by omega) (by omega)] at h1'
  exact finishRoot_peer (layoutBox_peer fp d _ _ _ _ _ _ _ _ _ _ (show CB.Agree (.viewport d) (.viewport d) from rfl) (pristine_reset fp hn)
    (pristine_reset fp hm) (within_reset fp hw) h1 h1') h2 h2'

/-! ## Paths -/

theorem isSome_of_map {α β : Type} {f : α → β} {x y : Option α} (h : x.map f = y.map f) : x.isSome = y.isSome := by
  cases x <;> cases y <;> simp at h ⊢

theorem peer_boxAt {n m : Node} {q r : List Nat} (h : Peer n m q r) : (n.boxAt q).map (Box.core true) = (m.boxAt r).map (Box.core true) := by
  induction h with
  | here h1 h2 => exact h1
  | deep h1 h2 h3 _ ih =>
    simp only [Node.boxAt, h2, h3, isSome_of_map h1]
    split
    · exact ih
    · rfl

theorem peer_below {n m : Node} {q r : List Nat} (h : Peer n m q r) (i : Nat) (t : List Nat) :
    (n.boxAt (q ++ i :: t)).map Box.noOrigin = (m.boxAt (r ++ i :: t)).map Box.noOrigin := by
  induction h with
  | @here n m h1 h2 =>
    simp only [List.nil_append, Node.boxAt, isSome_of_map h1]
    split
    · cases hc : n.children[i]? with
      | none =>
        cases hm : m.children[i]? with
        | none => rfl
        | some k =>
          obtain ⟨c, g, _⟩ := map_getElem h2 hm
          rw [hc] at g; cases g
      | some c =>
        obtain ⟨k, g1, g2⟩ := map_getElem h2.symm hc
        rw [g1]
        exact boxAt_noOrigin t g2.symm
    · rfl
  | deep h1 h2 h3 _ ih =>
    simp only [List.cons_append, Node.boxAt, h2, h3, isSome_of_map h1]
    split
    · exact ih
    · rfl

theorem peer_length {n m : Node} {q r : List Nat} (h : Peer n m q r) : q.length = r.length := by
  induction h with
  | here => rfl
  | deep _ _ _ _ ih => simp [ih]

theorem peer_above {n m : Node} {q r : List Nat} (h : Peer n m q r) : ∀ t, (n.boxAt (q.take t)).map Box.girth = (m.boxAt (r.take t)).map Box.girth := by
  induction h with
  | here h1 h2 =>
    intro t
    simp only [List.take_nil, Node.boxAt]
    exact opt_map_of (fun _ _ => girth_of_core) h1
  | deep h1 h2 h3 _ ih =>
    intro t
    cases t with
    | zero => exact h1
    | succ t =>
      simp only [List.take_succ_cons, Node.boxAt, h2, h3, isSome_of_map h1]
      split
      · exact ih t
      · rfl

end Colosseum
