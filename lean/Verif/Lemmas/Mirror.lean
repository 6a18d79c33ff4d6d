import Verif.Spec.Mirror
import Verif.Lemmas.Reference

/-!
# Lemmas: related documents have related references
-/

namespace Colosseum

variable {fp : FP} {d d' : Display}

/-! ## Documents of the same structure -/

theorem alongs_get {R : CSS → CSS → Prop} : ∀ {cs cs' : List Node}, Alongs R cs cs' → ∀ i : Nat, Option.Rel (Node.Along R) cs[i]? cs'[i]?
  | [], [], _, i => by simp only [List.getElem?_nil]; exact .none
  | c :: cs, c' :: cs', h, 0 => .some h.1
  | c :: cs, c' :: cs', h, i + 1 => by
    simp only [List.getElem?_cons_succ]
    exact alongs_get h.2 i

theorem alongs_isEmpty {R : CSS → CSS → Prop} : ∀ {cs cs' : List Node}, Alongs R cs cs' → cs'.isEmpty = cs.isEmpty
  | [], [], _ => rfl
  | _ :: _, _ :: _, _ => rfl

theorem along_style {R : CSS → CSS → Prop} {n n' : Node} (h : n.Along R n') : R n.style n'.style := by
  obtain ⟨s, z, l, cs⟩ := n
  obtain ⟨s', z', l', cs'⟩ := n'
  exact h.1

theorem along_children {R : CSS → CSS → Prop} {n n' : Node} (h : n.Along R n') : Alongs R n.children n'.children := by
  obtain ⟨s, z, l, cs⟩ := n
  obtain ⟨s', z', l', cs'⟩ := n'
  exact h.2

theorem along_kid {R : CSS → CSS → Prop} {n n' c c' : Node} {i : Nat} (h : n.Along R n') (hc : n.children[i]? = some c) (hc' : n'.children[i]? = some c') :
    c.Along R c' := by
  have := alongs_get (along_children h) i
  rw [hc, hc'] at this
  cases this with
  | some h => exact h

theorem along_none {R : CSS → CSS → Prop} {n n' : Node} {i : Nat} (h : n.Along R n') : n.children[i]? = none ↔ n'.children[i]? = none := by
  have := alongs_get (along_children h) i
  generalize n.children[i]? = a at this ⊢
  generalize n'.children[i]? = b at this ⊢
  cases this <;> simp

/-! ## The same vertical measures -/

/-- What the vertical layout depends on. -/
structure CSS.SameDown (fp : FP) (d : Display) (s s' : CSS) : Prop where
  edge : ∀ t, t = .top ∨ t = .bottom → s'.edge fp d t = s.edge fp d t
  margin : ∀ t, t = .top ∨ t = .bottom → s'.get (.margin t) = s.get (.margin t)
  size : ∀ p, p = .height ∨ p = .minHeight ∨ p = .maxHeight → s'.get p = s.get p

theorem sameDown_edgeTop : ∀ {n n' : Node}, n.Along (CSS.SameDown fp d) n' → n'.edgeTop fp d = n.edgeTop fp d
  | .mk s z l [], .mk s' z' l' [], h => by
    rw [Node.edgeTop, Node.edgeTop, h.1.margin _ (.inl rfl)]
  | .mk s z l (c :: cs), .mk s' z' l' (c' :: cs'), h => by
    rw [Node.edgeTop, Node.edgeTop, h.1.margin _ (.inl rfl), sameDown_edgeTop h.2.1]
  | .mk _ _ _ [], .mk _ _ _ (_ :: _), h => h.2.elim
  | .mk _ _ _ (_ :: _), .mk _ _ _ [], h => h.2.elim

mutual
theorem sameDown_edgeBottom : ∀ {n n' : Node}, n.Along (CSS.SameDown fp d) n' → n'.edgeBottom fp d = n.edgeBottom fp d
  | .mk s z l cs, .mk s' z' l' cs', h => by
    rw [Node.edgeBottom, Node.edgeBottom, h.1.margin _ (.inr rfl), h.1.size _ (.inl rfl), sameDown_lastBottom h.2]
theorem sameDown_lastBottom : ∀ {cs cs' : List Node}, Alongs (CSS.SameDown fp d) cs cs' → lastBottom fp d cs' = lastBottom fp d cs
  | [], [], _ => rfl
  | [c], [c'], h => by rw [lastBottom, lastBottom, sameDown_edgeBottom h.1]
  | _ :: c :: cs, _ :: c' :: cs', h => by rw [lastBottom, lastBottom, sameDown_lastBottom h.2]
  | [_], _ :: _ :: _, h => h.2.elim
  | _ :: _ :: _, [_], h => h.2.elim
end

theorem sameDown_between {c c' e e' : Node} (h : c.Along (CSS.SameDown fp d) c') (k : e.Along (CSS.SameDown fp d) e') :
    between fp d c' e' = between fp d c e := by
  unfold between CSS.outside
  rw [sameDown_edgeBottom h, (along_style k).margin _ (.inl rfl)]

mutual
theorem sameDown_tall : ∀ {n n' : Node}, n.Along (CSS.SameDown fp d) n' → n'.tall fp d = n.tall fp d
  | .mk s z l cs, .mk s' z' l' cs', h => by
    rw [Node.tall, Node.tall, h.1.edge _ (.inl rfl), h.1.edge _ (.inr rfl), h.1.size _ (.inl rfl), h.1.size _ (.inr (.inl rfl)),
      h.1.size _ (.inr (.inr rfl)), sameDown_stack h.2, alongs_isEmpty h.2]
theorem sameDown_stack : ∀ {cs cs' : List Node}, Alongs (CSS.SameDown fp d) cs cs' → stackTall fp d cs' = stackTall fp d cs
  | [], [], _ => rfl
  | [c], [c'], h => by rw [stackTall, stackTall, sameDown_tall h.1]
  | c :: e :: cs, c' :: e' :: cs', h => by
    rw [stackTall, stackTall, sameDown_tall h.1, sameDown_between h.1 h.2.1, sameDown_stack h.2]
  | [_], _ :: _ :: _, h => h.2.elim
  | _ :: _ :: _, [_], h => h.2.elim
end

theorem sameDown_topAt : ∀ {cs cs' : List Node}, Alongs (CSS.SameDown fp d) cs cs' → ∀ i, topAt fp d cs' i = topAt fp d cs i
  | c :: e :: cs, c' :: e' :: cs', h, i + 1 => by
    rw [topAt, topAt, sameDown_tall h.1, sameDown_between h.1 h.2.1, sameDown_topAt h.2]
  | _, _, _, 0 => by rw [topAt_zero, topAt_zero]
  | [], [], _, _ => rfl
  | [_], [_], _, _ + 1 => rfl
  | [_], _ :: _ :: _, h, _ => h.2.elim
  | _ :: _ :: _, [_], h, _ => h.2.elim

theorem along_imp {R S : CSS → CSS → Prop} (f : ∀ s s', R s s' → S s s') : ∀ {n n' : Node}, n.Along R n' → n.Along S n' := by
  have key : ∀ (n : Node) (n' : Node), n.Along R n' → n.Along S n' := by
    intro n
    refine Node.ind (P := fun n => ∀ n', n.Along R n' → n.Along S n') ?_ n
    intro s z l cs ih n' h
    obtain ⟨s', z', l', cs'⟩ := n'
    refine ⟨f _ _ h.1, ?_⟩
    replace h := h.2
    induction cs generalizing cs' with
    | nil => cases cs' with
      | nil => trivial
      | cons => exact h.elim
    | cons c cs ihc => cases cs' with
      | nil => exact h.elim
      | cons c' cs' => exact ⟨ih c (by simp) c' h.1, ihc (fun x hx => ih x (by simp [hx])) cs' h.2⟩
  intro n n' h
  exact key n n' h

/-! ## Mirror images -/

theorem mirrored_edge {s s' : CSS} (h : s.Mirrored s') (t : Side) : s'.edge fp d t.opposite = s.edge fp d t := by
  unfold CSS.edge CSS.bordered CSS.padded
  rw [h.border t, h.padding t]

theorem mirrored_outside {s s' : CSS} (h : s.Mirrored s') (t : Side) : s'.outside fp d t.opposite = s.outside fp d t := by
  unfold CSS.outside
  rw [h.margin t]

theorem mirrored_down {s s' : CSS} (h : s.Mirrored s') : s.SameDown fp d s' := by
  refine ⟨?_, ?_, ?_⟩
  · rintro t (rfl | rfl)
    · exact mirrored_edge h .top
    · exact mirrored_edge h .bottom
  · rintro t (rfl | rfl)
    · exact h.margin .top
    · exact h.margin .bottom
  · rintro p (rfl | rfl | rfl) <;> exact h.size _ (by simp)

theorem mirrored_contentWide {s s' : CSS} (h : s.Mirrored s') (W : Rat) : s'.contentWide fp d W = s.contentWide fp d W := by
  have e1 := mirrored_edge (fp := fp) (d := d) h .left
  have e2 := mirrored_edge (fp := fp) (d := d) h .right
  have o1 := mirrored_outside (fp := fp) (d := d) h .left
  have o2 := mirrored_outside (fp := fp) (d := d) h .right
  simp only [Side.opposite] at e1 e2 o1 o2
  unfold CSS.contentWide
  rw [h.size .width (by simp), h.size .minWidth (by simp), h.size .maxWidth (by simp), e1, e2, o1, o2]
  cases (s.get .width).pixels fp d with
  | none => simp only; ring
  | some w => rfl

theorem mirrored_wide {s s' : CSS} (h : s.Mirrored s') (W : Rat) : s'.wide fp d W = s.wide fp d W := by
  have e1 := mirrored_edge (fp := fp) (d := d) h .left
  have e2 := mirrored_edge (fp := fp) (d := d) h .right
  simp only [Side.opposite] at e1 e2
  unfold CSS.wide
  rw [mirrored_contentWide h, e1, e2]
  ring

theorem pixels_iff {v : Val} {s : String} (h : v = kw s ∨ v.Sure fp d) : v.pixels fp d = none ↔ v = kw s := by
  constructor
  · intro e
    rcases h with h | ⟨x, h⟩
    · exact h
    · rw [pixels_length h] at e
      cases e
  · rintro rfl
    rfl

theorem uncentred {m : Node} (hr : m.Regular fp d) (hu : m.style.Uncentred) (W : Rat) :
    ¬ (m.style.outside fp d .left = none ∧ m.style.outside fp d .right = none ∧ ((m.style.get .width).pixels fp d).isNone = false ∧
      m.style.wide fp d W ≤ W) := by
  rintro ⟨h1, h2, h3, _⟩
  unfold CSS.outside at h1 h2
  rw [pixels_iff (hr.margin _)] at h1 h2
  rcases hu with h | h | h
  · rw [(pixels_iff (hr.size .width (by simp))).2 h] at h3
    cases h3
  · exact h h1
  · exact h h2

theorem uncentred_shift {m : Node} (hr : m.Regular fp d) (hu : m.style.Uncentred) (W : Rat) :
    m.style.shift fp d W = (usedMargins ((m.style.get .direction).isKw "ltr") ((m.style.get .width).pixels fp d).isNone W (m.style.wide fp d W)
      (m.style.outside fp d .left) (m.style.outside fp d .right)).1 := by
  unfold CSS.shift
  rw [if_neg (uncentred hr hu W)]

theorem usedMargins_mirror (ltr auto : Bool) (W w : Rat) (l r : Option Rat) (h : auto = true ∨ ¬ (l = none ∧ r = none))
    (ha : auto = true → w = W - l.getD 0 - r.getD 0) :
    (usedMargins (!ltr) auto W w r l).1 = W - w - (usedMargins ltr auto W w l r).1 := by
  unfold usedMargins
  cases auto with
  | true => simp only [if_true]; rw [ha rfl]; ring
  | false =>
    have e : w + r.getD 0 + l.getD 0 = w + l.getD 0 + r.getD 0 := by ring
    rw [e]
    by_cases hw : W < w + l.getD 0 + r.getD 0
    · rw [if_pos hw, if_pos hw]
      cases ltr <;> simp <;> ring
    · rw [if_neg hw, if_neg hw]
      cases l <;> cases r <;> cases ltr <;> simp_all

theorem mirrored_shift {m m' : Node} (hr : m.Regular fp d) (hr' : m'.Regular fp d) (h : m.style.Mirrored m'.style) (hu : m.style.Uncentred) (W : Rat) :
    m'.style.shift fp d W = W - m.style.wide fp d W - m.style.shift fp d W := by
  have o1 := mirrored_outside (fp := fp) (d := d) h .left
  have o2 := mirrored_outside (fp := fp) (d := d) h .right
  have g1 := h.margin .left
  have g2 := h.margin .right
  simp only [Side.opposite] at o1 o2 g1 g2
  have hu' : m'.style.Uncentred := by
    unfold CSS.Uncentred
    rw [g1, g2, h.size .width (by simp)]
    exact hu.imp id Or.symm
  have hd : (m'.style.get .direction).isKw "ltr" = !(m.style.get .direction).isKw "ltr" := by
    rw [Bool.eq_iff_iff, isKw_iff, h.direction, Bool.not_eq_true', ← Bool.not_eq_true, isKw_iff]
  rw [uncentred_shift hr hu, uncentred_shift hr' hu', hd, h.size .width (by simp), mirrored_wide h, o1, o2]
  refine usedMargins_mirror _ _ _ _ _ _ ?_ ?_
  · by_cases e : (m.style.get .width).pixels fp d = none
    · left; rw [e]; rfl
    · right
      rintro ⟨h1, h2⟩
      unfold CSS.outside at h1 h2
      rw [pixels_iff (hr.margin _)] at h1 h2
      rcases hu with h | h | h
      · exact e ((pixels_iff (hr.size .width (by simp))).2 h)
      · exact h h1
      · exact h h2
  · intro e
    rw [Option.isNone_iff_eq_none] at e
    unfold CSS.wide CSS.contentWide
    rw [e]
    simp only
    ring

/-- Two regions, each of them the image of the other. -/
structure Region.Image (W : Rat) (f g : Region) : Prop where
  left : g.left = W - (f.left + f.width)
  top : g.top = f.top
  width : g.width = f.width
  height : g.height = f.height
  contentLeft : g.contentLeft = W - (f.contentLeft + f.contentWidth)
  contentTop : g.contentTop = f.contentTop
  contentWidth : g.contentWidth = f.contentWidth
  contentHeight : g.contentHeight = f.contentHeight

theorem mirrored_inner {m m' : Node} (hr : m.Regular fp d) (hr' : m'.Regular fp d) (h : m.style.Mirrored m'.style) (hu : m.style.Uncentred) {W T x x' : Rat}
    (hx : x' = T - (x + W)) :
    x' + m'.style.shift fp d W + m'.style.edge fp d .left =
      T - (x + m.style.shift fp d W + m.style.edge fp d .left + m.style.contentWide fp d W) := by
  have e1 := mirrored_edge (fp := fp) (d := d) h .right
  simp only [Side.opposite] at e1
  rw [mirrored_shift hr hr' h hu, e1, hx]
  unfold CSS.wide
  ring

theorem mirrored_regionAt (T : Rat) (q : List Nat) : ∀ {n n' : Node} {W x x' y : Rat}, n.Along CSS.Mirrored n' → n.AllRegular fp d → n'.AllRegular fp d →
    (∀ m, Sub m n → m.style.Uncentred) → x' = T - (x + W) →
    Option.Rel (Region.Image T) (n.regionAt fp d W x y q) (n'.regionAt fp d W x' y q) := by
  induction q with
  | nil =>
    intro n n' W x x' y h hr hr' hu hx
    have hs := along_style h
    have r := hr n (.refl _)
    have r' := hr' n' (.refl _)
    have u := hu n (.refl _)
    have hd : n.Along (CSS.SameDown fp d) n' := along_imp (fun _ _ => mirrored_down) h
    rw [Node.regionAt, Node.regionAt]
    refine .some ⟨?_, rfl, mirrored_wide hs W, sameDown_tall hd, mirrored_inner r r' hs u hx, ?_, mirrored_contentWide hs W, ?_⟩
    · simp only [Node.region]
      rw [mirrored_shift r r' hs u, hx]
      ring
    · simp only [Node.region]
      rw [(along_style hd).edge _ (.inl rfl)]
    · simp only [Node.region]
      rw [(along_style hd).edge _ (.inl rfl), (along_style hd).edge _ (.inr rfl), sameDown_tall hd]
  | cons i q ih =>
    intro n n' W x x' y h hr hr' hu hx
    have hs := along_style h
    have r := hr n (.refl _)
    have r' := hr' n' (.refl _)
    have u := hu n (.refl _)
    have hd : n.Along (CSS.SameDown fp d) n' := along_imp (fun _ _ => mirrored_down) h
    rw [Node.regionAt, Node.regionAt]
    cases hc : n.children[i]? with
    | none =>
      rw [(along_none h).1 hc]
      exact .none
    | some c =>
      cases hc' : n'.children[i]? with
      | none =>
        rw [(along_none h).2 hc'] at hc
        cases hc
      | some c' =>
        simp only [Option.bind_some]
        rw [mirrored_contentWide hs, (along_style hd).edge _ (.inl rfl), sameDown_topAt (along_children hd)]
        have m := List.mem_of_getElem? hc
        exact ih (along_kid h hc hc') (allRegular_kid hr m) (allRegular_kid hr' (List.mem_of_getElem? hc'))
          (fun z hz => hu z (.child m hz)) (mirrored_inner r r' hs u hx)

end Colosseum
