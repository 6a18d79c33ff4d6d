import Verif.Spec.Resize
import Verif.Lemmas.Blueprint

/-!
# Displays of different sizes
-/

namespace Colosseum

theorem throughoutAll_mem {P : CSS → Intrinsic → Prop} {cs : List Node} (h : throughoutAll P cs) : ∀ c ∈ cs, c.Throughout P := by
  induction cs with
  | nil => nofun
  | cons c cs ih =>
    intro x hx
    rcases List.mem_cons.1 hx with rfl | hx
    · exact h.1
    · exact ih h.2 x hx

section
variable {fp : FP} {d d' : Display} (hs : SameScreen d d')
include hs

theorem fixed_px (f : Font) (S : Option Num) (u : CUnit) (h : (Val.unit u).fixed = true) : u.px fp ⟨d', f, S⟩ = u.px fp ⟨d, f, S⟩ := by
  obtain ⟨k, v⟩ := u
  cases k with
  | ang k => rfl
  | len k =>
    show pxOf fp k v _ = pxOf fp k v _
    cases k <;> first
      | (simp [Val.fixed, LKind.ofViewport] at h; done)
      | (simp only [pxOf, luOf, hs.dpi])

theorem fixed_pixels (S : Option Num) (v : Val) (h : v.fixed = true) : v.inPixels fp d' S = v.inPixels fp d S := by
  unfold Val.inPixels
  split
  · rw [fixed_px hs _ _ _ h]
  · rfl

theorem fixed_extent (S : Option Num) (v : Val) (h : v.fixed = true) : v.extent fp d' S = v.extent fp d S := by
  unfold Val.extent
  split
  · rfl
  · rw [hs.thin, hs.medium, hs.thick]
  · rfl
  · rw [fixed_px hs _ _ _ h]
  · rfl

theorem fixed_edges {s : CSS} (h : s.Fixed) (W H : Option Num) : s.edges fp d' W H = s.edges fp d W H := by
  simp only [CSS.edges, Val.spacing, Val.thickness, fixed_extent hs _ _ (h _)]

theorem fixed_given {s : CSS} (h : s.Fixed) {p : Option CSS} (hp : ∀ q, p = some q → (q.get .height).fixed = true) (H : Option Num) :
    s.givenHeight fp d' p H = s.givenHeight fp d p H := by
  cases p with
  | none => simp only [CSS.givenHeight, fixed_pixels hs _ _ (h _)]
  | some q => simp only [CSS.givenHeight, fixed_pixels hs _ _ (h _), fixed_pixels hs _ _ (hp q rfl)]

theorem fixed_moves {s : CSS} (h : s.Fixed) (r : Surround) : s.moves fp d' r = s.moves fp d r := by
  simp only [CSS.moves, relativeMove, fixed_pixels hs _ _ (h _)]

theorem fixed_across {s : CSS} (h : s.Fixed) (z : Intrinsic) (l : Option Box) (cs : List Node) (W : Option Num) (m : Edge MVal) (b q : Edge Num) (k : Manner) :
    (Node.mk s z l cs).across fp d' W m b q k = (Node.mk s z l cs).across fp d W m b q k := by
  cases k <;> simp only [Node.across, Node.style, Node.intrinsic, CSS.imageWidth, CSS.givenWidth, fixed_pixels hs _ _ (h _)] <;> congr

theorem fixed_along {s : CSS} (h : s.Fixed) {p : Option CSS} (hp : ∀ q, p = some q → (q.get .height).fixed = true) (z : Intrinsic) (l : Option Box)
    (cs : List Node) (H w : Option Num) (ks : List Blueprint) (k : Manner) :
    (Node.mk s z l cs).along fp d' p H w ks k = (Node.mk s z l cs).along fp d p H w ks k := by
  cases k <;> simp only [Node.along, Node.style, Node.intrinsic, CSS.imageHeight, fixed_pixels hs _ _ (h _), fixed_given hs h hp] <;> congr

theorem fixed_flow (s : CSS) (r : Surround) (cs : List Node)
    (h : ∀ c ∈ cs, c.plan fp d' (some s) r = c.plan fp d (some s) r) : flowPlans fp d' s r cs = flowPlans fp d s r cs := by
  induction cs with
  | nil => rfl
  | cons c cs ih =>
    simp only [flowPlans]
    rw [h c (by simp), ih fun c hc => h c (by simp [hc])]

theorem fixed_stack (s : CSS) (r : Surround) (cs : List Node)
    (h : ∀ c ∈ cs, c.plan fp d' (some s) r = c.plan fp d (some s) r) : ∀ y bm, stackPlans fp d' s r y bm cs = stackPlans fp d s r y bm cs := by
  induction cs with
  | nil => intro y bm; rfl
  | cons c cs ih =>
    intro y bm
    simp only [stackPlans]
    rw [h c (by simp)]
    have ih := ih fun c hc => h c (by simp [hc])
    simp only [ih]

theorem fixed_plan (n : Node) : ∀ p r, n.Throughout (fun s _ => s.Fixed) → (∀ q, p = some q → (q.get .height).fixed = true) →
    n.plan fp d' p r = n.plan fp d p r := by
  induction n using Node.ind with
  | h s z l cs ih =>
    intro p r hn hp
    have h : s.Fixed := hn.1
    have step : ∀ r, ∀ c ∈ cs, c.plan fp d' (some s) r = c.plan fp d (some s) r := fun r c hc =>
      ih c hc _ r (throughoutAll_mem hn.2 c hc) (fun q e => by cases e; exact h _)
    have f1 := fun r => fixed_flow hs s r cs (step r)
    have f2 := fun r => fixed_stack hs s r cs (step r)
    simp only [Node.plan, fixed_edges hs h, fixed_across hs h, fixed_along hs h hp, fixed_moves hs h, f1, f2]

end

/-! ## Another height around -/

theorem rigid_px (fp : FP) (d : Display) (f : Font) (S S' : Option Num) (u : CUnit) (h : (Val.unit u).isPercent = false) :
    u.px fp ⟨d, f, S'⟩ = u.px fp ⟨d, f, S⟩ := by
  obtain ⟨k, v⟩ := u
  cases k with
  | ang k => rfl
  | len k =>
    show pxOf fp k v _ = pxOf fp k v _
    cases k <;> first
      | (simp [Val.isPercent] at h; done)
      | rfl

theorem rigid_pixels (fp : FP) (d : Display) (S S' : Option Num) (v : Val) (h : v.isPercent = false) : v.inPixels fp d S' = v.inPixels fp d S := by
  unfold Val.inPixels
  split
  · rw [rigid_px fp d _ S S' _ h]
  · rfl

theorem rigid_extent (fp : FP) (d : Display) (S S' : Option Num) (v : Val) (h : v.isPercent = false) : v.extent fp d S' = v.extent fp d S := by
  unfold Val.extent
  split
  · rfl
  · rfl
  · rfl
  · rw [rigid_px fp d _ S S' _ h]
  · rfl

theorem rigid_plan (fp : FP) (d : Display) (s : CSS) (z : Intrinsic) (l : Option Box) (cs : List Node) (h : s.Rigid) (p : Option CSS)
    (hp : ∀ q, p = some q → (q.get .height).isPercent = false) (W H H' : Option Num) :
    (Node.mk s z l cs).plan fp d p ⟨W, H', none⟩ = (Node.mk s z l cs).plan fp d p ⟨W, H, none⟩ := by
  have ex := fun q hq => rigid_extent fp d H H' (s.get q) (h q hq)
  have px := fun q hq => rigid_pixels fp d H H' (s.get q) (h q hq)
  have e1 : s.edges fp d W H' = s.edges fp d W H := by
    simp only [CSS.edges, Val.spacing, Val.thickness, ex (.margin .top) (by simp), ex (.margin .bottom) (by simp), ex (.borderWidth .left) (by simp),
      ex (.borderWidth .right) (by simp), ex (.padding .left) (by simp), ex (.padding .right) (by simp)]
  have e2 : s.givenHeight fp d p H' = s.givenHeight fp d p H := by
    have any : ∀ S, (s.get .height).inPixels fp d S = (s.get .height).inPixels fp d none := fun S => rigid_pixels fp d none S _ (h _ (by simp))
    cases p with
    | none => simp only [CSS.givenHeight, any, px .maxHeight (by simp)]; rfl
    | some q =>
      simp only [CSS.givenHeight, any, px .maxHeight (by simp), rigid_pixels fp d H H' _ (hp q rfl)]
      split <;> rfl
  have e3 : ∀ w ks k, (Node.mk s z l cs).along fp d p H' w ks k = (Node.mk s z l cs).along fp d p H w ks k := by
    intro w ks k
    cases k <;> simp only [Node.along, Node.style, Node.intrinsic, CSS.imageHeight, e2, px .height (by simp), px .minHeight (by simp)] <;> congr
  have e4 : s.moves fp d ⟨W, H', none⟩ = s.moves fp d ⟨W, H, none⟩ := by
    simp only [CSS.moves, relativeMove, px .top (by simp), px .bottom (by simp), Option.bind_none]
  simp only [Node.plan, e1, e3, e4]

end Colosseum
