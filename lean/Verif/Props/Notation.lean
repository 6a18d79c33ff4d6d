import Verif.Lemmas.Notation
import Verif.Props.Style
import Verif.Lemmas.Sample

/-!
# C74, C76: lengths matter only through the pixels they come to, and equal values are laid out alike
-/

namespace Colosseum

/-- C74. Two documents of the same structure, with the same intrinsic sizes and boxes, whose styles have values with the same meaning, are laid out in the
same way: the same exception or the same boxes. A length may be replaced by any other that comes to as many pixels on the display. -/
theorem C74_notation (fp : FP) (L : fp.Laws) (d : Display) (html5 : Bool) (p q : Option CSS) (n m : Node)
    (hp : ParentRel (fun _ => SameMeaning fp d) p q) (h : DocRel (fun _ => SameMeaning fp d) n m) :
    SameOutcome (layout fp d html5 p n) (layout fp d html5 q m) :=
  layout_like html5 (hp.mono fun _ _ _ _ => SameMeaning.like L) (h.mono fun _ _ _ _ => SameMeaning.like L)

/-- A document with lengths in inches, picas and points, and the same in pixels. -/
def inchDoc : Node := block [(.width, .unit ⟨.len .inch, .fin (.int 1)⟩)]
  [block [(.height, .unit ⟨.len .pt, .fin (.int 12)⟩), (.margin .left, .unit ⟨.len .pc, .fin (.int 1)⟩)] []]
def pixelDoc : Node := block [(.width, px 96)] [block [(.height, px 16), (.margin .left, px 16)] []]

/-- A display of 96 dots per inch. -/
def screen96 : Display := { screen with dpi := .int 96 }

theorem sameMeaning_at {v w : Val} {k k' : LKind} {x x' : PyNum} (hv : v = .unit ⟨.len k, x⟩) (hw : w = .unit ⟨.len k', x'⟩)
    (h : ∀ size, pxOf .b64 k x ⟨screen96, dummyFont .b64, size⟩ = pxOf .b64 k' x' ⟨screen96, dummyFont .b64, size⟩) : SameMeaning .b64 screen96 v w :=
  Or.inr ⟨k, k', x, x', hv, hw, h⟩

example : DocRel (fun _ => SameMeaning .b64 screen96) inchDoc pixelDoc := by
  refine .mk (fun p _ => ?_) rfl ?_
  · by_cases h : p = .width
    · subst h
      exact sameMeaning_at rfl rfl fun _ => by
        show (luScaled .b64 (.fin (.int 1)) (.int 72) (.int 96)).map (pxOfLu .b64) = .ok (pxOfLu .b64 (64 * 96))
        decide +kernel
    · left; cases p <;> first | rfl | exact absurd rfl h
  · intro x hx
    simp only [List.zip_cons_cons, List.zip_nil_right, List.mem_cons, List.not_mem_nil, or_false] at hx
    subst hx
    refine .mk (fun p _ => ?_) rfl (by simp)
    by_cases h : p = .height
    · subst h
      exact sameMeaning_at rfl rfl fun _ => by
        show (luScaled .b64 (.fin (.int 12)) (.int 1) (.int 96)).map (pxOfLu .b64) = .ok (pxOfLu .b64 (64 * 16))
        decide +kernel
    · by_cases h' : p = .margin .left
      · subst h'
        exact sameMeaning_at rfl rfl fun _ => by
          show (luScaled .b64 (.fin (.int 1)) (.int 12) (.int 96)).map (pxOfLu .b64) = .ok (pxOfLu .b64 (64 * 16))
          decide +kernel
      · left
        cases p with
        | margin s => cases s <;> first | rfl | exact absurd rfl h'
        | height => exact absurd rfl h
        | _ => rfl

example : (laidBox .b64 screen96 inchDoc [0]).map (fun b => (b.h.content, b.contentWidth, b.contentHeight)) = some (.int 16, some (.int 80), some (.int 16)) ∧
    laidBox .b64 screen96 inchDoc [0] = laidBox .b64 screen96 pixelDoc [0] := by decide +kernel

/-- C76: documents whose styles compare equal, property by property, are laid out in the same way. Missing for the full claim: a length in a
viewport unit whose computation takes more than 53 bits (`C76_false_equal`). -/
theorem C76_equal_partial (fp : FP) (L : fp.Laws) (d : Display) (html5 : Bool) (p q : Option CSS) (n m : Node)
    (hp : ParentRel (EqualValues fp d) p q) (h : DocRel (EqualValues fp d) n m) :
    SameOutcome (layout fp d html5 p n) (layout fp d html5 q m) :=
  layout_like html5 (hp.mono fun _ _ _ hx => equal_like L hx) (h.mono fun _ _ _ hx => equal_like L hx)

example : EqualValues .b64 screen .width (px 12) (.unit ⟨.len .px, .fin (.flt 12)⟩) :=
  ⟨Or.inr ⟨.length, rfl, _, rfl⟩, Or.inr ⟨.length, rfl, _, rfl⟩, trivial, by show FP.b64.rnd 12 = 12; decide +kernel,
    fun k n h hk => by cases h; exact hk.elim, by decide +kernel⟩

/-- C76 for the setters: if a setter accepts a value and does not mark the box dirty, storing the value would not have changed the layout. The style may
be the one of any node of the document. Missing for the full claim: as above. -/
theorem C76_ignored_partial (fp : FP) (L : fp.Laws) (d : Display) (html5 : Bool) (q : Option CSS) (E : Env) (at_ : List Nat) (n m : Node) (r : List Nat)
    (p : LH) (v w : Val) (hn : n.find r = some m) (hc : m.style.Canon) (hv : p.choices.validate E at_ v = .ok w)
    (hs : (Decl.set E at_ ⟨m.style, .box (some false)⟩ p v).1.link = .box (some false)) (hw : w.Held fp) (hm : (m.style.get p).Held fp) (hw' : w.Modest d) :
    SameOutcome (layout fp d html5 q n) (layout fp d html5 q (n.atPath (Node.withStyle (m.style.store p w)) r)) := by
  have hd : differs m.style p w = false := by
    unfold Decl.set at hs
    rw [hv] at hs
    simp only at hs
    cases h : differs m.style p w with
    | false => rfl
    | true =>
      rw [h, if_pos rfl] at hs
      cases hs
  have he : w.pyEq (m.style.get p) = true := by
    unfold differs at hd
    show w.pyEq ((m.style p).getD p.constInit) = true
    cases h : m.style p with
    | some o => rw [h] at hd; simpa using hd
    | none =>
      rw [h] at hd
      simp only at hd
      unfold LH.constInit
      split at hd
      · simpa using hd
      · cases hd
  have hcw : Canonical p w := validate_canonical hv
  refine layout_like html5 (.refl (fun _ v => Like.refl fp d v) q) (docRel_atPath (fun _ v => Like.refl fp d v) hn ?_)
  obtain ⟨s, z, l, cs⟩ := m
  have kids := DocRel.refl (R := fun _ => Like fp d) (fun _ v => Like.refl fp d v) (.mk s z l cs)
  cases kids with
  | mk _ hlen hk =>
    refine .mk (fun x hx => ?_) hlen hk
    by_cases e : x = p
    · subst e
      have : (s.store x w).get x = w := by
        show (if x = x then some w else s x).getD _ = w
        rw [if_pos rfl]
        rfl
      show Like fp d (s.get x) ((s.store x w).get x)
      rw [this]
      exact (plain_like L (canonical_layout hx hcw) (get_plain hc hx) hw hm hw' he).symm
    · have : (s.store p w).get x = s.get x := by
        show (if x = p then some w else s x).getD _ = (s x).getD _
        rw [if_neg e]
      show Like fp d (s.get x) ((s.store p w).get x)
      rw [this]
      exact Like.refl ..

/-- The width of a node is twelve pixels, and is set to `"12.0px"`. -/
example : (Decl.set exampleEnv [] ⟨[(LH.width, px 12)].foldl (fun c x => c.store x.1 x.2) CSS.empty, .box (some false)⟩ .width (.str (lit "12.0px"))).1.link =
    .box (some false) := by decide +kernel

/-- A node with a width of `8229202328289228 vw`, as an `int` and as a `float`. -/
def wideDoc (x : Num) : Node := block [] [block [(.width, .unit ⟨.len .vw, .fin x⟩)] []]

/-- The values are equal, but the layouts differ. -/
theorem C76_false_equal :
    (Val.unit ⟨.len .vw, .fin (.int 8229202328289228)⟩).pyEq (.unit ⟨.len .vw, .fin (.flt 8229202328289228)⟩) = true ∧
    FP.b64.rnd 8229202328289228 = 8229202328289228 ∧
    ((laidBox .b64 screen (wideDoc (.int 8229202328289228)) [0]).bind Box.contentWidth).map Num.val = some 52666894901051056 ∧
    ((laidBox .b64 screen (wideDoc (.flt 8229202328289228)) [0]).bind Box.contentWidth).map Num.val = some 52666894901051064 := by
  decide +kernel

end Colosseum
