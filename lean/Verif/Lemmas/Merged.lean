import Verif.Spec.Merged
import Verif.Lemmas.Widen

/-!
# Lemmas: border and padding taken together
-/

namespace Colosseum

variable {fp : FP} {d : Display}

theorem add_assoc_exact (E : fp.Exact) (a b c : Num) : (a.add fp b).add fp c = a.add fp (b.add fp c) := by
  have E : ∀ q, fp.rnd q = q := E
  cases a <;> cases b <;> cases c <;> simp only [Num.add, Num.toFloat, E] <;> congr 1 <;> push_cast <;> ring

theorem add_comm_num (fp : FP) (a b : Num) : a.add fp b = b.add fp a := by
  cases a <;> cases b <;> simp only [Num.add] <;> first | (congr 1; ring_nf; done) | (congr 2; ring)

theorem sub_sub_exact (E : fp.Exact) (a b c : Num) : (a.sub fp b).sub fp c = a.sub fp (b.add fp c) := by
  have E : ∀ q, fp.rnd q = q := E
  cases a <;> cases b <;> cases c <;> simp only [Num.add, Num.sub, Num.toFloat, E] <;> congr 1 <;> push_cast <;> ring

/-- Border and padding come to the same on every side. -/
def SameRim (fp : FP) (b p b' p' : Edge Num) : Prop :=
  b.top.add fp p.top = b'.top.add fp p'.top ∧ b.right.add fp p.right = b'.right.add fp p'.right ∧
  b.bottom.add fp p.bottom = b'.bottom.add fp p'.bottom ∧ b.left.add fp p.left = b'.left.add fp p'.left

theorem rim_cases {fp : FP} {s s' : CSS} {t : Side} {size : Option Num} (h : s.rim fp d t size = s'.rim fp d t size) {α β : Type} {R : α → β → Prop}
    {f : Num → Num → Option α} {g : Num → Num → Option β} (hfg : ∀ b p b' p', b.add fp p = b'.add fp p' → Paired R (f b p) (g b' p')) :
    Paired R (((s.get (.borderWidth t)).thickness fp d size).bind fun b => ((s.get (.padding t)).thickness fp d size).bind fun p => f b p)
      (((s'.get (.borderWidth t)).thickness fp d size).bind fun b => ((s'.get (.padding t)).thickness fp d size).bind fun p => g b p) := by
  unfold CSS.rim at h
  cases h1 : (s.get (.borderWidth t)).thickness fp d size <;> cases h2 : (s.get (.padding t)).thickness fp d size <;>
    cases h3 : (s'.get (.borderWidth t)).thickness fp d size <;> cases h4 : (s'.get (.padding t)).thickness fp d size <;>
    rw [h1, h2, h3, h4] at h <;> first | trivial | (cases h; done) | (simp only [Option.bind_some, Option.map_some, Option.some.injEq] at h ⊢; exact hfg _ _ _ _ h)

/-- The same edges, side by side. -/
def CSS.edges' (fp : FP) (d : Display) (s : CSS) (W H : Option Num) : Option (Edge MVal × Edge Num × Edge Num) :=
  ((s.get (.margin .top)).spacing fp d H).bind fun mt => ((s.get (.margin .right)).spacing fp d W).bind fun mr =>
  ((s.get (.margin .bottom)).spacing fp d H).bind fun mb => ((s.get (.margin .left)).spacing fp d W).bind fun ml =>
  ((s.get (.borderWidth .top)).thickness fp d W).bind fun bt => ((s.get (.padding .top)).thickness fp d W).bind fun pt =>
  ((s.get (.borderWidth .right)).thickness fp d H).bind fun br => ((s.get (.padding .right)).thickness fp d H).bind fun pr =>
  ((s.get (.borderWidth .bottom)).thickness fp d W).bind fun bb => ((s.get (.padding .bottom)).thickness fp d W).bind fun pb =>
  ((s.get (.borderWidth .left)).thickness fp d H).bind fun bl => ((s.get (.padding .left)).thickness fp d H).bind fun pl =>
  some (⟨mt, mr, mb, ml⟩, ⟨bt, br, bb, bl⟩, ⟨pt, pr, pb, pl⟩)

theorem edges_sides (fp : FP) (d : Display) (s : CSS) (W H : Option Num) : s.edges fp d W H = s.edges' fp d W H := by
  unfold CSS.edges CSS.edges'
  generalize (s.get (.margin .top)).spacing fp d H = m1
  generalize (s.get (.margin .right)).spacing fp d W = m2
  generalize (s.get (.margin .bottom)).spacing fp d H = m3
  generalize (s.get (.margin .left)).spacing fp d W = m4
  generalize (s.get (.borderWidth .top)).thickness fp d W = x1
  generalize (s.get (.borderWidth .right)).thickness fp d H = x2
  generalize (s.get (.borderWidth .bottom)).thickness fp d W = x3
  generalize (s.get (.borderWidth .left)).thickness fp d H = x4
  generalize (s.get (.padding .top)).thickness fp d W = y1
  generalize (s.get (.padding .right)).thickness fp d H = y2
  generalize (s.get (.padding .bottom)).thickness fp d W = y3
  generalize (s.get (.padding .left)).thickness fp d H = y4
  cases m1 with
  | none => rfl
  | some m1 =>
  cases m2 with
  | none => rfl
  | some m2 =>
  cases m3 with
  | none => rfl
  | some m3 =>
  cases m4 with
  | none => rfl
  | some m4 =>
  cases x1 with
  | none => rfl
  | some x1 =>
  cases x2 with
  | none => cases y1 <;> rfl
  | some x2 =>
  cases x3 with
  | none => cases y1 <;> cases y2 <;> rfl
  | some x3 =>
  cases x4 with
  | none => cases y1 <;> cases y2 <;> cases y3 <;> rfl
  | some x4 => rfl

theorem traded_edges {s s' : CSS} (h : s.Traded fp d s') (W H : Option Num) :
    Paired (fun x y => x.1 = y.1 ∧ SameRim fp x.2.1 x.2.2 y.2.1 y.2.2) (s.edges fp d W H) (s'.edges fp d W H) := by
  have hm : ∀ t, s.get (.margin t) = s'.get (.margin t) := fun t => h.same _ (.inl trivial) (fun _ => nofun) (fun _ => nofun)
  rw [edges_sides, edges_sides]
  unfold CSS.edges'
  rw [hm .top, hm .right, hm .bottom, hm .left]
  refine (Paired.same (R := Eq) (fun _ => rfl) _).bind ?_
  rintro mt _ rfl
  refine (Paired.same (R := Eq) (fun _ => rfl) _).bind ?_
  rintro mr _ rfl
  refine (Paired.same (R := Eq) (fun _ => rfl) _).bind ?_
  rintro mb _ rfl
  refine (Paired.same (R := Eq) (fun _ => rfl) _).bind ?_
  rintro ml _ rfl
  refine rim_cases (h.rim .top W) fun bt pt bt' pt' e1 => ?_
  refine rim_cases (h.rim .right H) fun br pr br' pr' e2 => ?_
  refine rim_cases (h.rim .bottom W) fun bb pb bb' pb' e3 => ?_
  refine rim_cases (h.rim .left H) fun bl pl bl' pl' e4 => ?_
  exact ⟨rfl, e1, e2, e3, e4⟩

section
variable (E : fp.Exact) {b p b' p' : Edge Num} (hr : SameRim fp b p b' p')
include E hr

theorem rim_less (a : Num) (xs : List Num) : a.less fp (b.left :: p.left :: xs) = a.less fp (b'.left :: p'.left :: xs) := by
  simp only [Num.less, sub_sub_exact E, hr.2.2.2]

theorem rim_less_right (a : Num) (xs : List Num) : a.less fp (p.right :: b.right :: xs) = a.less fp (p'.right :: b'.right :: xs) := by
  simp only [Num.less, sub_sub_exact E, add_comm_num fp p.right, add_comm_num fp p'.right, hr.2.1]

theorem rim_leftover (W w : Num) (l r : List Num) : leftover fp W w b p l r = leftover fp W w b' p' l r := by
  have hl : ∀ (xs : List Num) (a : Num), a.less fp (xs ++ [b.left, p.left, w, p.right, b.right] ++ r) = a.less fp (xs ++ [b'.left, p'.left, w, p'.right, b'.right] ++ r) := by
    intro xs
    induction xs with
    | nil =>
      intro a
      simp only [List.nil_append, List.cons_append]
      rw [rim_less E hr]
      simp only [Num.less]
      exact rim_less_right E hr _ r
    | cons x xs ih => intro a; exact ih _
  exact hl l W

theorem rim_inner (w : Num) (xs : List Num) : b.left.plus fp (p.left :: w :: p.right :: b.right :: xs) = b'.left.plus fp (p'.left :: w :: p'.right :: b'.right :: xs) := by
  simp only [Num.plus]
  rw [hr.2.2.2, add_assoc_exact E _ p.right, add_assoc_exact E _ p'.right, add_comm_num fp p.right, add_comm_num fp p'.right, hr.2.1]

theorem rim_margins (ltr : Bool) (W w : Num) (l r : MVal) : sideMargins fp ltr W w b p l r = sideMargins fp ltr W w b' p' l r := by
  simp only [sideMargins, rim_leftover E hr, rim_inner E hr]

theorem rim_lowering (t : Num) (k : Manner) : lowering fp t b p k = lowering fp t b' p' k := by
  cases k <;> simp only [lowering, Num.plus, add_assoc_exact E, hr.1]

theorem rim_start (t : Num) : t.plus fp [b.left, p.left] = t.plus fp [b'.left, p'.left] := by
  simp only [Num.plus, add_assoc_exact E, hr.2.2.2]

theorem rim_image (s : CSS) (z : Intrinsic) (W : Option Num) (l r : Num) : s.imageWidth fp d z W b p l r = s.imageWidth fp d z W b' p' l r := by
  have e : ∀ W : Num, W.less fp [l, b.left, p.left, p.right, b.right, r] = W.less fp [l, b'.left, p'.left, p'.right, b'.right, r] := fun W => by
    show (W.sub fp l).less fp _ = (W.sub fp l).less fp _
    rw [rim_less E hr]
    exact rim_less_right E hr _ [r]
  simp only [CSS.imageWidth, e]

end

theorem traded_same {s s' : CSS} (h : s.Traded fp d s') {q : LH} (hq : (q.Sizing ∨ q.Offset) ∧ (∀ t, q ≠ .borderWidth t) ∧ ∀ t, q ≠ .padding t) :
    s.get q = s'.get q := h.same q hq.1 hq.2.1 hq.2.2

/-- The styles agree on everything else. -/
structure SameRest (s s' : CSS) : Prop where
  display : s.get .display = s'.get .display
  position : s.get .position = s'.get .position
  float : s.get .float = s'.get .float
  direction : s.get .direction = s'.get .direction
  width : s.get .width = s'.get .width
  minWidth : s.get .minWidth = s'.get .minWidth
  maxWidth : s.get .maxWidth = s'.get .maxWidth
  height : s.get .height = s'.get .height
  minHeight : s.get .minHeight = s'.get .minHeight
  maxHeight : s.get .maxHeight = s'.get .maxHeight
  top : s.get .top = s'.get .top
  right : s.get .right = s'.get .right
  bottom : s.get .bottom = s'.get .bottom
  left : s.get .left = s'.get .left

theorem traded_rest {s s' : CSS} (h : s.Traded fp d s') : SameRest s s' where
  display := h.same _ (.inl trivial) (fun _ => nofun) (fun _ => nofun)
  position := h.same _ (.inl trivial) (fun _ => nofun) (fun _ => nofun)
  float := h.same _ (.inl trivial) (fun _ => nofun) (fun _ => nofun)
  direction := h.same _ (.inl trivial) (fun _ => nofun) (fun _ => nofun)
  width := h.same _ (.inl trivial) (fun _ => nofun) (fun _ => nofun)
  minWidth := h.same _ (.inl trivial) (fun _ => nofun) (fun _ => nofun)
  maxWidth := h.same _ (.inl trivial) (fun _ => nofun) (fun _ => nofun)
  height := h.same _ (.inl trivial) (fun _ => nofun) (fun _ => nofun)
  minHeight := h.same _ (.inl trivial) (fun _ => nofun) (fun _ => nofun)
  maxHeight := h.same _ (.inl trivial) (fun _ => nofun) (fun _ => nofun)
  top := h.same _ (.inr trivial) (fun _ => nofun) (fun _ => nofun)
  right := h.same _ (.inr trivial) (fun _ => nofun) (fun _ => nofun)
  bottom := h.same _ (.inr trivial) (fun _ => nofun) (fun _ => nofun)
  left := h.same _ (.inr trivial) (fun _ => nofun) (fun _ => nofun)

/-- The styles of the parents, as far as they matter. -/
def SameOutside : Option CSS → Option CSS → Prop := Paired fun q q' => q.get .height = q'.get .height

theorem traded_across {s s' : CSS} (h : SameRest s s') (E : fp.Exact) {b p b' p' : Edge Num} (hr : SameRim fp b p b' p') (z : Intrinsic) (l l' : Option Box) (cs cs' : List Node)
    (W : Option Num) (m : Edge MVal) (k : Manner) : (Node.mk s z l cs).across fp d W m b p k = (Node.mk s' z l' cs').across fp d W m b' p' k := by
  cases k with
  | inline => rfl
  | image =>
    simp only [Node.across, Node.style, Node.intrinsic, rim_image E hr]
    simp only [CSS.imageWidth, h.width, h.height]
  | block =>
    have e : ∀ (W l r : Num), W.less fp [l, b.left, p.left, p.right, b.right, r] = W.less fp [l, b'.left, p'.left, p'.right, b'.right, r] := fun W l r => by
      show (W.sub fp l).less fp _ = (W.sub fp l).less fp _
      rw [rim_less E hr]
      exact rim_less_right E hr _ [r]
    have eg : s.givenWidth fp d W = s'.givenWidth fp d W := by simp only [CSS.givenWidth, h.width, h.maxWidth, h.minWidth]
    simp only [Node.across, Node.style, eg, h.width, h.direction, e, rim_margins E hr]
    by_cases hx : (s'.get .width).isKw "auto" = true
    · simp only [hx, if_true]
    · simp only [hx, if_false, Bool.false_eq_true]

theorem traded_moves {s s' : CSS} (h : SameRest s s') (r : Surround) : s.moves fp d r = s'.moves fp d r := by
  simp only [CSS.moves, h.left, h.right, h.top, h.bottom]

theorem traded_blockish {n n' : Node} (h : Traded fp d n n') : n.blockish = n'.blockish := by
  cases h with
  | mk h _ _ _ => simp only [Node.blockish, Node.style, (traded_rest h).display]

theorem traded_any : ∀ {cs cs' : List Node}, cs.length = cs'.length → (∀ x ∈ cs.zip cs', Traded fp d x.1 x.2) → cs.any Node.blockish = cs'.any Node.blockish
  | [], [], _, _ => rfl
  | [], _ :: _, h, _ => by cases h
  | _ :: _, [], h, _ => by cases h
  | c :: cs, c' :: cs', h, hz => by
    simp only [List.any_cons]
    rw [traded_blockish (hz (c, c') (by simp)), traded_any (by simpa using h) fun x hx => hz x (by simp [hx])]

/-! ## Blueprints -/

theorem mergedAll_map (fp : FP) (ks : List Blueprint) : mergedAll fp ks = ks.map (Blueprint.merged fp) := by
  induction ks with
  | nil => rfl
  | cons k ks ih => simp [mergedAll, ih]

/-- The numbers are the same once border and padding are taken together. -/
def Merged (fp : FP) (a b : Blueprint) : Prop := a.merged fp = b.merged fp

/-- The same for lists. -/
def Mergeds (fp : FP) (as bs : List Blueprint) : Prop := List.Forall₂ (Merged fp) as bs

theorem merged_mk {f f' : Figures} {ks ks' : List Blueprint} (h : f.merged fp = f'.merged fp) (hk : Mergeds fp ks ks') : Merged fp (.mk f ks) (.mk f' ks') := by
  unfold Merged
  simp only [Blueprint.merged, h, mergedAll_map]
  congr 1
  induction hk with
  | nil => rfl
  | cons h _ ih => simp [show Blueprint.merged fp _ = _ from h, ih]

theorem merged_cases {a b : Blueprint} (h : Merged fp a b) : a = .absent ∧ b = .absent ∨
    ∃ f f' ks ks', a = .mk f ks ∧ b = .mk f' ks' ∧ f.merged fp = f'.merged fp ∧ Mergeds fp ks ks' := by
  cases a with
  | absent =>
    cases b with
    | absent => exact .inl ⟨rfl, rfl⟩
    | mk f ks => simp [Merged, Blueprint.merged] at h
  | mk f ks =>
    cases b with
    | absent => simp [Merged, Blueprint.merged] at h
    | mk f' ks' =>
      simp only [Merged, Blueprint.merged, Blueprint.mk.injEq, mergedAll_map] at h
      refine .inr ⟨f, f', ks, ks', rfl, rfl, h.1, ?_⟩
      have h2 := h.2
      clear h
      induction ks generalizing ks' with
      | nil =>
        cases ks' with
        | nil => exact .nil
        | cons _ _ => simp at h2
      | cons k ks ih =>
        cases ks' with
        | nil => simp at h2
        | cons k' ks' =>
          simp only [List.map_cons, List.cons.injEq] at h2
          exact .cons h2.1 (ih ks' h2.2)

theorem merged_figures {f f' : Figures} (h : f.merged fp = f'.merged fp) : f.x = f'.x ∧ f.y = f'.y ∧ f.width = f'.width ∧ f.height = f'.height ∧ f.margin = f'.margin ∧
    SameRim fp f.border f.padding f'.border f'.padding ∧ f.above = f'.above ∧ f.below = f'.below := by
  simp only [Figures.merged, Figures.mk.injEq, Edge.mk.injEq] at h
  unfold SameRim
  tauto

theorem merged_of {f f' : Figures} (h1 : f.x = f'.x) (h2 : f.y = f'.y) (h3 : f.width = f'.width) (h4 : f.height = f'.height) (h5 : f.margin = f'.margin)
    (h6 : SameRim fp f.border f.padding f'.border f'.padding) (h7 : f.above = f'.above) (h8 : f.below = f'.below) : f.merged fp = f'.merged fp := by
  obtain ⟨a, b, c, e⟩ := h6
  simp only [Figures.merged, h1, h2, h3, h4, h5, h7, h8, a, b, c, e]

theorem mergeds_last {as bs : List Blueprint} (h : Mergeds fp as bs) : Paired (Merged fp) as.getLast? bs.getLast? := by
  induction h with
  | nil => trivial
  | @cons a b as bs h hs ih =>
    cases hs with
    | nil => exact h
    | cons h' hs' =>
      rw [List.getLast?_cons_cons, List.getLast?_cons_cons]
      exact ih

theorem merged_above {as bs : List Blueprint} (h : Mergeds fp as bs) (o : Bool) (i : Int) : firstAbove o as i = firstAbove o bs i := by
  cases h with
  | nil => rfl
  | cons h _ =>
    rcases merged_cases h with ⟨rfl, rfl⟩ | ⟨f, f', ks, ks', rfl, rfl, hf, _⟩
    · cases o <;> rfl
    · cases o with
      | false => rfl
      | true => simp only [firstAbove, (merged_figures hf).2.2.2.2.2.2.1]

theorem merged_below {as bs : List Blueprint} (h : Mergeds fp as bs) (o : Bool) (i : Int) : lastBelow o as i = lastBelow o bs i := by
  have hl := mergeds_last h
  unfold lastBelow
  generalize as.getLast? = x at hl ⊢
  generalize bs.getLast? = y at hl ⊢
  match x, y, hl with
  | none, none, _ => rfl
  | some x, some y, hl =>
    rcases merged_cases hl with ⟨rfl, rfl⟩ | ⟨f, f', ks, ks', rfl, rfl, hf, _⟩
    · cases o <;> rfl
    · cases o with
      | false => rfl
      | true => simp only [(merged_figures hf).2.2.2.2.2.2.2]

theorem merged_moved {f f' : Figures} (h : f.merged fp = f'.merged fp) (y : Num) : (f.moved fp y).merged fp = (f'.moved fp y).merged fp := by
  obtain ⟨h1, h2, h3, h4, h5, h6, h7, h8⟩ := merged_figures h
  exact merged_of h1 (by simp only [Figures.moved, h2]) h3 h4 h5 h6 h7 h8

theorem merged_end (E : fp.Exact) {f f' : Figures} (h : f.merged fp = f'.merged fp) : f.end fp = f'.end fp := by
  obtain ⟨h1, h2, h3, h4, h5, h6, h7, h8⟩ := merged_figures h
  simp only [Figures.end, h2, h4, Num.plus, add_assoc_exact E _ f.padding.bottom, add_assoc_exact E _ f'.padding.bottom, add_comm_num fp f.padding.bottom,
    add_comm_num fp f'.padding.bottom, h6.2.2.1]

theorem merged_tall (E : fp.Exact) {f f' : Figures} (h : f.merged fp = f'.merged fp) : f.tall fp = f'.tall fp := by
  obtain ⟨h1, h2, h3, h4, h5, h6, h7, h8⟩ := merged_figures h
  simp only [Figures.tall, h4, Num.plus, add_assoc_exact E _ f.padding.bottom, add_assoc_exact E _ f'.padding.bottom, add_comm_num fp f.padding.bottom,
    add_comm_num fp f'.padding.bottom, h6.1, h6.2.2.1]

theorem traded_blank (n : Node) : ∀ n', Traded fp d n n' → Merged fp n.blank n'.blank := by
  induction n using Node.ind with
  | h s z l cs ih =>
    rintro _ (⟨h, hl, hlen, hz⟩)
    rename_i s' l' cs'
    cases l with
    | none =>
      cases l' with
      | none => exact rfl
      | some _ => cases hl
    | some b =>
      cases l' with
      | none => cases hl
      | some b' =>
        simp only [Node.blank]
        refine merged_mk rfl ?_
        clear h hl
        induction cs generalizing cs' with
        | nil =>
          cases cs' with
          | nil => exact .nil
          | cons _ _ => cases hlen
        | cons c cs ihc =>
          cases cs' with
          | nil => cases hlen
          | cons c' cs' =>
            exact .cons (ih c (by simp) c' (hz (c, c') (by simp)))
              (ihc (fun c hc => ih c (by simp [hc])) (by simpa using hlen) fun x hx => hz x (by simp [hx]))

theorem traded_blanks : ∀ {cs cs' : List Node}, cs.length = cs'.length → (∀ x ∈ cs.zip cs', Traded fp d x.1 x.2) → Mergeds fp (blankAll cs) (blankAll cs')
  | [], [], _, _ => .nil
  | [], _ :: _, h, _ => by cases h
  | _ :: _, [], h, _ => by cases h
  | c :: cs, c' :: cs', h, hz => .cons (traded_blank c c' (hz (c, c') (by simp))) (traded_blanks (by simpa using h) fun x hx => hz x (by simp [hx]))

theorem traded_along (E : fp.Exact) {s s' : CSS} (h : SameRest s s') {q q' : Option CSS} (hq : SameOutside q q') (z : Intrinsic) (l l' : Option Box) (cs cs' : List Node)
    (H w : Option Num) {ks ks' : List Blueprint} (hk : Mergeds fp ks ks') (k : Manner) :
    (Node.mk s z l cs).along fp d q H w ks k = (Node.mk s' z l' cs').along fp d q' H w ks' k := by
  cases k with
  | inline => rfl
  | image =>
    simp only [Node.along, Node.style, Node.intrinsic, CSS.imageHeight, h.height, h.width]
    by_cases hx : (!(s'.get .height).isKw "auto") = true
    · simp only [hx, if_true]
    · simp only [hx, if_false, Bool.false_eq_true]
  | block =>
    have eg : s.givenHeight fp d q H = s'.givenHeight fp d q' H := by
      match q, q', hq with
      | none, none, _ => simp only [CSS.givenHeight, h.height, h.maxHeight]
      | some q, some q', hq =>
        have hq : q.get .height = q'.get .height := hq
        simp only [CSS.givenHeight, h.height, h.maxHeight, hq]
    simp only [Node.along, Node.style, eg, h.height, h.minHeight]
    by_cases hx : (!(s'.get .height).isKw "auto") = true
    · simp only [hx, if_true]
    · simp only [hx, if_false, Bool.false_eq_true]
      have hl := mergeds_last hk
      generalize ks.getLast? = x at hl ⊢
      generalize ks'.getLast? = y at hl ⊢
      match x, y, hl with
      | none, none, _ => rfl
      | some x, some y, hl =>
        rcases merged_cases hl with ⟨rfl, rfl⟩ | ⟨f, f', _, _, rfl, rfl, hf, _⟩
        · rfl
        · simp only [merged_end E hf]

theorem traded_flow (s s' : CSS) (r : Surround) : ∀ {cs cs' : List Node}, cs.length = cs'.length →
    (∀ x ∈ cs.zip cs', Paired (Merged fp) (x.1.plan fp d (some s) r) (x.2.plan fp d (some s') r)) →
    Paired (Mergeds fp) (flowPlans fp d s r cs) (flowPlans fp d s' r cs')
  | [], [], _, _ => List.Forall₂.nil
  | [], _ :: _, h, _ => by cases h
  | _ :: _, [], h, _ => by cases h
  | c :: cs, c' :: cs', h, hz => by
    simp only [flowPlans, Option.bind_eq_bind]
    refine (hz (c, c') (by simp)).bind fun k k' hk => ?_
    exact (traded_flow s s' r (by simpa using h) fun x hx => hz x (by simp [hx])).bind fun ks ks' hks => List.Forall₂.cons hk hks

theorem traded_stack (E : fp.Exact) (s s' : CSS) (r : Surround) : ∀ {cs cs' : List Node}, cs.length = cs'.length → (∀ x ∈ cs.zip cs', Traded fp d x.1 x.2) →
    (∀ x ∈ cs.zip cs', Paired (Merged fp) (x.1.plan fp d (some s) r) (x.2.plan fp d (some s') r)) →
    ∀ y bm, Paired (Mergeds fp) (stackPlans fp d s r y bm cs) (stackPlans fp d s' r y bm cs')
  | [], [], _, _, _ => fun _ _ => List.Forall₂.nil
  | [], _ :: _, h, _, _ => by cases h
  | _ :: _, [], h, _, _ => by cases h
  | c :: cs, c' :: cs', h, ht, hz => by
    intro y bm
    have h' : cs.length = cs'.length := by simpa using h
    have ht' : ∀ x ∈ cs.zip cs', Traded fp d x.1 x.2 := fun x hx => ht x (by simp [hx])
    have ih := traded_stack E s s' r h' ht' fun x hx => hz x (by simp [hx])
    simp only [stackPlans, Option.bind_eq_bind, traded_blockish (ht (c, c') (by simp)), traded_any h' ht']
    split
    · refine (hz (c, c') (by simp)).bind fun k k' hk => ?_
      rcases merged_cases hk with ⟨rfl, rfl⟩ | ⟨f, f', ks, ks', rfl, rfl, hf, hks⟩
      · trivial
      · obtain ⟨h1, h2, h3, h4, h5, h6, h7, h8⟩ := merged_figures hf
        dsimp only
        have eg : gapAbove bm f = gapAbove bm f' := by unfold gapAbove; rw [h5]
        rw [eg, merged_tall E hf, h8]
        refine (Paired.same (R := Eq) (fun _ => rfl) _).bind fun g _ e => ?_
        subst e
        refine (Paired.same (R := Eq) (fun _ => rfl) _).bind fun t _ e => ?_
        subst e
        exact (ih _ _).bind fun ts ts' hts => List.Forall₂.cons (merged_mk (merged_moved hf _) hks) hts
    · split
      · trivial
      · exact traded_blanks h ht

theorem traded_plan (E : fp.Exact) (n : Node) : ∀ n' q q' r, Traded fp d n n' → SameOutside q q' → Paired (Merged fp) (n.plan fp d q r) (n'.plan fp d q' r) := by
  induction n using Node.ind with
  | h s z l cs ih =>
    rintro n' q q' r ht hq
    obtain ⟨h, hl, hlen, hz⟩ := ht
    rename_i s' l' cs'
    have hr := traded_rest h
    have step : ∀ r, ∀ x ∈ cs.zip cs', Paired (Merged fp) (x.1.plan fp d (some s) r) (x.2.plan fp d (some s') r) := fun r x hx =>
      ih x.1 (List.of_mem_zip hx).1 x.2 _ _ r (hz x hx) hr.height
    have hm : (Node.mk s z l cs).manner = (Node.mk s' z l' cs').manner := by
      unfold Node.manner
      rw [traded_blockish (.mk h hl hlen hz)]
      rw [show (Node.mk s z l cs).style.get .float = (Node.mk s' z l' cs').style.get .float from hr.float,
        show (Node.mk s z l cs).style.get .position = (Node.mk s' z l' cs').style.get .position from hr.position,
        show (Node.mk s z l cs).style.get .display = (Node.mk s' z l' cs').style.get .display from hr.display]
      rfl
    have hpl : (Node.mk s z l cs).piles = (Node.mk s' z l' cs').piles := by
      simp only [Node.piles, Node.style, Node.intrinsic, Node.children, hr.display, traded_any hlen hz]
    unfold Node.plan
    dsimp only
    rw [hr.display, hm, hpl, hr.position]
    split
    · exact Eq.refl _
    · simp only [Option.bind_eq_bind]
      refine (Paired.same (R := Eq) (fun _ => rfl) _).bind ?_
      rintro k _ rfl
      refine (traded_edges h r.width r.height).bind ?_
      rintro ⟨m, b, p⟩ ⟨m', b', p'⟩ ⟨rfl, e⟩
      dsimp only at e ⊢
      rw [traded_across hr E e z l l' cs cs' r.width m k]
      refine (Paired.same (R := Eq) (fun _ => rfl) _).bind ?_
      rintro ⟨w, left, right⟩ _ rfl
      dsimp only
      refine (Paired.same (R := Eq) (fun _ => rfl) _).bind ?_
      rintro ⟨top, bottom⟩ _ rfl
      dsimp only
      rw [rim_lowering E e, rim_start E e]
      rw [traded_along E hr hq z l l' cs cs' r.height w (traded_blanks hlen hz) k]
      refine (Paired.same (R := Eq) (fun _ => rfl) _).bind ?_
      rintro guess _ rfl
      refine Paired.bind (R := Mergeds fp) ?_ ?_
      · split
        · exact traded_stack E s s' _ hlen hz (step _) _ _
        · exact traded_flow s s' _ hlen (step _)
      · intro ks ks' hk
        rw [traded_along E hr hq z l l' cs cs' r.height w hk k, traded_moves hr]
        refine (Paired.same (R := Eq) (fun _ => rfl) _).bind ?_
        rintro hh _ rfl
        refine (Paired.same (R := Eq) (fun _ => rfl) _).bind ?_
        rintro ⟨x, y⟩ _ rfl
        dsimp only
        refine merged_mk (merged_of rfl rfl rfl rfl rfl e ?_ ?_) hk
        · exact merged_above hk _ _
        · simp only [hr.height]
          exact merged_below hk _ _

theorem traded_blueprint (E : fp.Exact) (html5 : Bool) {n n' : Node} {q q' : Option CSS} (h : Traded fp d n n') (hq : SameOutside q q') :
    Paired (Merged fp) (n.blueprint fp d html5 q) (n'.blueprint fp d html5 q') := by
  unfold Node.blueprint
  have hP := traded_plan E n n' q q' ⟨some d.contentWidth, some d.contentHeight, none⟩ h hq
  generalize n.plan fp d q _ = x at hP ⊢
  generalize n'.plan fp d q' _ = y at hP ⊢
  match x, y, hP with
  | none, none, _ => trivial
  | some x, some y, hP =>
    rcases merged_cases hP with ⟨rfl, rfl⟩ | ⟨f, f', ks, ks', rfl, rfl, hf, hk⟩
    · trivial
    · dsimp only
      have ha : f.above = f'.above := (merged_figures hf).2.2.2.2.2.2.1
      have hb : f.below = f'.below := (merged_figures hf).2.2.2.2.2.2.2
      have hmv := merged_moved hf (.int f.above)
      rw [ha] at hmv ⊢
      refine merged_mk ?_ hk
      obtain ⟨h1, h2, h3, h4, h5, h6, h7, h8⟩ := merged_figures hmv
      cases html5 with
      | false => simpa using hmv
      | true => exact merged_of h1 h2 h3 (by simp [Figures.moved, ha, hb]) h5 h6 h7 h8

end Colosseum
