import Verif.Spec.Css
import Verif.Lemmas.Regroup
import Verif.Lemmas.Grown
import Verif.Lemmas.Moved

/-!
# The reference layout and CSS 2.1
-/

namespace Colosseum

namespace Css

variable {fp : FP} {d : Display}

theorem pixels_int {v : Val} {k : Int} (h : v.pixels fp d = some (k : Rat)) : v.whole fp d = k := by
  unfold Val.pixels at h
  unfold Val.whole
  cases hp : v.px fp ⟨d, dummyFont fp, none⟩ with
  | error e => rw [hp] at h; cases h
  | ok x =>
    rw [hp] at h
    have hx : x.val = k := Option.some.inj h
    cases v with
    | unit u =>
      obtain ⟨kd, val⟩ := u
      cases kd with
      | ang a => cases hp
      | len l =>
        have hp' : pxOf fp l val ⟨d, dummyFont fp, none⟩ = .ok x := hp
        unfold pxOf at hp'
        cases hl : luOf fp l val ⟨d, dummyFont fp, none⟩ with
        | error e => rw [hl] at hp'; cases hp'
        | ok lu =>
          rw [hl] at hp'
          cases hp'
          unfold pxOfLu at hx ⊢
          dsimp only at hx ⊢
          split at hx
          · rename_i he
            rw [if_pos he]
            simp only [Num.val_int] at hx
            exact_mod_cast hx
          · rename_i he
            exact absurd ((pyTrunc_eq_iff _).2 ⟨k, hx⟩) he
    | _ => cases hp

theorem margin_whole {s : CSS} {t : Side} {k : Nat} (hv : s.get (.margin t) = kw "auto" ∨ (s.get (.margin t)).Sure fp d) (h : margin fp d s t = k) :
    (s.get (.margin t)).whole fp d = k := by
  rcases hv with hv | ⟨x, hx⟩
  · unfold margin CSS.outside at h
    rw [hv, pixels_kw] at h
    rw [hv]
    have hk : ((0 : Int) : Rat) = ((k : Int) : Rat) := by simpa using h
    have hk' : (0 : Int) = k := by exact_mod_cast hk
    rw [← hk']
    rfl
  · unfold margin CSS.outside at h
    have e := pixels_length hx
    rw [e] at h
    exact pixels_int (by rw [e]; exact congrArg some (by simpa using h))

/-- An element for which the reference layout is that of CSS, as far as those around it notice. -/
structure Match (fp : FP) (d : Display) (c : Node) : Prop where
  thru : through fp d c = false
  start : start fp d c = ⟨margin fp d c.style .top, 0⟩
  below : below fp d c = ⟨(c.edgeBottom fp d : Rat), 0⟩
  tall : tall fp d c = Moved.tall fp d c
  nonneg : 0 ≤ margin fp d c.style .top
  bottom : 0 ≤ c.edgeBottom fp d

theorem Match.above {c : Node} (h : Match fp d c) : above fp d c = ⟨margin fp d c.style .top, 0⟩ := by
  unfold Css.above
  rw [h.thru, if_neg (by simp), h.start]

theorem gap_some (b m : Rat) : gap (some ⟨b, 0⟩) ⟨m, 0⟩ = max b m := by
  simp [gap, Strut.join, Strut.value]

theorem throughAll_cons {c : Node} {cs : List Node} (h : Match fp d c) : throughAll fp d (c :: cs) = false := by
  simp [throughAll, h.thru]

theorem trailing_match : ∀ {cs : List Node}, (∀ c ∈ cs, Match fp d c) → trailing fp d cs = ⟨(lastBottom fp d cs : Rat), 0⟩
  | [], _ => by simp [trailing, Strut.zero, lastBottom]
  | [c], h => by
    have := (h c (by simp)).bottom
    have e : max ((c.edgeBottom fp d : Int) : Rat) 0 = (c.edgeBottom fp d : Rat) := max_eq_left (by exact_mod_cast this)
    simp [trailing, throughAll, (h c (by simp)).below, Strut.join, Strut.zero, lastBottom, e]
  | c :: c' :: cs, h => by
    rw [trailing, throughAll_cons (h c' (by simp)), if_neg (by simp), trailing_match fun c hc => h c (by simp [hc]), lastBottom]

/-- How far the last block of a list has been moved. -/
def endLow (fp : FP) (d : Display) : List Node → Rat
  | [] => 0
  | [c] => Moved.lowered fp d c.style
  | _ :: c :: cs => endLow fp d (c :: cs)

theorem endLow_last : ∀ {cs : List Node} {c : Node}, cs.getLast? = some c → endLow fp d cs = Moved.lowered fp d c.style
  | [], _, h => nomatch h
  | [x], c, h => by
    cases h
    rfl
  | x :: y :: cs, c, h => by
    rw [endLow]
    exact endLow_last (by rw [← h]; rfl)

theorem run_match : ∀ {cs : List Node} {c : Node}, (∀ x ∈ c :: cs, Match fp d x) → ∀ (y : Rat) (t : Option Strut) ,
    run fp d y t (c :: cs) = (y + gap t ⟨margin fp d c.style .top, 0⟩ + (Moved.stack fp d (c :: cs) - endLow fp d (c :: cs)), some ⟨(lastBottom fp d (c :: cs) : Rat), 0⟩)
  | [], c, h, y, t => by
    have hc := h c (by simp)
    rw [run, if_neg (by simp [hc.thru]), run, hc.above, hc.tall, hc.below, Moved.stack, lastBottom, endLow, add_sub_cancel_right]
  | c' :: cs, c, h, y, t => by
    have hc := h c (by simp)
    rw [run, if_neg (by simp [hc.thru]), run_match fun x hx => h x (by simp [hx]), hc.above, hc.tall, hc.below, Moved.stack, lastBottom, gap_some, endLow]
    simp only [between, margin, add_assoc, add_sub_assoc]

theorem placed_match : ∀ {cs : List Node} {c : Node} {i : Nat}, (∀ x ∈ c :: cs, Match fp d x) → i < (c :: cs).length → ∀ (y : Rat) (t : Option Strut) ,
    placed fp d y t (c :: cs) i = y + gap t ⟨margin fp d c.style .top, 0⟩ + Moved.place fp d (c :: cs) i
  | [], c, 0, h, _, y, t => by
    simp [placed, (h c (by simp)).start, Moved.place]
  | c' :: cs, c, 0, h, _, y, t => by
    simp [placed, (h c (by simp)).start, Moved.place]
  | [], c, i + 1, _, hi, _, _ => by simp at hi
  | c' :: cs, c, i + 1, h, hi, y, t => by
    have hc := h c (by simp)
    rw [placed, if_neg (by simp [hc.thru]), placed_match (fun x hx => h x (by simp [hx])) (by simpa using hi), hc.above, hc.tall, hc.below, gap_some]
    rw [Moved.place]
    simp only [between, margin, add_assoc]

section
variable {root dir : Bool} {W : Rat} {s : CSS} {z : Intrinsic} {l : Option Box} {cs : List Node}

theorem fine_edge (h : Fine fp d root dir W s cs) (t : Side) : edge fp d s t = s.edge fp d t := by
  unfold edge CSS.edge
  rw [h.border]

/-- The first child is at the beginning of the content. -/
theorem fine_first (h : Fine fp d root dir W s cs) {c : Node} (hc : cs.head? = some c) :
    gap (begin (!root && openTop fp d s)) ⟨margin fp d c.style .top, 0⟩ = 0 := by
  rcases h.first c hc with h0 | ⟨h1, h2, _⟩
  · cases hb : (!root && openTop fp d s) with
    | true => rfl
    | false =>
      rw [h0]
      simp [begin, gap, Strut.join, Strut.zero, Strut.value]
  · rw [h1, h2]
    rfl

theorem fine_low (h : Fine fp d root dir W s cs) : Moved.lowered fp d s = lowered fp d s := by
  unfold Moved.lowered lowered relative
  split
  · rename_i e
    rw [← fine_edge h, (h.moved e).1, zero_add]
  · rfl

theorem fine_aside (h : Fine fp d root dir W s cs) : Moved.aside fp d s W = aside fp d dir W s := by
  unfold Moved.aside aside relative
  split
  · rename_i e
    rcases (h.moved e).2 with e | e | e
    · rw [e]
    · rw [e]; cases Moved.pixelsOf fp d (s.get .right) W <;> rfl
    · rw [e]; cases Moved.pixelsOf fp d (s.get .left) W <;> rfl
  · rfl

theorem ended_match (h : Fine fp d root dir W s cs) (hk : ∀ c ∈ cs, Match fp d c) (hl : ∀ c ∈ cs, Moved.lowered fp d c.style = lowered fp d c.style) (hh : height fp d s = none) (hne : cs ≠ []) :
    ended (!root && openBottom fp d s) (run fp d 0 (begin (!root && openTop fp d s)) cs) = Moved.stack fp d cs := by
  cases cs with
  | nil => exact absurd rfl hne
  | cons c cs =>
    have e0 : endLow fp d (c :: cs) = 0 := by
      obtain ⟨x, hx⟩ : ∃ x, (c :: cs).getLast? = some x := ⟨_, List.getLast?_eq_some_getLast (by simp)⟩
      rw [endLow_last hx, hl x (List.mem_of_getLast? hx)]
      exact h.still hh x hx
    rw [run_match hk, fine_first h rfl, e0]
    unfold ended
    cases hb : (!root && openBottom fp d s) with
    | true => simp
    | false =>
      have e : (lastBottom fp d (c :: cs) : Rat) = 0 := by
        obtain ⟨x, hx⟩ : ∃ x, (c :: cs).getLast? = some x := ⟨_, List.getLast?_eq_some_getLast (by simp)⟩
        rw [lastBottom_getLast, hx]
        rcases h.last x hx with h0 | h1 | ⟨h1, h2⟩
        · have hm := hk x (List.mem_of_getLast? hx)
          rw [hm.below] at h0
          simpa [Strut.value] using h0
        · rw [hh] at h1; cases h1
        · rw [h1, h2] at hb; cases hb
      simp [e, gap, Strut.join, Strut.zero, Strut.value]

theorem limited_in {lo : Rat} {hi : Option Rat} {v : Rat} (h1 : lo ≤ v) (h2 : ∀ x, hi = some x → v ≤ x) : limited (some lo) hi v = v := by
  unfold limited
  cases hi with
  | none => exact max_eq_left h1
  | some x =>
    dsimp only
    rw [min_eq_left (h2 x rfl)]
    exact max_eq_left h1

theorem contentTall_match (h : Fine fp d root dir W s cs) (hk : ∀ c ∈ cs, Match fp d c) (hl : ∀ c ∈ cs, Moved.lowered fp d c.style = lowered fp d c.style) :
    contentTall fp d root s cs = match (s.get .height).pixels fp d with
      | some x => limited none ((s.get .maxHeight).pixels fp d) x
      | none => if cs.isEmpty then ((s.get .minHeight).pixels fp d).getD 0 else Moved.stack fp d cs := by
  unfold contentTall
  cases hh : (s.get .height).pixels fp d with
  | some x =>
    have g := h.given x hh
    simp only [height, hh, Option.getD_some]
    unfold limited at g ⊢
    exact max_eq_left g
  | none =>
    simp only [height, hh, Option.getD_none]
    cases cs with
    | nil =>
      obtain ⟨e1, e2⟩ := h.empty hh rfl
      have er : ended (!root && openBottom fp d s) (run fp d 0 (begin (!root && openTop fp d s)) []) = 0 := by
        unfold run ended begin
        cases (!root && openBottom fp d s) <;> cases (!root && openTop fp d s) <;> simp [gap, Strut.join, Strut.zero, Strut.value]
      rw [er]
      show limited (some (least fp d s)) ((s.get .maxHeight).pixels fp d) 0 = least fp d s
      unfold limited
      cases hx : (s.get .maxHeight).pixels fp d with
      | some hi =>
        dsimp only
        rw [min_eq_left (e2 hi hx)]
        exact max_eq_right e1
      | none => exact max_eq_right e1
    | cons c cs =>
      have hf := h.full hh (by simp)
      rw [ended_match h hk hl hh (by simp)] at hf ⊢
      rw [limited_in hf.1 hf.2]
      rfl

theorem wide_match (h : Fine fp d root dir W s cs) : (contentWide fp d W s).1 = Moved.contentWide fp d s W ∧
    (contentWide fp d W s).2 = (Moved.pixelsOf fp d (s.get .width) W).isNone := by
  have e : left fp d W s = W - (Moved.outside fp d s .left W).getD 0 - s.edge fp d .left - s.edge fp d .right - (Moved.outside fp d s .right W).getD 0 := by
    unfold left beside
    rw [fine_edge h, fine_edge h]
  unfold contentWide Moved.contentWide
  cases hw : Moved.pixelsOf fp d (s.get .width) W with
  | some w =>
    refine ⟨?_, rfl⟩
    have g := h.wide w hw
    dsimp only
    cases hl : Moved.pixelsOf fp d (s.get .minWidth) W with
    | some lo => rfl
    | none =>
      rw [hl] at g
      unfold limited at g ⊢
      exact max_eq_left g
  | none =>
    obtain ⟨h1, h2⟩ := h.auto hw
    dsimp only
    rw [limited_in h1 h2]
    exact ⟨e, by simp⟩

theorem shift_match (h : Fine fp d root dir W s cs) : shift fp d dir W s = Moved.shift fp d s W := by
  obtain ⟨e1, e2⟩ := wide_match h
  have ew : wide fp d W s = Moved.wide fp d s W := by
    unfold wide Moved.wide
    rw [e1, fine_edge h, fine_edge h]
  have ed : usedMargins dir (contentWide fp d W s).2 W (wide fp d W s) (Moved.outside fp d s .left W) (Moved.outside fp d s .right W) =
      usedMargins (ltr s) (contentWide fp d W s).2 W (wide fp d W s) (Moved.outside fp d s .left W) (Moved.outside fp d s .right W) := by
    rcases h.along with e | e | ⟨e3, e4⟩
    · rw [e]
    · rw [e2, e]; rfl
    · unfold beside at e4
      unfold usedMargins
      rw [if_neg (not_lt.2 e4)]
      rw [if_neg (not_lt.2 e4)]
      rcases e3 with e3 | e3
      · rw [e3]
        cases Moved.outside fp d s .right W <;> rfl
      · rw [e3]
        cases Moved.outside fp d s .left W <;> rfl
  unfold shift Moved.shift
  dsimp only
  rw [ed, e2, ew]
  unfold ltr
  split
  · rename_i hc
    obtain ⟨c1, c2, c3, c4⟩ := hc
    cases hw : Moved.pixelsOf fp d (s.get .width) W with
    | none => rw [hw] at c3; cases c3
    | some w =>
      have ev := h.even c1 c2 w hw
      rw [ew] at ev
      obtain ⟨k, hk⟩ := ev c4
      unfold usedMargins
      rw [c1, c2]
      simp only [Option.isNone_some, Bool.false_eq_true, if_false, Option.getD_none, add_zero]
      rw [if_neg (not_lt.2 c4)]
      dsimp only
      rw [hk]
      have : (2 * (k : Rat)) / 2 = k := by ring
      rw [this, Int.floor_intCast]
  · rfl

end

theorem conformingAll_mem {dir : Bool} {W : Rat} : ∀ {cs : List Node}, conformingAll fp d dir W cs → ∀ c ∈ cs, Conforming fp d false dir W c
  | c :: cs, h, x, hx => by
    rcases List.mem_cons.1 hx with rfl | hx
    · exact h.1
    · exact conformingAll_mem h.2 x hx

theorem conforming_low {root dir : Bool} {W : Rat} {n : Node} (h : Conforming fp d root dir W n) : Moved.lowered fp d n.style = lowered fp d n.style := by
  obtain ⟨s, z, l, cs⟩ := n
  exact fine_low h.1

theorem conforming_match (n : Node) : ∀ dir W, Moved.All fp d n → Conforming fp d false dir W n → Match fp d n := by
  induction n using Node.ind with
  | h s z l cs ih =>
    intro dir W hr hn
    obtain ⟨h, hcs⟩ := hn
    have r := hr _ (.refl _)
    have hk : ∀ c ∈ cs, Match fp d c := fun c hc => ih c hc _ _ (Moved.all_kid hr hc) (conformingAll_mem hcs c hc)
    have hl : ∀ c ∈ cs, Moved.lowered fp d c.style = lowered fp d c.style := fun c hc => conforming_low (conformingAll_mem hcs c hc)
    obtain ⟨kt, ht⟩ := h.whole .top (.inl rfl)
    obtain ⟨kb, hb⟩ := h.whole .bottom (.inr rfl)
    have wb := margin_whole (r.margin .bottom (by simp)) hb
    have thru : through fp d (.mk s z l cs) = false := by
      cases cs with
      | nil => exact (h.thick rfl).resolve_left (by simp) z l
      | cons c cs => simp [through, throughAll_cons (hk c (by simp))]
    have auto : (s.get .height).isKw "auto" = (height fp d s).isNone := by
      unfold height
      rcases r.height .height (by simp) with e | ⟨x, hx⟩
      · simp only [Node.style] at e
        rw [e]
        rfl
      · simp only [Node.style] at hx
        rw [length_not_kw hx, pixels_length hx]
        rfl
    have eb : Node.edgeBottom fp d (.mk s z l cs) = max (kb : Int) (if (height fp d s).isNone then lastBottom fp d cs else 0) := by
      have wb' : (s.get (.margin .bottom)).whole fp d = (kb : Int) := wb
      rw [Node.edgeBottom, wb', auto, max_eq_right (Int.natCast_nonneg kb)]
    refine ⟨thru, ?_, ?_, ?_, ?_, ?_⟩
    · simp only [start, Node.style]
      have hm : Strut.of (margin fp d s .top) = ⟨margin fp d s .top, 0⟩ := by
        simp only [Strut.of, ht]
        simp
      rw [hm]
      cases cs with
      | nil =>
        simp only [leading, ite_self, Strut.join, Strut.zero, ht]
        simp
      | cons c cs =>
        have hc := hk c (by simp)
        simp only [leading, hc.thru, Bool.false_eq_true, if_false, hc.start]
        have hle : openTop fp d s = true → margin fp d c.style .top ≤ margin fp d s .top := fun ho => by
          rcases h.first c rfl with e | ⟨_, _, e⟩
          · rw [e, ht]; positivity
          · exact e
        split
        · rename_i ho
          simp [Strut.join, hle ho]
        · simp only [Strut.join, Strut.zero, ht]
          simp
    · rw [below, if_neg (by simp [thru]), eb]
      have hm : Strut.of (margin fp d s .bottom) = ⟨(kb : Rat), 0⟩ := by
        simp only [Strut.of, hb]
        simp
      rw [hm]
      cases ho : openBottom fp d s with
      | true =>
        have hh : (height fp d s).isNone = true := by
          simp only [openBottom, Bool.and_eq_true] at ho
          exact ho.1.2
        rw [if_pos rfl, trailing_match hk, if_pos hh]
        simp [Strut.join]
      | false =>
        rw [if_neg (by simp)]
        have e0 : (if (height fp d s).isNone then lastBottom fp d cs else 0) = 0 := by
          split
          · rename_i hh
            rw [lastBottom_getLast]
            cases hx : cs.getLast? with
            | none => rfl
            | some x =>
              rcases h.last x hx with e | e | ⟨_, e⟩
              · rw [(hk x (List.mem_of_getLast? hx)).below] at e
                simpa [Strut.value] using e
              · rw [Option.isNone_iff_eq_none.1 hh] at e; cases e
              · rw [ho] at e; cases e
          · rfl
        rw [e0]
        simp [Strut.join, Strut.zero]
    · have e := contentTall_match h hk hl
      have ec : contentTall fp d false s cs =
          limited (some (least fp d s)) ((s.get .maxHeight).pixels fp d)
            ((height fp d s).getD (ended (openBottom fp d s) (run fp d 0 (begin (openTop fp d s)) cs))) := rfl
      rw [tall, ← ec, e, Moved.tall, fine_edge h, fine_edge h]
      rfl
    · simp only [Node.style, ht]
      positivity
    · rw [eb]
      exact le_max_of_le_left (Int.natCast_nonneg kb)

theorem kids_match {root dir : Bool} {W : Rat} {n : Node} (hr : Moved.All fp d n) (hn : Conforming fp d root dir W n) :
    (∀ c ∈ n.children, Match fp d c) ∧ ∀ c ∈ n.children, Moved.lowered fp d c.style = lowered fp d c.style := by
  obtain ⟨s, z, l, cs⟩ := n
  exact ⟨fun c hc => conforming_match c _ _ (Moved.all_kid hr hc) (conformingAll_mem hn.2 c hc), fun c hc => conforming_low (conformingAll_mem hn.2 c hc)⟩

theorem region_match {root dir : Bool} {W x y : Rat} {n : Node} (hr : Moved.All fp d n) (hn : Conforming fp d root dir W n) :
    region fp d root dir W x y n = Moved.region fp d W x y n := by
  obtain ⟨hk, hl⟩ := kids_match hr hn
  obtain ⟨s, z, l, cs⟩ := n
  have h := hn.1
  have e := contentTall_match h hk hl
  obtain ⟨e1, e2⟩ := wide_match h
  have et : Moved.tall fp d (.mk s z l cs) = s.edge fp d .top + contentTall fp d root s cs + s.edge fp d .bottom := by
    rw [e, Moved.tall]
    rfl
  simp only [region, Moved.region, Node.style, Node.children, e1, shift_match h, fine_edge h, fine_aside h, fine_low h, et, wide, Moved.wide, Region.mk.injEq, true_and]
  ring

theorem regionAt_match : ∀ (q : List Nat) (root dir : Bool) (W x y : Rat) (n : Node), Moved.All fp d n → Conforming fp d root dir W n →
    regionAt fp d root dir W x y n q = Moved.regionAt fp d W x y n q
  | [], root, dir, W, x, y, n, hr, hn => by
    rw [regionAt, Moved.regionAt, region_match hr hn]
  | i :: q, root, dir, W, x, y, n, hr, hn => by
    obtain ⟨hk, hl⟩ := kids_match hr hn
    have er := region_match (x := x) (y := y) hr hn
    obtain ⟨s, z, l, cs⟩ := n
    have h := hn.1
    rw [regionAt, Moved.regionAt, ← er]
    simp only [Node.style, Node.children] at hk ⊢
    cases hc : cs[i]? with
    | none => rfl
    | some c =>
      have hi : i < cs.length := (List.getElem?_eq_some_iff.1 hc).1
      have hmem : c ∈ cs := List.mem_of_getElem? hc
      rw [Option.bind_some, Option.bind_some, regionAt_match q false (ltr s) _ _ _ c (Moved.all_kid hr hmem) (conformingAll_mem hn.2 c hmem)]
      have ep : placed fp d 0 (begin (!root && openTop fp d s)) cs i = Moved.place fp d cs i := by
        cases cs with
        | nil => cases hmem
        | cons c0 cs =>
          rw [placed_match hk hi, fine_first h rfl]
          ring
      rw [ep]
      rfl

theorem edgeTop_first (n : Node) : ∀ {root dir : Bool} {W : Rat}, Moved.All fp d n → Conforming fp d root dir W n → (n.edgeTop fp d : Rat) = margin fp d n.style .top := by
  induction n using Node.ind with
  | h s z l cs ih =>
    intro root dir W hr hn
    obtain ⟨h, hcs⟩ := hn
    have r := hr _ (.refl _)
    obtain ⟨k, ht⟩ := h.whole .top (.inl rfl)
    have w : (s.get (.margin .top)).whole fp d = (k : Int) := margin_whole (r.margin .top (by simp)) ht
    cases cs with
    | nil =>
      rw [Node.edgeTop, w, max_eq_right (Int.natCast_nonneg k)]
      simp only [Node.style, ht]
      rfl
    | cons c cs =>
      have e := ih c (by simp) (Moved.all_kid hr (List.mem_cons_self ..)) (conformingAll_mem hcs c (by simp))
      have hle : margin fp d c.style .top ≤ margin fp d s .top := by
        rcases h.first c rfl with e | ⟨_, _, e⟩
        · rw [e, ht]; positivity
        · exact e
      rw [Node.edgeTop, w, max_eq_right (Int.natCast_nonneg k)]
      rw [← e, ht] at hle
      have hle' : c.edgeTop fp d ≤ (k : Int) := by exact_mod_cast hle
      rw [max_eq_left hle']
      simp only [Node.style, ht]
      rfl

/-- The reference layout is that of CSS. -/
theorem reference_css {html5 : Bool} {n : Node} (hr : Moved.All fp d n) (hn : Conforming fp d true (ltr n.style) d.contentWidth.val n) {q : List Nat}
    (hq : html5 = false ∨ q ≠ []) : Moved.reference fp d html5 n q = layoutAt fp d n q := by
  have hq' : ¬(html5 = true ∧ q = []) := by
    rintro ⟨h1, h2⟩
    rcases hq with h | h
    · rw [h] at h1; cases h1
    · exact h h2
  unfold Moved.reference layoutAt
  rw [regionAt_match q true _ _ _ _ n hr hn, edgeTop_first n hr hn]
  simp only [hq', if_false]
  exact Option.map_id'

end Css

end Colosseum
