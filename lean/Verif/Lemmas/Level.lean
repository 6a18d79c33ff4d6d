import Verif.Spec.Level
import Verif.Lemmas.Blueprint
import Verif.Lemmas.Pixels

/-!
# Percentages of a height that is nothing
-/

namespace Colosseum

theorem level_get (parent : Option CSS) (s : CSS) (p : LH) :
    (s.level parent).get p = if levels parent s p then (s.get p).nothing else s.get p := by
  have hc : p.constInit.nothing = p.constInit := by
    cases p <;> first | rfl | (rename_i t; cases t <;> rfl)
  show ((if levels parent s p then (s p).map Val.nothing else s p) : Option Val).getD p.constInit = if levels parent s p then ((s p).getD p.constInit).nothing else (s p).getD p.constInit
  cases levels parent s p with
  | true =>
    cases s p with
    | some v => rfl
    | none => exact hc.symm
  | false => rfl

theorem pxOfLu_zero {fp : FP} (L : fp.Laws) : pxOfLu fp 0 = .int 0 := by
  have t : pyTrunc 0 = 0 := by decide
  simp [pxOfLu, L.zero, t]

theorem share_zero {fp : FP} (L : fp.Laws) (d : Display) (f : Font) (a : Num) :
    CUnit.px fp ⟨.len .percent, .fin a⟩ ⟨d, f, some (.int 0)⟩ = .ok (.int 0) := by
  show pxOf fp .percent (.fin a) ⟨d, f, some (.int 0)⟩ = _
  have z : pyRound 0 = 0 := by have := pyRound_int 0; simpa using this
  have e : (Num.int 0).toFloat fp = 0 := by
    have := L.zero
    simpa [Num.toFloat] using this
  simp only [pxOf, luOf]
  rw [luPercent_fin L, e, mul_zero, L.zero, z]
  simp only [pxOfLu_zero L]

theorem nought_px {fp : FP} (L : fp.Laws) (d : Display) (f : Font) (w : Option Num) :
    CUnit.px fp ⟨.len .px, .fin (.int 0)⟩ ⟨d, f, w⟩ = .ok (.int 0) := by
  show pxOf fp .px (.fin (.int 0)) ⟨d, f, w⟩ = _
  simp [pxOf, luOf, PyNum.mul, Num.mul, luPerPixel, PyNum.round, Num.round, pxOfLu_zero L]

theorem nothing_cases (v : Val) : v.nothing = v ∧ v.isShare = false ∨ ∃ a, v = .unit ⟨.len .percent, .fin a⟩ := by
  unfold Val.nothing Val.isShare
  split
  · exact .inr ⟨_, rfl⟩
  · exact .inl ⟨rfl, rfl⟩

theorem nothing_pixels {fp : FP} (L : fp.Laws) (d : Display) (v : Val) : v.nothing.inPixels fp d (some (.int 0)) = v.inPixels fp d (some (.int 0)) := by
  rcases nothing_cases v with ⟨h, _⟩ | ⟨a, rfl⟩
  · rw [h]
  · simp only [Val.inPixels, Val.nothing, share_zero L, nought_px L]

theorem nothing_extent {fp : FP} (L : fp.Laws) (d : Display) (v : Val) : v.nothing.extent fp d (some (.int 0)) = v.extent fp d (some (.int 0)) := by
  rcases nothing_cases v with ⟨h, _⟩ | ⟨a, rfl⟩
  · rw [h]
  · have e : (Val.unit ⟨.len .percent, .fin a⟩).extent fp d (some (.int 0)) = some (.num (.int 0)) := by
      simp only [Val.extent]
      rw [if_neg (by simp), share_zero L]
      rfl
    rw [e]
    simp [Val.extent, Val.nothing, PyNum.pyEq, Num.pyEq]

theorem nothing_kw (v : Val) (t : String) : v.nothing.isKw t = v.isKw t := by
  rcases nothing_cases v with ⟨h, _⟩ | ⟨a, rfl⟩
  · rw [h]
  · rfl

theorem nothing_none (v : Val) : v.nothing.isNone = v.isNone := by
  rcases nothing_cases v with ⟨h, _⟩ | ⟨a, rfl⟩
  · rw [h]
  · rfl

/-- The height of a parent before and after. -/
def SameOuter (q q' : CSS) : Prop :=
  q'.get .height = q.get .height ∨
  (q.get .position).isKw "relative" = false ∧ (q.get .height).isShare = true ∧ q'.get .height = (q.get .height).nothing

theorem level_outer (lp : Option CSS) (s : CSS) : SameOuter s (s.level lp) := by
  unfold SameOuter
  rw [level_get]
  split
  · rename_i h
    rcases nothing_cases (s.get .height) with ⟨h', _⟩ | ⟨a, h'⟩
    · exact .inl h'
    · right
      unfold levels at h
      split at h
      · cases h
      · simp only [LH.ofHeight, Bool.and_eq_true, Bool.or_eq_true, Bool.not_eq_true', decide_eq_true_eq, Bool.false_eq_true, false_or] at h
        exact ⟨h.2.1.2, by rw [h']; rfl, rfl⟩
  · exact .inl rfl

/-- What `Node.level` starts from and what the two layouts find around the element. -/
def Around (lp p p' : Option CSS) (H : Option Num) : Prop :=
  lp = none ∧ p = p' ∨
  ∃ q q', lp = some q ∧ p = some q ∧ p' = some q' ∧ SameOuter q q' ∧ ((q.get .position).isKw "relative" = false → H = some (.int 0))

section
variable {fp : FP} (L : fp.Laws) {d : Display} {lp p p' : Option CSS} {H : Option Num} (h : Around lp p p' H) (s : CSS)
include h

omit h in
theorem levels_other {q : LH} (h1 : q.ofHeight = false) (h2 : q ≠ .height) : (s.level lp).get q = s.get q := by
  rw [level_get, if_neg]
  unfold levels
  split
  · nofun
  · simp [h1, h2]

theorem levels_nil {q : LH} (hl : levels lp s q = true) : H = some (.int 0) := by
  rcases h with ⟨rfl, _⟩ | ⟨a, b, rfl, _, _, _, h0⟩
  · cases hl
  · simp only [levels, Bool.and_eq_true, Bool.not_eq_true'] at hl
    exact h0 hl.1

theorem level_kw (q : LH) (t : String) : ((s.level lp).get q).isKw t = (s.get q).isKw t := by
  rw [level_get]
  split
  · exact nothing_kw _ _
  · rfl

theorem level_none (q : LH) : ((s.level lp).get q).isNone = (s.get q).isNone := by
  rw [level_get]
  split
  · exact nothing_none _
  · rfl

include L

theorem level_extent (q : LH) : ((s.level lp).get q).extent fp d H = (s.get q).extent fp d H := by
  rw [level_get]
  split
  · rename_i hl
    rw [levels_nil h s hl]
    exact nothing_extent L d _
  · rfl

theorem level_pixels (q : LH) : ((s.level lp).get q).inPixels fp d H = (s.get q).inPixels fp d H := by
  rw [level_get]
  split
  · rename_i hl
    rw [levels_nil h s hl]
    exact nothing_pixels L d _
  · rfl

theorem level_edges (W : Option Num) : (s.level lp).edges fp d W H = s.edges fp d W H := by
  have o := fun (q : LH) h1 h2 => levels_other (lp := lp) s (q := q) h1 h2
  have e := level_extent L (d := d) h s
  simp only [CSS.edges, Val.spacing, Val.thickness, e, o (.margin .right) rfl nofun, o (.margin .left) rfl nofun, o (.borderWidth .top) rfl nofun,
    o (.borderWidth .bottom) rfl nofun, o (.padding .top) rfl nofun, o (.padding .bottom) rfl nofun]

theorem level_given : (s.level lp).givenHeight fp d p' H = s.givenHeight fp d p H := by
  have e := level_pixels L (d := d) h s
  unfold CSS.givenHeight
  rw [level_none h, e .maxHeight]
  by_cases hh : levels lp s .height = true
  · have h0 := levels_nil h s hh
    subst h0
    rcases h with ⟨rfl, _⟩ | ⟨q, q', rfl, rfl, rfl, hq, _⟩
    · cases hh
    · simp only [levels, LH.ofHeight, Bool.and_eq_true, Bool.or_eq_true, Bool.not_eq_true', decide_eq_true_eq, Bool.false_eq_true, false_or] at hh
      have hg : ((s.level (some q)).get .height) = (s.get .height).nothing := by
        rw [level_get, if_pos]
        simp [levels, LH.ofHeight, hh]
      have hq' : (q'.get .height).isKw "auto" = (q.get .height).isKw "auto" ∧
          (q'.get .height).inPixels fp d (some (.int 0)) = (q.get .height).inPixels fp d (some (.int 0)) := by
        rcases hq with hq | ⟨_, _, hq⟩
        · rw [hq]
          exact ⟨rfl, rfl⟩
        · rw [hq]
          exact ⟨nothing_kw _ _, nothing_pixels L _ _⟩
      simp only [hg, hq'.1, hq'.2]
      rcases hh.2.2 with ha | ha
      · simp only [ha, if_true, Option.bind_eq_bind, Option.bind_some, nothing_pixels L]
      · rcases nothing_cases (q.get .height) with ⟨_, hn⟩ | ⟨a, hn⟩
        · rw [hn] at ha
          cases ha
        · have : (q.get .height).inPixels fp d (some (.int 0)) = some (.int 0) := by
            rw [hn]
            simp only [Val.inPixels, share_zero L]
            rfl
          have hk : (q.get .height).isKw "auto" = false := by rw [hn]; rfl
          simp only [this, hk, Bool.false_eq_true, if_false, Option.map_some, Option.bind_eq_bind, Option.bind_some, nothing_pixels L]
  · have hg : (s.level lp).get .height = s.get .height := by rw [level_get, if_neg hh]
    rw [hg]
    rcases h with ⟨rfl, rfl⟩ | ⟨q, q', rfl, rfl, rfl, hq, h0⟩
    · rfl
    · rcases hq with hq | ⟨h1, h2, h3⟩
      · simp only [hq]
      · rw [h0 h1]
        simp only [h3, nothing_kw, nothing_pixels L]

theorem level_moves (W : Option Num) (c : Option (Num × Num)) : (s.level lp).moves fp d ⟨W, H, c⟩ = s.moves fp d ⟨W, H, c⟩ := by
  have e := level_pixels L (d := d) h s
  have k := level_kw h s
  simp only [CSS.moves, relativeMove, k, e, levels_other (lp := lp) s (q := .left) rfl nofun, levels_other (lp := lp) s (q := .right) rfl nofun]

end

theorem levelAll_map (s : CSS) (cs : List Node) : levelAll s cs = cs.map (Node.level (some s)) := by
  induction cs with
  | nil => rfl
  | cons c cs ih => simp [levelAll, ih]

theorem level_mk (lp : Option CSS) (s : CSS) (z : Intrinsic) (l : Option Box) (cs : List Node) :
    (Node.mk s z l cs).level lp = .mk (s.level lp) z l (cs.map (Node.level (some s))) := by rw [Node.level, levelAll_map]

theorem level_blank (n : Node) : ∀ lp, (n.level lp).blank = n.blank := by
  induction n using Node.ind with
  | h s z l cs ih =>
    intro lp
    rw [level_mk]
    cases l with
    | none => rfl
    | some b =>
      simp only [Node.blank, Blue.blankAll_map, List.map_map]
      congr 1
      exact List.map_congr_left fun c hc => ih c hc _

theorem level_style (lp : Option CSS) (n : Node) : (n.level lp).style = n.style.level lp := by
  obtain ⟨s, z, l, cs⟩ := n
  rw [level_mk]
  rfl

theorem level_blockish (lp : Option CSS) (n : Node) : (n.level lp).blockish = n.blockish := by
  simp only [Node.blockish, level_style]
  rw [levels_other (q := .display) n.style rfl nofun]

theorem level_any (lp : Option CSS) (cs : List Node) : (cs.map (Node.level lp)).any Node.blockish = cs.any Node.blockish := by
  rw [List.any_map]
  congr 1
  funext c
  exact level_blockish lp c

theorem level_blanks (lp : Option CSS) (cs : List Node) : blankAll (cs.map (Node.level lp)) = blankAll cs := by
  simp only [Blue.blankAll_map, List.map_map]
  exact List.map_congr_left fun c _ => level_blank c _

theorem level_flow (fp : FP) (d : Display) (lp : Option CSS) (s s' : CSS) (r : Surround) (cs : List Node)
    (h : ∀ c ∈ cs, (c.level lp).plan fp d (some s') r = c.plan fp d (some s) r) :
    flowPlans fp d s' r (cs.map (Node.level lp)) = flowPlans fp d s r cs := by
  induction cs with
  | nil => rfl
  | cons c cs ih =>
    rw [List.map_cons]
    simp only [flowPlans]
    rw [h c (by simp), ih fun c hc => h c (by simp [hc])]

theorem level_stack (fp : FP) (d : Display) (lp : Option CSS) (s s' : CSS) (r : Surround) (cs : List Node)
    (h : ∀ c ∈ cs, (c.level lp).plan fp d (some s') r = c.plan fp d (some s) r) :
    ∀ y bm, stackPlans fp d s' r y bm (cs.map (Node.level lp)) = stackPlans fp d s r y bm cs := by
  induction cs with
  | nil => intro y bm; rfl
  | cons c cs ih =>
    intro y bm
    have e := level_blanks lp (c :: cs)
    rw [List.map_cons] at e ⊢
    simp only [stackPlans]
    rw [level_blockish, level_any, h c (by simp), e]
    have ih := ih fun c hc => h c (by simp [hc])
    simp only [ih]

theorem level_plan {fp : FP} (L : fp.Laws) (d : Display) (n : Node) : ∀ lp p p' r, Around lp p p' r.height →
    (n.level lp).plan fp d p' r = n.plan fp d p r := by
  induction n using Node.ind with
  | h s z l cs ih =>
    rintro lp p p' ⟨W, H, co⟩ h
    dsimp only at h
    rw [level_mk]
    have o := fun (q : LH) h1 h2 => levels_other (lp := lp) s (q := q) h1 h2
    have hd := o .display rfl nofun
    have hp := o .position rfl nofun
    have e1 : ∀ l' l'', (Node.mk (s.level lp) z l' (cs.map (Node.level (some s)))).piles = (Node.mk s z l'' cs).piles := by
      intro l' l''
      simp only [Node.piles, Node.style, Node.intrinsic, Node.children, level_any, hd]
    have e2 : ∀ l' l'', (Node.mk (s.level lp) z l' (cs.map (Node.level (some s)))).manner = (Node.mk s z l'' cs).manner := by
      intro l' l''
      simp only [Node.manner, Node.blockish, Node.style, Node.intrinsic, hd, hp, o .float rfl nofun]
      congr
    have e3 : ∀ l' l'' m b q k, (Node.mk (s.level lp) z l' (cs.map (Node.level (some s)))).across fp d W m b q k = (Node.mk s z l'' cs).across fp d W m b q k := by
      intro l' l'' m b q k
      cases k <;> simp only [Node.across, Node.style, Node.intrinsic, CSS.imageWidth, CSS.givenWidth, level_kw h s, level_none h s,
        o .width rfl nofun, o .maxWidth rfl nofun, o .minWidth rfl nofun] <;> congr
    have e4 : ∀ l' l'' w ks k, (Node.mk (s.level lp) z l' (cs.map (Node.level (some s)))).along fp d p' H w ks k = (Node.mk s z l'' cs).along fp d p H w ks k := by
      intro l' l'' w ks k
      cases k <;> simp only [Node.along, Node.style, Node.intrinsic, CSS.imageHeight, level_kw h s, level_none h s, level_pixels L h s, level_given L h s] <;> congr
    have step : ∀ r : Surround, ((s.get .position).isKw "relative" = false → r.height = some (.int 0)) →
        ∀ c ∈ cs, (c.level (some s)).plan fp d (some (s.level lp)) r = c.plan fp d (some s) r := fun r hr c hc =>
      ih c hc (some s) (some s) (some (s.level lp)) r (.inr ⟨s, s.level lp, rfl, rfl, rfl, level_outer lp s, hr⟩)
    cases hr : (s.get .position).isKw "relative" with
    | true =>
      have f1 : ∀ r, flowPlans fp d (s.level lp) r (cs.map (Node.level (some s))) = flowPlans fp d s r cs := fun r =>
        level_flow fp d _ _ _ r cs (step r (by rw [hr]; nofun))
      have f2 : ∀ r y bm, stackPlans fp d (s.level lp) r y bm (cs.map (Node.level (some s))) = stackPlans fp d s r y bm cs := fun r =>
        level_stack fp d _ _ _ r cs (step r (by rw [hr]; nofun))
      simp only [Node.plan, hd, hp, hr, e1 l l, e2 l l, e3 l l, e4 l l, f1, f2, level_edges L h, level_moves L h, level_blanks, level_kw h s, if_true]
    | false =>
      have f1 : ∀ w c, flowPlans fp d (s.level lp) ⟨w, some (.int 0), c⟩ (cs.map (Node.level (some s))) = flowPlans fp d s ⟨w, some (.int 0), c⟩ cs :=
        fun w c => level_flow fp d _ _ _ _ cs (step _ fun _ => rfl)
      have f2 : ∀ w c y bm, stackPlans fp d (s.level lp) ⟨w, some (.int 0), c⟩ y bm (cs.map (Node.level (some s))) =
          stackPlans fp d s ⟨w, some (.int 0), c⟩ y bm cs :=
        fun w c => level_stack fp d _ _ _ _ cs (step _ fun _ => rfl)
      simp only [Node.plan, hd, hp, hr, e1 l l, e2 l l, e3 l l, e4 l l, level_edges L h, level_blanks, level_kw h s, Bool.false_eq_true, if_false,
        Option.bind_eq_bind, Option.bind_some, f1, f2]

end Colosseum
