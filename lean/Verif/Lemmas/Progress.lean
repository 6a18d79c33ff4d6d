import Verif.Lemmas.Stack
import Verif.Spec.Plain

/-!
# Layouts that cannot fail
-/

namespace Colosseum

/-! ## Lengths -/

theorem finite_px {v : Val} (h : v.Finite) (fp : FP) (d : Display) (f : Font) (size : Num) : ∃ x, v.px fp ⟨d, f, some size⟩ = .ok x := by
  obtain ⟨k, a, rfl⟩ := h
  cases k <;> exact ⟨_, rfl⟩

theorem finite_kw {v : Val} (h : v.Finite) (s : String) : v.isKw s = false := by
  obtain ⟨k, a, rfl⟩ := h
  rfl

theorem finite_none {v : Val} (h : v.Finite) : v.isNone = false := by
  obtain ⟨k, a, rfl⟩ := h
  rfl

theorem isKw_self (s : String) : (kw s).isKw s = true := (isKw_iff _ _).2 rfl

theorem finite_size {v : Val} (h : v.Finite) (fp : FP) (d : Display) (f : Font) (size : Num) :
    ∃ x, calculateSize fp v ⟨d, f, some size⟩ = .ok (.num x) := by
  obtain ⟨x, hx⟩ := finite_px h fp d f size
  unfold calculateSize
  simp only [finite_kw h, Bool.false_eq_true, if_false]
  split
  · exact ⟨_, rfl⟩
  · rw [hx]; exact ⟨_, rfl⟩

theorem margin_size {v : Val} (h : v = kw "auto" ∨ v.Finite) (fp : FP) (d : Display) (f : Font) (size : Num) :
    ∃ x, calculateSize fp v ⟨d, f, some size⟩ = .ok x := by
  rcases h with rfl | h
  · exact ⟨.auto, by unfold calculateSize; rw [if_pos (isKw_self _)]⟩
  · obtain ⟨x, hx⟩ := finite_size h fp d f size
    exact ⟨_, hx⟩

theorem edge_size {v : Val} (h : v = kw "thin" ∨ v = kw "medium" ∨ v = kw "thick" ∨ v.Finite) (fp : FP) (d : Display) (f : Font) (size : Num) :
    ∃ x, calculateEdge fp v ⟨d, f, some size⟩ = .ok x := by
  rcases h with rfl | rfl | rfl | h
  · exact ⟨d.thin, rfl⟩
  · exact ⟨d.medium, rfl⟩
  · exact ⟨d.thick, rfl⟩
  · obtain ⟨x, hx⟩ := finite_size h fp d f size
    exact ⟨x, by unfold calculateEdge; rw [hx]; rfl⟩

/-! ## The phases -/

theorem bind_of_ok {α β : Type} {x : Res α} {f : α → Res β} {a : α} (h : x = .ok a) : (x >>= f) = f a := by rw [h]; rfl

theorem copyEdges_progress {s : CSS} (h : s.Plain) (fp : FP) (d : Display) (x y : Num) (b : Box) :
    ∃ b', copyEdges fp s ⟨d, dummyFont fp, some x⟩ ⟨d, dummyFont fp, some y⟩ b = .ok b' := by
  unfold copyEdges
  obtain ⟨m1, e1⟩ := margin_size (h.margin .top) fp d (dummyFont fp) y
  obtain ⟨m2, e2⟩ := margin_size (h.margin .right) fp d (dummyFont fp) x
  obtain ⟨m3, e3⟩ := margin_size (h.margin .bottom) fp d (dummyFont fp) y
  obtain ⟨m4, e4⟩ := margin_size (h.margin .left) fp d (dummyFont fp) x
  obtain ⟨b1, g1⟩ := edge_size (h.border .top) fp d (dummyFont fp) x
  obtain ⟨b2, g2⟩ := edge_size (h.border .right) fp d (dummyFont fp) y
  obtain ⟨b3, g3⟩ := edge_size (h.border .bottom) fp d (dummyFont fp) x
  obtain ⟨b4, g4⟩ := edge_size (h.border .left) fp d (dummyFont fp) y
  obtain ⟨p1, k1⟩ := edge_size (Or.inr (Or.inr (Or.inr (h.padding .top)))) fp d (dummyFont fp) x
  obtain ⟨p2, k2⟩ := edge_size (Or.inr (Or.inr (Or.inr (h.padding .right)))) fp d (dummyFont fp) y
  obtain ⟨p3, k3⟩ := edge_size (Or.inr (Or.inr (Or.inr (h.padding .bottom)))) fp d (dummyFont fp) x
  obtain ⟨p4, k4⟩ := edge_size (Or.inr (Or.inr (Or.inr (h.padding .left)))) fp d (dummyFont fp) y
  rw [bind_of_ok e1, bind_of_ok e2, bind_of_ok e3, bind_of_ok e4, bind_of_ok g1, bind_of_ok g2, bind_of_ok g3, bind_of_ok g4, bind_of_ok k1, bind_of_ok k2, bind_of_ok k3, bind_of_ok k4]
  exact ⟨_, rfl⟩

theorem plain_unfloated {s : CSS} (h : s.Plain) : isFloat s = false ∧ isAbsolute s = false := by
  constructor
  · unfold isFloat
    rw [h.float]
    rfl
  · unfold isAbsolute
    rw [Bool.or_eq_false_iff, ← Bool.not_eq_true, ← Bool.not_eq_true, isKw_iff, isKw_iff]
    exact h.position

theorem block_not_inline {s : CSS} (h : isBlockLevel s = true) : isInline s = false := by
  unfold isBlockLevel at h
  simp only [Bool.or_eq_true, isKw_iff] at h
  unfold isInline
  rcases h with (e | e) | e <;> rw [e] <;> decide +kernel

theorem margin_left_num (b : Box) : ∃ y, (autoMarginToZero (autoMarginToZero b .left) .right).margin.left = .num y := by
  have key : ∀ b : Box, ∃ y, (autoMarginToZero b .left).margin.left = .num y := by
    intro b
    unfold autoMarginToZero
    cases hm : b.margin.get .left with
    | auto =>
      obtain ⟨y, h1, _⟩ := setMargin_num b .left (.int 0)
      exact ⟨y, h1⟩
    | num y => exact ⟨y, hm⟩
  obtain ⟨y, hy⟩ := key b
  refine ⟨y, ?_⟩
  rw [← hy]
  generalize autoMarginToZero b .left = b1
  unfold autoMarginToZero
  split
  · exact setMargin_get b1 .right .left _ (by decide)
  · rfl

theorem margin_right_num (b : Box) : ∃ y, (autoMarginToZero (autoMarginToZero b .left) .right).margin.right = .num y := by
  generalize autoMarginToZero b .left = b1
  unfold autoMarginToZero
  cases hm : b1.margin.get .right with
  | auto =>
    obtain ⟨y, h1, _⟩ := setMargin_num b1 .right (.int 0)
    exact ⟨y, h1⟩
  | num y => exact ⟨y, hm⟩

theorem clampedWidth_progress {s : CSS} (h : s.Plain) (hw : s.get .width ≠ kw "auto") (fp : FP) (d : Display) (x : Num) :
    ∃ w, clampedWidth fp s ⟨d, dummyFont fp, some x⟩ = .ok w := by
  have hw := h.width.resolve_left hw
  obtain ⟨w, e1⟩ := finite_px hw fp d (dummyFont fp) x
  unfold clampedWidth
  rw [bind_of_ok e1]
  have tail : ∀ w : Num, ∃ r, (if (s.get .minWidth).isKw "auto" = true then (pure w : Res Num)
      else do
        let m ← (s.get .minWidth).px fp ⟨d, dummyFont fp, some x⟩
        pure (if w.pyLt m = true then m else w)) = .ok r := by
    intro w
    rcases h.minWidth with e | e
    · rw [e, if_pos (isKw_self _)]; exact ⟨_, rfl⟩
    · obtain ⟨m, hm⟩ := finite_px e fp d (dummyFont fp) x
      rw [finite_kw e, if_neg (by simp), bind_of_ok hm]
      exact ⟨_, rfl⟩
  rcases h.maxWidth with e | e
  · simp only [e]
    exact tail w
  · obtain ⟨m, hm⟩ := finite_px e fp d (dummyFont fp) x
    simp only [finite_none e, Bool.false_eq_true, if_false, bind_of_ok hm]
    exact tail _

theorem placeLeft_progress (fp : FP) {b : Box} (cs : List Node) {y : Num} (h : b.margin.left = .num y) : ∃ r, placeLeft fp b cs = .ok r := by
  unfold placeLeft
  rw [h]
  exact ⟨_, rfl⟩

theorem blockWidth_progress {s : CSS} (h : s.Plain) (fp : FP) (d : Display) (x : Num) (b : Box) (cs : List Node) :
    ∃ r, blockWidth fp s ⟨d, dummyFont fp, some x⟩ b cs = .ok r := by
  unfold blockWidth
  split
  · obtain ⟨ml, e1⟩ := margin_left_num b
    obtain ⟨mr, e2⟩ := margin_right_num b
    simp only [need]
    rw [bind_of_ok rfl, e1, e2]
    exact placeLeft_progress fp cs e1
  · rename_i hw
    obtain ⟨w, e⟩ := clampedWidth_progress h (fun e => hw ((isKw_iff _ _).2 e)) fp d x
    rw [bind_of_ok e]
    simp only [need]
    rw [bind_of_ok rfl]
    obtain ⟨y, _, hy, _⟩ := solveMargins_fills fp s x w b
    exact placeLeft_progress fp cs hy

theorem width_progress {s : CSS} {z : Intrinsic} (h : s.Plain) (hb : isBlockLevel s = true) (hz : z.isReplaced = false) (fp : FP) (d : Display)
    (x : Num) (b : Box) (cs : List Node) : ∃ r, widthAndMargins fp s z ⟨d, dummyFont fp, some x⟩ b cs = .ok r := by
  unfold widthAndMargins
  rw [(plain_unfloated h).1, (plain_unfloated h).2, block_not_inline hb, hb, hz]
  exact blockWidth_progress h fp d x b cs

theorem explicitHeight_progress {s : CSS} (h : s.Plain) (hh : s.get .height ≠ kw "auto") (fp : FP) (d : Display) (parent : Option CSS)
    (hp : ∀ p, parent = some p → p.get .height = kw "auto" ∨ (p.get .height).Finite) (x : Num) :
    ∃ y, explicitHeight fp s parent ⟨d, dummyFont fp, some x⟩ = .ok y := by
  have hh := h.height.resolve_left hh
  unfold explicitHeight
  have tail : ∀ y : Num, ∃ r, (if (s.get .maxHeight).isNone = true then (pure y : Res Num)
      else do
        let m ← (s.get .maxHeight).px fp ⟨d, dummyFont fp, some x⟩
        pure (if m.pyLt y = true then m else y)) = .ok r := by
    intro y
    rcases h.maxHeight with e | e
    · rw [e]; exact ⟨y, rfl⟩
    · obtain ⟨m, hm⟩ := finite_px e fp d (dummyFont fp) x
      rw [finite_none e, if_neg (by simp), bind_of_ok hm]
      exact ⟨_, rfl⟩
  cases parent with
  | none =>
    obtain ⟨y, hy⟩ := finite_px hh fp d (dummyFont fp) x
    simp only [bind_of_ok hy]
    exact tail y
  | some p =>
    rcases hp p rfl with e | e
    · obtain ⟨y, hy⟩ := finite_px hh fp d (dummyFont fp) x
      simp only [e, isKw_self, if_true, bind_of_ok hy]
      exact tail y
    · obtain ⟨ph, e1⟩ := finite_px e fp d (dummyFont fp) x
      obtain ⟨y, hy⟩ := finite_px hh fp d (dummyFont fp) ph
      simp only [finite_kw e, Bool.false_eq_true, if_false, bind_of_ok e1, bind_of_ok hy]
      exact tail y

/-- The last child, if any, has a box with a height. -/
def LastBoxed (cs : List Node) : Prop := ∀ c, cs.getLast? = some c → ∃ b y, c.layout = some b ∧ b.contentHeight = some y

theorem height_progress {s : CSS} {z : Intrinsic} (h : s.Plain) (hb : isBlockLevel s = true) (hz : z.isReplaced = false) (fp : FP) (d : Display)
    (parent : Option CSS) (hp : ∀ p, parent = some p → p.get .height = kw "auto" ∨ (p.get .height).Finite) (x : Num) (b : Box) (cs : List Node)
    (hl : LastBoxed cs) : ∃ b' cs', heightAndMargins fp s z parent ⟨d, dummyFont fp, some x⟩ b cs = .ok (b', cs') ∧ b'.contentHeight ≠ none := by
  unfold heightAndMargins
  rw [(plain_unfloated h).1, (plain_unfloated h).2, block_not_inline hb, hb, hz]
  simp only [Bool.false_eq_true, if_false, if_true]
  unfold blockHeight
  have : ∃ r, blockContentHeight fp s parent ⟨d, dummyFont fp, some x⟩ (autoMarginToZero (autoMarginToZero b .top) .bottom) cs = .ok r := by
    unfold blockContentHeight
    split
    · cases hc : cs.getLast? with
      | some c =>
        obtain ⟨lb, y, e1, e2⟩ := hl c hc
        dsimp only
        rw [e1]
        dsimp only
        unfold Box.borderBoxBottom
        rw [e2]
        exact ⟨_, rfl⟩
      | none =>
        dsimp only
        rcases h.minHeight with e | e
        · rw [e, if_pos (isKw_self _)]; exact ⟨_, rfl⟩
        · obtain ⟨m, hm⟩ := finite_px e fp d (dummyFont fp) x
          rw [finite_kw e, if_neg (by simp), bind_of_ok hm]
          exact ⟨_, rfl⟩
    · rename_i hw
      obtain ⟨y, e⟩ := explicitHeight_progress h (fun e => hw ((isKw_iff _ _).2 e)) fp d parent hp x
      rw [bind_of_ok e]
      exact ⟨_, rfl⟩
  obtain ⟨⟨y, b1⟩, e⟩ := this
  rw [bind_of_ok e]
  refine ⟨(setContent fp .v (b1.v.content.add fp (b1.border.top.add fp b1.padding.top)) { b1 with contentHeight := some y } cs).1, _, rfl, ?_⟩
  rw [setContent_contentHeight]
  simp

theorem offset_progress {start stop : Val} (h1 : start = kw "auto" ∨ start.Finite) (h2 : stop = kw "auto" ∨ stop.Finite) (fp : FP) (cb : CB) (a : Axis)
    (d : Display) (x : Num) : ∃ y, relativeOffset fp cb a start stop ⟨d, dummyFont fp, some x⟩ = .ok y := by
  unfold relativeOffset
  rcases h1 with rfl | h1 <;> rcases h2 with rfl | h2
  · exact ⟨_, rfl⟩
  · obtain ⟨y, hy⟩ := finite_px h2 fp d (dummyFont fp) x
    simp only [isKw_self, finite_kw h2, Bool.and_false, Bool.false_eq_true, if_false, if_true, hy]
    exact ⟨_, rfl⟩
  · obtain ⟨y, hy⟩ := finite_px h1 fp d (dummyFont fp) x
    simp only [isKw_self, finite_kw h1, Bool.false_and, Bool.false_eq_true, if_false, if_true, hy]
    exact ⟨_, rfl⟩
  · obtain ⟨y, hy⟩ := finite_px h1 fp d (dummyFont fp) x
    simp only [finite_kw h1, finite_kw h2, Bool.false_and, Bool.false_eq_true, if_false, hy]
    exact ⟨_, rfl⟩

theorem relative_progress {s : CSS} (h : s.Plain) (fp : FP) (cb : CB) (d : Display) (x y : Num) (b : Box) (cs : List Node) :
    ∃ r, applyRelative fp s cb ⟨d, dummyFont fp, some x⟩ ⟨d, dummyFont fp, some y⟩ b cs = .ok r := by
  unfold applyRelative
  split
  · rename_i hr
    have ho := h.offsets ((isKw_iff _ _).1 hr)
    obtain ⟨dx, e1⟩ := offset_progress (ho .left (by simp)) (ho .right (by simp)) fp cb .h d x
    obtain ⟨dy, e2⟩ := offset_progress (ho .top (by simp)) (ho .bottom (by simp)) fp cb .v d y
    rw [bind_of_ok e1]
    simp only
    rw [bind_of_ok e2]
    exact ⟨_, rfl⟩
  · exact ⟨_, rfl⟩

theorem anonymize_blocks {cs : List Node} (h : ∀ c ∈ cs, isBlockLevel c.style = true) : anonymize cs = cs.map .node := by
  unfold anonymize
  induction cs with
  | nil => rfl
  | cons c cs ih =>
    simp only [anonymizeLoop]
    rw [if_pos (h c List.mem_cons_self), ih fun x hx => h x (List.mem_cons_of_mem _ hx)]
    rfl

/-! ## Whole documents -/

theorem sameButCollapse_ch {b b' : Box} (h : SameButCollapse b b') : b.contentHeight = b'.contentHeight := by
  have := congrArg Box.contentHeight (show ({ b with collapse := .all 0 } : Box) = { b' with collapse := .all 0 } from h)
  exact this

theorem setMargin_ch (b : Box) (t : Side) (x : MVal) : (b.setMargin t x).contentHeight = b.contentHeight := by
  unfold Box.setMargin
  split
  · rfl
  · exact (sameButCollapse_ch (setCollapse_same _ t x)).symm

theorem autoMargin_ch (b : Box) (t : Side) : (autoMarginToZero b t).contentHeight = b.contentHeight := by
  unfold autoMarginToZero
  split
  · exact setMargin_ch ..
  · rfl

theorem copyEdges_ch {fp : FP} {s : CSS} {hz vt : PxCtx} {b b' : Box} (h : copyEdges fp s hz vt b = .ok b') : b'.contentHeight = b.contentHeight := by
  unfold copyEdges at h
  obtain ⟨mt, h1, h⟩ := bind_eq_ok.1 h
  obtain ⟨mr, h2, h⟩ := bind_eq_ok.1 h
  obtain ⟨mb, h3, h⟩ := bind_eq_ok.1 h
  obtain ⟨ml, h4, h⟩ := bind_eq_ok.1 h
  obtain ⟨bt, h5, h⟩ := bind_eq_ok.1 h
  obtain ⟨br, h6, h⟩ := bind_eq_ok.1 h
  obtain ⟨bb, h7, h⟩ := bind_eq_ok.1 h
  obtain ⟨bl, h8, h⟩ := bind_eq_ok.1 h
  obtain ⟨pt, h9, h⟩ := bind_eq_ok.1 h
  obtain ⟨pr, h10, h⟩ := bind_eq_ok.1 h
  obtain ⟨pb, h11, h⟩ := bind_eq_ok.1 h
  obtain ⟨pl, h12, h⟩ := bind_eq_ok.1 h
  rw [← Except.ok.inj h]
  show ((((b.setMargin .top mt).setMargin .right mr).setMargin .bottom mb).setMargin .left ml).contentHeight = b.contentHeight
  rw [setMargin_ch, setMargin_ch, setMargin_ch, setMargin_ch]

theorem solveMargins_ch (fp : FP) (s : CSS) (size w : Num) (b : Box) : (solveMargins fp s size w b).contentHeight = b.contentHeight := by
  unfold solveMargins
  extract_lets total c
  have hc : c.contentHeight = b.contentHeight := by
    show (if _ then _ else _ : Box).contentHeight = _
    split
    · rw [autoMargin_ch, autoMargin_ch]
    · rfl
  split
  · split <;> rw [setMargin_ch, hc]
  · rw [setMargin_ch, hc]
  · rw [setMargin_ch, hc]
  · rw [setMargin_ch, setMargin_ch, hc]

theorem placeLeft_ch {fp : FP} {b b' : Box} {cs cs' : List Node} (h : placeLeft fp b cs = .ok (b', cs')) : b'.contentHeight = b.contentHeight := by
  unfold placeLeft at h
  obtain ⟨ml, _, h⟩ := bind_eq_ok.1 h
  rw [(ok_pair h).1, setContent_contentHeight]

theorem blockWidth_ch {fp : FP} {s : CSS} {c : PxCtx} {b b' : Box} {cs cs' : List Node} (h : blockWidth fp s c b cs = .ok (b', cs')) :
    b'.contentHeight = b.contentHeight := by
  unfold blockWidth at h
  split at h
  · simp only at h
    obtain ⟨size, _, h⟩ := bind_eq_ok.1 h
    obtain ⟨ml, _, h⟩ := bind_eq_ok.1 h
    obtain ⟨mr, _, h⟩ := bind_eq_ok.1 h
    rw [placeLeft_ch h]
    show (autoMarginToZero (autoMarginToZero b .left) .right).contentHeight = _
    rw [autoMargin_ch, autoMargin_ch]
  · obtain ⟨w, _, h⟩ := bind_eq_ok.1 h
    obtain ⟨size, _, h⟩ := bind_eq_ok.1 h
    simp only at h
    rw [placeLeft_ch h]
    exact solveMargins_ch ..


theorem occurs_strip {m n : Node} (h : Occurs m n) : ∀ {n' : Node}, n.strip = n'.strip → ∃ m', Occurs m' n' ∧ m.strip = m'.strip := by
  induction h with
  | here => intro n' e; exact ⟨n', .here _, e⟩
  | @step c n hc _ ih =>
    intro n' e
    have : n.children.map Node.strip = n'.children.map Node.strip := by rw [← strip_children, ← strip_children, e]
    obtain ⟨c', hc', e'⟩ := forall₂_left (forall₂_of_map this) hc
    obtain ⟨m', h1, h2⟩ := ih e'
    exact ⟨m', .step hc' h1, h2⟩

/-- All elements are plain blocks. -/
def PlainDoc (n : Node) : Prop := ∀ m, Occurs m n → m.PlainBlock

theorem plainBlock_strip {n m : Node} (e : n.strip = m.strip) (h : n.PlainBlock) : m.PlainBlock := by
  have es : m.style = n.style := by rw [← strip_style m, ← e, strip_style]
  have ez : m.intrinsic = n.intrinsic := by rw [← strip_intrinsic m, ← e, strip_intrinsic]
  unfold Node.PlainBlock Node.BlockLevel at h ⊢
  rw [es, ez]
  exact h

theorem plainDoc_strip {n m : Node} (e : n.strip = m.strip) (h : PlainDoc n) : PlainDoc m := by
  intro k hk
  obtain ⟨k', h1, h2⟩ := occurs_strip hk e.symm
  exact plainBlock_strip h2.symm (h k' h1)

theorem inlineLoop_progress {lay : Node → Res Node} {cs : List Node} (h : ∀ c ∈ cs, ∃ c', lay c = .ok c') : ∃ cs', inlineLoop lay cs = .ok cs' := by
  induction cs with
  | nil => exact ⟨[], rfl⟩
  | cons c cs ih =>
    obtain ⟨c', h1⟩ := h c List.mem_cons_self
    obtain ⟨cs', h2⟩ := ih fun x hx => h x (List.mem_cons_of_mem _ hx)
    exact ⟨c' :: cs', by simp only [inlineLoop, h1, h2]⟩

theorem blockLoop_progress {fp : FP} {lay : Box → Node → Res Node} {w y : Num} {cs : List Node}
    (h : ∀ c ∈ cs, ∀ b : Box, b.contentWidth = some w → b.contentHeight = some y → ∃ s z cb ks x, lay b c = .ok (.mk s z (some cb) ks) ∧ cb.Stands x) :
    ∀ (b : Box) (off : Num) (bm : Option Int), b.contentWidth = some w → b.contentHeight = some y → ∃ r, blockLoop fp lay b off bm (cs.map .node) = .ok r := by
  induction cs with
  | nil => intro b off bm _ _; exact ⟨_, rfl⟩
  | cons c cs ih =>
    intro b off bm hw hy
    obtain ⟨s, z, cb, ks, x, h1, h2⟩ := h c List.mem_cons_self b hw hy
    have hcol : ∃ b1 off1, collapseAbove fp b off bm cb = .ok (b1, off1) := by
      unfold collapseAbove
      cases bm with
      | none => exact ⟨_, _, rfl⟩
      | some m => dsimp only; rw [h2.1]; exact ⟨_, _, rfl⟩
    obtain ⟨b1, off1, h3⟩ := hcol
    have hsame := collapseAbove_same h3
    obtain ⟨hh, hb⟩ : ∃ hh, (setContent fp .v (cb.v.content.add fp off1) cb ks).1.borderBoxHeight fp = some hh := by
      unfold Box.borderBoxHeight
      rw [setContent_contentHeight, h2.2.2.2.1]
      exact ⟨_, rfl⟩
    obtain ⟨⟨b2, cs'⟩, h4⟩ := ih (fun x hx => h x (List.mem_cons_of_mem _ hx)) b1 (off1.add fp hh)
      (some (setContent fp .v (cb.v.content.add fp off1) cb ks).1.collapse.bottom)
      ((hsame.width).symm.trans hw) ((sameButCollapse_ch hsame).symm.trans hy)
    have hst : stackChild fp b off bm (.mk s z (some cb) ks) = .ok (b1, .mk s z (some (setContent fp .v (cb.v.content.add fp off1) cb ks).1)
        (setContent fp .v (cb.v.content.add fp off1) cb ks).2, off1.add fp hh, some (setContent fp .v (cb.v.content.add fp off1) cb ks).1.collapse.bottom) := by
      simp only [stackChild, bind_of_ok h3, hb, need]
      rfl
    simp only [List.map_cons, blockLoop, h1, hst, h4]
    exact ⟨_, rfl⟩

theorem pristine_height {n : Node} (h : Pristine n) (hs : ¬ n.Hidden) : ∃ b, n.layout = some b ∧ b.contentHeight = some (.int 0) := by
  obtain ⟨s, z, l, cs⟩ := n
  obtain ⟨b, rfl, e⟩ := pristine_box h hs
  exact ⟨b, rfl, congrArg Box.contentHeight e⟩

theorem plain_style {n : Node} (h : n.PlainBlock) : isBlockLevel n.style = true ∧ n.intrinsic.isReplaced = false ∧ n.style.Plain ∧ ¬ n.Hidden :=
  ⟨(blockLevel_iff n).2 h.1, h.2.1, h.2.2, blockLevel_display ((blockLevel_iff n).2 h.1)⟩

theorem layoutBox_progress (fp : FP) (d : Display) (f : Nat) : ∀ (n : Node) (parent : Option CSS) (cb : CB) (x y : Num), n.depth ≤ f → Pristine n →
    PlainDoc n → cb.width = some x → cb.height = some y → (∀ p, parent = some p → p.get .height = kw "auto" ∨ (p.get .height).Finite) →
    ∃ s z b ks v, layoutBox fp d f parent cb n = .ok (.mk s z (some b) ks) ∧ b.Stands v := by
  induction f with
  | zero => intro n _ _ _ _ h; exact absurd h (by have := depth_pos n; omega)
  | succ f ih =>
    rintro ⟨s, z, l, cs⟩ parent cb x y hdep hpr hpl hx hy hp
    obtain ⟨hb, hz, hs, hh⟩ := plain_style (hpl _ (.here _))
    obtain ⟨b, hl, hfresh⟩ := pristine_box hpr hh
    subst hl
    have hs : s.Plain := hs
    have hb : isBlockLevel s = true := hb
    have hz : z.isReplaced = false := hz
    have kids : ∀ c ∈ cs, ∀ c', c.noOrigin = c'.noOrigin → Pristine c' ∧ PlainDoc c' ∧ c'.depth ≤ f := by
      intro c hc c' e
      refine ⟨pristine_passes.kid hh hpr hc e, plainDoc_strip (strip_of_noOrigin e) fun m hm => hpl m (.step hc hm), ?_⟩
      rw [← depth_same (strip_of_noOrigin e)]
      have := depth_child (s := s) (z := z) (l := some b) hc
      omega
    have kids' : ∀ cs' : List Node, cs'.map Node.noOrigin = cs.map Node.noOrigin → ∀ c ∈ cs', Pristine c ∧ PlainDoc c ∧ c.depth ≤ f := by
      intro cs' e c hc
      obtain ⟨c0, h0, e0⟩ := noOrigin_mem e hc
      exact kids c0 h0 c e0.symm
    have body : ∃ r, layoutBody fp d (fun b n => layoutBox fp d f (some s) (.box b) n) parent cb s z b cs = .ok r := by
      obtain ⟨b1, h1⟩ := copyEdges_progress hs fp d x y b
      obtain ⟨⟨b2, cs2⟩, h2⟩ := width_progress hs hb hz fp d x b1 cs
      obtain ⟨w, hw⟩ : ∃ w, b2.contentWidth = some w := by
        obtain ⟨_, v, _, m, _⟩ := blockWidth_fills (widthAndMargins_block h2 hb)
        exact ⟨v.w, m.2.2.2.1⟩
      have hh2 : b2.contentHeight = some (.int 0) := by
        rw [blockWidth_ch (widthAndMargins_block h2 hb), copyEdges_ch h1]
        exact congrArg Box.contentHeight hfresh
      have n2 := (width_steps h2).noOrigin
      have last2 : LastBoxed cs2 := by
        intro c hc
        obtain ⟨p1, p2, _⟩ := kids' cs2 n2 c (List.mem_of_getLast? hc)
        obtain ⟨cbx, e1, e2⟩ := pristine_height p1 (plain_style (p2 _ (.here _))).2.2.2
        exact ⟨cbx, _, e1, e2⟩
      obtain ⟨b3, cs3, h3, hh3⟩ : ∃ b3 cs3, relativeHeight fp s z parent ⟨d, dummyFont fp, some y⟩ b2 cs2 = .ok (b3, cs3) ∧ b3.contentHeight ≠ none := by
        unfold relativeHeight
        split
        · exact height_progress hs hb hz fp d parent hp y b2 cs2 last2
        · exact ⟨b2, cs2, rfl, by rw [hh2]; simp⟩
      have hw3 : b3.contentWidth = some w := (relativeHeight_wide h3).1.symm.trans hw
      obtain ⟨y3, hy3⟩ := Option.ne_none_iff_exists'.1 hh3
      have n3 : cs3.map Node.noOrigin = cs.map Node.noOrigin := by rw [(relativeHeight_steps h3).noOrigin, n2]
      have lay3 : ∀ c ∈ cs3, ∀ b : Box, b.contentWidth = some w → b.contentHeight = some y3 →
          ∃ s' z' cb ks v, layoutBox fp d f (some s) (.box b) c = .ok (.mk s' z' (some cb) ks) ∧ cb.Stands v := by
        intro c hc b hbw hbh
        obtain ⟨p1, p2, p3⟩ := kids' cs3 n3 c hc
        exact ih c (some s) (.box b) w y3 p3 p1 p2 hbw hbh (fun p e => by cases e; exact hs.height)
      obtain ⟨⟨b4, cs4⟩, h4⟩ : ∃ r, layoutChildren fp (fun b n => layoutBox fp d f (some s) (.box b) n) s z b3 cs3 = .ok r := by
        unfold layoutChildren
        split
        · obtain ⟨cs', e⟩ := inlineLoop_progress (lay := fun n => layoutBox fp d f (some s) (.box b3) n) (cs := cs3) fun c hc => by
            obtain ⟨s', z', cb', ks, v, e, _⟩ := lay3 c hc b3 hw3 hy3
            exact ⟨_, e⟩
          rw [e]; exact ⟨_, rfl⟩
        · rw [anonymize_blocks fun c hc => (plain_style ((kids' cs3 n3 c hc).2.1 _ (.here _))).1]
          obtain ⟨⟨b', laid⟩, e⟩ := blockLoop_progress (fp := fp) lay3 b3 (.int 0) none hw3 hy3
          rw [e]; exact ⟨_, rfl⟩
      have last4 : LastBoxed cs4 := by
        intro c' hc'
        have fa := (children_forall h4).2
        obtain ⟨c, hc, hrel⟩ := forall₂_left fa.flip (List.mem_of_getLast? hc')
        obtain ⟨p1, p2, _⟩ := kids' cs3 n3 c hc
        have hbl := (plain_style (p2 _ (.here _))).1
        rcases hrel with rfl | hrel
        · obtain ⟨cbx, e1, e2⟩ := pristine_height p1 (plain_style (p2 _ (.here _))).2.2.2
          exact ⟨cbx, _, e1, e2⟩
        · cases hrel with
          | @same bb _ _ h =>
            obtain ⟨s', z', l', ks⟩ := c'
            have hl' : ∃ b', l' = some b' := by
              cases f with
              | zero => cases h
              | succ f =>
                obtain ⟨sc, zc, lc, csc⟩ := c
                rcases layoutBox_ok h with ⟨e, _⟩ | ⟨_, _, _, b', _, _, _, e⟩
                · exact absurd e (blockLevel_display hbl)
                · cases e; exact ⟨b', rfl⟩
            obtain ⟨b', rfl⟩ := hl'
            obtain ⟨⟨v, hv, _⟩, _⟩ := layoutBox_block h p1 hbl
            exact ⟨b', v.h, rfl, hv.2.2.2.1⟩
          | @moved bb cb' _ s' z' ks v h =>
            obtain ⟨⟨v', hv, _⟩, _⟩ := layoutBox_block h p1 hbl
            exact ⟨_, v'.h, rfl, (setContent_contentHeight ..).trans hv.2.2.2.1⟩
      obtain ⟨b5, cs5, h5, _⟩ := height_progress hs hb hz fp d parent hp y b4 cs4 last4
      obtain ⟨r, h6⟩ := relative_progress hs fp cb d x y b5 cs5
      refine ⟨r, ?_⟩
      unfold layoutBody
      rw [hx, hy]
      simp only [bind_of_ok h1, bind_of_ok h2, bind_of_ok h3, (plain_unfloated hs).1, (plain_unfloated hs).2, Bool.false_eq_true, if_false]
      simp only [bind_of_ok h4, bind_of_ok h5]
      exact h6
    obtain ⟨⟨b', cs'⟩, hbody⟩ := body
    obtain ⟨v, hv⟩ := body_stands hbody hb
    refine ⟨s, z, b', cs', v, ?_, hv⟩
    have hn : (s.get .display).isNone = false := by
      cases hq : (s.get .display).isNone with
      | false => rfl
      | true => exact absurd ((hidden_iff s).1 hq) hh
    simp only [layoutBox, hn, Bool.false_eq_true, if_false, hbody]

end Colosseum
