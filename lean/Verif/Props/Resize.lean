import Verif.Lemmas.Widen
import Verif.Lemmas.Sample
import Verif.Props.Blueprint

/-!
# C109: the size of the display
-/

namespace Colosseum

theorem steady_fixed (n : Node) (h : n.Throughout fun s z => s.Fixed ∧ s.Steady z) : n.Throughout fun s _ => s.Fixed := by
  induction n using Node.ind with
  | h s z l cs ih =>
    refine ⟨h.1.1, ?_⟩
    have h2 := h.2
    clear h
    induction cs with
    | nil => trivial
    | cons c cs ihc => exact ⟨ih c (by simp) h2.1, ihc (fun c hc => ih c (by simp [hc])) h2.2⟩

/-- **C109, the width.** Two displays differ in nothing but their widths. In a document without viewport units in which nothing vertical is relative to a width — no border
or padding at the top or at the bottom is a percentage and the heights of images are given or are their own — all vertical numbers of all boxes are the same on
both, and it can be laid out on one if and only if it can on the other. -/
theorem C109_width (fp : FP) (d d' : Display) (hs : SameScreen d d') (hh : d'.contentHeight = d.contentHeight) (html5 : Bool) (p : Option CSS) (n : Node) (hb : AllBoxed n)
    (hn : n.Throughout fun s z => s.Fixed ∧ s.Steady z) (hp : ∀ q, p = some q → (q.get .height).fixed = true) :
    (layout fp d' html5 p n).toOption.map (fun n' => n'.drawn.upright) = (layout fp d html5 p n).toOption.map (fun n' => n'.drawn.upright) := by
  have e : ∀ d : Display, (layout fp d html5 p n).toOption.map (fun n' => n'.drawn.upright) = (n.blueprint fp d html5 p).map Blueprint.upright := fun d => by
    rw [← C91_blueprint hb, Option.map_map]
    rfl
  rw [e, e]
  unfold Node.blueprint
  rw [hh]
  have hP := widen_plan (fp := fp) hs n p (some d.contentHeight) (some d.contentWidth) (some d'.contentWidth) none none hn hp rfl trivial
  generalize n.plan fp d p _ = x at hP ⊢
  generalize n.plan fp d' p _ = y at hP ⊢
  match x, y, hP with
  | none, none, _ => rfl
  | some x, some y, hP =>
    rcases upright_cases hP with ⟨rfl, rfl⟩ | ⟨f, f', ks, ks', rfl, rfl, hf, hk⟩
    · rfl
    · dsimp only
      have ha := (upright_figures hf).2.2.2.2.2.2.2.2.1
      refine congrArg some (Eq.symm (show Upright _ _ from upright_mk ?_ hk))
      have hm := upright_moved (fp := fp) hf (.int f.above)
      rw [← ha]
      cases html5 with
      | false => exact hm
      | true =>
        obtain ⟨h1, h2, h3, h4, h5, h6, h7, h8, h9, h10⟩ := upright_figures hm
        simp only [Figures.upright, if_true, h1, h3, h4, h5, h6, h7, h8, h9, h10]

/-- **C109, the height.** Two displays differ in nothing but their heights. In a document without viewport units whose root has no percentages that are relative to the
height around it, all numbers of all boxes are the same on both, except for the height of the root of an HTML5 document, and it can be laid out on one if and only if it can on
the other. -/
theorem C109_height (fp : FP) (d d' : Display) (hs : SameScreen d d') (hw : d'.contentWidth = d.contentWidth) (html5 : Bool) (p : Option CSS) (n : Node) (hb : AllBoxed n)
    (hn : n.Throughout fun s _ => s.Fixed) (hr : n.style.Rigid) (hp : ∀ q, p = some q → (q.get .height).fixed = true ∧ (q.get .height).isPercent = false) :
    (html5 = false → (layout fp d' html5 p n).toOption.map Node.drawn = (layout fp d html5 p n).toOption.map Node.drawn) ∧
    (layout fp d' html5 p n).toOption.map (fun n' => n'.drawn.open) = (layout fp d html5 p n).toOption.map (fun n' => n'.drawn.open) := by
  have e : ∀ d : Display, (layout fp d html5 p n).toOption.map (fun n' => n'.drawn.open) = (n.blueprint fp d html5 p).map Blueprint.open := fun d => by
    rw [← C91_blueprint hb, Option.map_map]
    rfl
  rw [e, e, C91_blueprint hb, C91_blueprint hb]
  have hP : n.plan fp d' p ⟨some d'.contentWidth, some d'.contentHeight, none⟩ = n.plan fp d p ⟨some d.contentWidth, some d.contentHeight, none⟩ := by
    rw [fixed_plan hs n p _ hn fun q e => (hp q e).1, hw]
    obtain ⟨s, z, l, cs⟩ := n
    exact rigid_plan fp d s z l cs hr p (fun q e => (hp q e).2) _ _ _
  unfold Node.blueprint
  rw [hP]
  constructor
  · rintro rfl
    rfl
  · cases n.plan fp d p _ with
    | none => rfl
    | some x => cases x with
      | absent => rfl
      | mk f ks => cases html5 <;> rfl

theorem fixed_of {s : CSS} (h : ∀ p ∈ allLH, (s.get p).fixed = true) : s.Fixed := fun p => h p (mem_allLH p)

theorem steady_of {s : CSS} {z : Intrinsic} (h1 : [Side.top, .bottom].all fun t => !(s.get (.borderWidth t)).isPercent && !(s.get (.padding t)).isPercent)
    (h2 : !z.isReplaced || !(s.get .height).isKw "auto" || (s.get .width).isKw "auto" && z.height.isSome) : s.Steady z := by
  refine ⟨?_, ?_⟩
  · simp only [List.all_cons, List.all_nil, Bool.and_true, Bool.and_eq_true, Bool.not_eq_true'] at h1
    rintro t (rfl | rfl)
    · exact h1.1
    · exact h1.2
  · intro hr
    simpa [hr] using h2

/-- A document with percentages, an image and a relatively positioned block. -/
def adaptiveDoc : Node :=
  block [(.width, pct 50), (.padding .top, px 7)] [
    block [(.margin .left, pct 10), (.height, px 40), (.position, kw "relative"), (.left, pct 25)] [],
    block [(.height, pct 30), (.minHeight, px 20), (.padding .left, pct 3)] [node [] []]]

/-- A narrower display. -/
def narrowScreen : Display := { screen with contentWidth := .int 320 }

/-- A lower display. -/
def lowScreen : Display := { screen with contentHeight := .int 200 }

/-- It meets the hypotheses of `C109_width` and of `C109_height`; on the narrower display the second block is narrower, and as far down as before. -/
example : AllBoxed adaptiveDoc ∧ (adaptiveDoc.Throughout fun s z => s.Fixed ∧ s.Steady z) ∧ adaptiveDoc.style.Rigid ∧
    SameScreen screen narrowScreen ∧ narrowScreen.contentHeight = screen.contentHeight ∧ SameScreen screen lowScreen ∧ lowScreen.contentWidth = screen.contentWidth ∧
    (laidBox .b64 screen adaptiveDoc [1]).map (fun b => (b.contentWidth, b.v.content)) = some (some (.int 320), .int 40) ∧
    (laidBox .b64 narrowScreen adaptiveDoc [1]).map (fun b => (b.contentWidth, b.v.content)) = some (some (.int 160), .int 40) := by
  refine ⟨full_boxed _ (by decide +kernel), ?_, ?_, ⟨rfl, rfl, rfl, rfl⟩, rfl, ⟨rfl, rfl, rfl, rfl⟩, rfl, by decide +kernel, by decide +kernel⟩
  · refine ⟨⟨fixed_of (by decide +kernel), steady_of (by decide +kernel) (by decide +kernel)⟩,
      ⟨⟨fixed_of (by decide +kernel), steady_of (by decide +kernel) (by decide +kernel)⟩, trivial⟩,
      ⟨⟨fixed_of (by decide +kernel), steady_of (by decide +kernel) (by decide +kernel)⟩,
        ⟨⟨fixed_of (by decide +kernel), steady_of (by decide +kernel) (by decide +kernel)⟩, trivial⟩, trivial⟩, trivial⟩
  · unfold CSS.Rigid
    decide +kernel

/-- The conditions of `C109_width` are needed: a percentage of padding at the top, the height of an image that follows from its width, and a viewport unit all turn widths into
heights. -/
theorem C109_slanted :
    (∃ n, (laidBox .b64 screen n [0]).map (fun b => b.v.content) = some (.int 64) ∧ (laidBox .b64 narrowScreen n [0]).map (fun b => b.v.content) = some (.int 32) ∧
      AllBoxed n ∧ n.Throughout fun s _ => s.Fixed) ∧
    (∃ n, (laidBox .b64 screen n []).map (fun b => b.contentHeight) = some (some (.int 64)) ∧
      (laidBox .b64 narrowScreen n []).map (fun b => b.contentHeight) = some (some (.int 32)) ∧ AllBoxed n ∧ n.Throughout fun s z => s.Steady z) ∧
    (∃ n, (laidBox .b64 screen n []).map (fun b => b.contentHeight) = some (some (.int 80)) ∧
      (laidBox .b64 narrowScreen n []).map (fun b => b.contentHeight) = some (some (.int 40)) ∧ AllBoxed n ∧ n.Throughout fun s _ => s.Fixed) := by
  refine ⟨⟨block [] [block [(.padding .top, pct 10)] []], by decide +kernel, by decide +kernel, full_boxed _ (by decide +kernel), ?_⟩,
    ⟨block [(.height, .unit ⟨.len .vw, .fin (.int 10)⟩)] [], by decide +kernel, by decide +kernel, full_boxed _ (by decide +kernel), ?_⟩,
    ⟨.mk (styled [(.width, pct 25)]) { Intrinsic.initial with isReplaced := true } (some .fresh) [], by decide +kernel, by decide +kernel,
      full_boxed _ (by decide +kernel), fixed_of (by decide +kernel), trivial⟩⟩
  · exact ⟨fixed_of (by decide +kernel), ⟨fixed_of (by decide +kernel), trivial⟩, trivial⟩
  · exact ⟨steady_of (by decide +kernel) (by decide +kernel), trivial⟩

/-- The condition of `C109_height` is needed: a percentage of a margin at the top of the root is relative to the height of the display. -/
theorem C109_percent : ∃ n, (laidBox .b64 screen n []).map (fun b => b.margin.top) = some (.num (.int 48)) ∧
    (laidBox .b64 lowScreen n []).map (fun b => b.margin.top) = some (.num (.int 20)) ∧ AllBoxed n ∧ n.Throughout fun s _ => s.Fixed :=
  ⟨block [(.margin .top, pct 10)] [], by decide +kernel, by decide +kernel, full_boxed _ (by decide +kernel), fixed_of (by decide +kernel), trivial⟩

end Colosseum
