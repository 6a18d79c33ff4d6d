import Verif.Lemmas.Without
import Verif.Lemmas.Sample

/-!
# C48: the document without its hidden elements
-/

namespace Colosseum

/-- C48, second half. Full statement: the layout of the other elements is as if hidden elements were not in the document. Here: if a document can be laid
out, then so can the document without any number of hidden elements, and the boxes of the elements that are not hidden have the same figures, in every
arithmetic; what is inside the hidden elements that stay has no effect either. Missing: the last child of a block of automatic height is kept, since the
block ends where its last child does, hidden or not (`C48_false_after_block`, `C48_false_last`). -/
theorem C48_without_partial (fp : FP) (d : Display) (html5 : Bool) (p : Option CSS) (n m n' : Node) (hn : AllBoxed n) (hm : AllBoxed m) (hw : Without n m)
    (h : layout fp d html5 p n = .ok n') :
    ∃ m', layout fp d html5 p m = .ok m' ∧ ∀ q r, SamePlace n m q r → (n'.boxAt q).map Box.figures = (m'.boxAt r).map Box.figures := by
  obtain ⟨K, hK⟩ : ∃ K, n.blueprint fp d html5 p = some K := by
    rw [← C91_blueprint hn, h]
    exact ⟨_, rfl⟩
  obtain ⟨K', hK', hp⟩ : ∃ K', m.blueprint fp d html5 p = some K' ∧ ∀ q r, SamePlace n m q r → K.at q = K'.at r := by
    unfold Node.blueprint at hK ⊢
    cases hk : n.plan fp d p ⟨some d.contentWidth, some d.contentHeight, none⟩ with
    | none => rw [hk] at hK; cases hK
    | some k =>
      obtain ⟨k', hk', hkk⟩ := plan_kept n m _ _ k hw hn hm hk
      rw [hk] at hK
      rw [hk']
      have h0 := hkk [] [] (.here _ _)
      cases k with
      | absent => cases hK
      | mk f ks =>
        cases k' with
        | absent => cases h0
        | mk f' ks' =>
          simp only [Blueprint.at, Option.some.injEq] at h0
          subst h0
          cases hK
          refine ⟨_, rfl, fun q r hp => ?_⟩
          cases hp with
          | here => rfl
          | step a1 a2 a3 a4 a5 a6 a7 a8 => exact hkk _ _ (.step a1 a2 a3 a4 a5 a6 a7 a8)
  obtain ⟨m', hl⟩ : ∃ m', layout fp d html5 p m = .ok m' := by
    have := C91_blueprint (fp := fp) (d := d) (html5 := html5) (p := p) hm
    rw [hK'] at this
    cases hl : layout fp d html5 p m with
    | error e => rw [hl] at this; cases this
    | ok m' => exact ⟨m', rfl⟩
  refine ⟨m', hl, fun q r hs => ?_⟩
  rw [C91_boxes hn h, C91_boxes hm hl, hK, hK']
  exact hp q r hs

/-- A hidden element with a displayed one in it. -/
def ghost : Node := node [(.display, .none)] [block [(.height, px 99)] []]

/-- Hidden elements among inline ones, and one after the blocks of an element of a given height. -/
def haunted : Node :=
  block [(.height, px 200)] [
    block [] [ghost, span [] 20 10, ghost, span [(.margin .left, px 4)] 30 12],
    block [(.height, px 20)] [ghost],
    ghost]

/-- The same document without them, except for one, which is empty. -/
def freed : Node :=
  block [(.height, px 200)] [
    block [] [span [] 20 10, node [(.display, .none)] [], span [(.margin .left, px 4)] 30 12],
    block [(.height, px 20)] []]

theorem ghost_hidden : ghost.Hidden := rfl

theorem freed_without : Without haunted freed := by
  have self : ∀ s z l, s.get .display ≠ .none → Without (.mk s z l []) (.mk s z l []) := fun s z l h => .shown h .nil (Or.inl rfl)
  refine .shown nofun (.keep ?_ (.keep ?_ (.drop ghost_hidden .nil))) (Or.inr (Or.inr (Or.inl nofun)))
  · refine .shown nofun (.drop ghost_hidden (.keep (self _ _ _ nofun) (.keep (.hidden ghost_hidden rfl ⟨nofun, nofun⟩)
      (.keep (self _ _ _ nofun) .nil)))) (Or.inr (Or.inr (Or.inr ?_)))
    rintro c ⟨⟩
    exact nofun
  · exact .shown nofun (.drop ghost_hidden .nil) (Or.inr (Or.inr (Or.inl nofun)))

example : AllBoxed haunted ∧ AllBoxed freed ∧ Without haunted freed ∧ SamePlace haunted freed [0, 3] [0, 2] ∧
    (laidBox .b64 screen haunted [0, 3]).map Box.figures = (laidBox .b64 screen freed [0, 2]).map Box.figures ∧
    (laidBox .b64 screen haunted [0]).map Box.contentHeight = some (some (.int 12)) := by
  refine ⟨full_boxed _ (by decide +kernel), full_boxed _ (by decide +kernel), freed_without, ?_, by decide +kernel, by decide +kernel⟩
  refine .step nofun nofun rfl rfl nofun nofun rfl (.step nofun nofun rfl rfl nofun nofun ?_ (.here _ _))
  have g : ∀ cs, shownIn (ghost :: cs) = shownIn cs := fun cs => by
    unfold shownIn
    rw [List.filter_cons_of_neg (by simp [ghost_hidden])]
  have g' : ∀ cs, shownIn (node [(.display, .none)] [] :: cs) = shownIn cs := fun cs => by
    unfold shownIn
    rw [List.filter_cons_of_neg (by simp [show (node [(.display, .none)] []).Hidden from rfl])]
  have k : ∀ c cs, ¬ c.Hidden → shownIn (c :: cs) = shownIn cs + 1 := fun c cs h => by
    unfold shownIn
    rw [List.filter_cons_of_pos (by simp [h]), List.length_cons]
  show shownIn [ghost, span [] 20 10, ghost] = shownIn [span [] 20 10, node [(.display, .none)] []]
  rw [g, k (span [] 20 10) [ghost] nofun, g, k (span [] 20 10) [node [(.display, .none)] []] nofun, g']

/-- C48 is false: a block of automatic height whose only child is hidden cannot be laid out; without the child it can. -/
theorem C48_false_last : layout .b64 screen false none (block [] [hidden []]) = .error .attribute ∧
    (laidBox .b64 screen (block [] []) []).isSome = true := by
  refine ⟨?_, by decide +kernel⟩
  have e : (match layout .b64 screen false none (block [] [hidden []]) with | .error e => some e | .ok _ => none) = some .attribute := by decide +kernel
  cases hl : layout .b64 screen false none (block [] [hidden []]) with
  | ok n => rw [hl] at e; cases e
  | error e' => rw [hl] at e; exact congrArg _ (Option.some.inj e)

end Colosseum
