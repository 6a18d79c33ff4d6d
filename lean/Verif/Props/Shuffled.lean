import Verif.Lemmas.Shuffled
import Verif.Props.Stretched

/-!
# C120: blocks without margins may be put in any order
-/

namespace Colosseum

theorem grown_drawn {B : List Blueprint → List Blueprint → Prop} {x y : Option Node} {δ : Rat} (h : Paired (Blueprint.Grown B δ) (x.map Node.drawn) (y.map Node.drawn)) :
    Paired (fun m m' => m.drawn.Grown B δ m'.drawn) x y := by
  cases x <;> cases y <;> exact h

/-- **C120.** Two documents differ in nothing but the order of the children of one block, which are blocks in normal flow without vertical margins, and out of which no such
margins reach: there is none of what comes first inside, nor, if the height is automatic, of what comes last. In exact arithmetic one can be laid out if and only if the other can. Then the block is as high in one as in the other, its children have the same boxes, with all that is inside, apart
from how far down they are, and everything around is the same. -/
theorem C120_boxes (fp : FP) (E : fp.Exact) (d : Display) (p : Option CSS) (n n' : Node) (hb : AllBoxed n) (hb' : AllBoxed n') (h : Node.Amid (Node.Shuffled fp d) n n') :
    Paired (fun m m' => m.drawn.Grown Reordered 0 m'.drawn) (layout fp d false p n).toOption (layout fp d false p n').toOption := by
  have hB := shuffled_blueprint E h p
  rw [← C91_blueprint hb, ← C91_blueprint hb'] at hB
  exact grown_drawn hB

/-- **C120.** In floating point too, for documents in whole pixels of any size. -/
theorem C120_whole (fp : FP) (L : fp.Laws) (d : Display) (n n' : Node) (hd : d.Integral) (hn : Whole.Simple d n) (hn' : Whole.Simple d n')
    (h : Node.Amid (Node.Shuffled .exact d) n n') :
    Paired (fun m m' => m.drawn.Grown Reordered 0 m'.drawn) (layout fp d false none n).toOption (layout fp d false none n').toOption := by
  rw [C113_exact fp L d false n hd hn, C113_exact fp L d false n' hd hn']
  exact C120_boxes .exact FP.exact_exact d none n n' (fun m hm => (hn m hm).1) (fun m hm => (hn' m hm).1) h

/-- **C120.** And for documents of moderate size, with fractions and percentages. -/
theorem C120_moderate (fp : FP) (L : fp.Laws) (d : Display) (M M' : Nat) (n n' : Node) (hn : n.Moderate fp d M) (hn' : n'.Moderate fp d M')
    (ha : n.Agrees fp .exact d) (ha' : n'.Agrees fp .exact d) (h : Node.Amid (Node.Shuffled .exact d) n n') :
    Paired (fun m m' => m.drawn.Grown Reordered 0 m'.drawn) (layout fp d false none n).toOption (layout fp d false none n').toOption := by
  have hB := shuffled_blueprint FP.exact_exact h none
  rw [← agrees_blueprints (p := none) L exact_laws hn ha nofun, ← agrees_blueprints (p := none) L exact_laws hn' ha' nofun, ← C91_blueprint hn.boxed,
    ← C91_blueprint hn'.boxed] at hB
  exact grown_drawn hB

/-- **C120.** The children themselves: whatever order they are in, the box of each of them is among the boxes of the others' order, at another height at most. -/
theorem C120_each (ks ks' : List Blueprint) (h : Reordered ks ks') : ks.length = ks'.length ∧
    ∀ f us, Blueprint.mk f us ∈ ks → ∃ f', Blueprint.mk f' us ∈ ks' ∧ f' = { f with y := f'.y } := by
  refine ⟨by simpa using h.length_eq, fun f us hf => ?_⟩
  have := h.mem_iff.1 (List.mem_map_of_mem (f := Blueprint.atTop) hf)
  obtain ⟨k, hk, e⟩ := List.mem_map.1 this
  cases k with
  | absent => cases e
  | mk f' us' =>
    simp only [Blueprint.atTop, Blueprint.mk.injEq] at e
    obtain ⟨e, rfl⟩ := e
    refine ⟨f', hk, ?_⟩
    obtain ⟨x, y, w, h, m, b, p, a, c⟩ := f
    obtain ⟨x', y', w', h', m', b', p', a', c'⟩ := f'
    simp only [Figures.mk.injEq] at e
    obtain ⟨rfl, -, rfl, rfl, rfl, rfl, rfl, rfl, rfl⟩ := e
    rfl

/-! ## Examples and limits -/

/-- A page with a section of three blocks in the given order, and something below. -/
def listed (cs : List Node) : Node := block [(.margin .top, px 3)] [block [(.padding .top, px 2), (.margin .bottom, px 9)] cs, block [(.height, px 30), (.margin .top, px 5)] []]

/-- Three blocks without vertical margins around them, though there is one within. -/
def items : List Node := [
  block [(.height, px 10), (.borderWidth .bottom, px 4)] [],
  block [(.padding .top, px 6), (.width, pct 25), (.margin .left, kw "auto")] [block [(.height, px 7), (.margin .bottom, px 5)] [], block [(.height, px 1)] []],
  block [(.height, px 20), (.margin .left, px 8)] []]

theorem items_shuffled : Node.Amid (Node.Shuffled .exact screen) (listed items) (listed items.reverse) := by
  refine .inside (pre := []) (.inl rfl) rfl (by simp only [List.nil_append, List.forall_mem_cons]; exact ⟨rfl, rfl, nofun⟩) (.self ?_) rfl
  refine .mk (List.reverse_perm items).symm (.inl rfl) rfl rfl ?_ rfl
  simp only [items, List.forall_mem_cons]
  refine ⟨⟨rfl, rfl, ⟨fun _ => rfl, nofun⟩, ⟨fun _ => rfl, nofun⟩⟩, ⟨rfl, rfl, ⟨fun _ => rfl, ?_⟩, ⟨fun _ => rfl, ?_⟩⟩, ⟨rfl, rfl, ⟨fun _ => rfl, nofun⟩, ⟨fun _ => rfl, nofun⟩⟩, nofun⟩
  · rintro c ⟨⟩
    exact ⟨fun _ => rfl, nofun⟩
  · rintro - c ⟨⟩
    exact ⟨fun _ => rfl, nofun⟩

/-- In floating point, the order of the three blocks does not matter for the others. -/
example : Paired (fun m m' => m.drawn.Grown Reordered 0 m'.drawn) (layout .b64 screen false none (listed items)).toOption
    (layout .b64 screen false none (listed items.reverse)).toOption :=
  C120_moderate .b64 b64_laws screen 1000 1000 _ _ (moderate_test (k := 8) (by decide +kernel) (by decide +kernel) (by norm_num))
    (moderate_test (k := 8) (by decide +kernel) (by decide +kernel) (by norm_num)) (agreeTest_all b64_laws exact_laws (by decide +kernel))
    (agreeTest_all b64_laws exact_laws (by decide +kernel)) items_shuffled

example : (laidBox .b64 screen (listed items) [0]).map Box.contentHeight = some (some (.int 53)) ∧
    (laidBox .b64 screen (listed items.reverse) [0]).map Box.contentHeight = some (some (.int 53)) ∧
    (laidBox .b64 screen (listed items) [0, 2]).map (·.v.content) = some (.int 33) ∧
    (laidBox .b64 screen (listed items.reverse) [0, 0]).map (·.v.content) = some (.int 0) ∧
    (laidBox .b64 screen (listed items) [1]).map (·.v.content) = (laidBox .b64 screen (listed items.reverse) [1]).map (·.v.content) := by decide +kernel

/-- With margins the order matters: they collapse with their neighbours only. -/
theorem C120_margins : let a := block [(.height, px 1), (.margin .bottom, px 9)] []
    let b := block [(.height, px 2), (.margin .top, px 9)] []
    (laidBox .exact screen (block [] [a, b]) []).map Box.contentHeight = some (some (.int 12)) ∧
    (laidBox .exact screen (block [] [b, a]) []).map Box.contentHeight = some (some (.int 3)) := by decide +kernel

/-- Also with the margin of what comes last inside, which reaches out. -/
theorem C120_reach : let a := block [] [block [(.height, px 1), (.margin .bottom, px 9)] []]
    let b := block [(.height, px 2)] []
    (laidBox .exact screen (block [] [a, b]) []).map Box.contentHeight = some (some (.int 12)) ∧
    (laidBox .exact screen (block [] [b, a]) []).map Box.contentHeight = some (some (.int 3)) := by decide +kernel

/-- With relative positions too: the offset of the last child counts for the height. -/
theorem C120_relative : let a := block [(.height, px 1), (.position, kw "relative"), (.top, px 9)] []
    let b := block [(.height, px 2)] []
    (laidBox .exact screen (block [] [a, b]) []).map Box.contentHeight = some (some (.int 3)) ∧
    (laidBox .exact screen (block [] [b, a]) []).map Box.contentHeight = some (some (.int 12)) := by decide +kernel

end Colosseum
