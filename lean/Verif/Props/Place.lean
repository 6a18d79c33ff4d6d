import Verif.Lemmas.Place
import Verif.Lemmas.Sample
import Verif.Props.Siblings

/-!
# C77: an element is laid out the same in any company
-/

namespace Colosseum

theorem sameBut_of_core {x y : Option Box} (h : x.map (Box.core true) = y.map (Box.core true)) : Both Box.SameBut x y := by
  cases x <;> cases y
  · trivial
  · cases h
  · cases h
  · rename_i b b'
    have h : b.core true = b'.core true := Option.some.inj h
    have g : ∀ {α : Type} (f : Box → α), (∀ b : Box, f b = f (b.core true)) → f b = f b' := by
      intro α f hf
      rw [hf b, h, ← hf b']
    exact ⟨g (fun b => b.h.content) fun _ => rfl, g Box.contentWidth fun _ => rfl, g Box.contentHeight fun _ => rfl, g Box.margin fun _ => rfl,
      g Box.border fun _ => rfl, g Box.padding fun _ => rfl, g Box.collapse fun _ => rfl, g Box.dirty fun _ => rfl⟩

/-- C77. Two documents in which every displayed element has a box contain the same element within the same ancestors, and can both be laid out. Whatever else
the ancestors contain, before the element or after it, the element gets the same box in both but for its vertical position; everything below it gets the
same boxes; and its ancestors have the same widths and horizontal positions. -/
theorem C77_company (fp : FP) (d : Display) (html5 : Bool) (p : Option CSS) (n m n' m' : Node) (i j : Nat) (q r : List Nat) (hn : AllBoxed n) (hm : AllBoxed m)
    (hw : SameWithin n m (i :: q) (j :: r)) (h : layout fp d html5 p n = .ok n') (h' : layout fp d html5 p m = .ok m') :
    Both Box.SameBut (n'.boxAt (i :: q)) (m'.boxAt (j :: r)) ∧
    (∀ a t, Both Box.Same (n'.boxAt (i :: q ++ a :: t)) (m'.boxAt (j :: r ++ a :: t))) ∧
    ∀ t, Both (fun b b' => b.contentWidth = b'.contentWidth ∧ b.h.content = b'.h.content) (n'.boxAt ((i :: q).take t)) (m'.boxAt ((j :: r).take t)) := by
  have hp := layout_peer hn hm hw h h'
  refine ⟨sameBut_of_core (peer_boxAt hp), fun a t => same_of_noOrigin (peer_below hp a t), fun t => ?_⟩
  have := peer_above hp t
  generalize n'.boxAt ((i :: q).take t) = x at this
  generalize m'.boxAt ((j :: r).take t) = y at this
  cases x <;> cases y
  · trivial
  · cases this
  · cases this
  · exact Prod.mk.inj (Option.some.inj this)

/-- C77, for an element whose children change places: each child gets the same box as before but for its vertical position, and what is in it does not
change. -/
theorem C77_reordered (fp : FP) (d : Display) (html5 : Bool) (p : Option CSS) (s : CSS) (z : Intrinsic) (l : Option Box) (cs ks : List Node) (n' m' : Node)
    (hn : AllBoxed (.mk s z l cs)) (hp : cs.Perm ks) (h : layout fp d html5 p (.mk s z l cs) = .ok n') (h' : layout fp d html5 p (.mk s z l ks) = .ok m')
    (i j : Nat) (c : Node) (hi : cs[i]? = some c) (hj : ks[j]? = some c) :
    Both Box.SameBut (n'.boxAt [i]) (m'.boxAt [j]) ∧ ∀ a t, Both Box.Same (n'.boxAt (i :: a :: t)) (m'.boxAt (j :: a :: t)) := by
  have hm : AllBoxed (.mk s z l ks) := by
    rw [allBoxed_mk] at hn ⊢
    intro hs
    exact ⟨(hn hs).1, fun x hx => (hn hs).2 x (hp.mem_iff.2 hx)⟩
  have hb : (Node.mk s z l cs).BlockContext ↔ (Node.mk s z l ks).BlockContext := by
    rw [← blockContext_iff, ← blockContext_iff]
    unfold establishesInline
    rw [show (cs.any fun c => isBlockLevel c.style) = (ks.any fun c => isBlockLevel c.style) from by
      rw [Bool.eq_iff_iff, List.any_eq_true, List.any_eq_true]
      simp only [hp.mem_iff]]
  obtain ⟨h1, h2, _⟩ := C77_company fp d html5 p _ _ n' m' i j [] [] hn hm (.deep hb hi hj .here) h h'
  exact ⟨h1, h2⟩

/-- A block with a block inside, with half the width of its parent. -/
def guest : Node := block [(.margin .top, px 9), (.width, pct 50)] [block [(.margin .left, px 2), (.height, px 5)] []]

/-- It comes first in a block. -/
def alone : Node := block [(.padding .top, px 3)] [block [(.width, px 200), (.margin .left, px 7)] [guest]]

/-- It comes after other blocks, in a block with more blocks around. -/
def crowded : Node :=
  block [(.padding .top, px 3)] [block [(.height, px 33)] [], block [(.width, px 200), (.margin .left, px 7)] [block [(.height, px 10), (.margin .bottom, px 7)] [], guest,
    block [(.height, px 12)] []]]

/-- The block is the same in both documents, within the same ancestors. -/
example : SameWithin alone crowded [0, 0] [1, 1] := by
  refine .deep ?_ rfl rfl (.deep ?_ rfl rfl .here) <;>
  · rw [← blockContext_iff, ← blockContext_iff]
    decide +kernel

/-- It gets the same size at different heights, and the block inside it the same box. -/
example : (laidBox .b64 screen alone [0, 0]).map (fun b => (b.contentWidth, b.contentHeight, b.h.content, b.v.content)) =
      some (some (.int 100), some (.int 5), .int 0, .int 0) ∧
    (laidBox .b64 screen crowded [1, 1]).map (fun b => (b.contentWidth, b.contentHeight, b.h.content, b.v.content)) =
      some (some (.int 100), some (.int 5), .int 0, .int 19) ∧
    (laidBox .b64 screen alone [0, 0, 0]).map Box.noOrigin = (laidBox .b64 screen crowded [1, 1, 0]).map Box.noOrigin := by
  refine ⟨?_, ?_, ?_⟩ <;> decide +kernel

end Colosseum
