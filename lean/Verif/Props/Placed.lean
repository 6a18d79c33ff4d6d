import Verif.Lemmas.Placed
import Verif.Props.Without
import Verif.Props.Level

/-!
# C91, C48, C108: where the boxes are on the display
-/

namespace Colosseum

/-- The position of a box in the content of the parent, in one direction. -/
def Figures.offset (f : Figures) : Axis → Num
  | .v => f.y
  | .h => f.x

theorem offset_pos (b : Box) (a : Axis) : b.figures.offset a = (b.pos a).content := by cases a <;> rfl

/-- **C91**, the absolute positions: every box is at the sum of the positions in the blueprint from the root down to it, in exact arithmetic, and in binary
floating point where these are multiples of 1/64 that are not too large for the sums to be exact. -/
theorem C91_place {fp : FP} (hL : fp.Exact ∨ fp.Laws) {d : Display} {html5 : Bool} {p : Option CSS} {n n' : Node} {K : Blueprint} (hb : AllBoxed n)
    (h : layout fp d html5 p n = .ok n') (hK : n.blueprint fp d html5 p = some K) (a : Axis) (k : Nat) (q : List Nat)
    (hf : ∀ r f, r <+: q → K.at r = some f → Fits fp k (f.offset a)) (hk : (q.length + 2) * k ≤ 2 ^ 53) (b : Box) (e : n'.boxAt q = some b) :
    (b.absContent fp a).val = ((List.range (q.length + 1)).map fun i => ((K.at (q.take i)).map fun f => (f.offset a).val).getD 0).sum := by
  have hat : ∀ r, K.at r = (n'.boxAt r).map Box.figures := fun r => by
    rw [C91_boxes hb h, hK]
    rfl
  rw [layout_placed hb h a hL (k := k) (fun r x hr hx => ?_) hk e]
  · simp only [hat, Option.map_map]
    congr 2
    funext i
    congr 1
    cases n'.boxAt (q.take i) with
    | none => rfl
    | some x => exact congrArg (fun y : Num => some y.val) (offset_pos x a).symm
  · rw [← offset_pos]
    exact hf r _ hr (by rw [hat, hx]; rfl)

theorem place_of_figures {fp : FP} (hL : fp.Exact ∨ fp.Laws) {d : Display} {html5 : Bool} {p : Option CSS} {n n' m m' : Node} (hn : AllBoxed n)
    (hm : AllBoxed m) (h : layout fp d html5 p n = .ok n') (h' : layout fp d html5 p m = .ok m') (a : Axis) {k : Nat} {q r : List Nat} (hl : q.length = r.length)
    (hs : ∀ i, (n'.boxAt (q.take i)).map Box.figures = (m'.boxAt (r.take i)).map Box.figures)
    (hf : ∀ t b, t <+: q → n'.boxAt t = some b → Fits fp k (b.pos a).content) (hk : (q.length + 2) * k ≤ 2 ^ 53) {b b' : Box} (e : n'.boxAt q = some b)
    (e' : m'.boxAt r = some b') : (b'.absContent fp a).val = (b.absContent fp a).val := by
  rw [layout_placed hn h a hL hf hk e, layout_placed hm h' a hL (k := k) (fun t x ht hx => ?_) (by rw [← hl]; exact hk) e', hl]
  · congr 2
    funext i
    have := hs i
    revert this
    cases n'.boxAt (q.take i) <;> cases m'.boxAt (r.take i) <;> intro this
    · rfl
    · cases this
    · cases this
    · rename_i x y
      have hxy : x.figures = y.figures := Option.some.inj this
      simp only [Option.map_some, ← offset_pos, hxy]
  · obtain ⟨u, rfl⟩ := ht
    have := hs t.length
    rw [List.take_left, hx] at this
    cases hy : n'.boxAt (q.take t.length) with
    | none => rw [hy] at this; cases this
    | some y =>
      rw [hy] at this
      have hxy : y.figures = x.figures := Option.some.inj this
      rw [← offset_pos, ← hxy, offset_pos]
      exact hf _ y (List.take_prefix _ _) hy

theorem samePlace_take {n m : Node} {q r : List Nat} (h : SamePlace n m q r) : q.length = r.length ∧ ∀ i, SamePlace n m (q.take i) (r.take i) := by
  induction h with
  | here n m => exact ⟨rfl, fun i => by simpa using SamePlace.here n m⟩
  | step a1 a2 a3 a4 a5 a6 a7 _ ih =>
    refine ⟨by simp [ih.1], fun i => ?_⟩
    cases i with
    | zero => exact .here _ _
    | succ i => exact .step a1 a2 a3 a4 a5 a6 a7 (ih.2 i)

/-- C48, the absolute positions: the boxes of the elements that are not hidden are where they would be if the hidden ones were not in the document, in exact
arithmetic, and in binary floating point where the positions on the way are multiples of 1/64 that are not too large for the sums to be exact. Missing: as
for `C48_without_partial`. -/
theorem C48_place_partial (fp : FP) (hL : fp.Exact ∨ fp.Laws) (d : Display) (html5 : Bool) (p : Option CSS) (n m n' m' : Node) (hn : AllBoxed n) (hm : AllBoxed m)
    (hw : Without n m) (h : layout fp d html5 p n = .ok n') (h' : layout fp d html5 p m = .ok m') (a : Axis) (k : Nat) (q r : List Nat) (hs : SamePlace n m q r)
    (hf : ∀ t b, t <+: q → n'.boxAt t = some b → Fits fp k (b.pos a).content) (hk : (q.length + 2) * k ≤ 2 ^ 53) (b b' : Box) (e : n'.boxAt q = some b)
    (e' : m'.boxAt r = some b') : (b'.absContent fp a).val = (b.absContent fp a).val := by
  obtain ⟨m₁, h1, hq⟩ := C48_without_partial fp d html5 p n m n' hn hm hw h
  rw [h'] at h1
  cases h1
  obtain ⟨hl, ht⟩ := samePlace_take hs
  exact place_of_figures hL hn hm h h' a hl (fun i => hq _ _ (ht i)) hf hk e e'

/-- C108, the absolute positions, where those on the way are multiples of 1/64 that are not too large for the sums to be exact. -/
theorem C108_place (fp : FP) (L : fp.Laws) (d : Display) (html5 : Bool) (p : Option CSS) (n n' m' : Node) (hb : AllBoxed n)
    (h : layout fp d html5 p n = .ok n') (h' : layout fp d html5 p (n.level none) = .ok m') (a : Axis) (k : Nat) (q : List Nat)
    (hf : ∀ t b, t <+: q → n'.boxAt t = some b → Fits fp k (b.pos a).content) (hk : (q.length + 2) * k ≤ 2 ^ 53) (b b' : Box) (e : n'.boxAt q = some b)
    (e' : m'.boxAt q = some b') : (b'.absContent fp a).val = (b.absContent fp a).val := by
  obtain ⟨m₁, h1, hq⟩ := C108_boxes fp L d html5 p n n' hb h
  rw [h'] at h1
  cases h1
  exact place_of_figures (.inr L) hb (level_boxed n none hb) h h' a rfl (fun i => (hq _).symm) hf hk e e'

/-- In the sample with hidden elements and in the one without them, the second block is at the same place; the positions on the way are small whole numbers. -/
example : (laidBox .b64 screen haunted [1]).map (fun b => b.absContent .b64 .v) = some (.int 12) ∧
    (laidBox .b64 screen freed [1]).map (fun b => b.absContent .b64 .v) = some (.int 12) ∧
    [[], [1]].map (fun t => (laidBox .b64 screen haunted t).map fun b => b.v.content) = [some (.int 0), some (.int 12)] := by
  decide +kernel

/-- So for the sample with percentages. -/
example : (laidBox .b64 screen slanted [1]).map (fun b => b.absContent .b64 .v) = some (.int 164) ∧ (laidBox .b64 screen (slanted.level none) [1]).map (fun b => b.absContent .b64 .v) = some (.int 164) ∧
    [[], [0], [1]].map (fun t => (laidBox .b64 screen slanted t).map fun b => b.v.content) = [some (.int 0), some (.int 128), some (.int 164)] := by
  decide +kernel

end Colosseum
