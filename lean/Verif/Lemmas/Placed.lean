import Verif.Props.Layout
import Verif.Lemmas.Causal

/-!
# Lemmas: absolute positions from the positions on the way
-/

namespace Colosseum

theorem map_range_getElem? {α β : Type} (f : α → β) (z : β) (l : List α) :
    (List.range l.length).map (fun i => (l[i]?.map f).getD z) = l.map f := by
  apply List.ext_getElem
  · simp
  · intro i h1 h2
    simp only [List.getElem_map, List.getElem_range]
    rw [List.getElem?_eq_getElem (by simpa using h2)]
    rfl

theorem layout_placed {fp : FP} {d : Display} {html5 : Bool} {p : Option CSS} {n n' : Node} (hn : AllBoxed n) (h : layout fp d html5 p n = .ok n')
    (a : Axis) {k : Nat} (hL : fp.Exact ∨ fp.Laws) {q : List Nat} (hf : ∀ r b, r <+: q → n'.boxAt r = some b → Fits fp k (b.pos a).content)
    (hk : (q.length + 2) * k ≤ 2 ^ 53) {b : Box} (e : n'.boxAt q = some b) :
    (b.absContent fp a).val = ((List.range (q.length + 1)).map fun i => ((n'.boxAt (q.take i)).map fun x => (x.pos a).content.val).getD 0).sum := by
  obtain ⟨bs, s1, s2, s3⟩ := boxAt_shown q e
  rw [C49_sum_partial fp d html5 p n n' hn h a bs b s1 k hL (by
      intro x hx
      rcases List.mem_cons.1 hx with rfl | hx
      · exact hf q _ (List.prefix_refl q) e
      · obtain ⟨i, hi⟩ := List.mem_iff_getElem?.1 hx
        have hlt : i < q.length := by rw [← s2]; exact (List.getElem?_eq_some_iff.1 hi).1
        rw [s3 i hlt] at hi
        exact hf _ _ (List.take_prefix i q) hi) (by rw [s2]; exact hk)]
  rw [List.range_succ, List.map_append, List.map_append, List.sum_append, List.sum_append]
  have e1 : (List.range q.length).map (fun i => ((n'.boxAt (q.take i)).map fun x => (x.pos a).content.val).getD 0) = bs.map fun x => (x.pos a).content.val := by
    rw [← map_range_getElem? (fun x : Box => (x.pos a).content.val) 0 bs, s2]
    refine List.map_congr_left fun i hi => ?_
    rw [s3 i (List.mem_range.1 hi)]
  rw [e1]
  simp only [List.map_cons, List.map_nil, List.take_length, e, Option.map_some, Option.getD_some]

end Colosseum
