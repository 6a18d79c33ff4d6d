import Verif.Lemmas.Trace
import Verif.Props.Layout

/-!
# Boxes created during a layout
-/

namespace Colosseum

/-- The operations a program performs on the nodes of a document between layouts. -/
def NodeOp.Edit : NodeOp → Prop
  | .dirty _ | .size _ | .setStyle _ _ _ | .delStyle _ => True
  | _ => False

/-- `Session E a n`: `n` is a document after any number of edits and layouts, whether they returned or raised. In the beginning, what is below a node without box is coherent (as it
is when every node has a box, or no node has). New nodes, with new boxes or none, are inserted below nodes which have boxes and whose ancestors have;
nodes are removed anywhere. -/
inductive Session (E : Env) (a : Axis) : Node → Prop
  | start (n : Node) : (∀ m, Sub m n → m.layout = none → ∀ c ∈ m.children, Coherent E.fp a c) → Session E a n
  | edit {n : Node} (q : List Nat) (o : NodeOp) : Session E a n → o.Edit → Session E a (n.doAt E q o)
  | insert {n : Node} (q : List Nat) (i : Nat) (c : Node) : Session E a n → (n.boxAt q).isSome → EveryBox (· = Box.fresh) c →
      Session E a (n.atPath (Node.addChild i c) q)
  | remove {n : Node} (q : List Nat) (i : Nat) : Session E a n → Session E a (n.atPath (Node.dropChild i) q)
  | laid {n : Node} (d : Display) (html5 : Bool) (p : Option CSS) : Session E a n → Session E a (runLayout E.fp d html5 p n).1

theorem still_apply (E : Env) (a : Axis) (o : NodeOp) (ho : o.Edit) : Still E.fp a fun m => (m.apply E o).1 := by
  intro n
  cases o with
  | move | margin | collapse | reset => exact ho.elim
  | dirty v => exact still_write (s' := n.style) (z' := n.intrinsic) (Or.inr ⟨v, by obtain ⟨s, z, l, cs⟩ := n; rfl⟩)
  | size x =>
    obtain ⟨z', e⟩ := apply_size_cases n x
    exact still_write (s' := n.style) (z' := z') (e.imp id fun e => ⟨_, e⟩)
  | setStyle at_ x v =>
    obtain ⟨s', e⟩ := apply_style_cases E (.setStyle at_ x v) n (Or.inl ⟨_, _, _, rfl⟩)
    exact still_write (s' := s') (z' := n.intrinsic) (e.imp id fun e => ⟨_, e⟩)
  | delStyle x =>
    obtain ⟨s', e⟩ := apply_style_cases E (.delStyle x) n (Or.inr ⟨_, rfl⟩)
    exact still_write (s' := s') (z' := n.intrinsic) (e.imp id fun e => ⟨_, e⟩)

theorem session_stale {E : Env} {a : Axis} {n : Node} (h : Session E a n) : Stale E.fp a n := by
  induction h with
  | start n h => exact stale_of h
  | edit q o _ ho ih => exact (still_atPath (still_apply E a o ho) q _).2.1 ih
  | insert q i c _ hq hc ih => exact stale_insert i (deep_fresh hc).stale q _ hq ih
  | remove q i _ ih => exact (still_atPath (still_dropChild E.fp a i) q _).2.1 ih
  | laid d html5 p _ ih => exact runLayout_stale ih

/-- C49, for every document after any edits and layouts: after one more layout, the origin of the root is that of the display, and the origin of every
other displayed box is the absolute position of its parent's content, unless the node had no box before, in which case it may also be 0
(`C49_false_redisplayed`). `q` leads to the parent, `q ++ [i]` to the node. -/
theorem C49_session_partial (E : Env) (a : Axis) (n n' : Node) (hs : Session E a n) (d : Display) (html5 : Bool) (p : Option CSS)
    (h : layout E.fp d html5 p n = .ok n') :
    (∃ b, n'.layout = some b ∧ (b.pos a).origin = .int 0) ∧
    ∀ q i b cb, n'.boxAt q = some b → n'.boxAt (q ++ [i]) = some cb →
      (cb.pos a).origin.val = (b.absContent E.fp a).val ∨
      (cb.pos a).origin.val = 0 ∧ ∃ c, n.find (q ++ [i]) = some c ∧ c.layout = none := by
  obtain ⟨h1, h2⟩ := layout_made h (session_stale hs)
  refine ⟨h2, fun q i b cb hb hcb => ?_⟩
  have e := C42_paths E.fp d html5 p n n' h (q ++ [i])
  have some_find : ∀ (r : List Nat) (m : Node) (x : Box), m.boxAt r = some x → ∃ c, m.find r = some c := by
    intro r
    induction r with
    | nil => intro m x _; exact ⟨m, rfl⟩
    | cons j r ih =>
      intro m x hx
      simp only [Node.boxAt] at hx
      split at hx
      · obtain ⟨c, hc, hx⟩ := Option.bind_eq_some_iff.1 hx
        obtain ⟨c', hc'⟩ := ih c x hx
        exact ⟨c', by simp only [Node.find, hc, Option.bind_some, hc']⟩
      · cases hx
  obtain ⟨c', hc'⟩ := some_find _ _ _ hcb
  rw [hc'] at e
  cases hoc : n.find (q ++ [i]) with
  | none => rw [hoc] at e; cases e
  | some oc =>
    rcases made_edge h1 q i oc b cb hb hcb hoc with g | ⟨g1, g2⟩
    · exact Or.inl g
    · exact Or.inr ⟨g2, oc, rfl, g1⟩

/-- A session: a document with three boxes, the second with a margin; the second is hidden, the document laid out, the second shown again and the document
laid out again. The origin of the second is 0, that of the third is right. -/
example : ∃ n n1 n2 n3 n4 : Node, n1 = n.doAt exampleEnv [0] (.setStyle [] (.lh .display) .none) ∧ layout .b64 screen false none n1 = .ok n2 ∧
    n3 = n2.doAt exampleEnv [0] (.setStyle [] (.lh .display) (kw "block")) ∧ Session exampleEnv .h n3 ∧ layout .b64 screen false none n3 = .ok n4 ∧
    ([[], [0], [0, 0]].map fun q => (n4.boxAt q).map fun b => (b.h.origin, b.h.content)) =
      [some (.int 0, .int 10), some (.int 0, .int 7), some (.int 7, .int 0)] := by
  let n := block [(.padding .left, px 10), (.height, px 50)] [block [(.margin .left, px 7)] [block [] []]]
  let n1 := n.doAt exampleEnv [0] (.setStyle [] (.lh .display) .none)
  let n2 := laidDoc .b64 screen n1
  let n3 := n2.doAt exampleEnv [0] (.setStyle [] (.lh .display) (kw "block"))
  let n4 := laidDoc .b64 screen n3
  have h1 : layout .b64 screen false none n1 = .ok n2 := laidDoc_ok (by decide +kernel)
  have h2 : layout .b64 screen false none n3 = .ok n4 := laidDoc_ok (by decide +kernel)
  refine ⟨n, n1, n2, n3, n4, rfl, h1, rfl, ?_, h2, by decide +kernel⟩
  have h1' : (runLayout exampleEnv.fp screen false none n1).1 = n2 := congrArg Prod.fst (runLayout_of_ok h1)
  refine .edit [0] (.setStyle [] (.lh .display) (kw "block")) (n := n2) ?_ trivial
  rw [← h1']
  refine .laid screen false none (.edit [0] (.setStyle [] (.lh .display) .none) (.start n ?_) trivial)
  have all : ∀ m, Sub m n → m.layout ≠ none := by
    intro m hm
    cases hm with
    | refl => exact (by simp [n, block, node, Node.layout])
    | child hc hm =>
      simp only [n, block, node, Node.children, List.mem_cons, List.not_mem_nil, or_false] at hc
      subst hc
      cases hm with
      | refl => simp [Node.layout]
      | child hc hm =>
        simp only [Node.children, List.mem_cons, List.not_mem_nil, or_false] at hc
        subst hc
        cases hm with
        | refl => simp [Node.layout]
        | child hc hm => cases hc
  exact fun m hm hl => absurd hl (all m hm)

/-- A new node is inserted below a laid-out one and the old child removed; after the next layout the origin of the new node is right. -/
example : ∃ n n1 n2 n3 : Node, Session exampleEnv .h n ∧ n1 = n.atPath (Node.addChild 0 (block [(.width, px 30)] [])) [0] ∧
    n2 = n1.atPath (Node.dropChild 1) [0] ∧ Session exampleEnv .h n2 ∧ layout .b64 screen false none n2 = .ok n3 ∧
    ([[], [0], [0, 0], [0, 1]].map fun q => (n3.boxAt q).map fun b => (b.h.origin, b.h.content)) =
      [some (.int 0, .int 10), some (.int 10, .int 7), some (.int 17, .int 0), none] := by
  let n0 := block [(.padding .left, px 10)] [block [(.margin .left, px 7)] [block [] []]]
  let n := laidDoc .b64 screen n0
  let n1 := n.atPath (Node.addChild 0 (block [(.width, px 30)] [])) [0]
  let n2 := n1.atPath (Node.dropChild 1) [0]
  have h0 : layout .b64 screen false none n0 = .ok n := laidDoc_ok (by decide +kernel)
  have hn : Session exampleEnv .h n := by
    have h0' : (runLayout exampleEnv.fp screen false none n0).1 = n := congrArg Prod.fst (runLayout_of_ok h0)
    rw [← h0']
    refine .laid screen false none (.start n0 ?_)
    have all : ∀ m, Sub m n0 → m.layout ≠ none := by
      intro m hm
      cases hm with
      | refl => simp [n0, block, node, Node.layout]
      | child hc hm =>
        simp only [n0, block, node, Node.children, List.mem_cons, List.not_mem_nil, or_false] at hc
        subst hc
        cases hm with
        | refl => simp [Node.layout]
        | child hc hm =>
          simp only [Node.children, List.mem_cons, List.not_mem_nil, or_false] at hc
          subst hc
          cases hm with
          | refl => simp [Node.layout]
          | child hc hm => cases hc
    exact fun m hm hl => absurd hl (all m hm)
  refine ⟨n, n1, n2, laidDoc .b64 screen n2, hn, rfl, rfl, ?_, laidDoc_ok (by decide +kernel), by decide +kernel⟩
  refine .remove [0] 1 (.insert [0] 0 (block [(.width, px 30)] []) hn (by decide +kernel) ?_)
  simp only [block, node, everyBox_mk, List.not_mem_nil, false_implies, implies_true, and_true]
  intro b hb; cases hb; rfl

end Colosseum
