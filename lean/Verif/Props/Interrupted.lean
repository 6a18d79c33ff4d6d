import Verif.Props.Created

/-!
# Layouts that raise
-/

namespace Colosseum

/-- C42, also when the layout raises: the structure of the document, the styles and the intrinsic sizes are left alone. -/
theorem C42_raises (fp : FP) (d : Display) (html5 : Bool) (p : Option CSS) (n : Node) : SameDoc (runLayout fp d html5 p n).1 n := runLayout_strip ..

/-- `Tried fp n m`: `m` is what any number of layouts, for any displays, make of `n`, where each returned or raised. -/
inductive Tried (fp : FP) (n : Node) : Node → Prop
  | start : Tried fp n n
  | laid {m : Node} (d : Display) (html5 : Bool) (p : Option CSS) : Tried fp n m → Tried fp n (runLayout fp d html5 p m).1

theorem tried_shape {fp : FP} {n m : Node} (h : Tried fp n m) (hb : AllBoxed n) : Shape true n m ∧ AllBoxed m ∧ SameDoc m n := by
  induction h with
  | start => exact ⟨Shape.refl n true, hb, rfl⟩
  | laid d html5 p _ ih => exact ⟨ih.1.trans (runLayout_shape ih.2.1), runLayout_boxed ih.2.1, (runLayout_strip ..).trans ih.2.2⟩

/-- C43. In a document in which every displayed node has a box, layouts before, whether they returned or raised, make no difference to a layout: it
returns if it would have without them, and with the same boxes. -/
theorem C43_history_partial (fp : FP) (n m : Node) (hb : AllBoxed n) (ht : Tried fp n m) (d : Display) (html5 : Bool) (p : Option CSS) :
    (∀ n', layout fp d html5 p n = .ok n' → ∃ m', layout fp d html5 p m = .ok m' ∧ ∀ q, n'.boxAt q = m'.boxAt q) ∧
    ∀ m', layout fp d html5 p m = .ok m' → ∃ n', layout fp d html5 p n = .ok n' ∧ ∀ q, n'.boxAt q = m'.boxAt q := by
  obtain ⟨hsh, hm, hd⟩ := tried_shape ht hb
  constructor
  · intro n' h
    obtain ⟨m', h1, h2⟩ := layout_alike hsh hb (root_boxed h hd.symm hm) h
    exact ⟨m', h1, boxAt_alike h2⟩
  · intro m' h
    obtain ⟨n', h1, h2⟩ := layout_alike hsh.symm hm (root_boxed h hd hb) h
    exact ⟨n', h1, fun q => (boxAt_alike h2 q).symm⟩

/-! ## C67: after an exception -/

/-- C67. When a layout of a document in which every displayed node has a box raises, what it leaves has the same structure, styles and intrinsic
sizes, every displayed node still has a box, the origin of every box is the absolute position of its parent's content, that of the root is the
origin of the display, and any later layout does exactly what it would have done without the failed one. -/
theorem C67_usable (fp : FP) (d : Display) (html5 : Bool) (p : Option CSS) (n m : Node) (e : Err) (hb : AllBoxed n)
    (h : runLayout fp d html5 p n = (m, some e)) : SameDoc m n ∧ AllBoxed m ∧
    (∀ a, Coherent fp a m ∧ ∀ b, m.layout = some b → (b.pos a).origin = .int 0) ∧
    ∀ d' html5' p', (∀ n', layout fp d' html5' p' n = .ok n' → ∃ m', layout fp d' html5' p' m = .ok m' ∧ ∀ q, n'.boxAt q = m'.boxAt q) ∧
      ∀ m', layout fp d' html5' p' m = .ok m' → ∃ n', layout fp d' html5' p' n = .ok n' ∧ ∀ q, n'.boxAt q = m'.boxAt q := by
  have hm : (runLayout fp d html5 p n).1 = m := congrArg Prod.fst h
  rw [← hm]
  refine ⟨runLayout_strip .., runLayout_boxed hb, fun a => ?_, fun d' html5' p' => C43_history_partial fp n _ hb (.laid d html5 p .start) d' html5' p'⟩
  by_cases hl : n.layout = none
  · rcases runLayout_went fp d html5 p n with ⟨_, e⟩ | ⟨g, _⟩
    · rw [e]
      refine ⟨fun bs q b hs => ?_, fun b hb => by rw [hl] at hb; cases hb⟩
      cases bs with
      | nil => cases hs with | step h _ _ => rw [hl] at h; cases h
      | cons _ _ => cases hs with | step h _ _ => rw [hl] at h; cases h
    · exact absurd hl g
  · exact runLayout_coherent hb hl a

/-- C67. Where no box was declared clean under a dirty one, every box is dirty afterwards, so that no node passes for laid out. -/
theorem C67_dirty (E : Env) (d : Display) (html5 : Bool) (p : Option CSS) (n m : Node) (e : Err) (hd : Marked E n) (hl : n.layout ≠ none)
    (h : runLayout E.fp d html5 p n = (m, some e)) : EveryBox Box.Dirty m := by
  rw [← show (runLayout E.fp d html5 p n).1 = m from congrArg Prod.fst h]
  exact runLayout_dirty (marked_down hd) hl

/-- The exception is the one of the layout. -/
theorem C67_raises (fp : FP) (d : Display) (html5 : Bool) (p : Option CSS) (n : Node) (e : Err) :
    layout fp d html5 p n = .error e ↔ ∃ m, runLayout fp d html5 p n = (m, some e) := by
  rw [← runLayout_out]
  rcases runLayout fp d html5 p n with ⟨m, _ | x⟩
  · simp [outcome]
  · simp [outcome]

/-- A layout that raises at the second child, after it has laid out the first: its box is 630 by 10 and 10 pixels from the left. -/
example : ∃ n m : Node, AllBoxed n ∧ Marked exampleEnv n ∧ runLayout .b64 screen false none n = (m, some .notImplemented) ∧
    (m.boxAt [0]).map (fun b => (b.contentWidth, b.contentHeight, b.h.origin)) = some (some (.int 630), some (.int 10), .int 10) := by
  let n := block [(.padding .left, px 10)] [block [(.height, px 10)] [], block [(.float, kw "left")] []]
  refine ⟨n, (runLayout .b64 screen false none n).1, ?_, .start n ?_, ?_, ?_⟩
  · simp only [n, block, node, allBoxed_mk, List.mem_cons, List.not_mem_nil, or_false, forall_eq_or_imp, forall_eq]
    simp
  · simp only [n, block, node, everyBox_mk, List.mem_cons, List.not_mem_nil, or_false, forall_eq_or_imp, forall_eq]
    simp [Box.Dirty, Box.fresh]
  · refine Prod.ext rfl ?_
    decide +kernel
  · decide +kernel

end Colosseum
