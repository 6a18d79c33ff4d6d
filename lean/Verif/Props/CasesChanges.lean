import Verif.Props.Cases
import Verif.Props.Boundary
import Verif.Props.Resize
import Verif.Props.Root
import Verif.Props.Aligned
import Verif.Props.Blocks
import Verif.Props.Place
import Verif.Props.Placed
import Verif.Props.Without
import Verif.Props.Siblings
import Verif.Props.Stops
import Verif.Props.Viable
import Verif.Props.Unread
import Verif.Props.Offsets

/-!
# Instances of the theorems on two layouts

The theorems that compare the layouts of two documents, or say whether there is one, applied to the documents of the files where they are stated.
-/

namespace Colosseum

/-! ## Small numbers -/

/-- A whole number of at most `k` pixels. -/
def Num.smallTest (k : Nat) : Num → Bool
  | .int i => i.natAbs ≤ k
  | .flt _ => false

theorem smallTest_fits {k : Nat} {x : Num} (h : x.smallTest k = true) : Fits .b64 (64 * k) x := by
  cases x with
  | flt r => cases h
  | int i =>
    refine .inr ⟨b64_laws, 64 * i, by simp only [Num.val_int]; push_cast; ring, ?_⟩
    have : i.natAbs ≤ k := by simpa [Num.smallTest] using h
    rw [Int.natAbs_mul]
    exact Nat.mul_le_mul_left _ this

theorem path_fits {n : Node} {a : Axis} {q : List Nat} {k : Nat}
    (h : ((List.range (q.length + 1)).all fun i => ((n.boxAt (q.take i)).map fun b => (b.pos a).content.smallTest k).getD true) = true) :
    ∀ t b, t <+: q → n.boxAt t = some b → Fits .b64 (64 * k) (b.pos a).content := by
  intro t b ht hb
  have e := List.prefix_iff_eq_take.1 ht
  have := List.all_eq_true.1 h t.length (List.mem_range.2 (by have := ht.length_le; omega))
  rw [← e, hb] at this
  exact smallTest_fits this

theorem path_small {n : Node} {a : Axis} {q : List Nat} {k : Nat} (hk : k ≤ 2 ^ 40)
    (h : ((List.range (q.length + 1)).all fun i => ((n.boxAt (q.take i)).map fun b => (b.pos a).content.smallTest k).getD true) = true) :
    ∀ t b, t <+: q → n.boxAt t = some b → |(b.pos a).content.val| ≤ 2 ^ 40 := by
  intro t b ht hb
  have e := List.prefix_iff_eq_take.1 ht
  have := List.all_eq_true.1 h t.length (List.mem_range.2 (by have := ht.length_le; omega))
  rw [← e, hb] at this
  change (b.pos a).content.smallTest k = true at this
  cases hx : (b.pos a).content with
  | flt r => rw [hx] at this; cases this
  | int i =>
    rw [hx] at this
    have : i.natAbs ≤ k := by simpa [Num.smallTest] using this
    have : |i| ≤ 2 ^ 40 := abs_le.2 ⟨by omega, by omega⟩
    rw [Num.val_int]
    exact_mod_cast this

/-! ## C48, C54, C77: other elements -/

theorem haunted_laid : layout .b64 screen false none haunted = .ok (laidDoc .b64 screen haunted) := laidDoc_ok (by decide +kernel)
theorem freed_laid : layout .b64 screen false none freed = .ok (laidDoc .b64 screen freed) := laidDoc_ok (by decide +kernel)
theorem haunted_boxed : AllBoxed haunted := full_boxed _ (by decide +kernel)
theorem freed_boxed : AllBoxed freed := full_boxed _ (by decide +kernel)

example := C48_without_partial .b64 screen false none haunted freed _ haunted_boxed freed_boxed freed_without haunted_laid

theorem haunted_first : shownIn (haunted.children.take 1) = shownIn (freed.children.take 1) := by
  have k : ∀ c, ¬ c.Hidden → shownIn [c] = 1 := fun c h => by
    unfold shownIn
    rw [List.filter_cons_of_pos (by simp [h]), List.filter_nil, List.length_cons, List.length_nil]
  exact (k (block [] [ghost, span [] 20 10, ghost, span [(.margin .left, px 4)] 30 12]) nofun).trans
    (k (block [] [span [] 20 10, node [(.display, .none)] [], span [(.margin .left, px 4)] 30 12]) nofun).symm

example := C48_place_partial .b64 (.inr b64_laws) screen false none haunted freed _ _ haunted_boxed freed_boxed freed_without haunted_laid freed_laid .v (64 * 1000) [1] [1]
  (.step nofun nofun rfl rfl nofun nofun haunted_first (.here _ _)) (path_fits (by decide +kernel)) (by decide) ((laidBox .b64 screen haunted [1]).getD .fresh)
  ((laidBox .b64 screen freed [1]).getD .fresh) (by decide +kernel) (by decide +kernel)
example := C108_place .b64 b64_laws screen false none slanted _ _ (full_boxed _ (by decide +kernel)) (laidDoc_ok (by decide +kernel)) (laidDoc_ok (by decide +kernel)) .v (64 * 1000) [1]
  (path_fits (by decide +kernel)) (by decide) ((laidBox .b64 screen slanted [1]).getD .fresh) ((laidBox .b64 screen (slanted.level none) [1]).getD .fresh)
  (by decide +kernel) (by decide +kernel)

theorem short_upTo : UpTo short long [1, 0] :=
  .deep (xs := [block [(.height, px 10), (.margin .bottom, px 7)] []]) (.here (xs := [block [(.margin .left, px 2), (.height, px 5)] []]) (by decide))
theorem short_laid : layout .b64 screen false none short = .ok (laidDoc .b64 screen short) := laidDoc_ok (by decide +kernel)
theorem long_laid : layout .b64 screen false none long = .ok (laidDoc .b64 screen long) := laidDoc_ok (by decide +kernel)
theorem short_boxed : AllBoxed short := full_boxed _ (by decide +kernel)
theorem long_boxed : AllBoxed long := full_boxed _ (by decide +kernel)

example := C54_before_partial .b64 screen false none short long _ _ _ short_boxed long_boxed short_upTo short_laid long_laid
example := C54_place_partial .b64 screen false none short long _ _ _ short_boxed long_boxed short_upTo short_laid long_laid .v (64 * 1000) (.inr b64_laws)
  (path_fits (by decide +kernel)) (by decide) ((laidBox .b64 screen short [1, 0]).getD .fresh) ((laidBox .b64 screen long [1, 0]).getD .fresh) (by decide +kernel) (by decide +kernel)
example := C54_append_partial .b64 screen false none _ _ _ [block [(.height, px 10)] []] [block [(.height, px 7)] [], block [(.margin .top, px 90)] []] _ _
  (full_boxed (block [(.padding .top, px 3)] [block [(.height, px 10)] []]) (by decide +kernel))
  (full_boxed (block [(.padding .top, px 3)] [block [(.height, px 10)] [], block [(.height, px 7)] [], block [(.margin .top, px 90)] []]) (by decide +kernel))
  (laidDoc_ok (by decide +kernel)) (laidDoc_ok (by decide +kernel)) 0 (by decide) []

theorem alone_crowded : SameWithin alone crowded [0, 0] [1, 1] := by
  refine .deep ?_ rfl rfl (.deep ?_ rfl rfl .here) <;>
  · rw [← blockContext_iff, ← blockContext_iff]
    decide +kernel

example := C77_company .b64 screen false none alone crowded _ _ 0 1 [0] [1] (full_boxed _ (by decide +kernel)) (full_boxed _ (by decide +kernel)) alone_crowded
  (laidDoc_ok (by decide +kernel)) (laidDoc_ok (by decide +kernel))
example := C77_reordered .b64 screen false none _ _ _ [guest, block [(.height, px 10)] []] [block [(.height, px 10)] [], guest] _ _
  (full_boxed (block [(.padding .top, px 3)] [guest, block [(.height, px 10)] []]) (by decide +kernel)) (.swap _ _ _)
  (laidDoc_ok (by decide +kernel)) (laidDoc_ok (by decide +kernel)) 0 1 guest rfl rfl

/-! ## C50, C66, C87, C99, C109: other styles, contents and displays -/

example := C87_aligned_partial .b64 screen false false none none flat tall _ _ flat_tall (laidDoc_ok (by decide +kernel)) (laidDoc_ok (by decide +kernel))

theorem fixed_paths : (fixedIn []).atPath (fun _ => block [(.height, px 20), (.margin .bottom, px 3)] [block [(.margin .top, px 30), (.height, px 100)] []]) [1, 0] =
    fixedIn [block [(.margin .top, px 30), (.height, px 100)] []] := rfl

/-- The relatively positioned block is moved to the right, or up. -/
example := C50_left_only .b64 screen false none (between3 []) _ _ [1] (block [(.position, kw "relative"), (.padding .top, px 3)] []).style
  (block [(.position, kw "relative"), (.padding .top, px 3), (.left, px 6)] []).style _ _ _
  (full_boxed _ (by decide +kernel)) rfl (fun p h1 _ => by cases p <;> first | rfl | exact absurd rfl h1)
  (laidDoc_ok (by decide +kernel)) (laidDoc_ok (n := between3 [(.left, px 6)]) (by decide +kernel))
example := C50_top_only_partial .b64 screen false none (between3 []) _ _ [1] (block [(.position, kw "relative"), (.padding .top, px 3)] []).style
  (block [(.position, kw "relative"), (.padding .top, px 3), (.bottom, px 9)] []).style _ _ _
  (full_boxed _ (by decide +kernel)) rfl (fun p h1 h2 => by cases p <;> first | rfl | exact absurd rfl h1 | exact absurd rfl h2)
  (fun q0 i m hq hm _ _ => by
    cases q0 with
    | nil =>
      cases hq
      cases hm
      decide
    | cons a q0 => cases q0 <;> cases hq)
  (laidDoc_ok (by decide +kernel)) (laidDoc_ok (n := between3 [(.bottom, px 9)]) (by decide +kernel))

theorem adaptive_steady : adaptiveDoc.Throughout fun s z => s.Fixed ∧ s.Steady z :=
  ⟨⟨fixed_of (by decide +kernel), steady_of (by decide +kernel) (by decide +kernel)⟩,
    ⟨⟨fixed_of (by decide +kernel), steady_of (by decide +kernel) (by decide +kernel)⟩, trivial⟩,
    ⟨⟨fixed_of (by decide +kernel), steady_of (by decide +kernel) (by decide +kernel)⟩,
      ⟨⟨fixed_of (by decide +kernel), steady_of (by decide +kernel) (by decide +kernel)⟩, trivial⟩, trivial⟩, trivial⟩

theorem adaptive_fixed : adaptiveDoc.Throughout fun s _ => s.Fixed :=
  ⟨fixed_of (by decide +kernel), ⟨fixed_of (by decide +kernel), trivial⟩, ⟨fixed_of (by decide +kernel), ⟨fixed_of (by decide +kernel), trivial⟩, trivial⟩, trivial⟩

example := C109_width .b64 screen narrowScreen ⟨rfl, rfl, rfl, rfl⟩ rfl false none adaptiveDoc (full_boxed _ (by decide +kernel)) adaptive_steady nofun
example := C109_height .b64 screen lowScreen ⟨rfl, rfl, rfl, rfl⟩ rfl true none adaptiveDoc (full_boxed _ (by decide +kernel)) adaptive_fixed
  (by unfold CSS.Rigid; decide +kernel) nofun

example := C99_outside .b64 screen false none (fixedIn []) _ _ [1, 0] _ _ _ (some .fresh) _ [block [(.margin .top, px 30), (.height, px 100)] []]
  (full_boxed _ (by decide +kernel)) (full_boxed (fixedIn [block [(.margin .top, px 30), (.height, px 100)] []]) (by decide +kernel)) rfl rfl (.inl nofun)
  (laidDoc_ok (by decide +kernel)) (laidDoc_ok (n := fixedIn [block [(.margin .top, px 30), (.height, px 100)] []]) (by decide +kernel))
  [1, 1] (by decide) (fun k => by cases k <;> simp [List.replicate_succ])
example := C99_first .b64 screen false none (fixedIn []) _ _ [1, 0] _ _ _ (some .fresh) _ [block [(.margin .top, px 30), (.height, px 100)] []]
  (full_boxed _ (by decide +kernel)) (full_boxed (fixedIn [block [(.margin .top, px 30), (.height, px 100)] []]) (by decide +kernel)) rfl rfl (.inl nofun)
  (laidDoc_ok (by decide +kernel)) (laidDoc_ok (n := fixedIn [block [(.margin .top, px 30), (.height, px 100)] []]) (by decide +kernel))
  [1] (by decide) (by decide)
example := C99_root .b64 screen false none (fixedIn []) _ _ [1, 0] _ _ _ (some .fresh) _ [block [(.margin .top, px 30), (.height, px 100)] []]
  (full_boxed _ (by decide +kernel)) (full_boxed (fixedIn [block [(.margin .top, px 30), (.height, px 100)] []]) (by decide +kernel)) rfl rfl (.inl nofun)
  (laidDoc_ok (by decide +kernel)) (laidDoc_ok (n := fixedIn [block [(.margin .top, px 30), (.height, px 100)] []]) (by decide +kernel))

theorem painted_looks : plainDoc.looks = paintedDoc.looks := by
  have e : ∀ s s' : CSS, (∀ p, s.looks p = s'.looks p) → s.looks = s'.looks := fun s s' h => funext h
  simp only [plainDoc, paintedDoc, block, node, Node.looks, Node.restyle, restyleAll]
  congr 1
  · apply e; intro p; cases p <;> rfl
  · congr 1
    congr 1
    apply e; intro p; cases p <;> rfl

example := C66_looks .b64 screen false none none plainDoc paintedDoc rfl painted_looks
example := C66_boxes .b64 screen false none none plainDoc paintedDoc _ rfl painted_looks (laidDoc_ok (by decide +kernel))

/-! ## C51, C52, C78, C85: whether there is a layout, and the root -/

theorem mixture_sized : mixture.sizedTest = true := by decide +kernel
theorem mixture_laid : layout .b64 screen false none mixture = .ok (laidDoc .b64 screen mixture) := laidDoc_ok (by decide +kernel)

example := C78_needed .b64 screen false none mixture _ mixture_laid
example := C78_exactly .b64 screen false none mixture (fun _ hm => (sizedTest_all mixture_sized hm).1) (fun _ hm _ => (sizedTest_all mixture_sized (reached_occurs hm)).2) nofun

example := C52_blocks_partial .b64 screen false none allBlocks allBlocks_plain.1 allBlocks_plain.2 nofun

theorem failure_stops {x : Node × Err} (hx : x ∈ failures) (hh : ¬ x.1.Hidden) : Stops x.1 x.2 := by
  obtain ⟨h1, h2⟩ := failures_raise x hx
  refine ((C85_exception .b64 screen false none x.1 x.2 (fun m hm => (sizedTest_all h1 hm).1) (fun m hm _ => (sizedTest_all h1 (reached_occurs hm)).2) nofun).1 ?_).resolve_left
    fun h => hh h.1
  cases hl : layout .b64 screen false none x.1 with
  | ok n => rw [hl] at h2; cases h2
  | error e =>
    rw [hl] at h2
    rw [eq_of_beq h2]

example (x : Node × Err) (hx : x ∈ failures) (hh : ¬ x.1.Hidden) :=
  C85_unique x.1 x.2 x.2 (fun _ hm => (sizedTest_all (failures_raise x hx).1 hm).1) (fun _ hm _ => (sizedTest_all (failures_raise x hx).1 (reached_occurs hm)).2)
    (failure_stops hx hh) (failure_stops hx hh)
example (x : Node × Err) (hx : x ∈ failures) : ∃ e, layout .b64 screen false none x.1 = .error e ∧ (e = .notImplemented → ∃ m, Reached m x.1 ∧ ¬ m.Hidden ∧ m.Unsupported) := by
  obtain ⟨h1, h2⟩ := failures_raise x hx
  cases hl : layout .b64 screen false none x.1 with
  | ok n => rw [hl] at h2; cases h2
  | error e => exact ⟨e, rfl, (C85_refused .b64 screen false none x.1 e hl).1⟩

/-- A root with margins that collapse through its children. -/
def edged : Node := block [(.margin .top, px 3)] [block [(.margin .bottom, px 4)] [block [(.height, px 10), (.margin .top, px 7), (.margin .bottom, px 9)] []]]

example := C51_top_partial .b64 screen false none edged _ (64 * 1000) (full_boxed _ (by decide +kernel)) (laidDoc_ok (by decide +kernel))
  ((blockLevel_iff _).1 (by decide +kernel))
  (fun h => absurd ((isKw_iff _ "relative").2 h) (by decide +kernel))
  (fun b hb => by
    have : (laidDoc .b64 screen edged).layout.all (fun b => (Num.int b.collapse.top).smallTest 1000 && b.border.top.smallTest 1000 && b.padding.top.smallTest 1000) = true := by
      decide +kernel
    rw [hb] at this
    simp only [Option.all_some, Bool.and_eq_true] at this
    exact ⟨smallTest_fits this.1.1, smallTest_fits this.1.2, smallTest_fits this.2⟩) (by decide)

end Colosseum
