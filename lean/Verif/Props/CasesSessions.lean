import Verif.Props.Cases
import Verif.Props.CasesChanges
import Verif.Props.Boxes
import Verif.Props.Blocks
import Verif.Props.Interrupted
import Verif.Props.Clean
import Verif.Props.Layout
import Verif.Props.Equality
import Verif.Props.Factories
import Verif.Props.Copy
import Verif.Props.Boxless

/-!
# Instances of the theorems on boxes and on sessions

The theorems are applied to documents and boxes such as those of the files where they are stated.
-/

namespace Colosseum

/-! ## Boxes -/

/-- A new document: a block around a block around a block. -/
def nest : Node := block [(.padding .left, px 10)] [block [(.margin .left, px 7)] [block [(.height, px 5)] []]]

/-- Every box of a document is the given one. -/
def Node.eachBox (b : Box) : Node → Bool
  | .mk _ _ l cs => (match l with | none => true | some x => x == b) && eachBoxes b cs
where
  eachBoxes (b : Box) : List Node → Bool
    | [] => true
    | c :: cs => c.eachBox b && eachBoxes b cs

theorem eachBoxes_mem {b : Box} {cs : List Node} (h : Node.eachBox.eachBoxes b cs = true) {c : Node} (hc : c ∈ cs) : c.eachBox b = true := by
  induction cs with
  | nil => cases hc
  | cons x cs ih =>
    simp only [Node.eachBox.eachBoxes, Bool.and_eq_true] at h
    rcases List.mem_cons.1 hc with rfl | hc
    · exact h.1
    · exact ih h.2 hc

theorem eachBox_every {b : Box} : ∀ {n : Node}, n.eachBox b = true → EveryBox (· = b) n
  | .mk s z l cs, h => by
    simp only [Node.eachBox, Bool.and_eq_true] at h
    rw [everyBox_mk]
    refine ⟨?_, fun c hc => eachBox_every (eachBoxes_mem h.2 hc)⟩
    intro x hx
    rw [hx] at h
    exact eq_of_beq h.1

theorem nest_fresh : EveryBox (· = Box.fresh) nest := eachBox_every (by decide +kernel)

theorem nest_marked (E : Env) : Marked E nest := .start _ (by
  intro m hm b hb
  rw [nest_fresh m hm b hb]
  exact rfl)

example (E : Env) := C37_spreads_partial E nest _ [0] (nest_marked E) rfl
example (E : Env) := C38_box E nest (.width (some (.int 5))) (nest_marked E) (by simp [nest, block, node, Node.intrinsic, Intrinsic.Has, Intrinsic.initial, SameNum])
example := C40_new .b64 .h nest nest_fresh
example (E : Env) := C40_kept E .h [([], .move .h (.int 7)), ([0, 0], .move .h (.int 5)), ([], .reset)]
  (fun x hx => by
    simp only [List.mem_cons, List.not_mem_nil, or_false] at hx
    rcases hx with rfl | rfl | rfl
    · exact (fun h => by cases h)
    · exact (fun h => by cases h)
    · exact fun _ => rfl) nest (C40_new E.fp .h nest nest_fresh)

/-- The document with the root moved to the right by 7 and its child by 5. -/
def moved : Node := (nest.doAt exampleEnv [] (.move .h (.int 7))).doAt exampleEnv [0] (.move .h (.int 5))

theorem moved_coherent : Coherent exampleEnv.fp .h moved :=
  C40_kept exampleEnv .h [([], .move .h (.int 7)), ([0], .move .h (.int 5))] (fun x hx => by
    simp only [List.mem_cons, List.not_mem_nil, or_false] at hx
    rcases hx with rfl | rfl <;> exact (fun h => by cases h)) nest (C40_new _ .h nest nest_fresh)

example := C40_sum .b64 .h moved (64 * 1000) moved_coherent [{ Box.fresh with h := ⟨.int 0, .int 7⟩ }] { Box.fresh with h := ⟨.int 7, .int 5⟩ }
  { Box.fresh with h := ⟨.int 0, .int 7⟩ } rfl (.step rfl (List.mem_singleton.2 rfl) (.here rfl))
  (fun x hx => by
    simp only [List.mem_cons, List.not_mem_nil, or_false] at hx
    rcases hx with rfl | rfl <;> exact smallTest_fits (by decide)) (smallTest_fits (by decide)) (by decide)

/-- A box with paddings of 1.5 and a content of 10 by 4. -/
def padded15 : Box := { Box.fresh with padding := .all (.flt (3 / 2)), contentWidth := some (.int 10), contentHeight := some (.int 4) }

theorem padded15_fits : padded15.Fits .b64 (2 ^ 50) := by
  have h0 : Fits .b64 (2 ^ 50) (.int 0) := Or.inr ⟨b64_laws, 0, by simp, by simp⟩
  have h1 : Fits .b64 (2 ^ 50) (.flt (3 / 2)) := Or.inr ⟨b64_laws, 96, by simp only [Num.val_flt]; norm_num, by norm_num⟩
  have h2 : Fits .b64 (2 ^ 50) (.int 10) := Or.inr ⟨b64_laws, 640, by simp only [Num.val_int]; norm_num, by norm_num⟩
  have h3 : Fits .b64 (2 ^ 50) (.int 4) := Or.inr ⟨b64_laws, 256, by simp only [Num.val_int]; norm_num, by norm_num⟩
  refine ⟨fun a => ?_, fun w h => ?_, fun w h => ?_, fun t => ?_, fun t => ?_⟩
  · cases a <;> exact ⟨h0, h0⟩
  · cases h; exact h2
  · cases h; exact h3
  · cases t <;> exact h0
  · cases t <;> exact h1

example := C39_horizontal .b64 padded15 _ rfl padded15_fits
example := C39_vertical .b64 padded15 _ rfl padded15_fits
example := C41_all_integers .top [.margin .top (.num (.int 3)), .margin .top .auto, .collapse .top (.num (.int 5))]
  (fun v hv q e => by
    subst e
    simp at hv) 5 (.inr (by simp))

/-! ## Sessions -/

theorem twoBlocks_laid : layout .b64 screen false none twoBlocks = .ok (laidDoc .b64 screen twoBlocks) := laidDoc_ok (by decide +kernel)

theorem twoBlocks_touched (E : Env) : Touched E ((laidDoc .b64 screen twoBlocks).markLayout (some false)).1
    (((laidDoc .b64 screen twoBlocks).markLayout (some false)).1.atPath (fun n => (n.setSize (.width none)).1) [0]) :=
  .step [0] (.size (.width none)) .start (by decide +kernel) (fun _ _ e => nomatch e)

theorem twoBlocks_spotless : (((laidDoc .b64 screen twoBlocks).markLayout (some false)).1.atPath (fun n => (n.setSize (.width none)).1) [0]).spotless = true := by
  decide +kernel

example (E : Env) := C100_unchanged E _ _ (twoBlocks_touched E) (spotless_boxes twoBlocks_spotless)
example := C100_good exampleEnv screen false none twoBlocks _ _ (full_boxed _ (by decide +kernel)) twoBlocks_laid (twoBlocks_touched _) (spotless_boxes twoBlocks_spotless)

theorem nest_places : ∀ q : List Nat, (nest.boxAt q).isSome = (moved.boxAt q).isSome
  | [] | [0] | [0, 0] | 0 :: 0 :: 0 :: _ | 0 :: 0 :: (_ + 1) :: _ | 0 :: (_ + 1) :: _ | (_ + 1) :: _ => rfl

theorem nest_same : SameDoc nest moved := rfl
theorem nest_boxed : AllBoxed nest := full_boxed _ (by decide +kernel)
theorem moved_boxed : AllBoxed moved := full_boxed _ (by decide +kernel)
theorem nest_laid : layout .b64 screen false none nest = .ok (laidDoc .b64 screen nest) := laidDoc_ok (by decide +kernel)

example := C43_contents_partial .b64 screen false none nest moved _ nest_same nest_places nest_boxed nest_laid

theorem occurs_child {m n c : Node} (h : Occurs m n) (hc : c ∈ m.children) : Occurs c n := by
  induction h with
  | here => exact .step hc (.here c)
  | step h _ ih => exact .step h ih

theorem allBlocks_straight : NoStray allBlocks := fun _ hm _ c hc =>
  (allBlocks_plain.2 c (occurs_child (visible_occurs hm) hc)).1
theorem allBlocks_laid : layout .b64 screen false none allBlocks = .ok (laidDoc .b64 screen allBlocks) := laidDoc_ok (by decide +kernel)

example := C43_blocks_partial .b64 screen false none allBlocks _ _ (layout_strip allBlocks_laid).symm allBlocks_plain.1
  (C43_again_partial .b64 screen false none allBlocks _ allBlocks_plain.1 allBlocks_laid).choose_spec.2.2 allBlocks_straight allBlocks_laid
example := C53_all_partial .b64 screen false none allBlocks _ allBlocks allBlocks_laid allBlocks_straight (.here nofun)
theorem nest_shown : Shown (laidDoc .b64 screen nest) [((laidBox .b64 screen nest []).getD .fresh)] ((laidBox .b64 screen nest [0]).getD .fresh) := by
  have h : (laidDoc .b64 screen nest).children[0]? = some ((laidDoc .b64 screen nest).at [0]) := by
    have : (laidDoc .b64 screen nest).children[0]?.isSome = true := by decide +kernel
    obtain ⟨c, hc⟩ := Option.isSome_iff_exists.1 this
    simp only [Node.at, Node.find, hc, Option.bind_some, Option.getD_some]
  refine .step (by decide +kernel) (List.mem_of_getElem? h) (.here (by decide +kernel))

example := C49_sum_partial .b64 screen false none nest _ nest_boxed nest_laid .h [((laidBox .b64 screen nest []).getD .fresh)] ((laidBox .b64 screen nest [0]).getD .fresh)
  nest_shown (64 * 1000) (.inr b64_laws)
  (fun x hx => by
    simp only [List.mem_cons, List.not_mem_nil, or_false] at hx
    rcases hx with rfl | rfl <;> exact smallTest_fits (by decide +kernel)) (by decide)

/-- A document that is refused after its first block was laid out. -/
def refused : Node := block [(.padding .left, px 10)] [block [(.height, px 10)] [], block [(.float, kw "left")] []]

theorem refused_boxed : AllBoxed refused := full_boxed _ (by decide +kernel)

theorem refused_run : runLayout .b64 screen false none refused = ((runLayout .b64 screen false none refused).1, some .notImplemented) := by
  refine Prod.ext rfl ?_
  decide +kernel

theorem refused_marked (E : Env) : Marked E refused := .start _ (by
  intro m hm b hb
  rw [(eachBox_every (b := Box.fresh) (by decide +kernel) : EveryBox (· = Box.fresh) refused) m hm b hb]
  exact rfl)

example := C67_usable .b64 screen false none refused _ _ refused_boxed refused_run
example := C43_history_partial .b64 refused _ refused_boxed (.laid screen false none (.laid screen true none .start)) screen false none
example := C67_dirty exampleEnv screen false none refused _ _ (refused_marked _) nofun refused_run

/-! ## Values -/

example := C75_transitive .orphans .width .height (.num (.fin (.int 2))) (.unit ⟨.len .px, .fin (.int 2)⟩) (.unit ⟨.len .px, .fin (.flt 2)⟩)
  (.inr ⟨.integer, rfl, 2, rfl⟩) (.inr ⟨.length, rfl, _, rfl⟩) (.inr ⟨.length, rfl, _, rfl⟩) (by decide +kernel) (by decide +kernel)
example := C75_reflexive .width (.unit ⟨.len .px, .nan⟩) (.inr ⟨.length, rfl, _, rfl⟩)
example (reprFloat : Rat → PyStr) := C75_text reprFloat ⟨.len .px, .fin (.int 12)⟩ ⟨.len .px, .fin (.flt 12)⟩ (by decide +kernel)

example (E : Env) := C107_validated E ⟨[kw "left", kw "right", .none], [], []⟩ (.val .none : Given Unit) [.set (kw "left"), .set (kw "middle")] 0 ⟨none, .box (some false)⟩ nofun
example (E : Env) := C107_read_back E [] ⟨[kw "left", kw "right", .none], [], []⟩ (.val .none : Given Unit) () ⟨none, .box (some false)⟩
  ⟨some (kw "left"), .box (some true)⟩ (kw "left") (kw "left") (kw "left") rfl rfl rfl
example (E : Env) := C107_refused E [] ⟨[kw "left", kw "right", .none], [], []⟩ (.val .none : Given Unit) ⟨none, .box (some false)⟩ (kw "middle") .value rfl
example (E : Env) := C107_marks E [] ⟨[kw "left", kw "right", .none], [], []⟩ (.val .none : Given Unit) ⟨none, .box (some false)⟩ rfl (kw "left")
example := C107_delete_marks ⟨some (kw "left"), .box (some false)⟩ rfl
example (E : Env) (L : E.fp.Laws) := C107_commented E L [] _ (List.head_mem (l := commentedOut) nofun)

example (E : Env) := C115_style E (.mk CSS.empty .initial none []) rfl (.lh .width)
example (E : Env) := C115_assign E [] CSS.empty (.dir .margin) nofun (.num (.fin (.int 3)))

end Colosseum
