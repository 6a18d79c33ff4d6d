import Verif.Lemmas.Cases
import Verif.Props.Widths
import Verif.Props.Stacks
import Verif.Props.Margins
import Verif.Props.Heights
import Verif.Props.Inline
import Verif.Props.Limits
import Verif.Props.Relative
import Verif.Props.Root
import Verif.Props.Offsets
import Verif.Props.Edges
import Verif.Props.Shares

/-!
# Instances of the theorems on layout

The theorems of the other files are applied to elements of one document, so that their hypotheses are seen to hold of something. The document has blocks with
lengths and percentages, a relatively positioned block, and inline elements, one of them replaced.
-/

namespace Colosseum

/-- The document. -/
def album : Node :=
  block [(.padding .left, px 20)] [
    block [(.width, px 100), (.margin .left, px 7), (.margin .right, kw "auto"), (.borderWidth .left, px 3), (.padding .right, px 11), (.height, px 50), (.maxHeight, px 45)] [
      block [(.height, pct 50), (.padding .left, pct 10), (.margin .top, pct 5), (.width, pct 40)] [block [(.height, pct 25)] []],
      block [(.height, px 9), (.maxHeight, pct 30)] []],
    block [(.position, kw "relative"), (.left, px 5), (.top, px 3), (.height, px 8), (.margin .top, px 4)] [],
    block [] [span [(.margin .left, px 2), (.margin .top, px 1)] 50 10, picture [(.margin .left, px 6), (.padding .top, px 2)] 40 30],
    block [(.minHeight, px 12), (.borderWidth .top, kw "thick")] [],
    block [(.margin .top, px 6)] [block [(.height, px 3)] [], block [(.height, px 5), (.margin .top, px 2)] []]]

theorem album_laid : layout .b64 screen false none album = .ok (laidDoc .b64 screen album) := laidDoc_ok (by decide +kernel)

theorem album_boxed : AllBoxed album := boxedTest_sound (by decide +kernel)

theorem album_style {q : List Nat} (hq : (album.find q).isSome = true) : ((laidDoc .b64 screen album).at q).style = (album.at q).style := (at_same album_laid hq).1

theorem album_get {q : List Nat} (hq : (album.find q).isSome = true) {l : LH} {v : Val} (h : (album.at q).style.get l = v) :
    ((laidDoc .b64 screen album).at q).style.get l = v := by rw [album_style hq]; exact h

theorem album_block {q : List Nat} (hq : (album.find q).isSome = true) (h : (album.at q).style.get .display = kw "block") :
    ((laidDoc .b64 screen album).at q).BlockLevel := .inl (album_get hq h)

theorem album_shown {q : List Nat} (hq : (album.find q).isSome = true) (h : (album.at q).style.get .display = kw "block" ∨ (album.at q).style.get .display = kw "inline") :
    ¬ ((laidDoc .b64 screen album).at q).Hidden := by
  unfold Node.Hidden
  rw [album_style hq]
  rcases h with e | e <;> rw [e] <;> exact nofun

theorem album_static {q : List Nat} (hq : (album.find q).isSome = true) (h : (album.at q).style.get .position = kw "static") :
    ¬ ((laidDoc .b64 screen album).at q).Relative := by
  unfold Node.Relative
  rw [album_style hq, h]
  intro e
  exact absurd ((isKw_iff (kw "static") "relative").2 e) (by decide +kernel)

theorem album_length {q : List Nat} (hq : (album.find q).isSome = true) {l : LH} {n : Int} {x : Num} (h : (album.at q).style.get l = px n)
    (hx : pxOf .b64 .px (.fin (.int n)) ⟨screen, dummyFont .b64, none⟩ = .ok x) :
    (((laidDoc .b64 screen album).at q).style.get l).Length .b64 screen (dummyFont .b64) x := by
  rw [album_get hq h]
  exact ⟨.px, .fin (.int n), rfl, (nomatch ·), hx⟩

theorem album_margin {q : List Nat} (hq : (album.find q).isSome = true) {l : LH} {n : Int} {w : Option Num} {x : Num} (h : (album.at q).style.get l = px n)
    (hx : pxOf .b64 .px (.fin (.int n)) ⟨screen, dummyFont .b64, none⟩ = .ok x) :
    (((laidDoc .b64 screen album).at q).style.get l).Margin .b64 ⟨screen, dummyFont .b64, w⟩ (some x) := by
  rw [album_get hq h]
  exact ⟨_, rfl, hx⟩

theorem album_grid : ∀ k, Visible k album → k.intrinsic.OnGrid := gridTests_sound (by decide +kernel)

/-! ## Widths -/

example := C44_fills_partial .b64 screen false none _ album _ _ _ album_laid (route_within (q := []) (i := 0) _ _ (by decide +kernel)) (album_block rfl rfl)
example := C44_fills_partial .b64 screen false none _ album _ _ _ album_laid (route_within (q := [0]) (i := 0) _ _ (by decide +kernel)) (album_block rfl rfl)
example := C64_margins_partial .b64 screen false none _ album _ _ _ (some (.int 7)) none album_laid (route_within (q := []) (i := 0) _ _ (by decide +kernel))
  (album_block rfl rfl) (album_margin rfl rfl (by decide +kernel)) (album_get rfl rfl)
example := C64_grid_partial .b64 b64_laws screen false none _ album _ _ _ (some (.int 7)) none screen_onGrid album_boxed album_grid album_laid (route_within (q := []) (i := 0) _ _ (by decide +kernel))
  (album_block rfl rfl) (album_margin rfl rfl (by decide +kernel)) (album_get rfl rfl)
example := C47_width_partial .b64 screen false none _ album _ _ _ album_laid (route_within (q := []) (i := 0) _ _ (by decide +kernel)) (album_block rfl rfl)
  (by rw [album_style rfl]; exact nofun)
example := C55_percent_partial .b64 b64_sharp screen false none _ album _ _ _ (.int 40) album_laid (route_within (q := [0]) (i := 0) _ _ (by decide +kernel)) (album_block rfl rfl)

/-! ## Positions -/

example := C50_left_partial .b64 screen false true none _ album _ _ _ (some (.int 5)) none album_laid (route_within (q := []) (i := 1) _ _ (by decide +kernel)) (album_block rfl rfl)
  (album_get rfl rfl) (album_margin rfl rfl (by decide +kernel)) (album_get rfl rfl) (.inr (.inl rfl))
example := C65_left_partial .b64 screen false none _ album _ _ _ album_laid (route_within (q := []) (i := 0) _ _ (by decide +kernel)) (album_block rfl rfl) (album_static rfl rfl)
example := C65_added .b64 screen false none _ album _ _ _ album_laid (route_within (q := []) (i := 0) _ _ (by decide +kernel)) (album_block rfl rfl) (album_static rfl rfl)

/-- The blocks of the document stand below each other. -/
theorem album_context {q : List Nat} (hq : (album.find q).isSome = true) (hb : (album.at q).style.get .display = kw "block")
    (hr : (album.at q).intrinsic.isReplaced = false) (hc : (((laidDoc .b64 screen album).at q).children.any fun c => isBlockLevel c.style) = true) :
    ((laidDoc .b64 screen album).at q).BlockContext := by
  refine ⟨.inl (album_get hq hb), by rw [(at_same album_laid hq).2]; exact hr, ?_⟩
  obtain ⟨c, hc, h⟩ := List.any_eq_true.1 hc
  exact ⟨c, hc, (blockLevel_iff c).1 h⟩

example := C45_stack_partial .b64 screen false none none album _ _ _ album_boxed album_laid (.here _ _ _) (album_shown (q := []) rfl (.inl rfl))
  (album_context (q := []) rfl rfl rfl (by decide +kernel))
example := C50_top_partial .b64 screen false none none album _ _ _ album_boxed album_laid (.here _ _ _) (album_shown (q := []) rfl (.inl rfl))
  (album_context (q := []) rfl rfl rfl (by decide +kernel))
example := C45_next_partial .b64 b64_laws screen false none _ album _ _ _ 1000 screen_onGrid album_boxed album_grid album_laid (route_within (q := []) (i := 4) _ _ (by decide +kernel))
  (album_shown rfl (.inl rfl)) (album_context rfl rfl rfl (by decide +kernel)) (belows (by decide +kernel)) (by decide +kernel)

/-! ## Heights -/

example := C71_length .b64 screen false none _ album _ _ _ (.int 50) album_laid (route_inside false (q := []) (i := 0) _ _ (by decide +kernel)) (album_block rfl rfl)
  (album_length rfl rfl (by decide +kernel)) (.inr ⟨.int 45, album_length rfl rfl (by decide +kernel)⟩)
example := C71_percent_partial .b64 b64_sharp screen false none _ album _ _ _ (.int 50) (.int 50) album_laid (route_inside false (q := [0]) (i := 0) _ _ (by decide +kernel)) (album_block rfl rfl)
  (album_get rfl rfl) (album_length rfl rfl (by decide +kernel)) (.inl (album_get rfl rfl))
example := C71_false_indefinite .b64 b64_laws screen false none _ album _ _ _ (.int 25) album_boxed album_laid (route_inside true (q := [0, 0]) (i := 0) _ _ (by decide +kernel)) (album_block rfl rfl)
  (album_get rfl rfl) (album_static rfl rfl) (.inr ⟨.int 50, album_get rfl rfl⟩) (album_get rfl rfl)
example := C71_false_max .b64 b64_laws screen false none _ album _ _ _ (.int 30) (.int 9) album_boxed album_laid (route_inside true (q := [0]) (i := 1) _ _ (by decide +kernel)) (album_block rfl rfl)
  (album_static rfl rfl) (album_length rfl rfl (by decide +kernel)) (album_get rfl rfl)
example := C55_false_padding .b64 b64_sharp screen false none _ album _ _ _ (.int 10) .left album_boxed album_laid (route_inside true (q := [0]) (i := 0) _ _ (by decide +kernel)) (album_block rfl rfl)
  (.inl rfl) (album_get rfl rfl)
example := C55_false_margin .b64 b64_sharp screen false none _ album _ _ _ (.int 5) .top album_boxed album_laid (route_inside true (q := [0]) (i := 0) _ _ (by decide +kernel)) (album_shown rfl (.inl rfl))
  (.inl rfl) (album_get rfl rfl)
example := C46_empty_partial .b64 screen false none _ album _ _ _ album_laid (route_inside false (q := []) (i := 3) _ _ (by decide +kernel)) (album_block rfl rfl) (album_get rfl rfl) (List.isEmpty_iff.1 (by decide +kernel))
example := C47_height_partial .b64 screen false none _ album _ _ _ album_laid (route_inside false (q := []) (i := 0) _ _ (by decide +kernel)) (album_block rfl rfl)
example := C46_end_partial .b64 screen false none _ album _ _ ((laidDoc .b64 screen album).at [4, 1]) _ album_laid (route_inside false (q := []) (i := 4) _ _ (by decide +kernel)) (album_block rfl rfl) (album_get rfl rfl)
  (last_at (by decide +kernel))
example := C46_encloses_partial .b64 b64_laws screen false none _ album _ _ _ 1000 screen_onGrid album_boxed album_grid album_laid
  (route_inside false (q := []) (i := 4) _ _ (by decide +kernel)) (album_block rfl rfl) (album_context rfl rfl rfl (by decide +kernel)) (album_get rfl rfl)
  (fun c hc => by
    change ((laidDoc .b64 screen album).at [4]).children.getLast? = some c at hc
    rw [last_at (q := [4]) (i := 1) (by decide +kernel), Option.some.injEq] at hc
    subst hc
    exact ⟨album_block (q := [4, 1]) rfl rfl, album_static (q := [4, 1]) rfl rfl⟩)
  (belows (by decide +kernel)) (by decide +kernel) (standing (by decide +kernel))

/-! ## Edges -/

example := C79_border .b64 b64_laws screen false none _ album _ _ _ .left album_laid (route_within (q := []) (i := 0) _ _ (by decide +kernel)) (album_shown rfl (.inl rfl))
example := C79_padding .b64 b64_laws screen false none _ album _ _ _ .right album_laid (route_within (q := []) (i := 0) _ _ (by decide +kernel)) (album_shown rfl (.inl rfl))
example := C79_vertical .b64 b64_laws screen false none _ album _ _ _ .top (.inl rfl) album_laid (route_within (q := [2]) (i := 0) _ _ (by decide +kernel)) (album_shown rfl (.inr rfl))
example := C79_inline .b64 b64_laws screen false none _ album _ _ _ .left (.inl rfl) album_laid (route_within (q := [2]) (i := 0) _ _ (by decide +kernel)) (album_get rfl rfl)

/-! ## Inline elements -/

example := C72_width .b64 screen false none _ album _ _ _ album_laid (route_within (q := [2]) (i := 0) _ _ (by decide +kernel)) (album_get rfl rfl) (by rw [(at_same album_laid rfl).2]; rfl)
example := C72_height .b64 screen false none _ album _ _ _ album_laid (route_inside false (q := [2]) (i := 0) _ _ (by decide +kernel)) (album_get rfl rfl) (by rw [(at_same album_laid rfl).2]; rfl)
example := C72_top_partial .b64 screen false none _ album _ _ _ album_boxed album_laid (route_inside true (q := [2]) (i := 0) _ _ (by decide +kernel)) (album_get rfl rfl) (album_static rfl rfl)
example := C72_left_partial .b64 screen false none _ album _ _ _ album_boxed album_laid (route_inside true (q := [2]) (i := 1) _ _ (by decide +kernel)) (album_get rfl rfl) (by rw [(at_same album_laid rfl).2]; rfl) (album_static rfl rfl)
example := C72_false_left .b64 screen false none _ album _ _ _ album_boxed album_laid (route_inside true (q := [2]) (i := 0) _ _ (by decide +kernel)) (album_get rfl rfl) (by rw [(at_same album_laid rfl).2]; rfl) (album_static rfl rfl)

/-! ## Documents -/

example := C42_document .b64 screen false none album _ album_laid
example := C42_paths .b64 screen false none album _ album_laid [0, 0]
example := C43_again_partial .b64 screen false none album _ album_boxed album_laid
example := C48_boxes .b64 screen false none album _ _ album_laid (.here _)
example := C49_origins_partial .b64 screen false none album _ album_boxed album_laid .v
example := C53_refused .b64 screen false none album _ _ album_laid (.here _) (by exact nofun)
example := fun bs b hs => C63_grid_partial .b64 b64_laws screen false none album _ screen_onGrid album_boxed album_grid album_laid bs b hs
example := C44_grid_partial .b64 b64_laws screen false none _ album _ _ _ screen_onGrid album_boxed album_grid album_laid
  (route_within (q := []) (i := 0) _ _ (by decide +kernel)) (album_block rfl rfl)

/-! ## The root -/

/-- The document is laid out by the rules of HTML5 as well. -/
example : (layout .b64 screen true none album).isOk = true := by decide +kernel

example := fun n' (h : layout .b64 screen true none album = .ok n') => C51_whole .b64 screen none album n' 480 h rfl

/-- Half as high as the display. -/
def banner : Node := block [(.height, pct 50), (.margin .top, px 9)] [block [(.margin .top, px 12)] []]

theorem banner_laid : layout .b64 screen false none banner = .ok (laidDoc .b64 screen banner) := laidDoc_ok (by decide +kernel)

example := C71_root .b64 b64_sharp screen banner _ (.int 50) (boxedTest_sound (by decide +kernel)) banner_laid
  (.inl (by rw [show (laidDoc .b64 screen banner).style = _ from (at_same (q := []) banner_laid rfl).1]; rfl))
  (by rw [show (laidDoc .b64 screen banner).style = _ from (at_same (q := []) banner_laid rfl).1]; rfl)
  (.inl (by rw [show (laidDoc .b64 screen banner).style = _ from (at_same (q := []) banner_laid rfl).1]; rfl))

example : (laidBox .b64 screen banner []).map (fun b => (b.contentHeight, b.collapse.top, b.borderBoxTop .b64)) = some (some (.int 240), 12, .int 12) := by decide +kernel

end Colosseum
