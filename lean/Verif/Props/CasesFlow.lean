import Verif.Props.Cases
import Verif.Props.Mild
import Verif.Props.Flow
import Verif.Props.Collapse
import Verif.Props.Level
import Verif.Props.Blueprint
import Verif.Props.Whole

/-!
# Instances of the theorems on whole documents

The theorems are applied to the documents of the files where they are stated.
-/

namespace Colosseum

/-! ## C80 -/

theorem page_laid : layout .b64 screen false none page = .ok (laidDoc .b64 screen page) := laidDoc_ok (by decide +kernel)

theorem page_get {q : List Nat} (hq : (page.find q).isSome = true) {l : LH} {v : Val} (h : (page.at q).style.get l = v) :
    ((laidDoc .b64 screen page).at q).style.get l = v := by rw [(at_same page_laid hq).1]; exact h

theorem page_block {q : List Nat} (hq : (page.find q).isSome = true) (h : (page.at q).style.get .display = kw "block") :
    ((laidDoc .b64 screen page).at q).BlockLevel := .inl (page_get hq h)

theorem page_shown {q : List Nat} (hq : (page.find q).isSome = true) (h : (page.at q).style.get .display = kw "block") :
    ¬ ((laidDoc .b64 screen page).at q).Hidden := by
  unfold Node.Hidden
  rw [page_get hq h]
  exact nofun

theorem page_static {q : List Nat} (hq : (page.find q).isSome = true) (h : (page.at q).style.get .position = kw "static") :
    ¬ ((laidDoc .b64 screen page).at q).Relative := by
  unfold Node.Relative
  rw [page_get hq h]
  intro e
  exact absurd ((isKw_iff (kw "static") "relative").2 e) (by decide +kernel)

theorem page_margin {q : List Nat} (hq : (page.find q).isSome = true) {l : LH} {n : Int} {w : Option Num} {x : Num} (h : (page.at q).style.get l = px n)
    (hx : pxOf .b64 .px (.fin (.int n)) ⟨screen, dummyFont .b64, none⟩ = .ok x) :
    (((laidDoc .b64 screen page).at q).style.get l).Margin .b64 ⟨screen, dummyFont .b64, w⟩ (some x) := by
  rw [page_get hq h]
  exact ⟨_, rfl, hx⟩

theorem page_context {q : List Nat} (hq : (page.find q).isSome = true) (hb : (page.at q).style.get .display = kw "block")
    (hr : (page.at q).intrinsic.isReplaced = false) (hc : (((laidDoc .b64 screen page).at q).children.any fun c => isBlockLevel c.style) = true) :
    ((laidDoc .b64 screen page).at q).BlockContext := by
  refine ⟨.inl (page_get hq hb), by rw [(at_same page_laid hq).2]; exact hr, ?_⟩
  obtain ⟨c, hc, h⟩ := List.any_eq_true.1 hc
  exact ⟨c, hc, (blockLevel_iff c).1 h⟩

example := C80_across .b64 b64_laws screen 1000 false none _ page _ _ _ page_moderate page_laid (route_within (q := []) (i := 0) _ _ (by decide +kernel)) (page_block rfl rfl)
/-- Two automatic margins. -/
example := C80_margins .b64 b64_laws screen 1000 false none _ page _ _ _ none none page_moderate page_laid (route_within (q := []) (i := 0) _ _ (by decide +kernel))
  (page_block rfl rfl) (page_get rfl rfl) (page_get rfl rfl)
/-- Two margins of 0. -/
example := C80_margins .b64 b64_laws screen 1000 false none _ page _ _ _ (some (.int 0)) (some (.int 0)) page_moderate page_laid
  (route_within (q := []) (i := 2) _ _ (by decide +kernel)) (page_block rfl rfl) (page_margin (n := 0) rfl rfl (by decide +kernel)) (page_margin (n := 0) rfl rfl (by decide +kernel))
example := C80_left .b64 b64_laws screen 1000 false none _ page _ _ _ page_moderate page_laid (route_within (q := [2]) (i := 0) _ _ (by decide +kernel)) (page_block rfl rfl) (page_static rfl rfl)
example := C80_moved .b64 b64_laws screen 1000 false true none _ page _ _ _ (some (.int 6)) none page_moderate page_laid (route_within (q := []) (i := 1) _ _ (by decide +kernel))
  (page_block rfl rfl) (page_get rfl rfl) (page_margin rfl rfl (by decide +kernel)) (page_get rfl rfl) (.inr (.inl rfl))
example := C80_stack .b64 b64_laws screen 1000 false none _ page _ _ _ page_moderate page_laid (.here _ _ _)
  (page_shown (q := []) rfl rfl) (page_context (q := []) rfl rfl rfl (by decide +kernel))
example := C80_encloses .b64 b64_laws screen 1000 false none _ page _ _ _ page_moderate page_laid
  (route_inside false (q := []) (i := 2) _ _ (by decide +kernel)) (page_block rfl rfl) (page_context rfl rfl rfl (by decide +kernel)) (page_get rfl rfl)
  (fun c hc => by
    change ((laidDoc .b64 screen page).at [2]).children.getLast? = some c at hc
    rw [last_at (q := [2]) (i := 0) (by decide +kernel), Option.some.injEq] at hc
    subst hc
    exact ⟨page_block (q := [2, 0]) rfl rfl, page_static (q := [2, 0]) rfl rfl⟩) (standing (by decide +kernel))
example := C80_inline .b64 b64_laws screen 1000 false none _ page _ _ _ page_moderate page_laid (route_inside true (q := [0]) (i := 0) _ _ (by decide +kernel)) (page_get rfl rfl) (page_static rfl rfl)
example := C80_root .b64 b64_laws screen 1000 false none page _ page_moderate page_laid (page_block (q := []) rfl rfl) (page_static (q := []) rfl rfl)
example : ∃ n' b y, layout .b64 screen true none page = .ok n' ∧ n'.layout = some b ∧ b.contentHeight = some y ∧ y.val + b.collapse.top + b.collapse.bottom = screen.contentHeight.val := by
  cases h : layout .b64 screen true none page with
  | error e => exact absurd (show (layout .b64 screen true none page).isOk = true by decide +kernel) (by rw [h]; exact nofun)
  | ok n' =>
    obtain ⟨b, y, h1, h2, h3⟩ := C80_display .b64 b64_laws screen 1000 none page n' page_moderate h
    exact ⟨n', b, y, rfl, h1, h2, h3⟩
example := C80_place .b64 b64_laws screen 1000 false none page _ page_moderate page_laid .v

/-! ## C81 -/

theorem column_laid : layout .b64 screen false none column = .ok (laidDoc .b64 screen column) := laidDoc_ok (by decide +kernel)

example := C81_nested .b64 b64_laws screen 1000 false none column _ column_moderate column_flowing column_laid
example := C81_contained .b64 b64_laws screen 1000 false none column _ column_moderate column_flowing column_laid
example := C81_screen .b64 b64_laws screen 1000 false none column _ column_moderate column_flowing column_laid
example := C81_apart .b64 b64_laws screen 1000 false none column _ column_moderate column_flowing column_laid [] [1] [0] 0 1 (by decide)
  ((laidBox .b64 screen column [0, 1]).getD .fresh) ((laidBox .b64 screen column [1, 0]).getD .fresh) (by decide +kernel) (by decide +kernel)

/-! ## C82 -/

theorem spaces_laid : layout .b64 screen false none spaces = .ok (laidDoc .b64 screen spaces) := laidDoc_ok (by decide +kernel)

example := C82_ends .b64 b64_laws screen false none _ spaces _ _ _ (full_boxed _ (by decide +kernel)) spaces_blocky spaces_laid (route_within (q := []) (i := 1) _ _ (by decide +kernel))
example := C82_gap .b64 b64_laws screen 1000 false none _ spaces _ _ _ spaces_moderate spaces_blocky spaces_laid (.here _ _ _)
example := C82_root .b64 b64_laws screen 1000 false none spaces _ spaces_moderate spaces_blocky spaces_laid

/-! ## C91, C108 -/

example := C91_blueprint (fp := .b64) (d := screen) (html5 := false) (p := none) (full_boxed plot (by decide +kernel))
example := C91_boxes (fp := .b64) (d := screen) (html5 := false) (p := none) (full_boxed plot (by decide +kernel)) (laidDoc_ok (by decide +kernel)) [1, 0]
example := C108_level .b64 b64_laws screen false none slanted (full_boxed _ (by decide +kernel))
example := C108_boxes .b64 b64_laws screen false none slanted _ (full_boxed _ (by decide +kernel)) (laidDoc_ok (by decide +kernel))

/-! ## C113 -/

example := C113_fills .b64 b64_laws screen false _ Whole.poster _ _ _ Whole.screen_integral Whole.poster_simple (laidDoc_ok (by decide +kernel)) (route_within (q := []) (i := 0) _ _ (by decide +kernel))

end Colosseum
