import Verif.Props.Style
import Verif.Props.Shorthands
import Verif.Props.Sides
import Verif.Props.Marks
import Verif.Props.Names
import Verif.Props.Errors
import Verif.Props.Revalidate
import Verif.Props.Independent
import Verif.Props.Copy
import Verif.Props.Grammar
import Verif.Props.Messages

/-!
# The theorems on style declarations, applied to a declaration

`draft` is what a declaration holds after six operations, one of which fails; its node has a box that is not marked.
-/

namespace Colosseum

/-- What is done to the declaration. -/
def draftOps : List Op :=
  [.setAttr (.lh .display) (.str (lit "block")), .setItem (lit "margin-top") (.num (.fin (.int 7))), .setAttr (.lh .width) (.str (lit "bad")),
    .setAttr (.sh .border) (.str (lit "solid")), .update [(lit "z-index", .num (.fin (.int 3))), (lit "direction", .str (lit "rtl"))], .bind (.box (some false))]

/-- The declaration afterwards. -/
def draft : Decl := Decl.run exampleEnv 0 ⟨CSS.empty, .unbound⟩ draftOps

theorem draft_reachable : Reachable exampleEnv draft := ⟨draftOps, rfl⟩

theorem draft_shows : draft.link = .box (some false) ∧ draft.css .display = some (.str (lit "block")) ∧
    draft.css (.margin .top) = some (.unit ⟨.len .px, .fin (.int 7)⟩) ∧ draft.css (.borderStyle .left) = some (.str (lit "solid")) ∧
    draft.css .zIndex = some (.num (.fin (.int 3))) ∧ draft.css .direction = some (.str (lit "rtl")) ∧ draft.css .width = none ∧ draft.css .float = none :=
  ⟨rfl, rfl, rfl, rfl, rfl, rfl, rfl, rfl⟩

theorem draft_boxed : draft.link ≠ .noBox := nofun

/-! ## Assignments -/

/-- `width = 12` is stored as a length. -/
example := C22_read_back exampleEnv [6] draft _ draft_reachable .width (.num (.fin (.int 12))) rfl
example := C22_others_unchanged exampleEnv [6] draft _ draft_reachable .width .height (.num (.fin (.int 12))) rfl nofun nofun
/-- `direction` with `text_align` unset is excepted; `display` is not. -/
example := C22_others_unchanged exampleEnv [6] draft _ draft_reachable .direction .display (.str (lit "ltr")) rfl nofun nofun
example := C23_reads exampleEnv draft draft_reachable
example := C23_delete exampleEnv [6] [7] draft draft_reachable (.margin .top) (.delItem (lit "margin-top")) (.update [(lit "margin_top", .none)]) (.item _ rfl) (.update _ rfl)
example : Canonical .zIndex (.num (.fin (.int 3))) := C24_canonical exampleEnv draft draft_reachable .zIndex _ rfl
example := C24_produced exampleEnv draft draft_reachable (.margin .top) _ rfl
/-- `width = "bad"` leaves the declaration as it is. -/
example := C21_rejected_partial exampleEnv [6] draft draft .width (.str (lit "bad")) .value rfl draft_boxed
example := C21_failures exampleEnv [6] draft draft .width (.str (lit "bad")) .value rfl
/-- `width = 12` stores a length. -/
example := C09_lengths_partial exampleEnv b64_laws [6] draft _ .width rfl (.num (.fin (.int 12))) rfl (fun _ _ _ _ _ _ h => by cases h)
  (fun h => by have := congrFun h .width; cases this)

/-! ## Marking -/

example : ¬((draft.setAttr exampleEnv [6] (.lh .display) (.str (lit "block"))).1.link = .box (some true)) := fun h => by cases h
example := (C36_marks_iff exampleEnv [6] draft draft_reachable rfl .display (.str (lit "flex"))).1 rfl
example : draft.css .zIndex ≠ none := (C36_delete_iff draft rfl .zIndex).1 rfl
example : ∃ t, draft.css (Dir.margin.side t) ≠ none := (C36_delete_sides_iff draft rfl .margin).1 rfl
example := (C36_shorthand exampleEnv [6] draft (some false) rfl .border).2
example := C36_no_change_partial exampleEnv [6] draft draft_reachable .display (.str (lit "block")) (.inl rfl)

/-! ## Four sides -/

example := C27_sides exampleEnv [6] draft _ draft_reachable .margin (.seq true [.num (.fin (.int 1)), .num (.fin (.int 2))]) rfl
example : ∃ f, FourSides (.seq true [.num (.fin (.int 1)), .num (.fin (.int 2))]) f ∧ ∀ s, ∃ a w, Accepts exampleEnv a (Dir.margin.side s) (f s) w :=
  (C27_succeeds exampleEnv [6] draft .margin _ draft_boxed).1 ⟨_, rfl⟩
example := C27_getter exampleEnv draft draft_reachable .margin
example := C28_rejected_partial exampleEnv [6] draft draft .margin (.str (lit "bad")) .value rfl draft_boxed nofun
example := C28_prefix exampleEnv [6] draft _ .margin (.seq true [.num (.fin (.int 1)), .str (lit "bad")]) .value rfl draft_boxed

/-! ## Shorthands -/

example := C29_any_order exampleEnv [0] ⟨CSS.empty, .box (some false)⟩ .border (.str (lit "red solid")) (.seq true [.str (lit "solid"), .str (lit "red")]) _ _
  (.text _ [lit "red", lit "solid"] (by decide) ((splitWs_iff ..).1 (by decide +kernel))) (.seq _ _ (by simp)) (.swap _ _ _)
  (fun _ _ _ h => by cases h)
example := C30_accepted exampleEnv [6] draft .border (.str (lit "2px dotted")) draft_boxed
example := C31_resets exampleEnv [6] draft _ draft_reachable .border (.seq true [.num (.fin (.int 2)), .str (lit "dotted")]) rfl
example := C30_recorded exampleEnv [6] .border (.seq true [.num (.fin (.int 2)), .str (lit "dotted")]) _ rfl
example := C30_neither exampleEnv [6] draft .border (.num (.fin (.int 2))) (fun ⟨_, h⟩ => by cases h)
example := C30_false_angle exampleEnv b64_laws draft draft_boxed
example := C32_border exampleEnv [6] draft draft .border nofun (.str (lit "dotted dashed")) .value rfl draft_boxed
example := C32_rejected_partial exampleEnv [6] draft draft .border (.str (lit "dotted dashed")) .value rfl draft_boxed nofun
example := C32_outline exampleEnv [6] draft draft draft_reachable (.str (lit "dotted dashed")) .value rfl draft_boxed

/-! ## Names -/

example := C33_names exampleEnv [6] draft (.lh (.margin .top)) (lit "margin-top") (sameName_iff.2 (by decide +kernel))
example := C33_same exampleEnv [6] draft (lit "margin-top") (lit "margin_top") (sameName_iff.2 (by decide +kernel))
example := (C34_success exampleEnv [6] draft _ [(lit "z-index", .num (.fin (.int 4))), (lit "display", .none)]).1 rfl
example := (C34_failure exampleEnv [6] draft _ [(lit "z-index", .num (.fin (.int 4))), (lit "bogus", .none), (lit "display", .none)] .name).1 rfl

/-! ## Exceptions -/

example := C58_value_error_partial exampleEnv [6] draft draft .width (.str (lit "bad")) .value draft_boxed rfl (fun k h => by cases h; trivial) rfl
example := C58_keyword_properties exampleEnv [6] draft draft .width (.str (lit "bad")) .value draft_boxed rfl (.inr rfl) rfl
example := C58_texts exampleEnv [6] draft draft .color (lit "bad") .value draft_boxed nofun nofun rfl

/-! ## Values assigned again, copies -/

example : draft.setAttr exampleEnv [6] (.lh (.margin .top)) (.unit ⟨.len .px, .fin (.int 7)⟩) = (draft, none) :=
  C25_reassign_partial exampleEnv [6] draft draft_reachable (.margin .top) _ rfl (.inl rfl) ⟨⟨_, rfl⟩, nofun⟩
example : Survives (.unit ⟨.len .px, .fin (.int 7)⟩) := (C25_exactly exampleEnv [6] draft draft_reachable rfl (.margin .top) _ rfl).1 rfl
example := C103_exchange exampleEnv [6] [7] (.setAttr (.lh .width) (.num (.fin (.int 12)))) (.delItem (lit "display")) nofun nofun
example := C103_history exampleEnv .display [([6], .setAttr (.lh .width) (.num (.fin (.int 12)))), ([7], .delItem (lit "display"))] draft draft_boxed
  (by simp)
example := C98_value exampleEnv b64_laws [6] draft _ draft_reachable .width (.num (.fin (.int 12))) ⟨trivial, fun _ h => by cases h⟩ rfl
example := C73_usable exampleEnv [6] draft draft_boxed .display (lit "block")
example := C73_complete exampleEnv [6] draft draft_boxed .display (lit "flex") rfl
example := C101_exactly exampleEnv [6] draft draft_reachable allLH mem_allLH .unbound

end Colosseum
