import Verif.Props.Lists
import Verif.Props.Shapes
import Verif.Props.Urls
import Verif.Props.Hsl
import Verif.Props.Sector
import Verif.Props.Order
import Verif.Props.Percentages
import Verif.Props.CasesValues
import Verif.Props.Style

/-! # The theorems on shapes, lists, addresses and colours, applied to concrete values -/

namespace Colosseum

/-! ## C14 -/

example : ∃ r g b : Int, (Color.hsl (.int 270) (.flt (3 / 4)) (.flt (5 / 8)) (.fin (.flt 1))).toRgb .b64 = .rgb r g b (.fin (.flt 1)) ∧
    (0 ≤ r ∧ r ≤ 255) ∧ (0 ≤ g ∧ g ≤ 255) ∧ (0 ≤ b ∧ b ≤ 255) :=
  C14_hsl_range b64_laws _ _ _ _ (by norm_num) (by norm_num) (by norm_num) (by norm_num)
example : ∃ v : Int, (Color.hsl (.int 77) (.int 0) (.flt (1 / 3)) (.fin (.flt 1))).toRgb .b64 = .rgb v v v (.fin (.flt 1)) :=
  C14_hsl_grey b64_laws _ _ _ _ rfl
example := C14_hsl_exact_partial FP.exact_exact (.int 30) (.flt (3 / 4)) (.flt (5 / 8)) (.fin (.flt 1)) (by norm_num) (by norm_num) (by norm_num [badHue])
example : (Color.hsl (.int 270) (.flt 1) (.flt (1 / 2)) (.fin (.flt 1))).toRgb .b64 = .rgb 0 128 255 (.fin (.flt 1)) := (C14_false_sector b64_laws _).1
example := C14_swapped_exact FP.exact_exact (.int 270) (.flt 1) (.flt (1 / 2)) (.fin (.flt 1)) (by norm_num [badHue])

/-! ## C15 -/

theorem given_url : UrlText (lit " url( 'a b)' )") (lit "a b)") :=
  .quoted '\'' [' '] [' '] (lit "a b)") [' '] [] (Or.inl rfl) (by simp [AllBlank, blankChars])
    (by simp [AllBlank, blankChars]) (by simp [AllBlank, blankChars]) (by simp [AllBlank])

example : uri [3] (.str (lit " url( 'a b)' )")) = .ok (.uri (.heap [3]) (lit "a b)")) := C15_url_text _ _ _ given_url
example : uri [] (.num (.fin (.int 3))) = .error .value := C15_non_string _ _ (fun _ => nofun)
example : Err.value = Err.value := C15_rejects [] (.str (lit "some.png")) _ rfl

/-! ## C16 -/

theorem given_spacing : SpacingItems (.str (lit " 1px  2px")) [.str (lit "1px"), .str (lit "2px")] := .str _ [lit "1px", lit "2px"] ((splitWs_iff _ _).1 rfl)

example := C16_directions .b64 b64_laws [] _ _ given_spacing trivial
  (.borderSpacing (.heap []) ⟨.len .px, .fin (.flt 1)⟩ (some ⟨.len .px, .fin (.flt 2)⟩))
  ((C16_accepts .b64 b64_laws [] _ _ given_spacing trivial _).2 (Or.inr ⟨_, _, _, _, rfl,
    .suffixed (lit "1") "px" (.len .px) _ (by simp [cssUnits]) (by decide +kernel),
    .suffixed (lit "2") "px" (.len .px) _ (by simp [cssUnits]) (by decide +kernel), rfl⟩))
example : borderSpacing .b64 [] (.seq true [.num (.fin (.int 1)), .num (.fin (.int 2)), .num (.fin (.int 3))]) = .error .value :=
  C16_wrong_count_partial _ _ _ _ (.seq true _) rfl (by decide)
example : borderSpacing .b64 [] (.str (lit "1px 2px 3px")) = .error .value :=
  C16_wrong_word_count _ _ _ [lit "1px", lit "2px", lit "3px"] ((splitWs_iff _ _).1 rfl) (by decide)
example : borderSpacing .b64 [] (.str (lit "")) = .error .value := C16_wrong_word_count _ _ _ [] ((splitWs_iff _ _).1 rfl) (by decide)
example : Err.value = Err.value := C16_bad_string .b64 [] (lit "1px 2px 3px") _
  (C16_wrong_word_count _ _ _ [lit "1px", lit "2px", lit "3px"] ((splitWs_iff _ _).1 rfl) (by decide))

/-! ## C17 -/

theorem given_rect : RectText (lit " rect( 1px 2px\t3em  4% ) ") [lit "1px", lit "2px", lit "3em", lit "4%"] := (rectParts_iff _ _).1 (by rfl)

theorem given_rect_read : rect .b64 (.str (lit " rect( 1px 2px\t3em  4% ) ")) =
    .ok (.rect ⟨.len .px, .fin (.flt 1)⟩ ⟨.len .px, .fin (.flt 2)⟩ ⟨.len .em, .fin (.flt 3)⟩ ⟨.len .percent, .fin (.flt 4)⟩) :=
  (C17_accepts .b64 b64_laws _ _).2 ⟨_, _, _, _, _, _, _, _, given_rect,
    .suffixed (lit "1") "px" (.len .px) _ (by simp [cssUnits]) (by decide +kernel),
    .suffixed (lit "2") "px" (.len .px) _ (by simp [cssUnits]) (by decide +kernel),
    .suffixed (lit "3") "em" (.len .em) _ (by simp [cssUnits]) (by decide +kernel),
    .suffixed (lit "4") "%" (.len .percent) _ (by simp [cssUnits]) (by decide +kernel), rfl⟩

example := C17_top_right_partial .b64 b64_laws _ _ _ _ _ _ given_rect given_rect_read
theorem given_rect_none : ∀ parts, ¬ RectText (lit "rect(1px, 2px, 3em)") parts := by
  intro parts h
  have := (rectParts_iff _ _).2 h
  cases this
example : rect .b64 (.str (lit "rect(1px, 2px, 3em)")) = .error .value := C17_other_text _ b64_laws _ given_rect_none
example : Err.value = Err.value := C17_string_error .b64 (lit "rect(1px, 2px, 3em)") _ (C17_other_text _ b64_laws _ given_rect_none)
example := C17_print_parse_partial .exact exact_laws (fun _ => lit "0.5") (.len .px) (.len .px) (.len .em) (.len .percent) (.int 3) (.int (-2)) (.int 0) (.int 50)
  ⟨rfl, nofun⟩ ⟨rfl, nofun⟩ ⟨rfl, nofun⟩ ⟨rfl, nofun⟩

/-! ## C18 -/

theorem given_quotes : QuoteItems (.str (lit "'<' '>'  \"{\" '\\u00bb'")) [lit "<", lit ">", lit "{", lit "»"] := by
  refine .words _ [lit "'<'", lit "'>'", lit "\"{\"", lit "'\\u00bb'"] _ ((splitWs_iff _ _).1 rfl) ?_
  refine .cons ((simpleLit_iff _ _).1 (by decide)) (.cons ((simpleLit_iff _ _).1 (by decide))
    (.cons ((simpleLit_iff _ _).1 (by decide)) (.cons ((simpleLit_iff _ _).1 (by decide)) .nil)))

example := C18_pairs exampleEnv _ _ given_quotes (by decide) (by decide) (by decide)
/-- An odd number of marks. -/
example : quotes exampleEnv (.str (lit "'<' '>' '{'")) = .error .value :=
  C18_rejects _ _ [lit "<", lit ">", lit "{"] (.words _ [lit "'<'", lit "'>'", lit "'{'"] _ ((splitWs_iff _ _).1 rfl)
    (.cons ((simpleLit_iff _ _).1 (by decide)) (.cons ((simpleLit_iff _ _).1 (by decide)) (.cons ((simpleLit_iff _ _).1 (by decide)) .nil)))) (by decide)
example : quotes exampleEnv (.num (.fin (.int 3))) = .error .value := C18_other_values _ _ (fun _ => nofun) rfl rfl
example := C18_false_number { exampleEnv with literalEvalOther := fun _ => .ok (.other (lit "1") none) } (lit "1") (fun _ => rfl)

/-! ## C19 -/

theorem given_cursors : CursorTexts (.str (lit "url(a.png), auto")) [lit "url(a.png)", lit " auto"] :=
  .text [lit "url(a.png)", lit " auto"] (by simp) (by decide)

theorem given_cursors_list : CursorList [lit "url(a.png)", lit " auto"] :=
  (C19_accepts_iff [] _ _ given_cursors).1 ⟨_, show _ = Except.ok _ by rfl⟩

example : ∃ r, cursor [] (.str (lit "url(a.png), auto")) = .ok r := (C19_accepts_iff [] _ _ given_cursors).2 given_cursors_list
example := C19_stored [] _ _ given_cursors _ rfl
/-- Two keywords. -/
theorem given_cursors_bad : CursorTexts (.str (lit "auto,move")) [lit "auto", lit "move"] := .text [lit "auto", lit "move"] (by simp) (by decide)
example : cursor [] (.str (lit "auto,move")) = .error .value := C19_rejects_partial _ _ _ given_cursors_bad
  (fun h => by obtain ⟨r, hr⟩ := (C19_accepts_iff [] _ _ given_cursors_bad).2 h; cases hr)
example : cursor [] (.seq false [.num (.fin (.int 3)), .str (lit "auto")]) = .error .value := C19_non_string_item _ _ _ _ (fun _ => nofun) rfl

/-! ## C106, C112 -/

theorem given_percent : Denotes .b64 (.str (lit "10%")) ⟨.len .percent, .fin (.flt 10)⟩ :=
  .suffixed (lit "10") "%" (.len .percent) _ (by simp [cssUnits]) (by decide +kernel)
theorem given_percent_neg : Denotes .b64 (.str (lit "-10%")) ⟨.len .percent, .fin (.flt (-10))⟩ :=
  .suffixed (lit "-10") "%" (.len .percent) _ (by simp [cssUnits]) (by decide +kernel)

example : isPercentage .b64 (.str (lit "10%")) = .ok (.unit ⟨.len .percent, .fin (.flt 10)⟩) :=
  (C106_accepts .b64 b64_laws (.str (lit "10%")) _ trivial).2 ⟨_, rfl, given_percent, by norm_num [PyNum.Negative]⟩
example := C112_trichotomy (.fin (.int 3)) (.inf true) nofun nofun
example : ∃ w, isPercentage .b64 (.str (lit "10%")) = .ok w := (C112_validator .b64 b64_laws (.str (lit "10%")) trivial).2 ⟨_, given_percent, by decide +kernel⟩
example := C106_false_negative exampleEnv b64_laws [] (.str (lit "-10%")) trivial _ .width (.inr (.inr (by decide))) given_percent_neg
example := (C106_gap exampleEnv b64_laws [] (.str (lit "10%")) trivial).1
example := C112_pixels .b64 b64_laws (.fin (.int 10)) (.fin (.int 20)) sampleCtx sample_nonneg trivial trivial (by decide +kernel) _ _ rfl rfl

end Colosseum
