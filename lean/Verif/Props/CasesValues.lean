import Verif.Props.Angles
import Verif.Props.Arith
import Verif.Props.ColorFuncs
import Verif.Props.Colors
import Verif.Props.Pixels
import Verif.Props.Ratios
import Verif.Props.Units

/-!
# The theorems on lengths, angles and colours, applied
-/

namespace Colosseum

/-! ## Lengths -/

/-- `"1.5em"`. -/
example : units .b64 (.str (lit "1.5" ++ "em".toList)) = .ok ⟨.len .em, (PyNum.fin (.int 1)).mul .b64 (.fin (.flt (3 / 2)))⟩ :=
  C02_suffix_kind .b64 (lit "1.5") "em" (.len .em) (.fin (.flt (3 / 2))) (by simp [cssUnits]) (parseFloat_iff.1 (by decide +kernel))

/-- The number `7` is seven pixels. -/
example : Denotes .b64 (.num (.fin (.int 7))) ⟨.len .px, .fin (.int 7)⟩ :=
  (C03_units_accepts .b64 b64_laws (.num (.fin (.int 7))) trivial ⟨.len .px, .fin (.int 7)⟩).1 (by decide +kernel)

/-- An eighth of an inch is on the grid. -/
example : ∃ l, luOf .b64 .inch (.fin (.flt (1 / 8))) sampleCtx = .ok l ∧ (Num.int 12).val = (l : Rat) / 64 ∧ ((Num.int 12).isInt = true ↔ ∃ i : Int, (Num.int 12).val = i) :=
  C05_px_on_grid_partial .b64 b64_laws .inch (.fin (.flt (1 / 8))) sampleCtx (fun h => by cases h) (.int 12) (by decide +kernel)

/-- A third of a per cent of 640 pixels is no `int`. -/
example : (Num.flt (137 / 64)).isInt = true ↔ ∃ i : Int, (Num.flt (137 / 64)).val = i :=
  C05_px_int_iff_integral .b64 .percent (.fin (.flt (1 / 3))) sampleCtx (.flt (137 / 64)) (by decide +kernel)

example : ∃ n, pxOf .b64 .px (.fin (.flt (FP.b64.rnd (1 / 3)))) sampleCtx = .ok n ∧ |n.val - (Num.flt (FP.b64.rnd (1 / 3))).val| ≤ 1 / 128 :=
  C05_px_rounding .b64 b64_laws (.flt (FP.b64.rnd (1 / 3))) sampleCtx (by decide +kernel)

example : ∃ n, pxOf .b64 .px (.fin (.flt (5 / 64))) sampleCtx = .ok n ∧ n.val = (Num.flt (5 / 64)).val :=
  C05_px_grid_exact .b64 b64_laws (.flt (5 / 64)) sampleCtx (by decide +kernel) 5 (by norm_num [Num.val])

theorem sample_nonneg : sampleCtx.Nonneg :=
  ⟨by decide +kernel, by decide +kernel, by decide +kernel, by decide +kernel, by decide +kernel, by decide +kernel, by simp [sampleCtx, Num.val]⟩

/-- `1em` and `1.5em`. -/
example : (Num.int 16).val ≤ (Num.int 24).val :=
  C06_px_monotone_partial .b64 b64_laws .em (.fin (.int 1)) (.fin (.flt (3 / 2))) sampleCtx sample_nonneg trivial (show FP.b64.rnd _ = _ by decide +kernel)
    (fun h => by rcases h with h | h | h | h <;> cases h) (by decide +kernel) (.int 16) (.int 24) (by decide +kernel) (by decide +kernel)

example : ((⟨.len .pt, .fin (.int 3)⟩ : CUnit).neg .b64).px .b64 sampleCtx = ((⟨.len .pt, .fin (.int 3)⟩ : CUnit).px .b64 sampleCtx).map Num.neg :=
  C06_px_neg .b64 b64_laws ⟨.len .pt, .fin (.int 3)⟩ sampleCtx trivial

/-- A third of an inch, in exact arithmetic. -/
example := C07_physical_ratios_partial .exact FP.exact_exact (.flt (1 / 3)) sampleCtx

/-- The same with floats, up to a 64th of a pixel. -/
example := C07_ratios_rounded .b64 b64_sharp (.flt (FP.b64.rnd (1 / 3))) sampleCtx (by decide +kernel)

example : ∃ n, pxOf .exact .percent (.fin (.flt (1 / 3))) sampleCtx = .ok n ∧ |n.val - (Num.int 640).val * (Num.flt (1 / 3)).val / 100| ≤ 1 / 128 :=
  C08_percent_proportional_partial .exact FP.exact_exact (.flt (1 / 3)) (.int 640) sampleCtx rfl

example := C08_percent_rounded .b64 b64_sharp (.flt (FP.b64.rnd (1 / 3))) (.int 640) sampleCtx rfl

example : pxOf .b64 .percent (.fin (.flt 0)) sampleCtx = .ok (.int 0) := C08_percent_zero .b64 b64_laws (.flt 0) (.int 640) sampleCtx rfl rfl

example : ∃ n, pxOf .b64 .percent (.fin (.int 100)) sampleCtx = .ok n ∧ n.val = (Num.int 640).val :=
  C08_percent_hundred .b64 b64_laws (.int 100) (.int 640) sampleCtx rfl rfl 40960 (by norm_num [Num.val]) (by decide +kernel)

example : pxOf .b64 .percent (.fin (.int 50)) { sampleCtx with size := none } = .error .type := C08_percent_none .b64 (.fin (.int 50)) _ rfl

/-- `127cm` are fifty inches, up to what is stated. -/
example := C61_px_accurate .b64 b64_sharp .cm (.int 127) sampleCtx (.int 4800) 4800 (by decide +kernel) (by
  have := CssPixels.points (c := sampleCtx) .cm (Num.int 127).val _ rfl
  convert this using 1
  norm_num [Num.val, sampleCtx])

example : ∃ n, pxOf .b64 .vmin (.fin (.int 7)) sampleCtx = .ok n := C61_px_total .b64 .vmin (.int 7) sampleCtx (fun h => by cases h)

/-! ## Angles -/

example := C92_degrees b64_sharp .rad (.int 2)
example : angleDeg .b64 .grad (.fin (.int (10 * 40))) = .ok (.fin (.int (9 * 40))) := C92_gradians 40 (by decide) (by decide)
example := C92_mono b64_laws .rad (n := .int 2) (m := .int 3) (by simp [Num.sameType]) (by decide +kernel)
example := C92_opposite b64_laws .turn (.flt (1 / 3))
example : angleDeg .b64 .deg (.inf true) = .error .overflow ∧ angleDeg .b64 .deg .nan = .error .value := C92_infinite .b64 b64_laws .deg true

/-! ## Arithmetic of units -/

example : (⟨.len .em, .fin (.flt (3 / 2))⟩ : CUnit).neg .b64 = ⟨.len .em, .fin (.flt (-(3 / 2)))⟩ :=
  C104_neg .b64 b64_laws ⟨.len .em, .fin (.flt (3 / 2))⟩ (show FP.b64.rnd _ = _ by decide +kernel)
example := C104_one .b64 b64_laws ⟨.len .em, .fin (.flt (3 / 2))⟩ (show FP.b64.rnd _ = _ by decide +kernel)
example := C104_sign .b64 b64_laws (.fin (.int 3)) ⟨.ang .deg, .inf true⟩ trivial
example : ((UKind.len .px).base.rmul .b64 (.fin (.int 3))).rmul .b64 (.fin (.flt (1 / 2))) = (UKind.len .px).base.rmul .b64 ((PyNum.fin (.flt (1 / 2))).mul .b64 (.fin (.int 3))) :=
  C104_assoc_partial .b64 b64_laws (.fin (.flt (1 / 2))) (.fin (.int 3)) (UKind.len .px).base (Or.inl rfl) trivial

/-! ## Colours -/

example : color .b64 [] (.str (lit "rgba(1, 2,3 ,.5)")) = .ok (.color (.heap []) (.rgb 1 2 3 (.fin (.flt (1 / 2))))) :=
  C13_rgba .b64 [] (lit "1") (lit " 2") (lit "3 ") (lit ".5") 1 2 3 (.fin (.flt (1 / 2))) (by decide +kernel) (by decide +kernel) (by decide +kernel)
    (parseFloat_iff.1 (by decide +kernel))

example : color .b64 [] (.str (lit "hsla(120, 50%, 50%,1)")) = .ok (.color (.heap []) (.hsl (.int 120) (fraction .b64 50) (fraction .b64 50) (.fin (.flt 1)))) :=
  C13_hsla .b64 [] (lit "120") (lit " 50%") (lit " 50%") (lit "1") 120 50 50 (.fin (.flt 1)) (by decide +kernel) pctLit_fifty pctLit_fifty
    (parseFloat_iff.1 (by decide +kernel))

example : fraction .b64 33 = .flt (FP.b64.rnd (((33 : Int) : Rat) / 100)) := C13_fraction b64_laws 33 (by decide)

example : ∀ e, color .b64 [] (.str (lit "rgb(1,2)")) = .error e → e = .value := C13_color_error .b64 [] (lit "rgb(1,2)") (by decide)

example : ∃ c, Val.color (.heap []) (.rgb 1 2 3 (.fin (.flt 1))) = .color (.heap []) c ∧ FunctionText .b64 ("rgb(".toList ++ lit "1,2,3" ++ [')']) c :=
  (C68_functional_partial .b64 [] "rgb(" 3 (by simp [functionalArity]) (lit "1,2,3") (.color (.heap []) (.rgb 1 2 3 (.fin (.flt 1))))).1
    (C13_rgb .b64 [] (lit "1") (lit "2") (lit "3") 1 2 3 (by decide +kernel) (by decide +kernel) (by decide +kernel))

example : colorStr .b64 (.heap []) (lit "#1a08") = .ok (.color (.heap []) (.rgb 17 170 0 (.fin (.flt (FP.b64.rnd ((136 : Nat) / 255)))))) :=
  C10_hex_short_alpha .b64 (.heap []) '1' 'a' '0' '8' 1 10 0 8 (.inl (by decide)) (.inl (by decide)) (.inl (by decide)) (.inl (by decide))

example : colorStr .b64 (.heap []) (lit "#12aBfF80") = .ok (.color (.heap []) (.rgb 18 171 255 (.fin (.flt (FP.b64.rnd ((128 : Nat) / 255)))))) :=
  C10_hex_long_alpha .b64 (.heap []) '1' '2' 'a' 'B' 'f' 'F' '8' '0' 1 2 10 11 15 15 8 0 (.inl (by decide)) (.inl (by decide)) (.inl (by decide))
    (.inl (by decide)) (.inl (by decide)) (.inl (by decide)) (.inl (by decide)) (.inl (by decide))

example : colorStr .b64 (.heap []) (lit "#1a0") = colorStr .b64 (.heap []) (lit "#11aa00") ∧ colorStr .b64 (.heap []) (lit "#1a08") = colorStr .b64 (.heap []) (lit "#11aa0088") :=
  C10_short_eq_long .b64 (.heap []) '1' 'a' '0' '8' 1 10 0 8 (.inl (by decide)) (.inl (by decide)) (.inl (by decide)) (.inl (by decide))

/-- `#12aBfF` is a colour. -/
theorem sample_hex : colorStr .b64 (.heap []) ('#' :: lit "12aBfF") = .ok (.color (.heap []) (.rgb 18 171 255 (.fin (.flt 1)))) :=
  C10_hex_long .b64 _ '1' '2' 'a' 'B' 'f' 'F' 1 2 10 11 15 15 (.inl (by decide)) (.inl (by decide)) (.inl (by decide)) (.inl (by decide)) (.inl (by decide))
    (.inl (by decide))

example := C11_hex_range_partial .b64 (.heap []) (lit "12aBfF") _ (by decide) sample_hex

/-- `#fA3` is a colour. -/
theorem sample_short : colorStr .b64 (.heap []) ('#' :: lit "fA3") = .ok (.color (.heap []) (.rgb 255 170 51 (.fin (.flt 1)))) :=
  C10_hex_short .b64 _ 'f' 'A' '3' 15 10 3 (.inl (by decide)) (.inl (by decide)) (.inl (by decide))

example := C11_hex_short_range .b64 (.heap []) (lit "fA3") _ (Or.inl rfl) sample_short
example : ∀ c ∈ lit "fA3", ∃ d, (c, d) ∈ hexTable := C11_ascii_digits .b64 (.heap []) (lit "fA3") _ (Or.inl rfl) (by decide) sample_short
example : Err.value = .value := C11_hex_error .b64 (.heap []) (lit "12") .value rfl

end Colosseum
