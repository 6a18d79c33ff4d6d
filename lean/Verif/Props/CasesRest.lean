import Verif.Props.CasesMore
import Verif.Props.CasesChanges
import Verif.Props.Placed
import Verif.Props.Root
import Verif.Props.Shown
import Verif.Props.Names
import Verif.Props.Print
import Verif.Props.FontUnits
import Verif.Props.ColorAccept
import Verif.Props.Grammar

/-!
# The last of the theorems applied to concrete documents and texts
-/

namespace Colosseum

/-! ## C35: names in order -/

example : lit "border-color" ≠ lit "border-style" ∧ ¬ Before (lit "border-style") (lit "border-color") :=
  C35_before_strict _ _ (.tail _ (.tail _ (.tail _ (.tail _ (.tail _ (.tail _ (.tail _ (.head (by decide)))))))))

/-- A declaration with a width and a float. -/
def floated : CSS := styled [(.width, px 12), (.float, kw "left")]

theorem floated_rendered : (lit "width", px 12) ∈ floated.rendered := by
  have : floated.rendered = [(lit "float", kw "left"), (lit "width", px 12)] := by rfl
  rw [this]
  simp

example := C35_single floated (lit "width") (px 12) floated_rendered (.lh .width) rfl

/-! ## C51: the height of the root -/

/-- A root that is as high as the screen but for its margins. -/
theorem edged_standard : layout .b64 screen true none edged = .ok ((layout .b64 screen true none edged).toOption.getD edged) := by
  have : (layout .b64 screen true none edged).toOption.isSome = true := by decide +kernel
  cases h : layout .b64 screen true none edged with
  | ok n => rfl
  | error e => rw [h] at this; cases this

example := C51_height_partial .b64 screen none edged _ (64 * 1000) edged_standard
  (smallTest_fits (by decide +kernel))
  (fun b hb => by
    have : ((layout .b64 screen true none edged).toOption.getD edged).layout.all
        (fun b => (Num.int b.collapse.top).smallTest 1000 && (Num.int b.collapse.bottom).smallTest 1000) = true := by
      decide +kernel
    rw [hb] at this
    simp only [Option.all_some, Bool.and_eq_true] at this
    exact ⟨smallTest_fits this.1, smallTest_fits this.2⟩) (by decide)

/-! ## C68: texts of colours -/

example : LooseText .b64 ("rgb(".toList ++ (lit "1" ++ [','] ++ lit "2" ++ [','] ++ lit "3") ++ [')']) (.rgb 1 2 3 (.fin (.flt 1))) :=
  C68_proper .b64 _ _ (.rgb (parseInt_iff.1 (by decide +kernel)) (parseInt_iff.1 (by decide +kernel)) (parseInt_iff.1 (by decide +kernel)))

/-! ## C91: the place of an element -/

theorem plot_boxed : AllBoxed plot := full_boxed plot (by decide +kernel)

theorem offsets_small {K : Blueprint} {a : Axis} {q : List Nat} {k : Nat}
    (h : ((List.range (q.length + 1)).all fun i => ((K.at (q.take i)).map fun f => (f.offset a).smallTest k).getD true) = true) :
    ∀ r f, r <+: q → K.at r = some f → Fits .b64 (64 * k) (f.offset a) := by
  intro t b ht hb
  have e := List.prefix_iff_eq_take.1 ht
  have := List.all_eq_true.1 h t.length (List.mem_range.2 (by have := ht.length_le; omega))
  rw [← e, hb] at this
  exact smallTest_fits this

/-- The second paragraph of the sample is where the blueprint says. -/
example (K : Blueprint) (hK : plot.blueprint .b64 screen false none = some K) :=
  C91_place (fp := .b64) (.inr b64_laws) plot_boxed (laidDoc_ok (d := screen) (by decide +kernel)) hK .v (64 * 1000) [1, 0]
    (offsets_small (by
      have : (plot.blueprint .b64 screen false none).all (fun K =>
          (List.range ([1, 0].length + 1)).all fun i => ((K.at ([1, 0].take i)).map fun f => (f.offset .v).smallTest 1000).getD true) = true := by
        decide +kernel
      rw [hK] at this
      exact this)) (by decide) ((laidBox .b64 screen plot [1, 0]).getD .fresh) (by decide +kernel)

/-! ## C96: the texts of boxes -/

/-- Two boxes of the same padding. -/
example := C96_text ⟨pyRepr .b64, fun _ => true, fun _ => .error .type⟩ rfl Box.fresh padded15
  (by rintro x (h | h) <;> cases h <;> exact trivial)
  (by rintro x (h | h) <;> cases h <;> exact trivial)

/-! ## C98: one value -/

example := C98_unambiguous exampleEnv b64_laws .width (px 12) ⟨trivial, fun _ h => by cases h⟩

end Colosseum
