import Verif.Model.Units

/-!
# How many pixels a length is

From CSS 2.1 section 4.3.2: one inch is 72 points, 6 picas, 2.54 centimetres; font relative lengths are
multiples of a font measure in points; viewport units are hundredths of the display; percentages are
hundredths of the containing size. No rounding.
-/

namespace Colosseum

/-- The length of a font or absolute unit in points. -/
def cssPoints (k : LKind) (f : Font) : Option Rat :=
  match k with
  | .em => some f.em.val
  | .ex => some f.ex.val
  | .ch => some f.ch.val
  | .pt => some 1
  | .pc => some (72 / 6)
  | .inch => some 72
  | .cm => some (72 / (254 / 100))
  | .mm => some (72 / (254 / 10))
  | _ => none

/-- The display extent a viewport unit measures. -/
def cssExtent (k : LKind) (d : Display) : Option Rat :=
  match k with
  | .vw => some d.contentWidth.val
  | .vh => some d.contentHeight.val
  | .vmin => some (min d.contentWidth.val d.contentHeight.val)
  | .vmax => some (max d.contentWidth.val d.contentHeight.val)
  | _ => none

/-- The exact number of pixels of `v` units. -/
inductive CssPixels (c : PxCtx) : LKind → Rat → Rat → Prop
  | px (v : Rat) : CssPixels c .px v v
  | points (k : LKind) (v p : Rat) : cssPoints k c.font = some p →
      CssPixels c k v (v * p / 72 * c.display.dpi.val)
  | extent (k : LKind) (v e : Rat) : cssExtent k c.display = some e → CssPixels c k v (v * e / 100)
  | percent (v : Rat) (s : Num) : c.size = some s → CssPixels c .percent v (v * s.val / 100)

/-- The measures of a context are not negative. -/
structure PxCtx.Nonneg (c : PxCtx) : Prop where
  dpi : 0 ≤ c.display.dpi.val
  width : 0 ≤ c.display.contentWidth.val
  height : 0 ≤ c.display.contentHeight.val
  em : 0 ≤ c.font.em.val
  ex : 0 ≤ c.font.ex.val
  ch : 0 ≤ c.font.ch.val
  size : ∀ s, c.size = some s → 0 ≤ s.val

/-- A viewport unit. -/
def LKind.isViewport (k : LKind) : Prop := k = .vw ∨ k = .vh ∨ k = .vmin ∨ k = .vmax

/-- A usual context: 96 dpi, 1024x768, 12pt font, inside a 640px wide box. -/
def sampleCtx : PxCtx :=
  ⟨⟨.int 96, .int 1024, .int 768, .int 1, .int 3, .int 5⟩, ⟨.int 12, .int 6, .int 7⟩, some (.int 640)⟩

end Colosseum
