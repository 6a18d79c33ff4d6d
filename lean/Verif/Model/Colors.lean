import Verif.Model.Values

/-!
# `/repo/src/colosseum/colors.py`
-/

namespace Colosseum

/-- `NAMED_COLOR` in source order (`/repo/src/colosseum/colors.py:57-356`). -/
def namedColors : List (PyStr × (Int × Int × Int)) :=
  [
   (lit "aliceblue", (0xF0, 0xF8, 0xFF)),
   (lit "antiquewhite", (0xFA, 0xEB, 0xD7)),
   (lit "aqua", (0x00, 0xFF, 0xFF)),
   (lit "aquamarine", (0x7F, 0xFF, 0xD4)),
   (lit "azure", (0xF0, 0xFF, 0xFF)),
   (lit "beige", (0xF5, 0xF5, 0xDC)),
   (lit "bisque", (0xFF, 0xE4, 0xC4)),
   (lit "black", (0x00, 0x00, 0x00)),
   (lit "blanchedalmond", (0xFF, 0xEB, 0xCD)),
   (lit "blue", (0x00, 0x00, 0xFF)),
   (lit "blueviolet", (0x8A, 0x2B, 0xE2)),
   (lit "brown", (0xA5, 0x2A, 0x2A)),
   (lit "burlywood", (0xDE, 0xB8, 0x87)),
   (lit "cadetblue", (0x5F, 0x9E, 0xA0)),
   (lit "chartreuse", (0x7F, 0xFF, 0x00)),
   (lit "chocolate", (0xD2, 0x69, 0x1E)),
   (lit "coral", (0xFF, 0x7F, 0x50)),
   (lit "cornflowerblue", (0x64, 0x95, 0xED)),
   (lit "cornsilk", (0xFF, 0xF8, 0xDC)),
   (lit "crimson", (0xDC, 0x14, 0x3C)),
   (lit "cyan", (0x00, 0xFF, 0xFF)),
   (lit "darkblue", (0x00, 0x00, 0x8B)),
   (lit "darkcyan", (0x00, 0x8B, 0x8B)),
   (lit "darkgoldenrod", (0xB8, 0x86, 0x0B)),
   (lit "darkgray", (0xA9, 0xA9, 0xA9)),
   (lit "darkgrey", (0xA9, 0xA9, 0xA9)),
   (lit "darkgreen", (0x00, 0x64, 0x00)),
   (lit "darkkhaki", (0xBD, 0xB7, 0x6B)),
   (lit "darkmagenta", (0x8B, 0x00, 0x8B)),
   (lit "darkolivegreen", (0x55, 0x6B, 0x2F)),
   (lit "darkorange", (0xFF, 0x8C, 0x00)),
   (lit "darkorchid", (0x99, 0x32, 0xCC)),
   (lit "darkred", (0x8B, 0x00, 0x00)),
   (lit "darksalmon", (0xE9, 0x96, 0x7A)),
   (lit "darkseagreen", (0x8F, 0xBC, 0x8F)),
   (lit "darkslateblue", (0x48, 0x3D, 0x8B)),
   (lit "darkslategray", (0x2F, 0x4F, 0x4F)),
   (lit "darkslategrey", (0x2F, 0x4F, 0x4F)),
   (lit "darkturquoise", (0x00, 0xCE, 0xD1)),
   (lit "darkviolet", (0x94, 0x00, 0xD3)),
   (lit "deeppink", (0xFF, 0x14, 0x93)),
   (lit "deepskyblue", (0x00, 0xBF, 0xFF)),
   (lit "dimgray", (0x69, 0x69, 0x69)),
   (lit "dimgrey", (0x69, 0x69, 0x69)),
   (lit "dodgerblue", (0x1E, 0x90, 0xFF)),
   (lit "firebrick", (0xB2, 0x22, 0x22)),
   (lit "floralwhite", (0xFF, 0xFA, 0xF0)),
   (lit "forestgreen", (0x22, 0x8B, 0x22)),
   (lit "fuchsia", (0xFF, 0x00, 0xFF)),
   (lit "gainsboro", (0xDC, 0xDC, 0xDC)),
   (lit "ghostwhite", (0xF8, 0xF8, 0xFF)),
   (lit "gold", (0xFF, 0xD7, 0x00)),
   (lit "goldenrod", (0xDA, 0xA5, 0x20)),
   (lit "gray", (0x80, 0x80, 0x80)),
   (lit "grey", (0x80, 0x80, 0x80)),
   (lit "green", (0x00, 0x80, 0x00)),
   (lit "greenyellow", (0xAD, 0xFF, 0x2F)),
   (lit "honeydew", (0xF0, 0xFF, 0xF0)),
   (lit "hotpink", (0xFF, 0x69, 0xB4)),
   (lit "indianred", (0xCD, 0x5C, 0x5C)),
   (lit "indigo", (0x4B, 0x00, 0x82)),
   (lit "ivory", (0xFF, 0xFF, 0xF0)),
   (lit "khaki", (0xF0, 0xE6, 0x8C)),
   (lit "lavender", (0xE6, 0xE6, 0xFA)),
   (lit "lavenderblush", (0xFF, 0xF0, 0xF5)),
   (lit "lawngreen", (0x7C, 0xFC, 0x00)),
   (lit "lemonchiffon", (0xFF, 0xFA, 0xCD)),
   (lit "lightblue", (0xAD, 0xD8, 0xE6)),
   (lit "lightcoral", (0xF0, 0x80, 0x80)),
   (lit "lightcyan", (0xE0, 0xFF, 0xFF)),
   (lit "lightgoldenrodyellow", (0xFA, 0xFA, 0xD2)),
   (lit "lightgray", (0xD3, 0xD3, 0xD3)),
   (lit "lightgrey", (0xD3, 0xD3, 0xD3)),
   (lit "lightgreen", (0x90, 0xEE, 0x90)),
   (lit "lightpink", (0xFF, 0xB6, 0xC1)),
   (lit "lightsalmon", (0xFF, 0xA0, 0x7A)),
   (lit "lightseagreen", (0x20, 0xB2, 0xAA)),
   (lit "lightskyblue", (0x87, 0xCE, 0xFA)),
   (lit "lightslategray", (0x77, 0x88, 0x99)),
   (lit "lightslategrey", (0x77, 0x88, 0x99)),
   (lit "lightsteelblue", (0xB0, 0xC4, 0xDE)),
   (lit "lightyellow", (0xFF, 0xFF, 0xE0)),
   (lit "lime", (0x00, 0xFF, 0x00)),
   (lit "limegreen", (0x32, 0xCD, 0x32)),
   (lit "linen", (0xFA, 0xF0, 0xE6)),
   (lit "magenta", (0xFF, 0x00, 0xFF)),
   (lit "maroon", (0x80, 0x00, 0x00)),
   (lit "mediumaquamarine", (0x66, 0xCD, 0xAA)),
   (lit "mediumblue", (0x00, 0x00, 0xCD)),
   (lit "mediumorchid", (0xBA, 0x55, 0xD3)),
   (lit "mediumpurple", (0x93, 0x70, 0xDB)),
   (lit "mediumseagreen", (0x3C, 0xB3, 0x71)),
   (lit "mediumslateblue", (0x7B, 0x68, 0xEE)),
   (lit "mediumspringgreen", (0x00, 0xFA, 0x9A)),
   (lit "mediumturquoise", (0x48, 0xD1, 0xCC)),
   (lit "mediumvioletred", (0xC7, 0x15, 0x85)),
   (lit "midnightblue", (0x19, 0x19, 0x70)),
   (lit "mintcream", (0xF5, 0xFF, 0xFA)),
   (lit "mistyrose", (0xFF, 0xE4, 0xE1)),
   (lit "moccasin", (0xFF, 0xE4, 0xB5)),
   (lit "navajowhite", (0xFF, 0xDE, 0xAD)),
   (lit "navy", (0x00, 0x00, 0x80)),
   (lit "oldlace", (0xFD, 0xF5, 0xE6)),
   (lit "olive", (0x80, 0x80, 0x00)),
   (lit "olivedrab", (0x6B, 0x8E, 0x23)),
   (lit "orange", (0xFF, 0xA5, 0x00)),
   (lit "orangered", (0xFF, 0x45, 0x00)),
   (lit "orchid", (0xDA, 0x70, 0xD6)),
   (lit "palegoldenrod", (0xEE, 0xE8, 0xAA)),
   (lit "palegreen", (0x98, 0xFB, 0x98)),
   (lit "paleturquoise", (0xAF, 0xEE, 0xEE)),
   (lit "palevioletred", (0xDB, 0x70, 0x93)),
   (lit "papayawhip", (0xFF, 0xEF, 0xD5)),
   (lit "peachpuff", (0xFF, 0xDA, 0xB9)),
   (lit "peru", (0xCD, 0x85, 0x3F)),
   (lit "pink", (0xFF, 0xC0, 0xCB)),
   (lit "plum", (0xDD, 0xA0, 0xDD)),
   (lit "powderblue", (0xB0, 0xE0, 0xE6)),
   (lit "purple", (0x80, 0x00, 0x80)),
   (lit "rebeccapurple", (0x66, 0x33, 0x99)),
   (lit "red", (0xFF, 0x00, 0x00)),
   (lit "rosybrown", (0xBC, 0x8F, 0x8F)),
   (lit "royalblue", (0x41, 0x69, 0xE1)),
   (lit "saddlebrown", (0x8B, 0x45, 0x13)),
   (lit "salmon", (0xFA, 0x80, 0x72)),
   (lit "sandybrown", (0xF4, 0xA4, 0x60)),
   (lit "seagreen", (0x2E, 0x8B, 0x57)),
   (lit "seashell", (0xFF, 0xF5, 0xEE)),
   (lit "sienna", (0xA0, 0x52, 0x2D)),
   (lit "silver", (0xC0, 0xC0, 0xC0)),
   (lit "skyblue", (0x87, 0xCE, 0xEB)),
   (lit "slateblue", (0x6A, 0x5A, 0xCD)),
   (lit "slategray", (0x70, 0x80, 0x90)),
   (lit "slategrey", (0x70, 0x80, 0x90)),
   (lit "snow", (0xFF, 0xFA, 0xFA)),
   (lit "springgreen", (0x00, 0xFF, 0x7F)),
   (lit "steelblue", (0x46, 0x82, 0xB4)),
   (lit "tan", (0xD2, 0xB4, 0x8C)),
   (lit "teal", (0x00, 0x80, 0x80)),
   (lit "thistle", (0xD8, 0xBF, 0xD8)),
   (lit "tomato", (0xFF, 0x63, 0x47)),
   (lit "turquoise", (0x40, 0xE0, 0xD0)),
   (lit "violet", (0xEE, 0x82, 0xEE)),
   (lit "wheat", (0xF5, 0xDE, 0xB3)),
   (lit "white", (0xFF, 0xFF, 0xFF)),
   (lit "whitesmoke", (0xF5, 0xF5, 0xF5)),
   (lit "yellow", (0xFF, 0xFF, 0x00)),
   (lit "yellowgreen", (0x9A, 0xCD, 0x32))]

/-- Look a key up in a list of pairs, returning its index and value. -/
def lookupIdx {α : Type} (k : PyStr) : Nat → List (PyStr × α) → Option (Nat × α)
  | _, [] => none
  | i, (n, v) :: r => if n = k then some (i, v) else lookupIdx k (i + 1) r

/-- `NAMED_COLOR[name]`: the shared `rgb` object, alpha `1.0`
(`/repo/src/colosseum/colors.py:8,207-356`). -/
def namedColor (name : PyStr) : Option Val :=
  match lookupIdx name 1 namedColors with
  | some (i, (r, g, b)) => some (.color (.shared i) (.rgb r g b (.fin (.flt 1))))
  | none => none

/-- `abs(q)`. -/
def ratAbs (q : Rat) : Rat := if q < 0 then -q else q

/-- `h % 2` for a float. -/
def fmod2 (h : Rat) : Rat := h - 2 * ((h / 2).floor : Rat)

/-- The float channel triple of `hsl.rgb` before scaling to 0..255
(`/repo/src/colosseum/colors.py:35-52`). -/
def hslChannels (fp : FP) (h s l : Num) : Rat × Rat × Rat :=
  let l' := l.toFloat fp
  let s' := s.toFloat fp
  let c := fp.rnd (fp.rnd (1 - ratAbs (fp.rnd (fp.rnd (2 * l') - 1))) * s')
  let hh := fp.rnd (h.toFloat fp / 60)
  let x := fp.rnd (c * fp.rnd (1 - ratAbs (fp.rnd (fp.rnd (fmod2 hh) - 1))))
  let m := fp.rnd (l' - fp.rnd (1 / 2 * c))
  let cm := fp.rnd (c + m)
  let xm := fp.rnd (x + m)
  if hh < 1 then (cm, xm, m)
  else if hh < 2 then (xm, cm, m)
  else if hh < 3 then (m, cm, xm)
  else if hh < 4 then (m, xm, cm)
  else if hh < 5 then (m, xm, cm)
  else (cm, m, xm)

/-- `Color.rgb` (`/repo/src/colosseum/colors.py:17-19,34-54`), result fields only. -/
def Color.toRgb (fp : FP) : Color → Color
  | .rgb r g b a => .rgb r g b a
  | .hsl h s l a =>
    let (r, g, b) := hslChannels fp h s l
    .rgb (pyRound (fp.rnd (r * 255))) (pyRound (fp.rnd (g * 255))) (pyRound (fp.rnd (b * 255))) a

end Colosseum
