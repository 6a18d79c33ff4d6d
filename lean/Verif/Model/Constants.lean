import Verif.Model.Validators

/-!
# The property tables: `/repo/src/colosseum/constants.py:100-635`,
`/repo/src/colosseum/declaration.py:288-585`
-/

namespace Colosseum

/-- A side of a box. -/
inductive Side
  | top | right | bottom | left
deriving DecidableEq, Repr

/-- The single CSS properties, one per `validated_property` of `CSS`
(`/repo/src/colosseum/declaration.py:288-585`). -/
inductive LH
  | margin (s : Side)
  | padding (s : Side)
  | borderWidth (s : Side)
  | borderColor (s : Side)
  | borderStyle (s : Side)
  | display | position | top | bottom | left | right | float | clear | zIndex | direction
  | unicodeBidi | width | minWidth | maxWidth | height | minHeight | maxHeight | overflow | clip
  | visibility | quotes | pageBreakBefore | pageBreakAfter | pageBreakInside | orphans | widows
  | color | backgroundColor | textIndent | textAlign | textDecoration | letterSpacing | wordSpacing
  | textTransform | whiteSpace | captionSide | tableLayout | borderCollapse | borderSpacing
  | emptyCells | cursor | outlineWidth | outlineStyle | outlineColor
deriving DecidableEq, Repr

/-- The directional properties (`/repo/src/colosseum/declaration.py:296,309,325,346,361`). -/
inductive Dir
  | margin | padding | borderWidth | borderColor | borderStyle
deriving DecidableEq, Repr

/-- The shorthand properties (`/repo/src/colosseum/declaration.py:364-378,583-585`). -/
inductive SH
  | borderSide (s : Side)
  | border
  | outline
deriving DecidableEq, Repr

/-- Any CSS property. -/
inductive Attr
  | lh (p : LH)
  | dir (d : Dir)
  | sh (s : SH)
deriving DecidableEq, Repr

/-- The name part of a side. -/
def Side.name : Side → PyStr
  | .top => lit "top"
  | .right => lit "right"
  | .bottom => lit "bottom"
  | .left => lit "left"

/-- Attribute name of a single property (`/repo/src/colosseum/declaration.py:288-585`). -/
def LH.name : LH → PyStr
  | .margin s => lit "margin_" ++ s.name
  | .padding s => lit "padding_" ++ s.name
  | .borderWidth s => lit "border_" ++ s.name ++ lit "_width"
  | .borderColor s => lit "border_" ++ s.name ++ lit "_color"
  | .borderStyle s => lit "border_" ++ s.name ++ lit "_style"
  | .display => lit "display"
  | .position => lit "position"
  | .top => lit "top"
  | .bottom => lit "bottom"
  | .left => lit "left"
  | .right => lit "right"
  | .float => lit "float"
  | .clear => lit "clear"
  | .zIndex => lit "z_index"
  | .direction => lit "direction"
  | .unicodeBidi => lit "unicode_bidi"
  | .width => lit "width"
  | .minWidth => lit "min_width"
  | .maxWidth => lit "max_width"
  | .height => lit "height"
  | .minHeight => lit "min_height"
  | .maxHeight => lit "max_height"
  | .overflow => lit "overflow"
  | .clip => lit "clip"
  | .visibility => lit "visibility"
  | .quotes => lit "quotes"
  | .pageBreakBefore => lit "page_break_before"
  | .pageBreakAfter => lit "page_break_after"
  | .pageBreakInside => lit "page_break_inside"
  | .orphans => lit "orphans"
  | .widows => lit "widows"
  | .color => lit "color"
  | .backgroundColor => lit "background_color"
  | .textIndent => lit "text_indent"
  | .textAlign => lit "text_align"
  | .textDecoration => lit "text_decoration"
  | .letterSpacing => lit "letter_spacing"
  | .wordSpacing => lit "word_spacing"
  | .textTransform => lit "text_transform"
  | .whiteSpace => lit "white_space"
  | .captionSide => lit "caption_side"
  | .tableLayout => lit "table_layout"
  | .borderCollapse => lit "border_collapse"
  | .borderSpacing => lit "border_spacing"
  | .emptyCells => lit "empty_cells"
  | .cursor => lit "cursor"
  | .outlineWidth => lit "outline_width"
  | .outlineStyle => lit "outline_style"
  | .outlineColor => lit "outline_color"

/-- `name % ""` of a directional property (`/repo/src/colosseum/declaration.py:271`). -/
def Dir.name : Dir → PyStr
  | .margin => lit "margin"
  | .padding => lit "padding"
  | .borderWidth => lit "border_width"
  | .borderColor => lit "border_color"
  | .borderStyle => lit "border_style"

/-- Name of a shorthand property (`/repo/src/colosseum/declaration.py:364-378,583`). -/
def SH.name : SH → PyStr
  | .borderSide s => lit "border_" ++ s.name
  | .border => lit "border"
  | .outline => lit "outline"

/-- Name of a property. -/
def Attr.name : Attr → PyStr
  | .lh p => p.name
  | .dir d => d.name
  | .sh s => s.name

/-- The four sides. -/
def allSides : List Side := [.top, .right, .bottom, .left]

/-- All single properties (`/repo/src/colosseum/declaration.py:288-585`). -/
def allLH : List LH :=
  allSides.map .margin ++ allSides.map .padding ++ allSides.map .borderWidth
  ++ allSides.map .borderColor ++ allSides.map .borderStyle
  ++ [.display, .position, .top, .bottom, .left, .right, .float, .clear, .zIndex, .direction,
    .unicodeBidi, .width, .minWidth, .maxWidth, .height, .minHeight, .maxHeight, .overflow, .clip,
    .visibility, .quotes, .pageBreakBefore, .pageBreakAfter, .pageBreakInside, .orphans, .widows,
    .color, .backgroundColor, .textIndent, .textAlign, .textDecoration, .letterSpacing,
    .wordSpacing, .textTransform, .whiteSpace, .captionSide, .tableLayout, .borderCollapse,
    .borderSpacing, .emptyCells, .cursor, .outlineWidth, .outlineStyle, .outlineColor]

/-- All directional properties. -/
def allDir : List Dir := [.margin, .padding, .borderWidth, .borderColor, .borderStyle]

/-- All shorthand properties. -/
def allSH : List SH := allSides.map .borderSide ++ [.border, .outline]

/-- The properties behind `_CSS_PROPERTIES` (`/repo/src/colosseum/declaration.py:94,139,217,271-275`;
a set of names in Python). -/
def allAttrs : List Attr := allLH.map .lh ++ allDir.map .dir ++ allSH.map .sh

/-- The property with a given attribute name, `none` when the name is not in `_CSS_PROPERTIES`. -/
def attrOfName (n : PyStr) : Option Attr := allAttrs.find? fun a => a.name == n

/-- A keyword constant. -/
abbrev kw (s : String) : Val := .str (lit s)

/-- `explicit_defaulting_constants=[INHERIT]`. -/
def inheritOnly : List Val := [kw "inherit"]

/-- Keywords of `BORDER_STYLE_CHOICES` and `OUTLINE_STYLE_CHOICES`
(`/repo/src/colosseum/constants.py:134-145,614-624`). -/
def styleConstants : List Val :=
  [.none, kw "hidden", kw "dotted", kw "dashed", kw "solid", kw "double", kw "groove", kw "ridge",
   kw "inset", kw "outset"]

/-- `MARGIN_CHOICES` (`/repo/src/colosseum/constants.py:105`). -/
def marginChoices : Choices := ⟨[kw "auto"], [.length, .percentage], []⟩
/-- `PADDING_CHOICES` (`/repo/src/colosseum/constants.py:112`). -/
def paddingChoices : Choices := ⟨[], [.length, .percentage], []⟩
/-- `BORDER_WIDTH_CHOICES` (`/repo/src/colosseum/constants.py:122`). -/
def borderWidthChoices : Choices := ⟨[kw "thin", kw "medium", kw "thick"], [.length], []⟩
/-- `BORDER_STYLE_CHOICES` (`/repo/src/colosseum/constants.py:134-145`). -/
def borderStyleChoices : Choices := ⟨styleConstants, [], []⟩
/-- `BORDER_COLOR_CHOICES` (`/repo/src/colosseum/constants.py:147-151`). -/
def borderColorChoices : Choices :=
  ⟨[kw "transparent"], [.color], [kw "initial", kw "inherit", kw "unset", kw "revert"]⟩
/-- `OUTLINE_WIDTH_CHOICES` (`/repo/src/colosseum/constants.py:605-611`). -/
def outlineWidthChoices : Choices := ⟨[kw "thin", kw "medium", kw "thick"], [.length], inheritOnly⟩
/-- `OUTLINE_STYLE_CHOICES` (`/repo/src/colosseum/constants.py:614-626`). -/
def outlineStyleChoices : Choices := ⟨styleConstants, [], inheritOnly⟩
/-- `OUTLINE_COLOR_CHOICES` (`/repo/src/colosseum/constants.py:631-635`). -/
def outlineColorChoices : Choices := ⟨[kw "invert"], [.color], inheritOnly⟩
/-- `BOX_OFFSET_CHOICES` (`/repo/src/colosseum/constants.py:214-216`). -/
def boxOffsetChoices : Choices := ⟨[kw "auto"], [.length, .percentage], inheritOnly⟩
/-- `SIZE_CHOICES` and `MIN_SIZE_CHOICES` (`/repo/src/colosseum/constants.py:257-258`). -/
def sizeChoices : Choices := ⟨[kw "auto"], [.length, .percentage], []⟩
/-- `MAX_SIZE_CHOICES` (`/repo/src/colosseum/constants.py:259`). -/
def maxSizeChoices : Choices := ⟨[.none], [.length, .percentage], []⟩
/-- `GRID_GAP_CHOICES` (`/repo/src/colosseum/constants.py:716`); the properties that would use it are commented out
(`/repo/src/colosseum/declaration.py:662-663`). -/
def gridGapChoices : Choices := ⟨[], [.percentage], []⟩

/-- The `choices=` argument of every `validated_property`
(`/repo/src/colosseum/declaration.py:288-585`, values at the lines of
`/repo/src/colosseum/constants.py` given on each case). -/
def LH.choices : LH → Choices
  | .margin _ => marginChoices
  | .padding _ => paddingChoices
  | .borderWidth _ => borderWidthChoices
  | .borderColor _ => borderColorChoices
  | .borderStyle _ => borderStyleChoices
  -- constants.py:180-200
  | .display => ⟨[.none, kw "inline", kw "block", kw "list-item", kw "inline-block", kw "table",
      kw "inline-table", kw "table-row-group", kw "table-header-group", kw "table-footer-group",
      kw "table-row", kw "table-column-group", kw "table-column", kw "table-cell",
      kw "table-caption", kw "flex", kw "inline-flex", kw "grid", kw "inline-grid"], [], []⟩
  -- constants.py:212
  | .position => ⟨[kw "static", kw "relative", kw "absolute", kw "fixed"], [], []⟩
  | .top => boxOffsetChoices
  | .bottom => boxOffsetChoices
  | .left => boxOffsetChoices
  | .right => boxOffsetChoices
  -- constants.py:227-228
  | .float => ⟨[kw "left", kw "right", .none], [], []⟩
  | .clear => ⟨[.none, kw "left", kw "right", kw "both"], [], []⟩
  -- constants.py:234
  | .zIndex => ⟨[kw "auto"], [.integer], []⟩
  -- constants.py:243,249
  | .direction => ⟨[kw "rtl", kw "ltr"], [], []⟩
  | .unicodeBidi => ⟨[kw "normal", kw "embed", kw "bidi-override"], [], []⟩
  | .width => sizeChoices
  | .minWidth => sizeChoices
  | .maxWidth => maxSizeChoices
  | .height => sizeChoices
  | .minHeight => sizeChoices
  | .maxHeight => maxSizeChoices
  -- constants.py:275-277
  | .overflow => ⟨[kw "visible", kw "hidden", kw "scroll", kw "auto"], [], inheritOnly⟩
  -- constants.py:284-286
  | .clip => ⟨[kw "auto"], [.rect], inheritOnly⟩
  -- constants.py:296
  | .visibility => ⟨[kw "visible", kw "hidden", kw "collapse"], [], []⟩
  -- constants.py:308-310
  | .quotes => ⟨[.none, kw "initial"], [.quote], inheritOnly⟩
  -- constants.py:338-350
  | .pageBreakBefore =>
    ⟨[kw "auto", kw "always", kw "avoid", kw "left", kw "right"], [], inheritOnly⟩
  | .pageBreakAfter =>
    ⟨[kw "auto", kw "always", kw "avoid", kw "left", kw "right"], [], inheritOnly⟩
  | .pageBreakInside => ⟨[kw "auto", kw "avoid"], [], inheritOnly⟩
  -- constants.py:357-364
  | .orphans => ⟨[], [.integer], inheritOnly⟩
  | .widows => ⟨[], [.integer], inheritOnly⟩
  -- constants.py:369,374
  | .color => ⟨[.dflt], [.color], []⟩
  | .backgroundColor => ⟨[.dflt, kw "transparent"], [.color], []⟩
  -- constants.py:415-417
  | .textIndent => ⟨[], [.length, .percentage], inheritOnly⟩
  -- constants.py:429-431
  | .textAlign => ⟨[kw "left", kw "right", kw "center", kw "justify"], [], inheritOnly⟩
  -- constants.py:457-464
  | .textDecoration =>
    ⟨[.none, kw "underline", kw "overline", kw "line-through", kw "blink"], [], inheritOnly⟩
  -- constants.py:471-478
  | .letterSpacing => ⟨[kw "normal"], [.length], inheritOnly⟩
  | .wordSpacing => ⟨[kw "normal"], [.length], inheritOnly⟩
  -- constants.py:489-491
  | .textTransform => ⟨[kw "capitalize", kw "uppercase", kw "lowercase", .none], [], inheritOnly⟩
  -- constants.py:504-506
  | .whiteSpace =>
    ⟨[kw "normal", kw "pre", kw "nowrap", kw "pre-wrap", kw "pre-line"], [], inheritOnly⟩
  -- constants.py:518,525
  | .captionSide => ⟨[kw "top", kw "bottom"], [], inheritOnly⟩
  | .tableLayout => ⟨[kw "auto", kw "fixed"], [], inheritOnly⟩
  -- constants.py:536-549
  | .borderCollapse => ⟨[kw "collapse", kw "separate"], [], inheritOnly⟩
  | .borderSpacing => ⟨[], [.borderSpacing], inheritOnly⟩
  | .emptyCells => ⟨[kw "show", kw "hide"], [], inheritOnly⟩
  -- constants.py:596-598
  | .cursor => ⟨[], [.cursor], inheritOnly⟩
  | .outlineWidth => outlineWidthChoices
  | .outlineStyle => outlineStyleChoices
  | .outlineColor => outlineColorChoices

/-- The `initial=` argument as kept by `validated_property`
(`/repo/src/colosseum/declaration.py:169-186`): a validated value, or an object with a `value`
method: `OtherProperty(name)` (`/repo/src/colosseum/constants.py:56-72`) or
`TextAlignInitialValue()` (`/repo/src/colosseum/constants.py:434-444`). -/
inductive Initial
  | const (v : Val)
  | other (p : LH)
  | textAlign

/-- `0 * px`, the validated form of `initial=0` for a length. -/
def zeroPx : Val := .unit ⟨.len .px, .fin (.int 0)⟩

/-- The initial value of every property (`/repo/src/colosseum/declaration.py:288-585`). `initial=0` of
a length property validates to `0px`, of `border_spacing` to a `BorderSpacing(0px)` object, and
`initial=AUTO` of `cursor` to `Cursor(["auto"])`. That each constant is what `choices.validate`
returns for the literal in the source is proved in `C62_initial_is_validated`. -/
def LH.initial : LH → Initial
  | .margin _ => .const zeroPx
  | .padding _ => .const zeroPx
  | .borderWidth _ => .const zeroPx
  | .borderColor _ => .other .color
  | .borderStyle _ => .const .none
  | .display => .const (kw "inline")
  | .position => .const (kw "static")
  | .top => .const (kw "auto")
  | .bottom => .const (kw "auto")
  | .left => .const (kw "auto")
  | .right => .const (kw "auto")
  | .float => .const .none
  | .clear => .const .none
  | .zIndex => .const (kw "auto")
  | .direction => .const (kw "ltr")
  | .unicodeBidi => .const (kw "normal")
  | .width => .const (kw "auto")
  | .minWidth => .const (kw "auto")
  | .maxWidth => .const .none
  | .height => .const (kw "auto")
  | .minHeight => .const (kw "auto")
  | .maxHeight => .const .none
  | .overflow => .const (kw "visible")
  | .clip => .const (kw "auto")
  | .visibility => .const (kw "visible")
  | .quotes => .const (kw "initial")
  | .pageBreakBefore => .const (kw "auto")
  | .pageBreakAfter => .const (kw "auto")
  | .pageBreakInside => .const (kw "auto")
  | .orphans => .const (.num (.fin (.int 2)))
  | .widows => .const (.num (.fin (.int 2)))
  | .color => .const .dflt
  | .backgroundColor => .const .dflt
  | .textIndent => .const zeroPx
  | .textAlign => .textAlign
  | .textDecoration => .const .none
  | .letterSpacing => .const (kw "normal")
  | .wordSpacing => .const (kw "normal")
  | .textTransform => .const .none
  | .whiteSpace => .const (kw "normal")
  | .captionSide => .const (kw "top")
  | .tableLayout => .const (kw "auto")
  | .borderCollapse => .const (kw "separate")
  | .borderSpacing => .const (.borderSpacing (.shared 0) ⟨.len .px, .fin (.int 0)⟩ none)
  | .emptyCells => .const (kw "show")
  | .cursor => .const (.cursor [.opt (lit "auto")])
  | .outlineWidth => .const (kw "medium")
  | .outlineStyle => .const .none
  | .outlineColor => .const (kw "invert")

end Colosseum
