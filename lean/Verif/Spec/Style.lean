import Verif.Spec.Lists
import Verif.Model.Constants

/-!
# Specification of the CSS properties: keywords, kinds of values, initial values, names

Tables of CSS 2.1 property definitions as colosseum documents them (`/repo/src/colosseum/constants.py`,
`/repo/src/colosseum/declaration.py`), written as flat lists of words without reference to `Choices`.
-/

namespace Colosseum

/-- The value a keyword stands for: `none` is Python's `None`. -/
def keywordVal (s : String) : Val := if s = "none" then .none else .str s.toList

def lineStyles : List String :=
  ["none", "hidden", "dotted", "dashed", "solid", "double", "groove", "ridge", "inset", "outset"]

def lineWidths : List String := ["thin", "medium", "thick"]

/-- The keywords of each property. -/
def keywordNames : LH → List String
  | .margin _ | .width | .minWidth | .height | .minHeight | .zIndex => ["auto"]
  | .padding _ => []
  | .maxWidth | .maxHeight => ["none"]
  | .top | .right | .bottom | .left | .clip => ["auto", "inherit"]
  | .borderWidth _ => lineWidths
  | .borderStyle _ => lineStyles
  | .borderColor _ => ["transparent", "inherit", "initial", "revert", "unset"]
  | .outlineWidth => "inherit" :: lineWidths
  | .outlineStyle => "inherit" :: lineStyles
  | .outlineColor => ["invert", "inherit"]
  | .display =>
    ["inline", "block", "list-item", "inline-block", "table", "inline-table", "table-row-group",
     "table-header-group", "table-footer-group", "table-row", "table-column-group", "table-column",
     "table-cell", "table-caption", "flex", "inline-flex", "grid", "inline-grid", "none"]
  | .position => ["static", "relative", "absolute", "fixed"]
  | .float => ["left", "right", "none"]
  | .clear => ["none", "left", "right", "both"]
  | .direction => ["ltr", "rtl"]
  | .unicodeBidi => ["normal", "embed", "bidi-override"]
  | .overflow => ["visible", "hidden", "scroll", "auto", "inherit"]
  | .visibility => ["visible", "hidden", "collapse"]
  | .quotes => ["none", "initial", "inherit"]
  | .pageBreakBefore | .pageBreakAfter => ["auto", "always", "avoid", "left", "right", "inherit"]
  | .pageBreakInside => ["avoid", "auto", "inherit"]
  | .orphans | .widows | .textIndent | .borderSpacing | .cursor => ["inherit"]
  | .color => []
  | .backgroundColor => ["transparent"]
  | .textAlign => ["left", "right", "center", "justify", "inherit"]
  | .textDecoration => ["none", "underline", "overline", "line-through", "blink", "inherit"]
  | .letterSpacing | .wordSpacing => ["normal", "inherit"]
  | .textTransform => ["capitalize", "uppercase", "lowercase", "none", "inherit"]
  | .whiteSpace => ["normal", "pre", "nowrap", "pre-wrap", "pre-line", "inherit"]
  | .captionSide => ["top", "bottom", "inherit"]
  | .tableLayout => ["auto", "fixed", "inherit"]
  | .borderCollapse => ["collapse", "separate", "inherit"]
  | .emptyCells => ["show", "hide", "inherit"]

/-- The keyword values of each property; the colours also take the `default` object. -/
def keywords (p : LH) : List Val :=
  (keywordNames p).map keywordVal ++ if p = .color ∨ p = .backgroundColor then [.dflt] else []

/-- `KeywordOf p v w`: `v` is a way of writing a keyword of `p` and `w` is the keyword value. -/
inductive KeywordOf (p : LH) : Val → Val → Prop
  | word (s : String) : s ∈ keywordNames p → KeywordOf p (.str s.toList) (keywordVal s)
  | none : "none" ∈ keywordNames p → KeywordOf p .none .none
  | dflt : p = .color ∨ p = .backgroundColor → KeywordOf p .dflt .dflt

/-- The kinds of values a property can take besides keywords. -/
inductive Kind
  | length | color | integer | spacing | rect | quotes | cursor
deriving DecidableEq

/-- The kind of value of each property besides keywords. -/
def kindOf : LH → Option Kind
  | .margin _ | .padding _ | .borderWidth _ | .outlineWidth | .top | .right | .bottom | .left
  | .width | .minWidth | .maxWidth | .height | .minHeight | .maxHeight
  | .textIndent | .letterSpacing | .wordSpacing => some .length
  | .borderColor _ | .outlineColor | .color | .backgroundColor => some .color
  | .zIndex | .orphans | .widows => some .integer
  | .borderSpacing => some .spacing
  | .clip => some .rect
  | .quotes => some .quotes
  | .cursor => some .cursor
  | _ => none

/-- A quote text: present and not empty. -/
def QVal.nonEmpty : QVal → Prop
  | .str s => s ≠ []
  | .other _ n => n ≠ none ∧ n ≠ some 0

/-- The values of each kind. A length is any unit object; that angles are among them is C09. -/
def Kind.has : Kind → Val → Prop
  | .length, v => ∃ u, v = .unit u
  | .color, v => ∃ r c, v = .color r c
  | .integer, v => ∃ i : Int, v = .num (.fin (.int i))
  | .spacing, v => ∃ r h w, v = .borderSpacing r h w
  | .rect, v => ∃ a b c d, v = .rect a b c d
  | .quotes, v => ∃ q, v = .quotes q ∧ q ≠ [] ∧ ∀ p ∈ q, p.1.nonEmpty ∧ p.2.nonEmpty
  | .cursor, v => ∃ urls kw, v = .cursor (urls ++ kw) ∧ kw.length ≤ 1 ∧ (∀ u ∈ urls, ∃ r x, u = .uri r x) ∧
      ∀ k ∈ kw, ∃ w ∈ cssCursors, k = .opt w.toList

/-- A value a property can hold: one of its keywords, or a value of its kind. -/
def Canonical (p : LH) (v : Val) : Prop := v ∈ keywords p ∨ ∃ k, kindOf p = some k ∧ k.has v

/-- A unit of zero pixels. -/
def zeroLength : Val := .unit ⟨.len .px, .fin (.int 0)⟩

/-- The initial value of each property, given the values of the other properties: the border colours
follow `color`, the text alignment follows `direction`. -/
def cssInitial (value : LH → Val) : LH → Val
  | .margin _ | .padding _ | .borderWidth _ | .textIndent => zeroLength
  | .top | .right | .bottom | .left | .width | .minWidth | .height | .minHeight | .zIndex | .clip
  | .pageBreakBefore | .pageBreakAfter | .pageBreakInside | .tableLayout => keywordVal "auto"
  | .maxWidth | .maxHeight | .borderStyle _ | .outlineStyle | .float | .clear | .textDecoration
  | .textTransform => keywordVal "none"
  | .display => keywordVal "inline"
  | .position => keywordVal "static"
  | .direction => keywordVal "ltr"
  | .unicodeBidi | .letterSpacing | .wordSpacing | .whiteSpace => keywordVal "normal"
  | .overflow | .visibility => keywordVal "visible"
  | .quotes => keywordVal "initial"
  | .orphans | .widows => .num (.fin (.int 2))
  | .color | .backgroundColor => .dflt
  | .borderColor _ => value .color
  | .textAlign =>
    match value .direction with
    | .str s => if s = lit "rtl" then keywordVal "right" else keywordVal "left"
    | _ => keywordVal "left"
  | .captionSide => keywordVal "top"
  | .borderCollapse => keywordVal "separate"
  | .borderSpacing => .borderSpacing (.shared 0) ⟨.len .px, .fin (.int 0)⟩ none
  | .emptyCells => keywordVal "show"
  | .cursor => .cursor [.opt (lit "auto")]
  | .outlineWidth => keywordVal "medium"
  | .outlineColor => keywordVal "invert"

/-- The property whose value the default of a property follows. -/
def follows : LH → Option LH
  | .borderColor _ => some .color
  | .textAlign => some .direction
  | _ => none

end Colosseum
