import Verif.Lemmas.Accept
import Verif.Lemmas.Acts
import Verif.Lemmas.Again
import Verif.Lemmas.Aligned
import Verif.Lemmas.Alike
import Verif.Lemmas.Angles
import Verif.Lemmas.Apply
import Verif.Lemmas.Blueprint
import Verif.Lemmas.Boundary
import Verif.Lemmas.Cases
import Verif.Lemmas.Causal
import Verif.Lemmas.Collapse
import Verif.Lemmas.Created
import Verif.Lemmas.Css
import Verif.Lemmas.Decl
import Verif.Lemmas.Digits
import Verif.Lemmas.Displaced
import Verif.Lemmas.Easy
import Verif.Lemmas.Edges
import Verif.Lemmas.Engine
import Verif.Lemmas.Erase
import Verif.Lemmas.Flow
import Verif.Lemmas.Grammar
import Verif.Lemmas.Grid
import Verif.Lemmas.Grown
import Verif.Lemmas.Heights
import Verif.Lemmas.Hsl
import Verif.Lemmas.Inline
import Verif.Lemmas.Layout
import Verif.Lemmas.Level
import Verif.Lemmas.Literals
import Verif.Lemmas.Local
import Verif.Lemmas.Margins
import Verif.Lemmas.Merged
import Verif.Lemmas.Mild
import Verif.Lemmas.Mirror
import Verif.Lemmas.Moved
import Verif.Lemmas.Notation
import Verif.Lemmas.Offsets
import Verif.Lemmas.Permute
import Verif.Lemmas.Pixels
import Verif.Lemmas.Place
import Verif.Lemmas.Placed
import Verif.Lemmas.Print
import Verif.Lemmas.Progress
import Verif.Lemmas.Reach
import Verif.Lemmas.Reads
import Verif.Lemmas.Rect
import Verif.Lemmas.Reference
import Verif.Lemmas.Refused
import Verif.Lemmas.Regroup
import Verif.Lemmas.Relabel
import Verif.Lemmas.Relative
import Verif.Lemmas.Repr
import Verif.Lemmas.Reset
import Verif.Lemmas.Resize
import Verif.Lemmas.Restyle
import Verif.Lemmas.Round
import Verif.Lemmas.Sample
import Verif.Lemmas.Shortest
import Verif.Lemmas.Shorthand
import Verif.Lemmas.Shown
import Verif.Lemmas.Shuffled
import Verif.Lemmas.Sideways
import Verif.Lemmas.Split
import Verif.Lemmas.Stack
import Verif.Lemmas.Stops
import Verif.Lemmas.Str
import Verif.Lemmas.Stretched
import Verif.Lemmas.Style
import Verif.Lemmas.Survive
import Verif.Lemmas.Text
import Verif.Lemmas.Trace
import Verif.Lemmas.Tree
import Verif.Lemmas.Twins
import Verif.Lemmas.Units
import Verif.Lemmas.Unrounded
import Verif.Lemmas.Vertical
import Verif.Lemmas.Viable
import Verif.Lemmas.Whole
import Verif.Lemmas.Wide
import Verif.Lemmas.Widen
import Verif.Lemmas.Widths
import Verif.Lemmas.Without
import Verif.Lemmas.Wrapped
import Verif.Model.Arith
import Verif.Model.Colors
import Verif.Model.Constants
import Verif.Model.Declaration
import Verif.Model.Dimensions
import Verif.Model.Engine
import Verif.Model.Factories
import Verif.Model.History
import Verif.Model.Ieee
import Verif.Model.Messages
import Verif.Model.Order
import Verif.Model.Parser
import Verif.Model.Print
import Verif.Model.Shorthand
import Verif.Model.Shown
import Verif.Model.Trace
import Verif.Model.Units
import Verif.Model.Validators
import Verif.Model.Values
import Verif.Model.Wrappers
import Verif.Props.Agreeing
import Verif.Props.Aligned
import Verif.Props.Angles
import Verif.Props.Arith
import Verif.Props.Blocks
import Verif.Props.Blueprint
import Verif.Props.Boundary
import Verif.Props.Boxes
import Verif.Props.Boxless
import Verif.Props.Cases
import Verif.Props.CasesChanges
import Verif.Props.CasesFlow
import Verif.Props.CasesLists
import Verif.Props.CasesMore
import Verif.Props.CasesRest
import Verif.Props.CasesSessions
import Verif.Props.CasesStyle
import Verif.Props.CasesTexts
import Verif.Props.CasesValues
import Verif.Props.Clean
import Verif.Props.Collapse
import Verif.Props.ColorAccept
import Verif.Props.ColorFuncs
import Verif.Props.Colors
import Verif.Props.Copy
import Verif.Props.Created
import Verif.Props.Css
import Verif.Props.Displaced
import Verif.Props.Edges
import Verif.Props.Equality
import Verif.Props.Errors
import Verif.Props.Factories
import Verif.Props.FloatText
import Verif.Props.Flow
import Verif.Props.FontUnits
import Verif.Props.Grammar
import Verif.Props.Heights
import Verif.Props.Hsl
import Verif.Props.Ieee
import Verif.Props.Independent
import Verif.Props.Inline
import Verif.Props.Interrupted
import Verif.Props.Layout
import Verif.Props.Level
import Verif.Props.Limits
import Verif.Props.Lists
import Verif.Props.Margins
import Verif.Props.Marks
import Verif.Props.Merged
import Verif.Props.Messages
import Verif.Props.Mild
import Verif.Props.Mirror
import Verif.Props.MirrorSample
import Verif.Props.Moved
import Verif.Props.MovedLevel
import Verif.Props.Names
import Verif.Props.Notation
import Verif.Props.Offsets
import Verif.Props.Order
import Verif.Props.Percentages
import Verif.Props.Pixels
import Verif.Props.Place
import Verif.Props.Placed
import Verif.Props.Print
import Verif.Props.Ratio
import Verif.Props.Ratios
import Verif.Props.Reference
import Verif.Props.Regroup
import Verif.Props.Relative
import Verif.Props.Replaced
import Verif.Props.Represent
import Verif.Props.Resize
import Verif.Props.Revalidate
import Verif.Props.Root
import Verif.Props.Sector
import Verif.Props.Shapes
import Verif.Props.Shares
import Verif.Props.Shortest
import Verif.Props.ShorthandErrors
import Verif.Props.Shorthands
import Verif.Props.Shown
import Verif.Props.Shuffled
import Verif.Props.Siblings
import Verif.Props.Sides
import Verif.Props.Sideways
import Verif.Props.Stacks
import Verif.Props.Stops
import Verif.Props.Stretched
import Verif.Props.Style
import Verif.Props.Ties
import Verif.Props.Tutorial
import Verif.Props.Twins
import Verif.Props.Unbounded
import Verif.Props.Units
import Verif.Props.Unread
import Verif.Props.Unrounded
import Verif.Props.Urls
import Verif.Props.Viable
import Verif.Props.Whole
import Verif.Props.Widths
import Verif.Props.Without
import Verif.Props.Wrapped
import Verif.Py.Float64
import Verif.Py.Ieee
import Verif.Py.Lit
import Verif.Py.Num
import Verif.Py.Repr
import Verif.Py.Str
import Verif.Spec.Aligned
import Verif.Spec.Angles
import Verif.Spec.Blueprint
import Verif.Spec.Causal
import Verif.Spec.Collapse
import Verif.Spec.ColorAccept
import Verif.Spec.ColorText
import Verif.Spec.Colors
import Verif.Spec.Css
import Verif.Spec.Document
import Verif.Spec.Edges
import Verif.Spec.Flow
import Verif.Spec.FontUnits
import Verif.Spec.Forget
import Verif.Spec.Grammar
import Verif.Spec.Level
import Verif.Spec.Lists
import Verif.Spec.Literals
import Verif.Spec.Margins
import Verif.Spec.Merged
import Verif.Spec.Messages
import Verif.Spec.Mild
import Verif.Spec.Mirror
import Verif.Spec.Moved
import Verif.Spec.Names
import Verif.Spec.Notation
import Verif.Spec.Order
import Verif.Spec.Pixels
import Verif.Spec.Place
import Verif.Spec.Plain
import Verif.Spec.Print
import Verif.Spec.Reads
import Verif.Spec.Reference
import Verif.Spec.Regroup
import Verif.Spec.Replaced
import Verif.Spec.Represent
import Verif.Spec.Resize
import Verif.Spec.Shortest
import Verif.Spec.Shorthand
import Verif.Spec.Shown
import Verif.Spec.Shuffled
import Verif.Spec.Sideways
import Verif.Spec.Stops
import Verif.Spec.Stretched
import Verif.Spec.Style
import Verif.Spec.Text
import Verif.Spec.Tree
import Verif.Spec.Tutorial
import Verif.Spec.Units
import Verif.Spec.Unrounded
import Verif.Spec.Viable
import Verif.Spec.Whole
import Verif.Spec.Wide
import Verif.Spec.Without
