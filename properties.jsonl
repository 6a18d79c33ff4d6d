{"id": "C01", "title": "Length parsing does not depend on what was parsed before", "statement": "parser.units(s) returns the same unit and magnitude no matter which lengths were parsed, multiplied, negated or constructed by those operations earlier in the process, although every such operation registers another entry in the global suffix registry that later parses scan.", "quantifier": "every string s and every finite history of unit-creating operations (parse, number*unit, -unit)", "why_tests_cant": "the registry grows without bound with every parse; a test only sees a few registry contents.", "anchors": ["src/colosseum/units.py:BaseUnit.__init__, BaseUnit.UNITS, BaseUnit.__rmul__, BaseUnit.__neg__", "src/colosseum/parser.py:units"]}
{"id": "C02", "title": "<number><suffix> strings parse to exactly that unit", "statement": "For every string n that Python's float() accepts and each of the 18 unit suffixes u, parser.units(n+u) yields the unit of suffix u with magnitude float(n); no shorter or longer suffix (in/vmin, rad/grad) ever captures it.", "quantifier": "every float literal accepted by float(), every built-in suffix", "why_tests_cant": "the set of float literals is infinite (signs, exponents, underscores, inf/nan, surrounding blanks) and shadowing depends on the last characters.", "anchors": ["src/colosseum/parser.py:units", "src/colosseum/units.py:BaseUnit.UNITS"]}
{"id": "C03", "title": "Bare numbers are pixels, everything else is rejected with ValueError", "statement": "parser.units(v) returns v itself for a length unit, v*px for an int or float, float(s)*px for a numeric string without a suffix; every other value (None, colors, sequences, angle objects, other strings) raises ValueError and nothing else.", "quantifier": "every Python value the API can be handed", "why_tests_cant": "totality and the exact exception class have to hold for every value.", "anchors": ["src/colosseum/parser.py:units", "src/colosseum/validators.py:is_length"]}
{"id": "C04", "title": "Printing a length and parsing it back gives an equal length", "statement": "parser.units(str(u)) == u for every finite length unit u: pixel, font, absolute, viewport or percentage, integral or fractional magnitude.", "quantifier": "every finite magnitude and every length unit", "why_tests_cant": "a round trip over infinitely many magnitudes.", "anchors": ["src/colosseum/units.py:BaseUnit.__repr__, PixelUnit.__eq__", "src/colosseum/parser.py:units"]}
{"id": "C05", "title": "Pixel values lie on the 1/64 layout grid and are ints exactly when integral", "statement": "Whenever unit.px(...) returns, the result is n/64 where n = unit.lu(...); it is a Python int if and only if it is integral; and for plain pixels it differs from the requested magnitude by at most 1/128 px (exactly equal when the magnitude is a multiple of 1/64).", "quantifier": "every unit, magnitude, display, font and containing size", "why_tests_cant": "rounding behaviour must hold for every magnitude including ties and negatives.", "anchors": ["src/colosseum/units.py:Unit.lu, Unit.px, FontUnit.lu, AbsoluteUnit.lu, ViewportUnit.lu, Percent.lu"]}
{"id": "C06", "title": "Resolving a length is monotone and sign-symmetric in its magnitude", "statement": "For a fixed unit and a context with non-negative scale (dpi, font size, viewport, containing size), a larger magnitude never gives a smaller pixel value, and (-u).px(...) == -(u.px(...)).", "quantifier": "every pair of finite magnitudes, every unit kind, every context, every monotone odd floating point rounding", "why_tests_cant": "quantifies over pairs of magnitudes and over rounding at ties.", "anchors": ["src/colosseum/units.py:BaseUnit.__neg__, *.lu, Unit.px"]}
{"id": "C07", "title": "Physical and viewport units keep their ratios", "statement": "1in = 72pt = 6pc at every dpi; 10mm = 1cm; vmin is the smaller and vmax the larger of vw and vh, for every magnitude and display size.", "quantifier": "every magnitude, dpi and viewport size", "why_tests_cant": "equalities over all magnitudes.", "anchors": ["src/colosseum/units.py:pt, pc, inch, cm, mm, vh, vw, vmin, vmax"]}
{"id": "C08", "title": "Percentages are proportional to the containing size", "statement": "p% of a containing size w resolves to w*p/100 px to within 1/128 px; 0% is 0, 100% of a size on the layout grid is exactly that size, and a size of None raises TypeError.", "quantifier": "every percentage and containing size", "why_tests_cant": "proportionality over a continuum.", "anchors": ["src/colosseum/units.py:Percent.lu, Unit.px"]}
{"id": "C09", "title": "A length-valued property never stores an angle", "statement": "After any accepted assignment to a length-valued property (margins, paddings, widths, heights, offsets, border widths, spacing) the stored value is a keyword or a length that can be resolved with .px(), never an angle such as 90deg.", "quantifier": "every value assigned to every length-valued property", "why_tests_cant": "needs the whole string language of the parser.", "anchors": ["src/colosseum/parser.py:units", "src/colosseum/units.py:AngleUnit", "src/colosseum/validators.py:is_length"]}
{"id": "C10", "title": "Hex colors decode exactly", "statement": "'#RGB', '#RGBA', '#RRGGBB' and '#RRGGBBAA' built from any hex digits (either case) decode to the components the digits denote; the short form equals the long form with each digit doubled, and alpha is the byte divided by 255 (1.0 when absent).", "quantifier": "all hex digit combinations", "why_tests_cant": "2^32 combinations and two cases per digit.", "anchors": ["src/colosseum/parser.py:color, pound_sign_color"]}
{"id": "C11", "title": "Every accepted hex color has components in 0..255", "statement": "If parser.color accepts a string starting with '#', its red, green and blue components are between 0 and 255 and the string consists of '#' and hex digits only; any other '#' string raises ValueError.", "quantifier": "every string starting with '#'", "why_tests_cant": "quantifies over all malformed strings.", "anchors": ["src/colosseum/parser.py:pound_sign_color"]}
{"id": "C12", "title": "Named colors are looked up case-insensitively and match the CSS color table", "statement": "For every CSS color keyword, written with any mixture of letter cases whose first letters do not spell the lower-case prefixes rgb/hsl, parser.color returns the color whose components the CSS specification lists for it; unknown names raise ValueError.", "quantifier": "every keyword in the table and every capitalisation of it", "why_tests_cant": "2^n capitalisations of each name.", "anchors": ["src/colosseum/parser.py:color", "src/colosseum/colors.py:NAMED_COLOR"]}
{"id": "C13", "title": "rgb()/rgba()/hsl()/hsla() strings decode to the written components", "statement": "'rgb(r, g, b)' with any integers gives exactly those components and alpha 1.0; 'rgba(r, g, b, a)' also takes the float a; 'hsl(h, s%, l%)' gives h, s/100, l/100; a wrong number of components raises ValueError.", "quantifier": "all integers (any number of digits, sign, blanks around them) and float literals", "why_tests_cant": "infinite numeral language.", "anchors": ["src/colosseum/parser.py:color"]}
{"id": "C14", "title": "hsl colors convert to the rgb color CSS defines", "statement": "hsl(h, s, l).rgb equals the CSS HSL-to-RGB conversion for 0 <= h < 360, 0 <= s,l <= 1: components in 0..255, grey when s = 0, and the channel order of each 60-degree sector.", "quantifier": "every hue, saturation, lightness", "why_tests_cant": "six sectors over a continuum.", "anchors": ["src/colosseum/colors.py:hsl.rgb"]}
{"id": "C15", "title": "url values survive printing and parsing", "statement": "parser.uri(str(Uri(x))).url == x for every string x, and url(x), url('x'), url(\"x\") with any blanks inside the parentheses or around the value denote the same x; any string not of the form url(...) and any non-string raises ValueError.", "quantifier": "every url string", "why_tests_cant": "all strings, including quotes and blanks inside.", "anchors": ["src/colosseum/parser.py:uri", "src/colosseum/wrappers.py:Uri"]}
{"id": "C16", "title": "Border spacing takes one or two lengths, the second defaulting to the first", "statement": "border_spacing accepts exactly one or two lengths (as blank-separated string, sequence or number); horizontal is the first, vertical the second or, when absent, the first; any other count raises ValueError.", "quantifier": "every value handed to border_spacing", "why_tests_cant": "arbitrary sequences and strings.", "anchors": ["src/colosseum/parser.py:border_spacing", "src/colosseum/wrappers.py:BorderSpacing"]}
{"id": "C17", "title": "rect() strings assign their four lengths in CSS order", "statement": "'rect(a, b, c, d)' (comma or blank separated, any surrounding blanks) yields a shape whose top, right, bottom and left are a, b, c and d as CSS 2.1 section 11.1.2 defines; any other number of lengths raises ValueError; printing and re-parsing a rect gives an equal rect.", "quantifier": "every four lengths and every blank layout", "why_tests_cant": "four independent infinite arguments.", "anchors": ["src/colosseum/parser.py:rect", "src/colosseum/shapes.py:Rect"]}
{"id": "C18", "title": "Quotes pair up their items in order", "statement": "quotes accepts a string or sequence whose flattened items are an even, positive number of non-empty strings; opening(i)/closing(i) return items 2i and 2i+1, levels beyond the last raise IndexError, negative levels count from the end as for any Python list; an odd or zero count raises ValueError.", "quantifier": "every item list and level", "why_tests_cant": "lists of any length.", "anchors": ["src/colosseum/parser.py:quotes", "src/colosseum/wrappers.py:Quotes"]}
{"id": "C19", "title": "A cursor list is urls followed by at most one keyword", "statement": "cursor accepts a list (or comma separated string) if and only if it consists of any number of url values followed by at most one cursor keyword in last position; the stored list has the same items in the same order; everything else raises ValueError.", "quantifier": "every list of items", "why_tests_cant": "lists of any length and every position of the keyword.", "anchors": ["src/colosseum/parser.py:cursor", "src/colosseum/constants.py:CURSOR_OPTIONS"]}
{"id": "C20", "title": "A stored cursor list never changes", "statement": "No sequence of list operations performed on a Cursor/ImmutableList changes its content.", "quantifier": "every finite sequence of list operations", "why_tests_cant": "arbitrary operation histories.", "anchors": ["src/colosseum/wrappers.py:ImmutableList"]}
{"id": "C21", "title": "A rejected assignment changes nothing", "statement": "If assigning to a single CSS property raises, the declaration (all properties, keys, items, dirtiness) is exactly as before.", "quantifier": "every state reachable by any operation history, every property, every value", "why_tests_cant": "all histories and all values.", "anchors": ["src/colosseum/declaration.py:validated_property"]}
{"id": "C22", "title": "An accepted assignment is read back and touches nothing else", "statement": "After a successful css.p = v, css.p is equal to the validated form of v, and every other property whose default does not follow p reads as before; only the border colors follow color and text_align follows direction, and only while they are unset.", "quantifier": "every reachable state, property, value", "why_tests_cant": "all histories and pairs of properties.", "anchors": ["src/colosseum/declaration.py:validated_property", "src/colosseum/constants.py:OtherProperty, TextAlignInitialValue"]}
{"id": "C23", "title": "Deleting a property restores its initial value", "statement": "After del css.p (attribute, item or update(p=None) form) css.p reads as the property's initial value and p is absent from keys(); deleting again changes nothing.", "quantifier": "every reachable state and property", "why_tests_cant": "all histories.", "anchors": ["src/colosseum/declaration.py:validated_property.deleter, CSS.update, CSS.__delitem__"]}
{"id": "C24", "title": "Every stored value is a canonical value of its property", "statement": "In every state reachable by any sequence of assignments, deletions, updates, shorthand and directional assignments, successful or failed, every value held for a property is one its grammar produces: one of its keywords, or the parsed form its validators return.", "quantifier": "all operation histories", "why_tests_cant": "induction over histories.", "anchors": ["src/colosseum/declaration.py:*", "src/colosseum/constants.py:Choices.validate"]}
{"id": "C25", "title": "Reassigning the current value is accepted and changes nothing", "statement": "css.p = css.p never raises and leaves the declaration and its dirtiness unchanged.", "quantifier": "every reachable state and property", "why_tests_cant": "all histories; needs idempotence of validation.", "anchors": ["src/colosseum/constants.py:Choices.validate", "src/colosseum/declaration.py:validated_property.setter"]}
{"id": "C26", "title": "copy() produces an equal, independent declaration", "statement": "css.copy() succeeds for every reachable declaration, has the same keys and the same value for each of them, and later operations on either one do not affect the other.", "quantifier": "every reachable declaration", "why_tests_cant": "all histories; every value type must survive re-validation.", "anchors": ["src/colosseum/declaration.py:CSS.copy"]}
{"id": "C27", "title": "1-4 value tuples expand as CSS prescribes", "statement": "Assigning a single value, 1-, 2-, 3- or 4-tuple to margin, padding, border_width, border_color or border_style sets top, right, bottom, left to (a,a,a,a), (a,b,a,b), (a,b,c,b), (a,b,c,d); the getter returns the four values in that order.", "quantifier": "every values and prior state", "why_tests_cant": "all values and histories.", "anchors": ["src/colosseum/declaration.py:directional_property"]}
{"id": "C28", "title": "A rejected four-sided assignment changes nothing", "statement": "If assigning to margin, padding, border_width, border_color or border_style raises, no side has changed.", "quantifier": "every state and tuple", "why_tests_cant": "failure can occur at each of the four component assignments.", "anchors": ["src/colosseum/declaration.py:directional_property.setter"]}
{"id": "C29", "title": "Shorthand parts may be given in any order", "statement": "border, border_top/right/bottom/left and outline give the same result for every permutation of the same parts.", "quantifier": "every part list and permutation", "why_tests_cant": "all values and orders.", "anchors": ["src/colosseum/parser.py:border, outline, _parse_border_property_part, _parse_outline_property_part"]}
{"id": "C30", "title": "A shorthand is accepted iff it has at most three parts of pairwise different kinds", "statement": "A non-empty string or sequence is accepted by border*/outline iff it has at most three parts, each is accepted by one of the width/style/color grammars, and no two fall to the same one; the value recorded for each kind is the validated part.", "quantifier": "every part list", "why_tests_cant": "all lists of arbitrary values.", "anchors": ["src/colosseum/parser.py:border, outline"]}
{"id": "C31", "title": "A shorthand assignment resets the parts it does not mention", "statement": "After an accepted shorthand assignment every covered longhand reads as the given part's value, or as its initial value when not mentioned; border covers all four sides; no other longhand is touched.", "quantifier": "every reachable state, shorthand and accepted value", "why_tests_cant": "all histories.", "anchors": ["src/colosseum/declaration.py:validated_shorthand_property.setter"]}
{"id": "C32", "title": "A rejected shorthand assignment changes nothing", "statement": "If assigning to border, border_<side> or outline raises, no longhand has changed.", "quantifier": "every state and value", "why_tests_cant": "failure can occur after some longhands were already assigned.", "anchors": ["src/colosseum/declaration.py:validated_shorthand_property.setter"]}
{"id": "C33", "title": "Hyphenated and underscored names are the same property, unknown names are rejected", "statement": "css[name], css[name]=v, del css[name] and update(name=v) behave identically for name with any mixture of '-' and '_'; a name that is no CSS property raises KeyError (item access) or NameError (update) and changes nothing.", "quantifier": "every string used as a name", "why_tests_cant": "all strings.", "anchors": ["src/colosseum/declaration.py:CSS.update, __getitem__, __setitem__, __delitem__"]}
{"id": "C34", "title": "update() is the sequence of its assignments", "statement": "update(a=x, b=y, ...) has the effect of the individual assignments (deletions for None) in order, stopping at the first that raises; the ones before it stay applied and the ones after it have no effect.", "quantifier": "every update list and state", "why_tests_cant": "lists of any length, failure at any point.", "anchors": ["src/colosseum/declaration.py:CSS.update"]}
{"id": "C35", "title": "keys(), items() and str() agree", "statement": "keys() is the set of names in items(); str() lists exactly these with hyphenated names in ascending order, each once; only single-valued properties appear, never a shorthand or four-sided property.", "quantifier": "every reachable declaration", "why_tests_cant": "all histories.", "anchors": ["src/colosseum/declaration.py:CSS.keys, items, __str__"]}
{"id": "C36", "title": "A style change marks the layout dirty, a no-op does not", "statement": "On a declaration bound to a node with a layout box, an assignment or deletion that changes what is stored marks the node's layout dirty; assigning a value equal to the current one, deleting an unset property, or a rejected assignment leaves dirtiness as it was.", "quantifier": "every reachable state, property, value", "why_tests_cant": "all histories.", "anchors": ["src/colosseum/declaration.py:validated_property, CSS.dirty"]}
{"id": "C37", "title": "Marking a node dirty marks every displayed descendant dirty", "statement": "In every state reachable by marking nodes dirty (through style, intrinsic size or layout) and re-running layout, marking a node dirty leaves the node and all its descendants reachable through layout boxes dirty.", "quantifier": "every tree shape, every history of dirty marks", "why_tests_cant": "arbitrary trees and histories; propagation stops at nodes that already carry the flag.", "anchors": ["src/colosseum/dimensions.py:Box.dirty"]}
{"id": "C38", "title": "Changing an intrinsic size attribute marks the layout dirty iff it changes", "statement": "Setting width, height, exact_width, exact_height, ratio or is_replaced on node.intrinsic stores the value and marks the layout dirty iff the value differs from the current one; other attributes are unchanged.", "quantifier": "every value and state", "why_tests_cant": "all values.", "anchors": ["src/colosseum/dimensions.py:Size"]}
{"id": "C39", "title": "Box edges and sizes are mutually consistent", "statement": "For every box: border_box_right - border_box_left = border_box_width (same for height and for padding and content boxes); padding box inside border box by the border widths; absolute_X = origin + X for every edge.", "quantifier": "every box state", "why_tests_cant": "numeric identities over all values.", "anchors": ["src/colosseum/dimensions.py:Box"]}
{"id": "C40", "title": "Absolute positions follow every move of an ancestor", "statement": "In a tree of boxes with consistent positions, after moving any node's content box (content_top/content_left) any number of times, every displayed node's absolute content position still equals the sum of the relative positions along the path from the root.", "quantifier": "every tree, every sequence of moves", "why_tests_cant": "arbitrary trees and histories; propagation short-circuits on equal values.", "anchors": ["src/colosseum/dimensions.py:Box._origin_top, content_top"]}
{"id": "C41", "title": "Collapse extents are running maxima", "statement": "Since the last reset, collapse_top is the maximum of 0 and every integer value assigned to margin_top (as a change) or collapse_top; it never decreases and is never negative.", "quantifier": "every sequence of assignments", "why_tests_cant": "all histories.", "anchors": ["src/colosseum/dimensions.py:Box.collapse_top, margin_top"]}
{"id": "C42", "title": "Layout only writes layout boxes", "statement": "layout() leaves the document structure, every style declaration and every intrinsic size unchanged.", "quantifier": "every document", "why_tests_cant": "all trees.", "anchors": ["src/colosseum/engine.py:layout, layout_box"]}
{"id": "C43", "title": "Layout depends only on styles, intrinsic sizes and the display", "statement": "Running layout twice gives the same boxes; more generally the resulting boxes do not depend on what earlier (complete or interrupted) layouts left in the boxes.", "quantifier": "every document and every content of the existing boxes", "why_tests_cant": "all histories of previous layouts, including ones interrupted by an exception.", "anchors": ["src/colosseum/engine.py:layout", "src/colosseum/dimensions.py:Box.reset, _reset"]}
{"id": "C44", "title": "Block widths fill their container exactly", "statement": "After a successful layout, for every laid out non-replaced block, margin_left + border_left + padding_left + content_width + padding_right + border_right + margin_right equals the content width of its parent (the display for the root), except when width is fixed and both margins are auto, where it falls short by less than 2px.", "quantifier": "every document, every box", "why_tests_cant": "all trees and style combinations.", "anchors": ["src/colosseum/engine.py:calculate_block_non_replaced_normal_flow_width"]}
{"id": "C45", "title": "Sibling blocks stack without overlap, separated by the collapsed margin", "statement": "In a block formatting context the first child's border box starts at the top of the content box, and each further static child's border box starts exactly max(previous collapsed bottom margin, own top margin) >= 0 below the end of the previous one.", "quantifier": "every child list of any length, every style", "why_tests_cant": "lists of any length.", "anchors": ["src/colosseum/engine.py:layout_box"]}
{"id": "C46", "title": "An auto height block ends where its last child ends", "statement": "A block with height auto whose children are static blocks gets content_height equal to the bottom of the last child's border box, so the content box encloses all children of non-negative size; without children it is min_height or 0.", "quantifier": "every document", "why_tests_cant": "all trees.", "anchors": ["src/colosseum/engine.py:calculate_block_non_replaced_normal_flow_height"]}
{"id": "C47", "title": "min/max sizes bound the used size, min winning", "statement": "The used content_width of a non-replaced block is at least min_width and, unless min_width is larger, at most max_width; likewise for heights.", "quantifier": "every style and container", "why_tests_cant": "all values.", "anchors": ["src/colosseum/engine.py:calculate_block_non_replaced_normal_flow_width, calculate_block_non_replaced_normal_flow_height"]}
{"id": "C48", "title": "display:none elements and their descendants take no part in layout", "statement": "After layout a node has a layout box iff its display is not none, and the layout of the other nodes is as if the display:none nodes were not in the document.", "quantifier": "every document", "why_tests_cant": "all trees and positions of the hidden node.", "anchors": ["src/colosseum/engine.py:layout_box, anonymize"]}
{"id": "C49", "title": "Absolute positions are consistent after layout", "statement": "After a successful layout of a document, every displayed node's absolute content position equals its parent's absolute content position plus its own relative position; the root's origin is the display origin.", "quantifier": "every document", "why_tests_cant": "all trees.", "anchors": ["src/colosseum/engine.py:layout, layout_box", "src/colosseum/dimensions.py:Box"]}
{"id": "C50", "title": "Relative positioning shifts a box and nothing else", "statement": "A relatively positioned box ends up at its normal flow position plus its left/top (or minus right/bottom) offset; its siblings and its parent are laid out as if it had not been shifted.", "quantifier": "every document and offset", "why_tests_cant": "all trees and offsets.", "anchors": ["src/colosseum/engine.py:layout_box"]}
{"id": "C51", "title": "The HTML5 root fills the display height", "statement": "With standard HTML5 the root's content_height plus its collapsed top and bottom margins equals the display height, and the root is moved down by exactly its collapsed top margin; with HTML4 the height is the computed one.", "quantifier": "every document", "why_tests_cant": "all documents.", "anchors": ["src/colosseum/engine.py:layout"]}
{"id": "C52", "title": "Documents made of blocks always lay out", "statement": "layout() of a document in which every element is a static, non-floated, non-replaced block whose lengths are finite real lengths succeeds, whatever the tree shape.", "quantifier": "every such document", "why_tests_cant": "all trees; freedom from every exception.", "anchors": ["src/colosseum/engine.py:layout_box"]}
{"id": "C53", "title": "Unsupported positioning is refused, never silently mislaid", "statement": "If layout succeeds, no node it laid out is floated, absolutely or fixed positioned, or a replaced block or inline-block.", "quantifier": "every document", "why_tests_cant": "all trees.", "anchors": ["src/colosseum/engine.py:layout_box, calculate_width_and_margins"]}
{"id": "C54", "title": "Later siblings do not affect earlier ones", "statement": "In a block formatting context, adding children at the end does not change the boxes of the children before them.", "quantifier": "every child list and suffix", "why_tests_cant": "lists of any length.", "anchors": ["src/colosseum/engine.py:layout_box"]}
{"id": "C55", "title": "Percentage paddings, margins and widths resolve against the containing block's width", "statement": "A percentage width, margin or padding of a block resolves against the content width of its containing block.", "quantifier": "every document", "why_tests_cant": "all containers and percentages.", "anchors": ["src/colosseum/engine.py:layout_box, calculate_size"]}
{"id": "C56", "title": "Replaced inline elements follow the CSS 10.3.2/10.6.2 sizing rules", "statement": "The used width and height of an inline replaced element are: the specified ones; else intrinsic ones; else derived through the ratio; else 300px wide and at most 150px high, in the order CSS 2.1 prescribes.", "quantifier": "every combination of specified/intrinsic sizes and ratio", "why_tests_cant": "32 presence combinations times all values.", "anchors": ["src/colosseum/engine.py:calculate_inline_replaced_width, calculate_inline_replaced_height"]}
{"id": "C57", "title": "Each property accepts exactly its documented keywords", "statement": "For every property and every string that its value validators reject, the assignment succeeds iff the string is one of the keywords listed for that property (with 'none' stored as None), and the stored value is that keyword.", "quantifier": "every property and every string", "why_tests_cant": "all strings.", "anchors": ["src/colosseum/constants.py:*_CHOICES, Choices.validate", "src/colosseum/declaration.py:CSS"]}
{"id": "C58", "title": "Validation fails only with ValueError", "statement": "Assigning any value to any single CSS property or shorthand either succeeds or raises ValueError, never another exception type.", "quantifier": "every property and every Python value", "why_tests_cant": "all values of all types.", "anchors": ["src/colosseum/constants.py:Choices.validate", "src/colosseum/validators.py", "src/colosseum/parser.py"]}
{"id": "C59", "title": "Integer and number properties coerce and range-check", "statement": "is_integer/is_number return int(v)/float(v) for coercible values and raise ValidationError otherwise; with bounds the result lies within them, and a value is rejected iff it is uncoercible or out of range.", "quantifier": "every value and bound", "why_tests_cant": "all values.", "anchors": ["src/colosseum/validators.py:_numeric_validator, is_integer, is_number"]}
{"id": "C60", "title": "Choice order is irrelevant", "statement": "Choices.validate gives the same result whatever order its keyword set iterates in (Python set order varies between runs).", "quantifier": "every permutation of the keyword set, every value", "why_tests_cant": "hash seeds vary from run to run.", "anchors": ["src/colosseum/constants.py:Choices"]}
{"id": "C61", "title": "Lengths resolve to the pixels CSS prescribes", "statement": "u.px(display, font, size) differs from the exact CSS value (1in = 72pt = 6pc = 2.54cm, font units times the font measure, viewport units hundredths of the display, percentages hundredths of the size) by at most 1/128 px plus a relative 7/2^53 (2/10^6 for cm and mm, whose scale constants are rounded), and never raises for a finite magnitude with a known size.", "quantifier": "every unit, finite magnitude, display, font and containing size, and every rounding obeying the floating point laws", "why_tests_cant": "magnitudes and contexts are unbounded; accumulated rounding error depends on all of them.", "anchors": ["src/colosseum/units.py:Unit.px, FontUnit.lu, AbsoluteUnit.lu, ViewportUnit.lu, PercentageUnit.lu"]}
{"id": "C62", "title": "Initial values are valid values", "statement": "The initial value of every CSS property that does not follow another property is what the property's own validation makes of the literal in its declaration; the border colours and text-align are exactly the properties that follow another one.", "quantifier": "every property", "why_tests_cant": "every one of the 70 properties against its own choices, whatever label the created objects get.", "anchors": ["src/colosseum/declaration.py:CSS, validated_property", "src/colosseum/constants.py:OtherProperty, TextAlignInitialValue, *_CHOICES"]}
{"id": "C63", "title": "Layout produces whole numbers of layout units", "statement": "After a successful layout every origin, position, size, margin, border width and padding of every displayed box is a whole number of layout units (1/64 px), provided the display and intrinsic sizes are.", "quantifier": "every document and display", "why_tests_cant": "all trees; every intermediate sum, difference and floor division must stay on the grid.", "anchors": ["src/colosseum/engine.py:layout_box", "src/colosseum/units.py:Unit.px", "src/colosseum/dimensions.py:Box"]}
{"id": "C64", "title": "Block margins solve the width equation as CSS prescribes", "statement": "The used left and right margins of a block-level box in normal flow are those of CSS 2.1, 10.3.3: auto margins are 0 when the width is auto or the box does not fit, one auto margin takes the rest, two share it, and an over-constrained box drops margin-right where the direction of its container is ltr, or margin-left where it is rtl.", "quantifier": "every document, every block in it, every specified margin and width", "why_tests_cant": "all combinations of auto, lengths and percentages, directions and container widths in all trees.", "anchors": ["src/colosseum/engine.py:calculate_block_non_replaced_normal_flow_width"]}
{"id": "C65", "title": "Blocks start behind their left margin, border and padding", "statement": "The content_left of a block-level box that is not relatively positioned is its used left margin plus its left border width and left padding.", "quantifier": "every document and every block in it", "why_tests_cant": "all trees and widths.", "anchors": ["src/colosseum/engine.py:calculate_block_non_replaced_normal_flow_width", "src/colosseum/engine.py:layout_box"]}
{"id": "C66", "title": "Properties unrelated to layout never affect it", "statement": "Two documents of the same structure whose styles agree in margins, paddings, border widths, display, position, float, direction, the six size properties and the four offsets are laid out alike: both fail with the same exception or every node gets the same box, whatever the colours, outlines, border styles, text, table, list and page properties are.", "quantifier": "every pair of documents that agree in these properties, every display", "why_tests_cant": "all documents and all values of some forty other properties.", "anchors": ["src/colosseum/engine.py:layout, layout_box, calculate_*_size, calculate_*_width, calculate_*_height"]}
{"id": "C67", "title": "A layout that raises leaves the document usable", "statement": "When layout() raises, the structure, styles and intrinsic sizes are unchanged, every displayed node still has a box whose origin is the absolute position of its parent's content, every box is still marked dirty, and every later layout succeeds or fails, and gives the same boxes, as if the failed one had not happened.", "quantifier": "every document in which every displayed node has a box (and no box was declared clean below a dirty one), every display, every exception, wherever it is raised", "why_tests_cant": "the exception can be raised at any statement of any node of any tree.", "anchors": ["src/colosseum/engine.py:layout, layout_box", "src/colosseum/dimensions.py:Box"]}
{"id": "C68", "title": "A string accepted as a functional color is one", "statement": "A string that begins with rgb or hsl is accepted as a color only if it is written in the functional notation - rgb(, rgba(, hsl( or hsla(, the right number of comma separated numbers, a closing parenthesis - and then it is the color whose components are written in it.", "quantifier": "every string", "why_tests_cant": "all strings: any text between, before and after the brackets.", "anchors": ["src/colosseum/parser.py:color"]}
{"id": "C69", "title": "The text of a value can be assigned back", "statement": "For every value v a property can hold, css.p = str(v) is accepted and css.p is then the same value: same keyword, unit and magnitude, channels, lengths, quotes, cursor items.", "quantifier": "every property, every value it can hold, every reachable declaration", "why_tests_cant": "unboundedly many values; the text of a float has up to 24 characters found by a search; blanks, quotes and commas inside strings.", "anchors": ["src/colosseum/units.py:BaseUnit.__repr__", "src/colosseum/colors.py:rgb.__repr__, hsl.__repr__", "src/colosseum/shapes.py:Rect.__str__", "src/colosseum/wrappers.py:BorderSpacing.__str__, Quotes.__str__, Uri.__repr__, ImmutableList.__str__", "src/colosseum/parser.py:units, color, rect, border_spacing, quotes, cursor", "src/colosseum/declaration.py:validated_property"]}
{"id": "C70", "title": "A shorthand reads as its stored parts, and its text can be assigned back", "statement": "css.border_top (right, bottom, left), css.border and css.outline read as the explicitly stored parts in the order of the shorthand: two reads are equal exactly when the parts are, str() lists the texts of the parts, repr() shows them as keyword arguments, and assigning the text or the object back is accepted and keeps every stored part.", "quantifier": "every shorthand property, every reachable declaration", "why_tests_cant": "unboundedly many values of the parts and histories of assignments.", "anchors": ["src/colosseum/declaration.py:validated_shorthand_property", "src/colosseum/wrappers.py:Shorthand, Outline, Border, BorderTop, BorderRight, BorderBottom, BorderLeft"]}
{"id": "C71", "title": "A specified height is used, percentages referring to the containing block's height", "statement": "The content height of a block with a specified height is that height, limited by max-height: a length gives its pixels; a percentage gives that share of the height of the containing block (of the display, for the root), and counts as auto where that height is not specified.", "quantifier": "every node of every document that lays out, every display, every height and max-height", "why_tests_cant": "all trees, all units and all combinations of specified heights along the ancestors.", "anchors": ["src/colosseum/engine.py:calculate_block_non_replaced_normal_flow_height", "src/colosseum/engine.py:layout_box"]}
{"id": "C72", "title": "Inline elements have the size of their content and stand behind their edges", "statement": "The content of an inline element that is not replaced has its intrinsic size, its auto margins count as 0, its content starts behind its left and below its top margin, border and padding, and the elements of a line do not overlap.", "quantifier": "every inline node of every document that lays out, every display, all intrinsic sizes", "why_tests_cant": "all trees, sizes, margins, borders and paddings.", "anchors": ["src/colosseum/engine.py:calculate_inline_non_replaced_width", "src/colosseum/engine.py:calculate_inline_non_replaced_height", "src/colosseum/engine.py:layout_box"]}
{"id": "C73", "title": "Error messages list exactly the values a property takes", "statement": "When a property refuses a value, the message of the ValueError names the value and the property and lists every keyword the property takes and the notation of its other values, each once and in alphabetical order; everything listed can be used and everything that can be used is listed.", "quantifier": "every property, every refused value, every state of the declaration", "why_tests_cant": "all properties and all values; the tests look at single messages.", "anchors": ["src/colosseum/constants.py:Choices.__str__", "src/colosseum/declaration.py:validated_property", "src/colosseum/declaration.py:validated_shorthand_property"]}
{"id": "C74", "title": "Lengths matter only through the pixels they come to", "statement": "Replacing a length in a style by another one that comes to as many pixels on the display (1in by 96px on 96 dpi) changes nothing about the layout: the same exception, or the same box at every node.", "quantifier": "every document, every display, all replacements at any number of nodes and properties", "why_tests_cant": "all trees, all units and all notations of a length.", "anchors": ["src/colosseum/units.py:Unit.px, Unit.__eq__", "src/colosseum/engine.py:layout, calculate_size", "src/colosseum/declaration.py:validated_property"]}
{"id": "C75", "title": "Comparison of the values that properties hold", "statement": "== is symmetric and transitive among the values that properties hold, such a value equals itself exactly if there is no nan in it, and lengths that compare equal have the same text.", "quantifier": "all values of all properties", "why_tests_cant": "all pairs and triples of values.", "anchors": ["src/colosseum/units.py:BaseUnit subclasses' __eq__, __repr__", "src/colosseum/shapes.py:Rect.__eq__", "src/colosseum/wrappers.py:Quotes.__eq__, ImmutableList.__eq__"]}
{"id": "C76", "title": "Equal values are laid out alike", "statement": "Documents whose styles compare equal, property by property, are laid out alike: the same exception, or the same box at every node. An assignment that a setter ignores because the value compares equal would not have changed the layout.", "quantifier": "every document, every display, all equal values, every ignored assignment", "why_tests_cant": "all trees and all values.", "anchors": ["src/colosseum/units.py:Unit.px, Unit.__eq__", "src/colosseum/engine.py:layout, calculate_size", "src/colosseum/declaration.py:validated_property"]}
{"id": "C77", "title": "An element is laid out the same in any company", "statement": "When an element stands within the same ancestors in two documents (documents in which every displayed element has a box and that can be laid out), then whatever other children the ancestors have, before it or after it, as long as an ancestor stacks its children in both documents or in neither: the element gets the same box but for the vertical position, everything below it gets the same boxes, and the ancestors get the same widths and horizontal positions. In particular changing the order of the children of an element only moves them vertically.", "quantifier": "all pairs of documents, all paths, all displays, any rounding arithmetic", "why_tests_cant": "siblings can be added and moved at any depth, in any number.", "anchors": ["src/colosseum/engine.py:layout_box", "src/colosseum/engine.py:calculate_width_and_margins, calculate_height_and_margins", "src/colosseum/dimensions.py:Box.collapse_top"]}
{"id": "C78", "title": "Exactly which documents can be laid out", "statement": "A layout succeeds only if the root is displayed and everything it comes to that is displayed does not float, is neither absolutely positioned nor fixed, is an inline element or a block that is not replaced, has no automatic top margin if it is inline and not replaced, has no block after a child that is not a block, and, if it is a block of automatic height without blocks in it, has no hidden last child. For documents in which every element has a box, the sizes are finite lengths or the keywords of the properties and the sizes of the content of inline elements are known, this is also sufficient: no other exception can occur.", "quantifier": "every document, every display, both standards, any rounding arithmetic", "why_tests_cant": "all trees and all styles; that no exception is possible cannot be seen from any number of tests.", "anchors": ["src/colosseum/engine.py:layout, layout_box", "src/colosseum/engine.py:calculate_width_and_margins, calculate_height_and_margins", "src/colosseum/engine.py:anonymize"]}
{"id": "C79", "title": "Borders, paddings and margins are what the style says", "statement": "After a layout each border of a displayed element is as wide as its style says (thin, medium and thick are the widths of the display, a length is its number of pixels), each padding that is a length is its number of pixels, each top or bottom margin that is a length is its number of pixels and 0 if it is auto (blocks and replaced elements), and the left and right margins of inline elements likewise. A border whose style is none should be 0 wide; the engine does not look at the style.", "quantifier": "every document, every display, both standards, every element reached, each side", "why_tests_cant": "all trees, all lengths in all units, all sizes of the display.", "anchors": ["src/colosseum/engine.py:layout_box, calculate_size", "src/colosseum/engine.py:calculate_width_and_margins, calculate_height_and_margins", "src/colosseum/dimensions.py:Box.border_top_width, Box.padding_top, Box.margin_top"]}
{"id": "C80", "title": "Documents of moderate size are laid out without rounding errors", "statement": "Take a document in which no length of any element and neither side of the display exceeds M pixels, all on the layout grid of 1/64 pixel, percentages occur only as widths of blocks and as their margins at the left and at the right, where they are between 0 and 100, and M times the square of the number of elements is at most 2^40. Then in IEEE double arithmetic (and in exact arithmetic) no number of the layout exceeds 16 M times the number of elements, and therefore every sum in the layout is exact: the seven horizontal measures add up to the containing block, margins are those of CSS 2.1 section 10.3.3, blocks start at their margins, borders and paddings, are moved by their offsets, are stacked with exactly the collapsed margins in between, are contained in their parents, the root fills the display, and absolute positions are sums of relative ones.", "quantifier": "every document, display, M, parent style and html5 flag; every arithmetic that is exact on multiples of 1/64 below 2^53/64, among them IEEE double", "why_tests_cant": "The tests use a handful of documents with numbers below 1024; whether sums stay exact depends on how numbers accumulate over arbitrarily deep and long documents.", "anchors": ["src/colosseum/engine.py:107-129", "src/colosseum/engine.py:165-300", "src/colosseum/engine.py:320-583", "src/colosseum/engine.py:589-738", "src/colosseum/dimensions.py:293-454", "src/colosseum/units.py:50-170"]}
{"id": "C81", "title": "In normal flow blocks are nested and do not overlap", "statement": "Take a document of moderate size (as in C80) of blocks that are neither replaced nor relatively positioned, with automatic widths, automatic heights unless they are empty, and borders, paddings, horizontal margins and heights that are not negative. After a layout the border box of every block is in the content box of its parent (the end of the root excepted with HTML5, where the root is as high as the display); on the screen it is in the border boxes of all blocks around it and between the left and right edges of the display and not above it; and of two blocks neither of which contains the other, the first one in the document ends before the other begins.", "quantifier": "every such document, display, parent style and html5 flag, every pair of elements; IEEE double and exact arithmetic", "why_tests_cant": "all trees of any depth and width; a statement about every pair of elements.", "anchors": ["src/colosseum/engine.py:layout, layout_box", "src/colosseum/engine.py:calculate_block_non_replaced_normal_flow_width, calculate_block_non_replaced_normal_flow_height", "src/colosseum/dimensions.py:Box.absolute_border_box_top, Box.absolute_border_box_bottom"]}
{"id": "C82", "title": "Which vertical margins collapse", "statement": "In a document of blocks whose vertical margins are lengths or auto, collapse_top of a block is the largest of 0, its top margin and the top margins of its first child, the first child of that, and so on; collapse_bottom is the largest of 0, its bottom margin and those of its last child and so on, as far as the heights are automatic; only margins that are whole numbers of pixels count. In documents of moderate size the root starts that far below the top of the display, a first child starts at the top of the content box of its parent, and the distance between a block and the next is the larger of collapse_bottom of the first and the top margin of the second. CSS 2.1 (8.3.1) asks for more: negative margins, nested top margins, borders that separate margins, and empty blocks are treated differently.", "quantifier": "every such document, display, parent style and html5 flag, every element; IEEE double and exact arithmetic", "why_tests_cant": "chains of first and last children of any length, with any margins.", "anchors": ["src/colosseum/engine.py:layout_box", "src/colosseum/engine.py:calculate_block_non_replaced_normal_flow_height", "src/colosseum/dimensions.py:Box.collapse_top, Box.collapse_bottom, Box.margin_top, Box.margin_bottom"]}
{"id": "C83", "title": "Numbers are printed with as few digits as possible", "statement": "The text of a float (in str() of a length, a rectangle, a stored number) has the fewest significant digits of all numbers that read as the float, and it is the nearest to the float of those. It is written with a point and without an exponent from 0.0001 up to, not including, 10^16, otherwise with one digit before the point and an exponent, without idle zeros.", "quantifier": "every float other than 0 (53 bits, any exponent), every decimal number; lengths in every unit", "why_tests_cant": "the shortest text is a minimum over all decimal numbers; the difficult floats are rare (2^-44, 1e23).", "anchors": ["src/colosseum/units.py:BaseUnit.__repr__"]}
{"id": "C84", "title": "A document of blocks is laid out as by a reference algorithm", "statement": "Take a document of moderate size (as in C80), or of any size when arithmetic is exact or all lengths are whole numbers of pixels (C113), that consists of block-level elements in normal flow whose margins, borders, paddings, sizes and limits are lengths or the keywords of their properties. The layout returns, and for every path from the root there is an element with a box exactly if the reference has one; the absolute edges of its border box, and position and size of its content box, are those of the reference. The reference is a short recursive function of the styles in exact arithmetic: content width from the width of the container (10.3.3, 10.4), left margin from usedMargins, heights from below (10.6.3, 10.7), and the tops of siblings from heights and collapsed margins. The html5 flag only makes the root as high as the display.", "quantifier": "every such document (any depth, number of elements, and values), display, parent style and html5 flag, every element; IEEE double and exact arithmetic", "why_tests_cant": "The engine works by changing boxes in several phases, with origins that are handed down later; that all phases together compute one simple function of the input is a statement about all trees.", "anchors": ["src/colosseum/engine.py:layout", "src/colosseum/engine.py:layout_box", "src/colosseum/engine.py:calculate_block_non_replaced_normal_flow_width", "src/colosseum/engine.py:calculate_block_non_replaced_normal_flow_height", "src/colosseum/dimensions.py:Box"]}
{"id": "C85", "title": "The exceptions of a layout tell what cannot be laid out", "statement": "Take a document in which every element has a box, all sizes are finite lengths or the keywords of the properties and the content sizes of inline elements are known. A layout raises e exactly if the first obstacle in the order of the document calls for e: NotImplementedError for something that floats, is absolutely positioned or fixed, a replaced block or an inline block; Exception for any other kind of element; TypeError for an automatic top margin of an inline element (before its children if it is relatively positioned, after them otherwise); AttributeError where a block follows something else than a block, for a block of automatic height that ends with a hidden element, and for a hidden root. In every document, NotImplementedError and Exception are only raised if the layout comes to such an element.", "quantifier": "every such document, display, parent style, html5 flag and arithmetic, every exception; the last sentence: every document", "why_tests_cant": "The order in which the engine finds obstacles, before or after the children and in block and inline contexts, differs per obstacle; a document has arbitrarily many.", "anchors": ["src/colosseum/engine.py:layout", "src/colosseum/engine.py:layout_box", "src/colosseum/engine.py:calculate_width_and_margins", "src/colosseum/engine.py:calculate_height_and_margins", "src/colosseum/engine.py:anonymize"]}
{"id": "C86", "title": "Direction and horizontal offsets act sideways only", "statement": "Two documents that differ only in `direction`, `left` and `right` (and in properties that have no influence on layout) get, when both can be laid out, boxes of the same widths and heights at the same vertical positions, with the same borders, paddings and vertical margins, at every node; if they differ in `direction` only, the layouts fail with the same exception or both succeed.", "quantifier": "for all documents, displays, standards and number arithmetics", "why_tests_cant": "A relation between two runs over all documents of all sizes; tests compare a handful of documents in one direction.", "anchors": ["src/colosseum/engine.py:264-281", "src/colosseum/engine.py:410-548", "src/colosseum/engine.py:662-703"]}
{"id": "C87", "title": "Heights, vertical offsets and vertical edges act vertically only", "statement": "Two documents that differ only in height, min-height, max-height, top, bottom and in top and bottom margins, borders and paddings (and in properties that have no influence on layout; for replaced elements, not in whether the height is auto) get, when both can be laid out, boxes with the same horizontal positions, widths and left and right margins, borders and paddings at every node.", "quantifier": "for all documents, displays, standards (also different ones for the two documents) and number arithmetics", "why_tests_cant": "A relation between two runs over all documents of all sizes; tests compare single layouts with recorded numbers.", "anchors": ["src/colosseum/engine.py:175-208", "src/colosseum/engine.py:320-548", "src/colosseum/engine.py:264-281"]}
{"id": "C88", "title": "The layout of a mirrored document is the mirror image", "statement": "Take two documents of blocks as in C84, of the same structure, where each element of the second one has the left and right margins, borders and paddings of the corresponding element of the first one exchanged, the opposite direction, and the same sizes. When no element has two automatic margins at the sides of a specified width (they are rounded down to whole pixels, always in the same direction), both can be laid out, and each box of the second layout is the image of that of the first one in a mirror in the middle of the display: left and right are exchanged and counted from the other side; widths, tops, bottoms and heights are the same.", "quantifier": "every such pair of documents, every display and html5 flag, every element; IEEE double and exact arithmetic", "why_tests_cant": "A symmetry is a relation between two layouts of trees of any shape; tests check single layouts, nearly all of them left to right.", "anchors": ["src/colosseum/engine.py:320-548", "src/colosseum/engine.py:layout_box", "src/colosseum/dimensions.py:Box"]}
{"id": "C89", "title": "Growing blocks never moves anything up", "statement": "Take two documents of blocks as in C84, of the same structure, where vertical sizes (height, min-height, max-height, borders, paddings and whole margins at top and bottom) of the second one are the same keyword or lengths not smaller than those of the first one, or a max-height has been removed, and everything horizontal is the same. Both can be laid out; in the second layout no box is higher up, none is narrower, wider or moved sideways, none is less high or ends earlier, except for the root by the rules of HTML5, which is as high as the display. (For margins that are not whole numbers of pixels it is false: they are not collapsed.)", "quantifier": "every such pair of documents, every display and html5 flag, every element; IEEE double and exact arithmetic", "why_tests_cant": "Monotonicity compares two layouts of trees of any shape, with every value; collapsing takes maxima over chains of margins of any length.", "anchors": ["src/colosseum/engine.py:589-738", "src/colosseum/engine.py:layout_box", "src/colosseum/dimensions.py:collapse"]}
{"id": "C90", "title": "Enlarging everything enlarges the layout", "statement": "Take two documents of blocks as in C84, of the same structure, and two displays, where all lengths, the border widths thin, medium and thick and the display are in the second case k times what they are in the first, for a positive integer k, and whole numbers of pixels stay whole. When no element has two automatic margins at the sides of a specified width, both can be laid out, and positions and sizes of all border and content boxes in the second layout are k times those in the first one.", "quantifier": "every such pair of documents and displays, every k, every html5 flag, every element; IEEE double and exact arithmetic", "why_tests_cant": "That no phase of the layout contains an absolute size, and that rounding does not interfere, is a relation between two layouts of trees of any shape.", "anchors": ["src/colosseum/engine.py:layout", "src/colosseum/engine.py:layout_box", "src/colosseum/dimensions.py:Box"]}
{"id": "C91", "title": "The layout of any document is what its style says", "statement": "The numbers of all boxes after a layout (position and size of the content, margins, borders, paddings, collapsed margins) are given by a function of the document, written without boxes: which formula gives the width and the margins of a block, an inline or a replaced element, where blocks are put below each other and which margins collapse, what a percentage is taken of, what a relatively positioned element is moved by and which height its content finds, which elements are left out. The layout of a document whose visible elements have boxes succeeds if and only if this function is defined, and then all boxes, whatever they held before, hold these numbers.", "quantifier": "all documents whose visible elements have boxes, displays, standards, parents and number arithmetics", "why_tests_cant": "It says what every number of every box of every document is, including sums in the order in which they are rounded; tests compare some numbers of some documents.", "anchors": ["src/colosseum/engine.py:107-129", "src/colosseum/engine.py:165-300", "src/colosseum/engine.py:305-738", "src/colosseum/dimensions.py:180-367"]}
{"id": "C92", "title": "Angles are converted to degrees", "statement": "deg() of an angle with a finite value is the value in degrees, where a full circle is 360deg, 400grad, 2*pi rad or 1turn, up to a relative error of 2^-51; whole results are ints. Whole numbers of degrees and turns, and multiples of ten gradians, are converted without error; more of a unit is never less in degrees; opposite angles have opposite degrees. Infinite values raise OverflowError, NaN raises ValueError.", "quantifier": "all units, all ints and floats; every correctly rounded arithmetic (gradians: IEEE double)", "why_tests_cant": "The statement compares with real numbers (pi); tests compare a few results with constants.", "anchors": ["src/colosseum/units.py:65-82", "src/colosseum/units.py:186-189"]}
{"id": "C93", "title": "Lengths relative to the font refer to a font of size minus one", "statement": "In a layout an em is minus one point, an ex minus 0.65 points and a ch minus 0.71 points, whatever the style says about fonts: a document with lengths in em is laid out exactly as the one with the opposite number of points; with ex and ch (without rounding errors) as the one with -0.65 and -0.71 times the number of points. With rounding, every length in a unit other than % can be replaced by a number of pixels that depends on the length and the display only and is within 1/128 px and a small relative error of what CSS prescribes for that font.", "quantifier": "all documents, all lengths, displays, standards, parents; every correctly rounded arithmetic (ex and ch as points: exact arithmetic)", "why_tests_cant": "It equates the layouts of two arbitrary documents; tests of the units use a font of their own, and layouts in the test-suite hardly use font units.", "anchors": ["src/colosseum/engine.py:90-109", "src/colosseum/units.py:99-103"]}
{"id": "C94", "title": "A block around some children changes nothing", "statement": "Take a document of blocks as in C84 and put any number of consecutive children of any of its elements into a new block that has no style apart from display: block. Both documents can be laid out, and every element of the first document has the same border box and the same content box on the screen in the second one.", "quantifier": "every such document, every element in it, every run of children, every html5 flag, every element compared; IEEE double and exact arithmetic", "why_tests_cant": "It compares the layouts of two documents of different structure: positions, collapsed margins and heights of everything inside, beside, above and below the new block.", "anchors": ["src/colosseum/engine.py:layout_box", "src/colosseum/engine.py:calculate_block_non_replaced_normal_flow_height", "src/colosseum/dimensions.py:Box.collapse_top", "src/colosseum/dimensions.py:Box.collapse_bottom"]}
{"id": "C95", "title": "An empty block changes nothing", "statement": "Take a document of blocks as in C84 and insert a new block without children and without style apart from display: block anywhere among the children of any of its elements. Both documents can be laid out, and every element of the first document has the same border box and the same content box on the screen in the second one.", "quantifier": "every such document, every element in it, every place among its children, every html5 flag, every element compared; IEEE double and exact arithmetic", "why_tests_cant": "It compares the layouts of two documents of different structure, for every position of the new block; where it fails depends on the margins around the block.", "anchors": ["src/colosseum/engine.py:layout_box", "src/colosseum/engine.py:calculate_block_non_replaced_normal_flow_height", "src/colosseum/dimensions.py:Box.collapse_top", "src/colosseum/dimensions.py:Box.collapse_bottom"]}
{"id": "C96", "title": "The text of a box tells its content box", "statement": "repr(box) of two boxes is the same text exactly if both have the same content width, content height and absolute position of the content, each the same number of the same type (or None).", "quantifier": "all boxes whose content sizes are Python numbers or None, whatever origins, margins, borders and paddings", "why_tests_cant": "That no two of infinitely many combinations of numbers print alike needs the notation of every float.", "anchors": ["src/colosseum/dimensions.py:Box.__repr__"]}
{"id": "C97", "title": "Every element has one level, and lines or blocks inside", "statement": "The style of every element, after any assignments, makes it exactly one of: hidden, block-level, inline-level, part of a table, or of a display that CSS 2.1 does not have. is_block_level_element and is_inline_level_element return True exactly for the elements that CSS 2.1 calls so. establishes_inline_formatting_context returns False exactly for block containers that are not replaced and have a block-level child. establishes_table_formatting_context returns False for every element.", "quantifier": "every history of assignments, every element with such a style; contexts: all nodes", "why_tests_cant": "It is about every style that any history of assignments can produce, and any list of children.", "anchors": ["src/colosseum/engine.py:24-80", "src/colosseum/constants.py:180-200"]}
{"id": "C98", "title": "What can be assigned to each property", "statement": "A grammar lists, for each kind of property, the values it takes and what each stands for: lengths; colours as objects, in hexadecimal, in functional notation and by name; whole numbers; one or two spacings as a number, a text or a sequence; rectangles; pairs of quotes; cursors as a sequence of urls ended by a url or keyword. Assigning a value to a property succeeds if and only if the value is one of its keywords or stands for something by the grammar, afterwards the property reads as that, and what a value stands for is unambiguous. Any other value is refused and the declaration is left as it was; the exception is IndexError for the empty text as a colour, OverflowError for an infinity as a whole number, AttributeError or TypeError for objects which a spacing, rectangle or cursor cannot be made from, and for everything else what printing the value in the message gives: ValueError, or OverflowError if the first length in it that is not finite is infinite. What counts is the first thing at fault: a spacing that is no length, or a member of a list of urls that is no text, is complained about by itself, so its infinite lengths give OverflowError; among quotes, TypeError for a member that is not a group and for quotes that have no length, or else whatever ast.literal_eval raises.", "quantifier": "all properties, all values, all declarations and floating point arithmetics", "why_tests_cant": "The grammar is an infinite language over several kinds of values; that nothing outside it is accepted cannot be observed by sampling.", "anchors": ["src/colosseum/validators.py", "src/colosseum/parser.py", "src/colosseum/constants.py:18-42", "src/colosseum/declaration.py:185-210"]}
{"id": "C99", "title": "What is inside an element of given height has no effect outside", "statement": "If the children of an element are replaced by other ones, and the element is a block with a given height or not a block at all, then laying out the document again gives every box outside the element the same position in its parent, the same size, margins, borders and paddings as before. Only the collapsed margin above can differ, in the element itself and in the boxes of which it is the first child, the first child of the first child, and so on up; if that includes the root, the root is placed below that margin and, by the rules of HTML5, is as high as the rest of the display.", "quantifier": "all documents whose visible elements have boxes, all elements with a given height, all replacements of their children, displays and arithmetics for which both layouts succeed", "why_tests_cant": "It compares the layouts of two documents that differ in an arbitrary subtree; a partial update of a layout relies on it for every document.", "anchors": ["src/colosseum/engine.py:165-300", "src/colosseum/engine.py:660-700", "src/colosseum/dimensions.py:333-367"]}
{"id": "C100", "title": "A document none of whose boxes is dirty need not be laid out again", "statement": "Lay out a document and declare its layout clean (layout.dirty = False on the root). Whatever is then done to the styles and intrinsic sizes of elements that have boxes, by any operations, whether they succeed or raise, and also if boxes are marked dirty: as long as no box is dirty, the document is as it was, and laying it out again gives the boxes it has.", "quantifier": "all documents whose visible elements have boxes and which can be laid out; all sequences of operations; all arithmetics", "why_tests_cant": "It is about what no operation, in any sequence, can do; a missed mark would leave a stale layout without an exception.", "anchors": ["src/colosseum/dimensions.py:Box.dirty", "src/colosseum/dimensions.py:Size", "src/colosseum/declaration.py:197-212", "src/colosseum/declaration.py:669-677", "src/colosseum/engine.py:layout"]}
{"id": "C101", "title": "What a copy of a declaration keeps, and that it is laid out alike", "statement": "copy() raises if and only if the declaration holds quotes, an angle as a length, or a list of cursors with a url. Otherwise the copy has exactly the stored values of the original that are neither rectangles nor border spacings nor equal to the initial value of the property. Whenever copy() returns, replacing the style of any element by its copy does not change the outcome of a layout: the same exception, or the same boxes everywhere.", "quantifier": "all reachable declarations, all orders in which the properties are visited, nodes with or without boxes; all documents, elements, displays; IEEE double and exact arithmetic", "why_tests_cant": "copy() validates again what was validated before, over all reachable declarations and in any order of a set; a value that is lost shows only in a later layout.", "anchors": ["src/colosseum/declaration.py:CSS.copy", "src/colosseum/declaration.py:197-212", "src/colosseum/engine.py:layout"]}
{"id": "C102", "title": "Equal elements in equally wide parents look alike", "statement": "If the same element stands in two places, in one document or in two documents on the same display, and the contents of its two parents are equally wide (and not of width zero), the styles of the parents have the same height, neither the element nor a parent is relatively positioned, and the element is a block or the two parents agree on whether they put their children below each other, then after the layouts all boxes inside the two elements have the same positions, sizes, margins, borders and padding, and so have the boxes of the elements themselves apart from the distance to the top of the parent.", "quantifier": "all documents, all places in them, all elements, all displays, every arithmetic", "why_tests_cant": "A test compares two documents. That nothing else in a document (siblings, ancestors, depth, the order in which boxes are laid out, what the boxes held before) has an effect on an element is a statement about all documents.", "anchors": ["src/colosseum/engine.py:107-129", "src/colosseum/engine.py:165-300", "src/colosseum/engine.py:320-738", "src/colosseum/dimensions.py:180-231"]}
{"id": "C103", "title": "A property is changed only by what names it", "statement": "Two operations (assignment, deletion or update, by attribute or item, on single, four-sided and shorthand properties) that name no single property in common can be exchanged: the declaration and the dirty flag are the same in the end and each raises the same exception. Therefore what a property holds after any history is what it holds after those operations of the history that name it, alone or with others, in the same order, unless the declaration belongs to an element without a box.", "quantifier": "all histories of operations of any length, all values, all states", "why_tests_cant": "The number of histories is unlimited, and an undesired influence of one property on another can depend on what both hold, on rejected assignments and on the dirty flag; tests try a few pairs.", "anchors": ["src/colosseum/declaration.py:111-137", "src/colosseum/declaration.py:188-215", "src/colosseum/declaration.py:224-269", "src/colosseum/declaration.py:669-732"]}
{"id": "C104", "title": "A number times a unit is that multiple of the unit, and nothing else is", "statement": "A number times a unit is a unit of the same kind: 1*u is u, (-1)*u is -u, -(-u) is u, (-x)*u and x*(-u) are -(x*u), whole numbers multiply exactly, other products are the nearest float, and x*(y*u) equals (x*y)*u. No other operand in front of or behind a unit makes a unit: the product of two units of one family and any product with the unit in front of something that is not a unit raise TypeError, everything else gives None.", "quantifier": "all numbers including inf and nan, all unit objects of the eighteen kinds, all other values; IEEE double and exact arithmetic", "why_tests_cant": "The laws have to hold for all magnitudes, and which method Python calls depends on the classes of both operands; tests multiply a few literals.", "anchors": ["src/colosseum/units.py:BaseUnit.__rmul__", "src/colosseum/units.py:BaseUnit.__neg__", "src/colosseum/units.py:65-165"]}
{"id": "C105", "title": "The range of floats: where resolving a length overflows", "statement": "With the range of IEEE doubles (overflow to inf, subnormal numbers, ints too large for a float), px() gives the same as with unlimited exponents as long as the magnitude and the numbers of the context are zero or between 2^-200 and 2^200; at any magnitude it raises or gives the same as without a largest number, rounding to the nearest number of 53 bits not below 2^-1074, and of two to the one whose last bit is 0. A length in pixels raises OverflowError if and only if its magnitude is a float of at least 2^1018 or an int of at least 2^1024-2^970, and otherwise is the nearest 64th of a pixel or (for an int) the nearest float. Whatever the magnitude and the context, only OverflowError and ValueError are raised, but for a percentage of nothing; ValueError does occur for finite magnitudes.", "quantifier": "all magnitudes, all kinds of length units, all displays, fonts and sizes", "why_tests_cant": "The boundaries lie at numbers of 300 digits and the claim is about every number on both sides of them.", "anchors": ["src/colosseum/units.py:54-62", "src/colosseum/units.py:99-153"]}
{"id": "C106", "title": "is_percentage takes percentages that are not negative, and decides nothing", "statement": "is_percentage(v) returns the percentage v denotes (an object, a number literal followed by %) if it is not negative, and raises ValidationError for every other value, unless the value denotes an infinite or undefined length, for which building the message raises OverflowError or ValueError. The choices of grid gaps, which list it alone, accept exactly these values. In every CSS property it stands behind is_length, which accepts the same values and more: removing it changes nothing, and negative percentages are accepted by all properties that take percentages.", "quantifier": "all values, all properties, any arithmetic with correct rounding", "why_tests_cant": "The accepted set is infinite and depends on the order in which validators are tried; tests cover some literals.", "anchors": ["src/colosseum/validators.py:89-106", "src/colosseum/constants.py:23-42", "src/colosseum/constants.py:716"]}
{"id": "C107", "title": "Attributes defined by validated_property, for any choices and initial value", "statement": "validated_property(name, choices, initial) succeeds exactly if the choices accept the initial value or it is an object with a method value. Whatever the choices are, after any assignments and deletions the attribute stores only values the choices returned; an accepted value is read back (or an equal one stays), a refused one changes nothing, deletion restores the initial value, and the box is marked dirty exactly if the value differs. The properties of CSS are instances of this. unvalidated_property, which is not used, keeps any value. Of the flexbox and grid definitions that are commented out, exactly the grid gaps could not be put back: their initial value 0 is not a percentage.", "quantifier": "all choices, all initial values (values or objects with any member value), all sequences of assignments and deletions, all values", "why_tests_cant": "the tests use a few choices and single assignments; unvalidated_property and the commented definitions are not run at all", "anchors": ["src/colosseum/declaration.py:143-218", "src/colosseum/declaration.py:593-663", "src/colosseum/constants.py:15-72", "src/colosseum/constants.py:639-716"]}
{"id": "C108", "title": "Percentages of the height of a parent in the flow count for nothing", "statement": "In any document, the percentages in the children of elements that are not relatively positioned that are relative to a height (top, bottom, min_height, max_height, margins at the top and bottom, borders and paddings at the left and right, and height where the parent has no height of its own and the element is not relatively positioned) can all be replaced by 0 at once: no number of any box changes, and the document can be laid out if and only if it could before. In the children of relatively positioned elements they do count.", "quantifier": "all documents, displays, any arithmetic with correct rounding", "why_tests_cant": "the claim compares the layouts of two arbitrary documents; tests have a few percentages in documents of two or three elements", "anchors": ["src/colosseum/engine.py:layout_box", "src/colosseum/engine.py:calculate_size", "src/colosseum/units.py:142-153"]}
{"id": "C109", "title": "What the size of the display has to do with a layout", "statement": "Width: on two displays that differ in nothing but their widths, all vertical numbers of all boxes of a document are the same, and it can be laid out on one if and only if it can on the other, if it has no viewport units, no percentages of borders or paddings at the top or bottom, and the heights of its images are given or are their own. Height: on two displays that differ in nothing but their heights, all numbers of all boxes of a document without viewport units whose root has no percentages relative to the height around it are the same, but for the height of the root of an HTML5 document. All these conditions are needed.", "quantifier": "all documents, all pairs of displays, all arithmetics", "why_tests_cant": "the claim is about two displays and every document; the tests use one size of the display for each engine test", "anchors": ["src/colosseum/engine.py:layout", "src/colosseum/engine.py:layout_box", "src/colosseum/engine.py:calculate_width_and_margins", "src/colosseum/engine.py:calculate_height_and_margins", "src/colosseum/units.py:113-153"]}
{"id": "C110", "title": "Blocks are laid out as CSS 2.1 prescribes", "statement": "In a document of blocks, in normal flow or relatively positioned, whose sizes are lengths or keywords or, for widths and for margins and offsets at the left and at the right, percentages, layout puts the border box and the content box of every element where sections 8.3.1 (collapsing margins), 8.5.1 (borders), 9.4.3 (relative positions), 10.3.3, 10.4, 10.6.3 and 10.7 of CSS 2.1 put them. This is false in general; it holds when borders have a style, vertical margins are whole and not negative, margins of first and last children vanish or disappear in those of their parents, empty elements have some height, automatic sizes are within their limits, centred elements leave an even number of pixels, the direction of an over-constrained element is that of its container, relatively positioned elements have neither border nor padding at the top and, from right to left, only one horizontal offset, and last children are not moved up or down.", "quantifier": "for all trees of blocks of any depth and size, all displays, all floating-point arithmetics with the laws of rounding", "why_tests_cant": "Conformance to the text of the standard is about all trees; the tests of the repository compare recorded layouts of single documents.", "anchors": ["src/colosseum/engine.py:layout", "src/colosseum/engine.py:layout_box", "src/colosseum/engine.py:calculate_block_non_replaced_normal_flow_width", "src/colosseum/engine.py:calculate_block_non_replaced_normal_flow_height", "src/colosseum/dimensions.py:Box"]}
{"id": "C111", "title": "A document of blocks, moved or not, with widths in per cent is laid out as by a reference algorithm", "statement": "Take a document that consists of blocks in normal flow and relatively positioned blocks, whose sizes and offsets are lengths or the keywords of their properties, where width, min-width, max-width, the margins at the left and at the right and the offsets left and right may be percentages. It can be laid out, and the border boxes and content boxes of all its elements are where a reference layout has them, which is a recursive definition of regions from the style alone: a relatively positioned element keeps its place among its siblings and is moved from there with all its content, by left or else right, and by top or else bottom together with its top border and padding; a block of automatic height ends where its last child has been moved to; percentages are of the content width of the container. Percentages that are relative to a height, in the children of elements that are not relatively positioned, may be there too; the layout is then that of the document in which they are 0.", "quantifier": "for all trees of blocks of any depth and size, all displays, both standards, all floating-point arithmetics with the laws of rounding", "why_tests_cant": "The position of an element is the sum of decisions along the whole path to it and of the heights of all preceding elements, and relative positions interact with automatic heights; the tests compare recorded layouts of single documents.", "anchors": ["src/colosseum/engine.py:layout", "src/colosseum/engine.py:layout_box", "src/colosseum/engine.py:calculate_block_non_replaced_normal_flow_width", "src/colosseum/engine.py:calculate_block_non_replaced_normal_flow_height", "src/colosseum/dimensions.py:Box"]}
{"id": "C112", "title": "The order of percentages is that of their numbers", "statement": "Two percentages can be compared with < and >: the answer is that of their numbers, a > b is b < a, of two percentages exactly one of a < b, a == b and b < a holds apart from nan, the order is transitive, and the lesser percentage of the same container comes to no more pixels. The validator of percentages refuses what is less than Percent(0) in this order. Comparing anything but a percentage with < raises TypeError, and a percentage with a value that is no unit AttributeError. (A comparison of units should also respect the units, and <= should answer where < and == do: 50% < 60px is true for the bare numbers, 60px < 50% is a TypeError, and <= raises TypeError for all units.)", "quantifier": "for all pairs of values of which one is a unit, all numbers including infinities and nan", "why_tests_cant": "The order is defined by one method and Python's protocol of reflected operators; the tests compare no two units with < except through the validator on a few values.", "anchors": ["src/colosseum/units.py:Percent.__lt__", "src/colosseum/units.py:Percent.__eq__", "src/colosseum/validators.py:is_percentage"]}
{"id": "C113", "title": "In whole pixels no rounding plays a part", "statement": "When all lengths of a document come to whole numbers of pixels and the sizes of the display and the intrinsic sizes are ints, every number in every box after layout is an int, also where space is halved between two auto margins or a size follows from a ratio, and the layout does not depend on the arithmetic of floats: it is that by exact arithmetic, without a bound on the number of elements or on the sums. In particular the seven horizontal measures of a block add up to the width of its container exactly, with one pixel left over at most when both margins are auto, and blocks are stacked at the exact running sum. Lengths in pixels up to 2**53 and in inches are such lengths. Percentages and larger lengths are not.", "quantifier": "for all trees of elements of all kinds, all displays with int sizes, all pairs of arithmetics that agree on the lengths", "why_tests_cant": "The claim compares two arithmetics on every document and has no bound on magnitudes; the tests use small numbers, on which everything is exact anyway.", "anchors": ["src/colosseum/engine.py:layout", "src/colosseum/engine.py:layout_box", "src/colosseum/dimensions.py:Box", "src/colosseum/units.py:58-62"]}
{"id": "C114", "title": "Documents in whole pixels are laid out as by the reference without any bounds, and what is printed are its numbers", "statement": "In exact arithmetic every document of blocks in normal flow and relatively positioned blocks is laid out as by the reference layout of C111, however large it is. So by C113 is, with any lawful arithmetic of floats, every such document in whole pixels, and the text printed for a box consists of the size and the place of its content in the reference layout, as whole numbers. In particular the session of the tutorial works as shown with any numbers: the root is printed with its declared width, the height of the page less its top margin, its left margin and its top margin, and the children with their declared sizes, below each other.", "quantifier": "for all trees of such blocks, all displays with int sizes, all lengths up to 2**53 pixels, any number of elements, all lawful arithmetics", "why_tests_cant": "The tutorial shows one document; the claim is about all sizes and numbers of children, also where the sums leave the range of exact floats.", "anchors": ["src/colosseum/engine.py:layout", "src/colosseum/engine.py:layout_box", "src/colosseum/dimensions.py:Box.__repr__", "docs/tutorial/tutorial-1.rst:60-105"]}
{"id": "C115", "title": "What writing to an element without box does", "statement": "As long as an element has no box (node.layout is None, before its first layout): every write to its box raises AttributeError and changes nothing; a changed intrinsic size is stored and then AttributeError is raised; a deleted property is deleted as with a box, and nothing is raised; an assignment to a property or to the four sides of one does the same as with a box as long as that leaves a clean box clean, and else stores the first new value only and raises AttributeError; an assignment to a shorthand never succeeds. With a box, no write to it raises.", "quantifier": "every element, every operation, every declaration, every value", "why_tests_cant": "all states and values; the tests create the box before they touch the style.", "anchors": ["src/colosseum/dimensions.py:Size", "src/colosseum/dimensions.py:Box", "src/colosseum/declaration.py:CSS.dirty", "src/colosseum/declaration.py:validated_property"]}
{"id": "C116", "title": "The representation of a value is an expression for it", "statement": "repr() of a border spacing, of quotes, of a cursor or of a keyword is the call of its class, or the string literal, that stands for the value: its parts in their order, each in a notation that reads as the part; every other value is represented by its text. Two values of the same representation are the same.", "quantifier": "all values a property can hold", "why_tests_cant": "Unboundedly many values; strings with quotes, escapes, commas and parentheses inside.", "anchors": ["src/colosseum/wrappers.py:17-22", "src/colosseum/wrappers.py:55-57", "src/colosseum/wrappers.py:164-165", "src/colosseum/wrappers.py:200-207"]}
{"id": "C117", "title": "Only border and padding together matter", "statement": "If two documents differ in nothing but how much of each edge of their elements is border and how much is padding, one can be laid out if and only if the other can, and all boxes have the same places, sizes and margins; so have the border boxes. This holds in exact arithmetic, and in floating point for documents in whole pixels.", "quantifier": "all pairs of such documents, of any depth, all displays, both layout modes; also where the edges are percentages", "why_tests_cant": "Relates the layouts of two documents, over unboundedly many trees and divisions of the edges.", "anchors": ["src/colosseum/engine.py:387-547", "src/colosseum/engine.py:629-703", "src/colosseum/dimensions.py:340-416"]}
{"id": "C118", "title": "The arithmetic does not matter for documents of moderate size", "statement": "A document whose lengths and number of elements are moderate (C80) is laid out alike in all arithmetics that obey the laws of rounding and agree on how many pixels its lengths are: either in none of them, or with the same numbers, of the same Python types, in all boxes. So nothing is rounded in the layout itself: the boxes are those of exact arithmetic. The arithmetics agree on pixels in whole layout units, on percentages that are multiples of 25, of 20, and of 4 up to 60, and on all whole percentages of containers where exact arithmetic has no tie, such as those of a whole number of pixels; where it has a tie they may differ. As a consequence C117 holds for such documents in floating point.", "quantifier": "all documents of moderate size with elements of every kind the engine can lay out, all displays, all pairs of lawful arithmetics", "why_tests_cant": "The claim compares the layout in floating point with an exact one that Python does not perform, for every document; the tests have whole numbers.", "anchors": ["src/colosseum/engine.py:layout", "src/colosseum/engine.py:layout_box", "src/colosseum/dimensions.py:Box", "src/colosseum/units.py:58-62"]}
{"id": "C119", "title": "A taller block pushes what follows down by exactly as much", "statement": "If two documents differ in nothing but the height given for one block in normal flow, which is larger by some amount in the second one, inside of any number of blocks of automatic height, one can be laid out if and only if the other can; then that block and all blocks around it are taller by that amount, what follows them is lower by that amount, with all that is inside, and no other place, width, margin, border, padding or collapsed margin is changed. This holds in exact arithmetic, and in floating point for documents in whole pixels of any size and for documents of moderate size. It does not hold for very large fractional numbers in floating point, for percentages of that height inside of the block, and for the height of the root by the rules of HTML5.", "quantifier": "all pairs of such documents, of any depth and with any number of blocks before and after, all amounts (negative ones too), all displays", "why_tests_cant": "Relates the layouts of two documents, over unboundedly many trees, places of the block and amounts.", "anchors": ["src/colosseum/engine.py:107-128", "src/colosseum/engine.py:165-302", "src/colosseum/engine.py:662-703", "src/colosseum/dimensions.py:340-416"]}
{"id": "C120", "title": "Blocks without margins may be put in any order", "statement": "If two documents differ in nothing but the order of the children of one block of automatic height, inside of any number of blocks of automatic height, and these children are blocks in normal flow with no vertical margins on them or reaching out of them (from what comes first inside, or, if the height is automatic, from what comes last), one can be laid out if and only if the other can; then the block is as high in one as in the other, its children have the same boxes, with all that is inside, apart from how far down they are, and nothing around the block is changed. This holds in exact arithmetic, and in floating point for documents in whole pixels of any size and for documents of moderate size. With vertical margins, also such that reach out from inside, or relative positions the order matters.", "quantifier": "all such documents, all permutations of any number of children, at any depth, all displays", "why_tests_cant": "Relates the layouts of two documents, over unboundedly many trees and permutations.", "anchors": ["src/colosseum/engine.py:165-302", "src/colosseum/engine.py:662-703", "src/colosseum/dimensions.py:340-416"]}
