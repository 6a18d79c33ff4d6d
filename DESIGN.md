# Formal model of beeware/colosseum in Lean 4

The subject is `/repo/src/colosseum` (a CSS declaration object and a CSS 2.1 box layout engine in Python). The model is written by hand,
function by function, from the source text; nothing is extracted or run. All paths `file.py:lines` below are in `/repo/src/colosseum`.

## Layout of the development (`lean/Verif`)

| module | content |
|---|---|
| `Py/*` | the fragment of the Python runtime the code uses: exceptions as values, numbers and rounding, `str` methods, `float()`/`int()` literals |
| `Model/*` | the model, one file per source file, each definition citing file and lines, simplifications stated there |
| `Spec/*` | small independent specifications the theorems are stated against (grammars, CSS tables, CSS equations, tree relations) |
| `Lemmas/*` | helper lemmas |
| `Props/*` | property theorems `Cnn_…`, partial theorems `Cnn_…_partial`, refutations `Cnn_false_…`, and beside them examples that meet the hypotheses |

A refutation is a concrete input on which the English claim fails in the model, checked by the kernel (`decide +kernel`). It is
there to show that a hypothesis of the `_partial` theorem next to it cannot be dropped; it is not counted as a proof of anything else.

## How things are modelled

* **Exceptions** are values: `Res α = Except Err α`; `Err` has one constructor per exception class that can escape. Messages are
  dropped, except that *building* a message can itself raise (`f"…{value}…"` of an infinite angle) and that is modelled.
* **Numbers.** `int` is `Int`; a finite `float` is the exact rational it denotes; `inf`, `-inf`, `nan` are explicit. The int/float tag is
  kept, since `Box.collapse_*` tests `isinstance(value, int)` and `Unit.px` returns an int when it can. Every float operation
  rounds with a parameter `fp.rnd : Rat → Rat`. A theorem either holds for *every* rounding function, or assumes `fp.Laws`
  (monotone, odd, idempotent, exact on integers of 53 bits, relative error 2^-53 above 2^-100), which is proved of `FP.exact` (no rounding), of
  `FP.b64` (53 bits, ties to even) and of `FP.ieee` (the same with subnormal numbers), or assumes `fp.Exact`. So every theorem with `fp.Laws` is a
  theorem about double arithmetic up to the next point. The theorems on relative errors at any magnitude (`C07_ratios_rounded`, `C55_percent_partial`, `C55_false_padding`, `C55_false_margin`, `C71_percent_partial`, `C71_root`,
  `C08_percent_rounded`, `C61_px_accurate`, `C92_degrees`, `C93_pixels`) assume `fp.Sharp`, which is proved of `FP.exact` and `FP.b64` and refuted of `FP.ieee`.
* **Not in the number model**: `-0.0` is `0.0`; exponents have no upper bound (no overflow to `inf`, no `OverflowError` of
  int→float), except in `Model/Ieee.lean`, which models the conversion of lengths to pixels with the range of binary64 and shows that it is the same
  as that of `FP.b64` for magnitudes from 2^-200 to 2^200, and the same as that of `FP.ieee` whenever it does not raise (C105); `bool` as a subclass of `int`; the 4300 digit limit of `int(str)`.
* **Strings** are `List Char`. `float()`, `int()`, `split()` and `strip()` know the decimal digits and white space of all of Unicode (tables of Python 3.11); `lower()` changes the letters of ASCII and the Kelvin sign, the only characters that become ASCII text. The tables are stated twice: as code points in the model (`wideZeros`, `wideBlanks`), as characters in the specification (`scriptZeros`, `wideSpaces`).
* **Object identity.** `rgb`, `hsl`, `Uri`, `BorderSpacing` have no `__eq__`, so `==` is identity: they carry a label, and a new object
  gets a label supplied by the caller. Theorems quantify over the label; where labels do not matter values are compared by `Val.forget`.
* **Declarations.** A `CSS` object is `LH → Option Val`, `LH` the 70 single properties. Directional and shorthand properties have no storage
  of their own, in the code and so in the model. `_node` is three-valued: unbound, bound to a node with a box, bound to a node whose
  `layout` is `None`. The state after an exception is part of the result of every operation on declarations.
* **Trees.** The mutable tree of nodes is an immutable tree `Node` (style, intrinsic size, optional box, children); a setter that walks
  to the children returns the new tree. Parent pointers are implicit; a node with two parents or a cyclic tree is not expressible.
* **Layout.** `layoutBody` follows `layout_box` statement by statement. The recursion runs on fuel; `layout` supplies the depth of the tree and
  `layoutBox_fuel` shows that more fuel changes nothing. `Model/Trace` is the same engine, one
  assignment at a time, keeping the tree reached when an exception is raised; `runLayout_out` shows that forgetting this tree gives `layout`.
  Theorems about layouts that raise and about histories with such layouts (C37, C42, C43, C49, C67) use it.
* **Histories** (`Model/History`): finite sequences of operations on a registry, a declaration or a tree; invariants are proved by
  induction on them.
* **Oracles**: `repr(float)` is modelled (`Py/Repr`: the shortest digits that read back) and shown to be inverted by `float()` for every binary64 value
  (C04, C17, C35, C69); where a theorem does not depend on it, it is any function. `ast.literal_eval` of a `quotes` text other than a plain string literal
  is any function (C18); which characters outside ASCII `repr(str)` escapes is any predicate (C69); the display's numbers are any numbers.
* **Sets.** Where the code iterates over a `set` (keywords of `Choices`, `_CSS_PROPERTIES`), theorems hold for every order (C60, C26, C35).

## What is not modelled

`utils.py` (unused, and it cannot be imported: `constants.py` has no `HEIGHT` and `WIDTH`),
the second `format` of `Shorthand.__repr__` on a text with braces (any function, and shown to be unreachable, C70), instances of unit classes with suffixes or scales other than the module's own,
subclasses written by users, threads. The functions of `engine.py:551-583,706-738` consist of `raise NotImplementedError` and are one case of
the model. Text, fonts other than the dummy font, and inline formatting do not exist in the code.

## Trusted base

* Lean 4.33.0's kernel, and Mathlib's definitions used in statements (`Rat`, `List.Forall₂`, `⌊·⌋`, order).
* Axioms: every theorem in `MANIFEST.json` depends on a subset of `propext`, `Classical.choice`, `Quot.sound` (checked with `#print axioms`
  for each; a few refutations need only `propext` or none). No axioms of our own, no `sorry`, no `native_decide`, no `bv_decide`.
* The fidelity of `Model/*` and `Py/*` to the cited lines, with the simplifications above. `Py/*` was written from the Python language
  reference and compared with CPython on a million random cases. The code itself was not run; but the model was evaluated on the documents of the
  repository's own tests, and the results agree with the expectations recorded there for all 2448 web platform documents, all 39 engine tests,
  164 parser calls, 58 of the 65 tests of declarations, 250 conversions of units and 541 assertions on boxes (`fidelity/README.md`).
* The specifications in `Spec/*`. The table of CSS colour names there was written independently of the order and the format of the code's table, but by an author
  who had seen it. Claims that hold by construction of the model rather than by proof: a copy shares no storage with its original;
  only single properties have storage.

## Mutation testing

`seeded/LOG.jsonl` lists edits of the model in a scratch copy, the claim each breaks, and what failed to build. `result` is one of

- `caught`: the edited model compiles and something in `failed` does not, often a helper lemma. Theorems in `blocked` import such a lemma and were
  not reached. This alone does not show that their statements exclude the edit; a note says so where a further run went past the lemma.
- `survived`: everything built. A theorem was then added or tightened (`tightened`), or the note says why the edit breaks no claim.
- `invalid`: the edited model does not compile, which says nothing about the theorems.
- `inconclusive`: the build did not finish in time.

Entries with `random` come from a script that picks edits at random; their claim is just the comment of the definition.

## Defects of the code found on the way

Each has a kernel-checked witness where a theorem name is given.

* units: `"90deg"` is accepted as a length (C09_false_angle, C30_false_angle); an infinite angle object raises OverflowError
  (C03_false_inf_angle); int magnitudes above 2^53 do not survive printing (C04).
  A product of a unit with something that is not a number is `None` (`"3" * px`), not an exception (C104_only_numbers); a magnitude of 2^1018 px raises OverflowError,
  and `1e308vw` raises ValueError when the display has no width (C105).
* colors: the hsl sector 240–300 repeats the one before (C14); `color("")` raises IndexError (C12); `#-1-1-1` is accepted (C11); the brackets of `rgb(…)`
  and `hsl(…)` are not looked at: `rgb(10, 20, 50` is accepted with blue 5 (C68).
* shapes: `Rect` given positionally exchanges bottom and left (C17).
* wrappers: `quotes(("<<", ">>"))` splits characters (C18); a comma inside `url()` is rejected, and a stored cursor with a `Uri` cannot be assigned
  again (C19); `ImmutableList` leaves `del`, `clear`, `+=`, `*=` open (C20).
* validators: `nan` passes every range check; `int(inf)` escapes as OverflowError (C59).
* declarations: a setter stores and then raises if the node has no box (C21); `copy` loses `clip`, `border_spacing` and values equal to the initial
  one, raises for `quotes` (C26); `margin = (1, 2, 3, "bad")` leaves three sides assigned (C28); `outline = "red solid 90deg"` likewise (C32);
  `border = "   "` resets the border; the getter of `border` is always `""`.
* dimensions: marking a box clean below a dirty parent stops later propagation (C37); reset below the root breaks coherence (C40); fractional
  margins never collapse (C41, C45).
* engine, horizontal: two `auto` margins are rounded to whole pixels (C64); the margin that gives way depends on the direction of the element instead of that of its container (C64_false_direction); `min-width`/`max-width` are ignored for `width: auto` (C47); left and
  right padding in percent refer to the height of the container, top and bottom margins too (C55).
* engine, vertical: `position: relative` adds border and padding twice (C50_false_double, C51_false_relative); the shift of a last child leaks into the height of its parent
  (C46_false_relative); inline or hidden last children give a block height 0, or raise (C46_false_trailing, C48); `min-height`/`max-height` are ignored
  in most cases (C47); with rtl, `left` wins over `right` (C50_false_rtl).
* engine, replaced elements: height = width × ratio, ratios and zero sizes ignored in places, limits ignored (C56).
* engine, trees: boxes below a hidden node are not reset, later layouts then depend on them (C43, C49, C52, C54); inline content before a block raises
  AttributeError, after a block it is dropped; a floated element after a block is dropped instead of refused (C53).
* engine, root: with HTML5 the content height may be set to a negative number (C51_false_height).
* `str()` of a stored value is not always a text the property accepts (C69): `None` prints as `None`, which every property that can be `none` refuses; every `hsl`
  colour the parser makes prints fractions where the parser wants integers; quotes with blanks and cursor urls with commas are split; `str(css)` raises
  `OverflowError` once `css.width = "infpx"` was assigned (C35).
* shorthands (C70): `css.border` always reads as `""`, whatever is stored (C70_false_border); the text of a shorthand with a stored colour has more than three words and
  is refused (C70_false_color); a stored `none` prints as `None`, which is refused (C70_false_none); the object a shorthand reads as cannot be assigned
  to any shorthand (C70_false_object).
* engine, inline elements (C72): those that are not replaced ignore their left margin, border and padding (C72_false_left); the elements of a line overlap
  (C72_false_overlap); relative ones count the space above twice (C72_false_relative); a `margin-top` of `auto` raises (C72_false_auto)
* engine, heights in percent (C71): they refer to the specified height of the parent, so that nested percentages and percentages of `auto` are 0 (C71_false_indefinite), a
  `max-height` of the parent is ignored (C71_false_limited) and a `max-height` in percent is 0 (C71_false_max); left and right paddings in percent are 0
  below a static parent (C55_false_padding).
* messages (C73): those of `color` and `background_color` list the address of an internal object (C73_false_object); percentages are accepted but not listed for border
  widths, outline width and spacings (C73_false_percentage); the message of the shorthand setters is never used, as the parsers do not raise
  `ValidationError` (C73_false_shorthand).
* comparison (C75, C76): `1.0 == 1` and `1 == 1 * px` but `1.0 != 1 * px` (C75_plain_float); a length of `nan` differs from itself and every assignment of it
  marks the box dirty (C75_reflexive); equal lengths in viewport units come to different pixels when they are huge (C76_false_equal).
* engine, borders: a border whose style is `none` takes the room of its width (C79_false_style).
* engine, collapsing margins (C82): negative margins never bring blocks closer (C82_false_negative); the top margin of a first child is lost unless the chain of first children
  starts at the root (C82_false_nested); margins collapse through borders and paddings (C82_false_border); those of an empty block do not collapse with
  each other (C82_false_empty).
* characters outside ASCII (C11, C12): digits of any script are digits, also in colours: `#١١١` is `rgb(17, 17, 17)` (C11_false_script); the sign of the unit kelvin counts as
  a letter k, so that a name such as `blacK` is a colour (C12); no-break spaces around a number are ignored.
* engine, grouping: a block without any style around some children makes them lose the top margin of the first one (C94_false_margin); an empty block keeps the margins above
  and below it from collapsing (C95_false_margins) and makes an empty parent lose its minimal height (C95_false_minimum).
* `utils.py` imports `HEIGHT` and `WIDTH` from `constants.py`, which does not define them: importing it raises `ImportError`.

## Per property

Status, what is proved and what is missing. Full statements are in `properties.jsonl`, theorem names in `MANIFEST.json`.

* **C01 Length parsing does not depend on what was parsed before** (proved). Registry as a list; a history is a list of unit operations; induction over it. For every rounding and every history of parses, multiplications and negations, by induction on the history.
* **C02 <number><suffix> strings parse to exactly that unit** (proved). Float grammar as an executable recogniser; key lemma: an accepted literal never ends in a letter a suffix could extend. For every rounding satisfying FP.Laws (exact arithmetic and binary64 do); kind-only version for any rounding. Float literals are those of an independent grammar (Spec/Literals).
* **C03 Bare numbers are pixels, everything else is rejected with ValueError** (partial). Case analysis over the value type against the relation Denotes. Acceptance is proved as an iff with the independent relation Denotes, float literals being those of an independent grammar (Spec/Literals). Rejection is ValueError except when formatting the message raises OverflowError (an infinite angle object); that corner is refuted.
* **C04 Printing a length and parsing it back gives an equal length** (partial). From C02 plus decimal printing of integers; repr(float) is an oracle. Proved for every unit object whose magnitude is a float, with Python's floats and repr(float) (C04_binary64_partial), and for any rounding and any repr that float() inverts (C04_print_parse_partial); false for int magnitudes beyond 2^53 that no float equals (refuted with 9007199254740993px).
* **C05 Pixel values lie on the 1/64 layout grid and are ints exactly when integral** (partial). Arithmetic over Rat with the rounding laws. Grid, int tag and 1/128 bound proved under FP.Laws; false only for plain pixel int magnitudes that no float equals (refuted).
* **C06 Resolving a length is monotone and sign-symmetric in its magnitude** (partial). As C05. Sign symmetry proved in full; monotonicity proved except for comparing int with float magnitudes of viewport units, where it is refuted under binary64.
* **C07 Physical and viewport units keep their ratios** (partial). As C05. vmin/vmax for any rounding; the physical ratios exactly in exact arithmetic (C07_physical_ratios_partial), and to within one layout unit for every rounding that satisfies FP.Laws, for lengths up to 2^40 px (C07_ratios_rounded); exact equality is refuted under binary64 at a rounding tie (C07_false_ratio_b64).
* **C08 Percentages are proportional to the containing size** (partial). As C05. Zero, hundred percent and TypeError under FP.Laws; the 1/128 bound in exact arithmetic (refuted under binary64) and the 1/128 + 7 ulp bound under FP.Laws.
* **C09 A length-valued property never stores an angle** (partial). Case analysis over values, refutation for angles. False as stated: 'css.width = "90deg"' stores an angle (C09_false_angle). C09_lengths_partial covers every other value of every type, under the floating point laws.
* **C10 Hex colors decode exactly** (proved). Parsing over characters. All four lengths of hex colours, for every digit in either case and in every script, against the independent digit tables.
* **C11 Every accepted hex color has components in 0..255** (partial). Parsing over characters. Channels in 0..255 for strings of hex digits; refuted for signed or blank pairs such as #-1-1-1 that int(x, 16) accepts. Every other # string raises ValueError. C11_exact says exactly which # strings are accepted and as which colour: three or four digits, or three or four pairs that are two digits, a signed digit or a digit and a blank. C11_false_script: digits of other scripts than ASCII are accepted; C11_ascii_digits: no others, in a short ASCII string.
* **C12 Named colors are looked up case-insensitively and match the CSS color table** (partial). Table against an independent table. Every CSS name, in any letter case, gives the CSS channels of an independent table; unknown names raise ValueError; refuted for the empty string (IndexError). C12_only: nothing else is accepted outside # and functional notation. Letter case is that of Unicode: the sign of the unit kelvin counts as a K.
* **C13 rgb()/rgba()/hsl()/hsla() strings decode to the written components** (proved). Parsing with arbitrary blanks. rgb/rgba/hsl/hsla strings whose components are literals of the independent grammar, for every rounding; wrong counts and bad numbers raise ValueError. The converse is C68.
* **C14 hsl colors convert to the rgb color CSS defines** (partial). Sector by sector over Rat. Range and grey for all colours; channels within the stated error of the CSS formula outside hue 240..300, where the code repeats a sector (refuted at 270). In the wrong sector red and green are exchanged and nothing else: C14_swapped, C14_swapped_exact.
* **C15 url values survive printing and parsing** (proved). Parsing over characters. Accepted form as an iff; address for quoted and bare forms; print/parse for every address; everything else ValueError.
* **C16 Border spacing takes one or two lengths, the second defaulting to the first** (partial). Parsing. Acceptance as an iff for numbers, strings and sequences; refuted error class for three items with an infinite length and for a bare length object (AttributeError).
* **C17 rect() strings assign their four lengths in CSS order** (partial). Parsing. Accepted text as an iff with the independent RectText; top and right as claimed; bottom and left are exchanged by the code (refuted); print/parse for the magnitudes C04 covers.
* **C18 Quotes pair up their items in order** (partial). Parsing and list induction. Pairing, levels from both ends and rejections proved; refuted for plain sequences of longer strings, texts with blanks and numeric items (TypeError).
* **C19 A cursor list is urls followed by at most one keyword** (partial). Parsing and list induction. Acceptance as an iff for strings and sequences of strings, stored order, ValueError otherwise; refuted for None, urls with commas and stored Uri objects.
* **C20 A stored cursor list never changes** (partial). Histories of list operations. Unchanged under every history of disabled and reading operations; refuted for clear, del, += and *=.
* **C21 A rejected assignment changes nothing** (partial). Declarations as a state machine. C21_failures is the exact statement for all states; the claim holds unless the node's layout is None, where an accepted value is stored and AttributeError is raised (C21_false_no_box).
* **C22 An accepted assignment is read back and touches nothing else** (proved). Invariant over reachable states. Reachable states; 'validated form' is KeywordOf or the parser of the property's kind, whose own meaning is the subject of C01-C20.
* **C23 Deleting a property restores its initial value** (proved). Reachable states. All three deletion forms, and what every getter returns in every reachable state (C23_reads).
* **C24 Every stored value is a canonical value of its property** (proved). Invariant over histories. Invariant over all histories, plus a sharper form (C24_produced) and copies.
* **C25 Reassigning the current value is accepted and changes nothing** (partial). Exact set of surviving values. Reassigning what a property reads as: accepted and changes nothing for the values characterised by Survives (C25_exactly gives the exact condition); refuted for border_spacing, unset text_align and border colours, quotes and clip.
* **C26 copy() produces an equal, independent declaration** (partial). From C25. copy() reproduces every readable value when every stored value survives revalidation and differs from the initial value; refuted for keys equal to the initial value, clip and quotes.
* **C27 1-4 value tuples expand as CSS prescribes** (proved). Lists of one to four values. Every reachable state and value: a successful assignment gives each side the value CSS prescribes (C27_sides); exactly which values succeed (C27_succeeds); the getter (C27_getter).
* **C28 A rejected four-sided assignment changes nothing** (partial). State after an exception. False as stated: margin = (1, 2, 3, 'bad') leaves three sides assigned (C28_false). Partial: no change unless the first of several values was accepted. C28_prefix says exactly which sides have changed.
* **C29 Shorthand parts may be given in any order** (partial). Permutations of parts. Success and resulting state do not depend on the order (C29_any_order), for any state and any values, up to the identity of new colour objects. The type of the exception does depend on the order (C29_false_exception).
* **C30 A shorthand is accepted iff it has at most three parts of pairwise different kinds** (partial). Exact acceptance. C30_accepted characterises acceptance for every value and state exactly. The English statement is false in two corners: a width written as an angle (C30_false_angle) and an infinite width in outline (C30_false_infinite).
* **C31 A shorthand assignment resets the parts it does not mention** (proved). State after a shorthand. Every reachable state: mentioned kinds read as the parsed part or are left alone when already equal, unmentioned kinds read as initial values, nothing else changes.
* **C32 A rejected shorthand assignment changes nothing** (partial). State after an exception. Borders: nothing changes whenever the assignment of a box-bearing or unbound declaration raises (C32_border). False for outline with an angle (C32_false_outline; what is left behind then: C32_outline) and for nodes without a box (C32_false_no_box).
* **C33 Hyphenated and underscored names are the same property, unknown names are rejected** (proved). Names against the CSS tables. names of properties written from the CSS tables; hyphens and underscores may be mixed freely
* **C34 update() is the sequence of its assignments** (proved). Fold over items. update is compared with the sequence of item assignments/deletions in order (Python dict order = keyword order); unknown name raises NameError
* **C35 keys(), items() and str() agree** (proved). Sorting and rendering; the text of each value with the model of str(). The text is given by the model of str() of every value; str(css) raises exactly if a stored length is infinite or not a number.
* **C36 A style change marks the layout dirty, a no-op does not** (partial). Every operation on a bound declaration. C36_changes_mark covers every operation; the no-op half is partial: unset followers and shorthands mark the box dirty without need. Exactly when a single or four-sided property marks: C36_marks_iff, C36_delete_iff, C36_delete_sides_iff; shorthands always mark: C36_shorthand.
* **C37 Marking a node dirty marks every displayed descendant dirty** (partial). Invariant over histories of tree operations. partial: holds for documents whose boxes start dirty and where a box is only declared clean while its parent's box is clean; false otherwise (C37_false_cleaned_below). The histories include layouts of any subtree, whether they return or raise, insertions of nodes with dirty boxes (as new ones are) and removals.
* **C38 Changing an intrinsic size attribute marks the layout dirty iff it changes** (proved). Setters case by case. All six attributes, every value and state; C38_box adds that the whole subtree becomes dirty in documents as in C37. On a node without a box the value is stored and AttributeError raised (part of the statement).
* **C39 Box edges and sizes are mutually consistent** (partial). Sums on the grid. identities hold in exact arithmetic and in binary64 when all numbers are multiples of 1/64 below 2^44 px; C39_false_huge shows the bound matters
* **C40 Absolute positions follow every move of an ancestor** (partial). Invariant over histories of tree operations. reset is only allowed on the root (C40_false_inner_reset); the sum formula needs the numbers to be on the layout grid or exact arithmetic, coherence itself holds for every rounding
* **C41 Collapse extents are running maxima** (partial). Induction over assignments. counted lists the integers that count; C41_false_fraction: fractional margins never count
* **C42 Layout only writes layout boxes** (proved). Induction over fuel. Proved for every document, path by path, whether the layout returns or raises (C42_raises).
* **C43 Layout depends only on styles, intrinsic sizes and the display** (partial). Two runs related by boxes that differ in contents only. Proved for all contents of the boxes when boxes are present at the same places and all displayed nodes have one; after any number of layouts that returned or raised, if every displayed node had a box (C43_history_partial); and, for documents whose stacked children are all blocks, whatever hidden nodes have boxes. The full claim is false: a displayed node without a box, and a hidden node after a stacked block, make the result depend on earlier layouts (two refutations).
* **C44 Block widths fill their container exactly** (partial). Width phase, then transport through the other phases. Exactly, for every document, where the sums stay below 2^44 layout values (all quantities are shown to be on the 1/64 grid), or where arithmetic is exact; false for huge magnitudes with binary64 rounding (C44_false_rounding). The shortfall of the two-auto-margins case is bounded below 2px.
* **C45 Sibling blocks stack without overlap, separated by the collapsed margin** (partial). Stack invariant over the child loop. Partial: a relatively positioned child is not at its place in the stack, so the start is stated for unpositioned children only, and the exact sums need arithmetic without rounding (exact arithmetic, or layout units below 2^53). The collapsed bottom margin is that of the engine; C45_false_fraction shows that fractional margins never take part in it (a bottom margin of 7.5px is lost).
* **C46 An auto height block ends where its last child ends** (partial). Height phase. Partial: the equation holds for every document and every arithmetic; the enclosure needs an unpositioned block-level last child, and is refuted without that: C46_false_relative (offset of the last child leaks into the height), C46_false_trailing (inline content after blocks gives height 0).
* **C47 min/max sizes bound the used size, min winning** (partial). Width and height phases. Proved for specified widths (the used width is exactly the width limited by max-width and then by min-width), max-height with specified heights, and min-height of empty auto-height blocks. False for width auto (limits ignored), for min-height with a specified height or with children, and for max-height with auto height: witnesses C47_false_*.
* **C48 display:none elements and their descendants take no part in layout** (partial). Induction over fuel for the boxes; for the figures, the relation Without between a document and the same without hidden elements, proved on the blueprint of C91 by induction on the tree. C48_without_partial gives every number of the boxes of the other elements, C48_place_partial their absolute positions. Missing: the last child of a block of automatic height is kept (C48_false_last, C48_false_after_block).
* **C49 Absolute positions are consistent after layout** (partial). Coherence kept by all phases. C49_session_partial covers every document after any sequence of edits, layouts (returned or raised), removals of nodes, and insertions of new nodes below displayed ones; the origin of a box is the position of its parent content, except that a box created during the layout may have origin 0 (refuted through layout, assignment to display, layout). Where every displayed node has a box, the position formula holds without exception. Not covered: insertions below hidden nodes, and boxes moved by hand between layouts.
* **C50 Relative positioning shifts a box and nothing else** (partial). Stack invariant with a displacement per child. For two layouts: the blueprints of C91 of both documents differ in one figure, by induction on the path to the element. C50_left_partial and C50_top_partial give the exact position of every relatively positioned block in terms of its place in the flow and CSS 9.4.3. Two layouts are compared by C50_left_only (changing left and right of any element of any document changes no number of any box but the horizontal position of this one, in every arithmetic) and C50_top_only_partial (the same for top and bottom, unless the element is the last child of a block of automatic height). False as stated: with rtl and both offsets left wins (C50_false_rtl); the top border and padding are added twice (C50_false_double); the shift of a last child leaks into the height of its parent (C46_false_relative). Missing: percentages vertically and very large numbers in C50_top_partial.
* **C51 The HTML5 root fills the display height** (partial). Root phase. Partial: with HTML5 the sum is the display height exactly when the arithmetic is exact on the operands (C51_height_partial), and for every arithmetic when the display height is a whole number (C51_whole); the standard changes nothing but the root's content height (C51_standards). C51_top_partial gives the move by the collapsed top margin. False parts: the height is assigned even when it is negative (C51_false_height); a relatively positioned root is moved further because its border and padding are added twice (C51_false_relative).
* **C52 Documents made of blocks always lay out** (partial). Progress by induction over the tree. Partial: proved for every tree of plain blocks in which every element has a box (as after construction), for every arithmetic; includes relatively positioned blocks, percentages, negative lengths, limits and keywords. Without boxes it is false: a stale box below an element that was hidden before can have the height None (C52_false_stale).
* **C53 Unsupported positioning is refused, never silently mislaid** (partial). Case analysis of the dispatch, lifted over the tree. Proved for every node the layout comes to; a floated element after a stacked block is silently skipped (refuted), so for all displayed nodes it is proved where stacked children are all blocks.
* **C54 Later siblings do not affect earlier ones** (partial). Two runs that agree up to a node. Proved for documents whose displayed nodes all have boxes; C54_false_stale shows a leftover box of the last child changing earlier siblings. Absolute positions need sums small enough to be exact.
* **C55 Percentage paddings, margins and widths resolve against the containing block's width** (partial). Edges as copied, transported. Proved for width, left/right margin and top/bottom padding. False for left/right padding and top/bottom margin, which use the height of the containing block (the engine passes the contexts the wrong way round): witnesses C55_false_*, and in general C55_false_padding and C55_false_margin (0 below a static parent; the length height of a relatively positioned parent otherwise).
* **C56 Replaced inline elements follow the CSS 10.3.2/10.6.2 sizing rules** (partial). Width and height of replaced elements. Props/Ratio: what happens in the cases left out, in general (`C56_height_product`, `C56_width_ignored`, `C56_zero_ignored`), so that the conditions of the partial theorems are necessary up to coincidences of numbers. Partial: C56_width_partial and C56_height_partial give the CSS value in the cases the code handles (specified; intrinsic; no ratio; default), C56_fills_partial the assignment to the box. False in the other cases: the height from the ratio is multiplied instead of divided (C56_false_ratio_height), a specified height with a ratio is ignored for the width (C56_false_ratio_width), an intrinsic size of 0 is ignored (C56_false_zero), min and max sizes are ignored (C56_false_limits). C56_height_product, C56_width_ignored and C56_zero_ignored say what the engine does in the cases left out, for all such elements.
* **C57 Each property accepts exactly its documented keywords** (proved). Tables. C57_keywords is the claim; C57_accepts and C57_lengths characterise acceptance for every value.
* **C58 Validation fails only with ValueError** (partial). Case analysis over properties and values. Every error is ValueError for decent printable values on nodes that are unbound or have a box (C58_texts: every non-empty text for every property but quotes). Refuted by concrete values raising IndexError, TypeError, AttributeError and OverflowError. The shorthand properties too: C58_shorthand (fine parts), C58_shorthand_neither (no parts), refuted by an empty part and by an infinite angle.
* **C59 Integer and number properties coerce and range-check** (partial). Case analysis. Exact characterisation of acceptance (C59_accepts) and rejection (C59_rejects); false parts: int(inf) raises OverflowError, nan passes every range check.
* **C60 Choice order is irrelevant** (proved). Permutations. Any permutation of both keyword lists of any property; C60_any: of any Choices object whose constants are strings or None.
* **C61 Lengths resolve to the pixels CSS prescribes** (proved). Error analysis from the rounding laws. Against the independent CSS table CssPixels, under FP.Sharp (relative error 2^-53). That px never raises holds with unlimited exponents; with the range of doubles it overflows exactly where C105 says.
* **C62 Initial values are valid values** (proved). Table, by evaluation over all properties. objects compared up to identity (Val.forget)
* **C63 Layout produces whole numbers of layout units** (partial). Invariant of all phases. False as soon as an intrinsic ratio is used (C63_false_ratio); proved for documents whose visible elements have no ratio.
* **C64 Block margins solve the width equation as CSS prescribes** (partial). Width phase against CSS 10.3.3. Proved for all margins, widths and directions of the block where sums are exact (C64_grid_partial: all numbers up to 2^44 px in double arithmetic), except that two auto margins are rounded down to whole pixels (C64_false_half) and that the direction of the block itself counts instead of that of its container (C64_false_direction).
* **C65 Blocks start behind their left margin, border and padding** (partial). Width phase. In every arithmetic the content starts at the sum as rounded (C65_added); the exact sum wherever the three-term sum is exact (C65_left_partial). C65_false_huge: beyond 2^53 the rounding is seen.
* **C66 Properties unrelated to layout never affect it** (proved). Two runs with styles that agree on what is read. Proved for every document, failing layouts included.
* **C67 A layout that raises leaves the document usable** (proved). A version of the engine that keeps the state reached when an exception is raised, shown to refine the model; invariants of that state. Proved. runLayout keeps the tree at the moment of the exception; C67_raises shows that it raises exactly when layout does.
* **C68 A string accepted as a functional color is one** (partial). Grammar of float and int literals (Spec/Literals) and of the functional notations (Spec/ColorText), independent of the parsers; the parsers are shown to accept exactly the grammar. Acceptance as an iff with an independent grammar for strings with both brackets; refuted for strings without them: 'rgb(10, 20, 50' is accepted with blue 5, 'rgb[10, 20, 50]' is accepted. C68_exact is the iff for every string beginning with rgb or hsl: the functional notation with any two characters in place of the brackets.
* **C69 The text of a value can be assigned back** (partial). Model of str() for all stored values (Model/Print) and of repr(float) (Py/Repr). SameVal and Readable (Spec/Print) are independent of parser and printer; each kind of value is shown to print to a text the parser of the kind reads as the same value. Proved for all values but those excluded by Readable; refuted for None, hsl colours, infinite magnitudes, quotes with spaces, urls with commas and the empty cursor.
* **C70 A shorthand reads as its stored parts, and its text can be assigned back** (partial). Model of the Shorthand classes (Model/Shorthand) and of the getter. The parts of a shorthand and their order are those of the specification of C30 (Spec/Shorthand); PartReadable and PartShown describe values and texts without the printer. Assigning back goes through C30_accepted. Reads, equality, text and representation are proved for all reachable declarations (C70_reads, C70_equal, C70_text, C70_repr). Assigning the text back keeps all parts when they are words or finite lengths (C70_assign_partial). Missing because false: `border` always reads as the empty string (C70_false_border), a stored colour makes the text unacceptable (C70_false_color), a stored None prints as None (C70_false_none), the object itself is refused (C70_false_object).
* **C71 A specified height is used, percentages referring to the containing block's height** (partial). Capped and PercentOf state the height independently of the engine. RunAt (Lemmas/Vertical) is the run of layout_box that made a node together with its containing block; the height available to the children of a node is that of its box before they are laid out. Proved for all lengths (C71_length), for percentages of a parent whose height is a length (C71_percent_partial) and for the root (C71_root), with max-height a length or none. False otherwise: a percentage of auto or of a percentage is 0 below a static parent (C71_false_indefinite), a percentage ignores the max-height of the parent (C71_false_limited), a max-height in percent is 0 below a static parent (C71_false_max).
* **C72 Inline elements have the size of their content and stand behind their edges** (partial). The run of layout_box that made an inline node below the root determines its box completely, apart from the origins (RunFull, Lemmas/Inline); the statements refer to style, intrinsic size and box only. Sizes and horizontal auto margins are proved for all inline elements that are not replaced (C72_width, C72_height); the vertical position for all static ones and the horizontal position for replaced ones, as far as sums are exact (C72_top_partial, C72_left_partial). False: other inline elements ignore their left margin, border and padding (C72_false_left, for all documents), elements of a line overlap (C72_false_overlap), relative ones count the space above twice (C72_false_relative), an auto top margin raises (C72_false_auto).
* **C73 Error messages list exactly the values a property takes** (partial). Model/Messages gives Choices.__str__ and the messages of the setters; the listed texts are compared with the tables of Spec/Style and the notations of Spec/Messages for all properties; strings are ordered by Before. C73_message, C73_usable and C73_complete hold for all properties and values; for color and background-color the list has one more text, that of the default object. False: that text cannot be used (C73_false_object), percentages are accepted but not listed for some lengths (C73_false_percentage), shorthands do not name the property (C73_false_shorthand).
* **C74 Lengths matter only through the pixels they come to** (proved). What the engine reads of a value (keyword tests, None tests, px, calculate_size) is collected in Like; the phases respect it (Lemmas/Reads), a layout commutes with replacing every value by a chosen representative (Lemmas/Restyle), so related documents have the same outcome. Equal numbers come to the same pixels by the laws of rounding (Lemmas/Notation). For all documents and replacements under the laws of rounding.
* **C75 Comparison of the values that properties hold** (proved). Case analysis over all values of Model/Values; transitivity for values that are not plain floats, reflexivity for values without nan. C75_symmetric and C75_text hold for all values, the others for the values properties hold; C75_plain_float shows that transitivity fails with plain floats, which no property holds.
* **C76 Equal values are laid out alike** (partial). Equal numbers come to the same pixels by the laws of rounding (Lemmas/Notation); then as C74. For lengths in viewport units only while 64*value*size fits 53 bits (C76_false_equal shows why).
* **C77 An element is laid out the same in any company** (proved). SameWithin (Spec/Place) relates two documents by a pair of paths. Until the children are laid out, a parent's box does not depend on them (Lemmas/Causal); while they are laid out only its collapsed margin changes, which no child reads (layoutBox_bulk); stacking only moves a child vertically. Induction over the fuel (Lemmas/Place). For all arithmetics. Documents in which a displayed node has no box are excluded in the statement, because such a node keeps what an earlier layout left (C54_false_stale).
* **C78 Exactly which documents can be laid out** (proved). Viable (Spec/Viable) lists the conditions. Necessity: induction over the fuel along Reached, from the phases of layout_box (Lemmas/Viable, first part). Sufficiency: every phase returns a result (Lemmas/Progress, extended to inline and replaced elements), by induction over the fuel with the invariant that every element has a box with a height. For all arithmetics. Necessity has no hypotheses. Sufficiency needs boxes everywhere (C52_false_stale shows why), finite sizes, and known content sizes of inline elements that are not replaced, because percentages and heights below an unknown size raise TypeError.
* **C79 Borders, paddings and margins are what the style says** (partial). Edge (Spec/Edges) says what a border width asks for. The edges are copied at the start of layout_box (EdgesCopied); every later phase keeps borders and paddings (SameWide, width_edges) and keeps the vertical margins or replaces auto by 0 (MVal.Kept, Lemmas/Edges). Borders, paddings, vertical margins and the horizontal margins of inline elements are proved for lengths and keywords (percentages: C55, C64). C79_false_style: border-style none does not make a border 0 wide.
* **C80 Documents of moderate size are laid out without rounding errors** (proved). `Spec/Mild.lean` says which documents are moderate (lengths at most M on the grid, percentages only as block widths and horizontal margins, M * count^2 <= 2^40) without mentioning the layout. `Lemmas/Mild.lean` carries a bound on every number of every box through the whole layout by induction over the tree (`layout_small`): widths shrink on the way down, heights grow with the number of elements. Exactness of all sums then follows from the laws of the arithmetic, and each theorem instantiates the exactness hypothesis of an earlier property (C10, C11, C21, C23, C51, C61, C72, ...) which so becomes a hypothesis about the input alone. No missing part. Hypotheses are about the input only: `Node.Moderate` and that the layout returns (characterised in C78). Without moderate sizes the claims about sums fail by rounding, which is why the theorems of the earlier properties assume exactness.
* **C81 In normal flow blocks are nested and do not overlap** (proved). The geometry of whole documents: the children of each block by induction over the stack (C80), heights by induction on the tree, then containment along paths with the exact edges of C39. Hypotheses on the document and the display only (Moderate, Flowing); column is an example meeting them. Vertical margins are arbitrary.
* **C82 Which vertical margins collapse** (partial). The margins that collapse are a recursive function of the styles (`Node.edgeTop`, `Node.edgeBottom`). Each phase of a layout is shown to keep or raise the two numbers of the box; then induction on the tree. Positions from C80. What CSS 2.1 asks for beyond this is refuted by examples. Partial with respect to CSS 2.1: the four refutations show where the engine differs. The positive theorems describe the margins that do collapse exactly, for all documents of blocks.
* **C83 Numbers are printed with as few digits as possible** (proved). Python's `repr` of a float is modelled by a search for 1, 2, … 17 digits. If any decimal of n digits reads as the float, then by monotonicity of rounding one of the two neighbours of the float at that place does. The digits are read off the text. The sign of zero and numbers beyond the range of exponents are not modelled (see the trusted base).
* **C84 A document of blocks is laid out as by a reference algorithm** (proved). `Spec/Reference.lean` defines the reference: no boxes, no origins, no setters, no rounding. Existence of the layout from C52; per element the edges (C79), the horizontal measures (C47, C64/C80) and the height (C46, C71), heights by induction on the size of the subtree together with the tops of the children by induction on their index (C82); absolute positions by induction on the path (C39, C49). `C84_exact` and `C84_whole` (Props/Unbounded) drop the bound on sizes: with exact arithmetic, and for documents in whole pixels with any lawful arithmetic; they are the case without relative positions and percentages of C114. No missing part for the documents of the statement. Percentages, relative positions, inline content and replaced elements are outside it; C44, C45, C50, C55, C71 and C72 are about those one by one. C84_exact and C84_whole: no bound on sizes when arithmetic is exact or the document is in whole pixels.
* **C85 The exceptions of a layout tell what cannot be laid out** (proved). `Spec/Stops.lean`: `Stops n e` is an inductive relation on documents, without boxes or arithmetic. `Lemmas/Stops.lean`: a derivation makes the engine raise e (induction on the depth, with the progress lemmas of C78 for what comes before), and a document with an obstacle has a derivation. `Lemmas/Refused.lean`: no other step raises the two exceptions. Proved for every arithmetic. Excludes sizes that are not finite lengths, elements without boxes and inline elements of unknown size; for those C85_refused still holds.
* **C86 Direction and horizontal offsets act sideways only** (proved). Spec/Sideways: `LH.Upright` lists the layout properties other than direction, left and right; `Box.Slid` says which parts of two boxes agree. Lemmas/Sideways: two runs of the layout are compared phase by phase; children that were not yet visited differ in the horizontal origin only, visited ones are `Slide`. C86_sideways compares two successful layouts, for every arithmetic. C86_direction adds that a change of direction never makes a layout fail or succeed. C86_vertical_matters shows that the same is not true of top and bottom: they change the height of the parent. Two runs that both fail are compared in C86_direction only, since a horizontal offset of a wrong kind raises.
* **C87 Heights, vertical offsets and vertical edges act vertically only** (partial). Spec/Aligned: `LH.Lengthwise` lists the properties that matter horizontally, `AlignedDocs` relates two documents, `Box.Aligned` says which parts of two boxes agree. Lemmas/Aligned: two runs of the layout are compared phase by phase, as far as both succeed. C87_aligned_partial holds for every arithmetic, any parents and either standard. Missing: left or right paddings in per cent, which the engine takes of the height of the containing block; C87_false_padding refutes the property for them. For replaced elements whether the height is auto may not change either, since CSS lets their width depend on it.
* **C88 The layout of a mirrored document is the mirror image** (proved). Spec/Mirror: `Node.Along` relates documents of the same structure, `CSS.Mirrored` their styles, `Box.Image` two boxes. Both documents are laid out as the reference of C84 says; Lemmas/Mirror shows that the references are images of each other, by induction on the path (the rules for margins are symmetric, `usedMargins_mirror`). `C88_untroubled` (Props/Unbounded): the same without bounds on sizes, when arithmetic is exact or the documents are in whole pixels. C88_mirror, for documents whose hypotheses are those of C84 (moderate size, normal flow, no percentages), which both documents must meet. C88_centred shows that the condition on two automatic margins is needed. C88_untroubled: documents of any size, when arithmetic is exact or they are in whole pixels.
* **C89 Growing blocks never moves anything up** (proved). Spec/Mirror: `CSS.Grown` for styles, `Box.Lower` and `Box.Taller` for boxes. Via the reference of C84; Lemmas/Grown: heights, collapsed margins and positions are monotone, by recursion on documents and paths. `C89_untroubled` (Props/Unbounded): the same without bounds on sizes, when arithmetic is exact or the documents are in whole pixels. C89_grown, under the hypotheses of C84 for both documents. C89_fraction shows that margins that are not whole numbers of pixels must be excluded. C89_untroubled: documents of any size, when arithmetic is exact or they are in whole pixels.
* **C90 Enlarging everything enlarges the layout** (proved). Spec/Mirror: `Val.Scaled`, `CSS.Scaled`, `Display.Scaled`, `Box.Scaled`. Via the reference of C84; Lemmas/Grown: all parts of the reference are homogeneous. `C90_untroubled` (Props/Unbounded): the same without bounds on sizes, when arithmetic is exact or the documents are in whole pixels. C90_scaled, under the hypotheses of C84 for both documents. C90_centred shows that the condition on two automatic margins is needed. C90_untroubled: documents of any size, when arithmetic is exact or they are in whole pixels.
* **C91 The layout of any document is what its style says** (proved). Spec/Blueprint: `Node.blueprint`, a structurally recursive function of the document with `Option` for failure; brackets of sums as in the code. Lemmas/Blueprint: each phase of the engine `Yields` the corresponding part (both fail or both succeed with related results), children that have only been moved are `Like` the ones before, induction on the depth; the reset makes all boxes blank. The blueprint fixes every number of every box but the origins; C91_place adds where the boxes are on the display: the sum of the positions in the blueprint on the way, where these are multiples of 1/64 small enough for exact sums.
* **C92 Angles are converted to degrees** (proved). Spec/Angles: `AKind.circle` in real numbers, with Mathlib's pi. Lemmas/Angles: three rounding errors one after the other, and math.pi against pi to twenty digits; gradians by the fact that a number near a double is rounded to it. C92_degrees, C92_whole, C92_mono, C92_opposite, C92_infinite; C92_gradians for binary64. The error bound includes the rounding of large ints to floats. C92_mono compares values of one type: an int and a float of the same value may give different products.
* **C93 Lengths relative to the font refer to a font of size minus one** (proved). Spec/FontUnits: the font, and documents in which lengths are written in another unit. From C74 (lengths matter through their pixels only), C61 (accuracy) and C05 (a number of 64ths of a pixel is kept as it is). C93_em and C93_ex_ch equate layouts of two documents, C93_pixels bounds the pixels of every unit but % against CSS for the font of size -1.
* **C94 A block around some children changes nothing** (partial). Spec/Regroup: `Node.Undecorated`, `Node.group`, `groupPath` (where elements are afterwards), `Box.Coincides`. Via the reference of C84; Lemmas/Regroup: stacks in two parts, nodes that are the same for those around them (`Equi`), a change at a path that others do not notice. False when the first grouped block has a larger top margin than the block above leaves (`C94_false_margin`); that case is excluded in the partial theorem, and cannot occur when all children are grouped (`C94_group_all`). `C94_untroubled_partial`, `C94_untroubled_all` (Props/Unbounded): the same without bounds on sizes, when arithmetic is exact or the document is in whole pixels; nothing is assumed of the second document. `C94_displacement` and `C94_untroubled_displacement` (Props/Displaced) drop the proviso and say how far everything from the grouped children on moves up: by the excess of the top margin of the first one over the margin left above it; so the proviso is necessary (`C94_necessary`). False in general, since the engine takes the top margin of the grouping block itself (0) for the distance to the block above, not the collapsed one: C94_false_margin. C94_group_partial proves the claim when the first of the grouped blocks is the first child or its top margin is not larger than the margin the block before it leaves; C94_group_all is the case of all children, without that condition. Assumed for both documents: moderate size. C94_untroubled_partial and C94_untroubled_all: documents of any size, when arithmetic is exact or the document is in whole pixels. C94_displacement and C94_untroubled_displacement say how far the elements move when the condition fails, and C94_necessary that it is necessary.
* **C95 An empty block changes nothing** (partial). Spec/Regroup: `Node.Open` says where the new block does not separate margins, `insertPath` where elements are afterwards. As C94. False elsewhere: margins that would collapse add up (`C95_false_margins`), and the minimal height of a block that was empty does not count any more (`C95_false_minimum`). `C95_untroubled_partial` (Props/Unbounded): likewise. `C95_displacement`, `C95_untroubled_displacement` (Props/Displaced): between two children, without the proviso, everything below moves down by the smaller one of the two margins; so the proviso is necessary there (`C95_necessary`). False in general: C95_false_margins (the margins above and below the empty block add up instead of collapsing) and C95_false_minimum (a block that was empty loses its min-height). C95_insert_partial proves it wherever one of the margins above and below is 0, at the beginning and at the end when there is no margin there, and in empty blocks of specified height or without minimal height. Assumed for both documents: moderate size. C95_untroubled_partial: documents of any size, when arithmetic is exact or the document is in whole pixels. C95_displacement and C95_untroubled_displacement say how far the elements below move when the block is between two margins, and C95_necessary that the condition is necessary there.
* **C96 The text of a box tells its content box** (proved). Model/Shown: `Printer.box`. Spec/Shown: `Box.SameContent`. From the characters and the injectivity of `repr(float)` (C04, C83) and of decimal integers. Proved for binary64 floats and Python's repr of them (modelled in Py/Repr).
* **C97 Every element has one level, and lines or blocks inside** (proved). Spec/Shown: `Level.displays` as in CSS 2.1; Spec/Document: `Node.BlockContext`. From C21 (reachable declarations hold canonical values). C97_levels for all declarations reachable by assignments; C97_contexts for all nodes.
* **C98 What can be assigned to each property** (proved). Spec/Grammar: `Meaning` is the grammar of values by kind, `Takes` adds the keywords, `Refuses` the exceptions; built from the specifications of literals, words, colours, rectangles, quotes and urls, none of which mention the model. Lemmas/Grammar and Props/Grammar show each parser to follow it in both directions (`parse_means`); with `validate_iff` this carries over to `Choices.validate` and the setter. Object identities are left out by `Val.forget` (C59 and C61 treat them). The exception is exact for every value: `Culprit` is the item complained about by itself, `QuoteOutcomes` and `PairFault` say what evaluating quotes comes to, with `ast.literal_eval` outside plain literals as a parameter. Spec/Grammar.lean `Meaning`, `Takes`, `Refuses`. Exceptions are exact for all values; for quotes they are relative to the parameter standing for `ast.literal_eval` outside plain string literals.
* **C99 What is inside an element of given height has no effect outside** (proved). By C91 the layouts are the blueprints of the two documents; these are compared by induction on the path to the element, the relation between them allowing different content below the path and different margins above along first children. C99_outside (all boxes outside), C99_first (the box of the element and those it is the first child of), C99_root (the root). C99_auto shows that the height must be given.
* **C100 A document none of whose boxes is dirty need not be laid out again** (proved). An invariant of the operations: the document is as it was except below dirty boxes. That laying out again gives the same boxes is then C43. C100_unchanged: if no box is dirty after any operations, nothing has changed. C100_good: so the boxes are those of a new layout. C100_needs_box: an element without box can change without a mark.
* **C101 What a copy of a declaration keeps, and that it is laid out alike** (proved). Each stored value is canonical (invariant of reachable declarations), so validating it again gives one of three outcomes; an invariant of the loop says what is stored for the properties visited. Layouts are compared by the simulation behind C76. C101_exactly: when copy() raises, and every stored value of the copy. C101_layout: the copy is laid out as the original.
* **C102 Equal elements in equally wide parents look alike** (proved). Modelled: the whole engine. Stated with `Hosts` (Props/Twins.lean): a document with boxes, its layout, the parent at a path, the child and the width of the parent's box after the layout. Proved on the blueprint (C91): by induction on the path, the plans of the children of an element of non-zero width are those in the surroundings given by its width and a height of zero (`plan_deep`), and the plan of an element that is not relatively positioned depends on nothing else (`plan_context`). `C102_needs_width` and `C102_needs_height` show that these two hypotheses are needed. For every arithmetic. The width and the height of the parents are needed (C102_needs_width, C102_needs_height). Proved from the blueprint of C91 by induction on the path to the parent.
* **C103 A property is changed only by what names it** (proved). Modelled: all setters, deleters, `update`, item access (Model/Declaration.lean, Model/History.lean). Stated with `Attr.covers`, a table of the single properties a name stands for, and `Op.names`. Proved by showing that every operation is local (`Local`: depends on and changes only what it names; `Fine`: property by property where no box is missing), closed under sequencing, then by induction on the history. `C103_needs_box` shows that the hypothesis on the missing box is needed. In every state for the exchange of two operations (C103_exchange); for whole histories if the declaration never belongs to an element without a box (C103_history), which is needed (C103_needs_box).
* **C104 A number times a unit is that multiple of the unit, and nothing else is** (partial). Modelled: `__rmul__`, `__neg__`, `dup` (Model/Units.lean) and Python's choice between `__mul__` and `__rmul__` of the operands (Model/Arith.lean). The laws are equalities of unit objects, by cases on the kinds of numbers with the laws of rounding. Associativity is false for floats (`C104_false_assoc`) and proved for whole numbers and for the eighteen units themselves. False in one clause: x*(y*u) and (x*y)*u can differ in the last place for floats (C104_false_assoc); proved for whole numbers and for products of the eighteen units themselves. Everything else is proved for all operands.
* **C105 The range of floats: where resolving a length overflows** (proved). Modelled: `lu` and `px` once more with the limits of binary64 (Model/Ieee.lean): 53 bits but none below 2^-1074, `inf` from 2^1024 on, OverflowError of int to float and of int / int. `C105_moderate` carries every theorem about `px` in unlimited binary64 arithmetic over to real doubles; it goes through the intermediate results with the bound each operation adds. The boundaries follow from the form of binary64 numbers and from the tie at 2^1024-2^970. C105_value_error is the witness for the last clause.
* **C106 is_percentage takes percentages that are not negative, and decides nothing** (partial). `isPercentage` against `Denotes` (Spec/Units.lean) and a sign predicate; `C106_idle` compares each property's Choices with the same Choices without the validator; `gridGapChoices` is the one list that has it alone (its properties are commented out in declaration.py). False in the part that negative percentages are refused by properties: C106_false_negative shows they are accepted everywhere, since is_length is tried first.
* **C107 Attributes defined by validated_property, for any choices and initial value** (partial). Model/Factories follows the two functions for one attribute and arbitrary choices (`Given`: a value or an object with a member `value`). Invariant by induction over uses (`C107_validated`); `C107_instances` shows that the 70 properties of Model/Declaration are instances. `C107_false_unvalidated` refutes the claim for `unvalidated_property`. Partial because the claim fails for `unvalidated_property` (`C107_false_unvalidated`); for `validated_property` it holds in full. Objects given as initial values are modelled by what their member `value` does; constants of choices are assumed to have no such member.
* **C108 Percentages of the height of a parent in the flow count for nothing** (proved). Spec/Level: `Node.level` replaces the values. By C91 it is enough that the blueprints (Spec/Blueprint) of both documents agree, which is shown by induction on the document: the children of an element that is not relatively positioned are planned with the height 0 around them, and every percentage of 0 is the whole number 0. C108_place adds the absolute positions to C108_boxes.
* **C109 What the size of the display has to do with a layout** (proved). Spec/Resize: conditions on styles, `Node.Throughout`, the vertical part of a blueprint. By C91 it is enough to compare blueprints. Height: the plan of a document without viewport units does not depend on the display (`fixed_plan`), and the plan of a rigid root not on the height around it (`rigid_plan`). Width: a relation between the intermediate values on both displays (both undefined, or both defined with equal vertical parts), kept by every step, by induction on the document (Lemmas/Widen). Conditions shown to be needed by C109_slanted and C109_percent.
* **C110 Blocks are laid out as CSS 2.1 prescribes** (partial). Spec/Css: the layout of blocks by the text of CSS 2.1 (adjoining margins as pairs of the largest positive and the smallest negative one, through empty elements and open edges; borders without a style; limits of sizes; margins and offsets by the direction of the container), independent of the engine and of Spec/Reference. `Fine` collects the conditions on an element. Lemmas/Css: by induction over the tree, an element of a conforming document shows CSS and the reference the same margins and the same height (`Match`), hence both layouts agree; then C111. Sixteen theorems C110_false_* show a document for each condition where the engine departs from CSS. `C110_whole_partial` and `C110_exact_partial` (Props/Tutorial) do without a bound on sizes, by C114. The full claim is false of the code: C110_false_* have documents where the engine departs from CSS 2.1, one for each condition of C110_css_partial. By the rules of HTML5 the root is as high as the display (C80), so that it is left out there. C110_whole_partial and C110_exact_partial are for documents of any size, in whole pixels or with exact arithmetic.
* **C111 A document of blocks, moved or not, with widths in per cent is laid out as by a reference algorithm** (proved). `Spec/Moved.lean` extends the reference of C84 by relative positions and percentages of widths, horizontal margins and horizontal offsets. `Lemmas/Moved.lean`: horizontal measures from C47, C80 and the passes of C50; tops of the children by induction on their index from the stack of `Lemmas/Stack.lean`, where an element is either at its turn or moved from there (`follows`); heights by induction on the size of the subtree (C46, C71), the root from the two standards (C51); absolute positions by induction on the path (C39, C49). `Props/MovedLevel.lean` composes this with C108: boxes with the same numbers whose parents start at the same points fill the same regions (`fills_of_figures`, `origin_of_figures`). No missing part for documents of moderate size (C80), where margins in per cent are from 0 to 100 and offsets are lengths; offsets in per cent and any percentages are in C114_exact and C114_level. Percentages of vertical paddings and borders, inline content and replaced elements are outside the statement. Where this layout differs from CSS 2.1 is the subject of C46, C50 and C110.
* **C112 The order of percentages is that of their numbers** (partial). `Model/Order.lean` models the four comparisons by the methods Python calls; `Spec/Order.lean` places numbers on the extended line (`WithBot (WithTop Rat)`), where the laws of order come from. Pixels by C06, the validator by C106. Refuted: comparison across units (`C112_false_units`) and `<=` (`C112_false_le`). Proved for all numbers: < on percentages is the order of their points on the extended line, is strict, total apart from nan, mirrored by >, agrees with pixels, and is what the validator uses; the exceptions of all other comparisons are determined. Refuted: the order does not respect units (50% < 60px compares 50 with 60) and <= and >= raise TypeError for all units.
* **C113 In whole pixels no rounding plays a part** (partial). `Spec/Whole.lean` says what whole numbers are and on which lengths two arithmetics agree; `Lemmas/Whole.lean` has one lemma per function of the engine that proves at once that two arithmetics have the same outcome and that its numbers are ints (`Joint`), then by induction on the fuel for documents; `reset` gives the same fresh boxes in both arithmetics (`reset_cleaned`). C113_fills and C113_stack carry C44 and C45 over from exact arithmetic, where they need no bounds. C113_false_percent and C113_false_large show that the restriction to whole pixels up to 2**53 cannot be dropped; the positive theorems have no other gap.
* **C114 Documents in whole pixels are laid out as by the reference without any bounds, and what is printed are its numbers** (proved). `Lemmas/Easy.lean` collects what the proof of C111 needs, that all sums of numbers in the layout are exact, and proves it for documents of moderate size and, in exact arithmetic, for all; so the proof of C111 is used for both. C114_whole follows with C113_exact; boxes of ints have the same edges in every arithmetic. C114_tutorial evaluates the reference layout for the documents of the tutorial by induction on the children. C114_exact and C114_level have no bounds at all; C114_whole is for lengths that are whole pixels (Plain). The layout of the root by HTML5 rules is included in C114_whole and C114_tutorial.
* **C115 What writing to an element without box does** (proved). Nodes with `layout := none` (`Node.apply`) and declarations with `link := .noBox`. Compared with the declaration of the same values whose box is clean (`C115_assign`, `C115_delete`); for boxes and sizes the exception and the new state are given (`C115_box`, `C115_size`), for shorthands that there is one (`C115_shorthand`). Full claim, for all operations, values and states; `C115_style` ties documents to declarations.
* **C116 The representation of a value is an expression for it** (partial). Modelled: `__repr__` of `BorderSpacing`, `Quotes`, `Uri` and `ImmutableList` (Model/Shorthand.lean, Model/Wrappers.lean). Specified by a relation between texts and values (Spec/Represent.lean) that uses the notation of Python for strings and the notation of lengths, not the printer. `C116_unambiguous` shows by the shape of string literals that a text stands for one value; it is false for urls with double quotes, which are shown unescaped (`C116_false_url`). Proved for lengths that are finite and that floats can hold, and for urls without double quotes; C116_false_url is the witness that two cursors with other urls have the same representation.
* **C117 Only border and padding together matter** (proved). Two documents are related by `Traded` (Spec/Merged.lean) when their styles agree on everything else that matters for layout and the sums of border and padding, read as in the blueprint of C91, are the same number of the same Python type in every container. By induction over the tree (Lemmas/Merged.lean) their blueprints agree once border and padding are added up, since exact sums and differences are associative with their types; `C91_blueprint` carries this over to the layouts. `C117_whole` follows with `C113_exact`. That rounding breaks it otherwise is `C117_rounding`; that margins cannot be traded in the same way is `C117_margin`. Full claim; `C117_rounding` and `C117_margin` are its limits.
* **C118 The arithmetic does not matter for documents of moderate size** (proved). `Agrees` (Spec/Unrounded.lean) says that two arithmetics give the same pixels for the lengths of a document in containers on the grid of layout units. Lemmas/Unrounded.lean goes through the blueprint of C91 twice, once per arithmetic: as long as the numbers of the boxes of one of them are small multiples of 1/64, every sum, difference and half is exact in both, so the same blueprint comes out. That they are small is `moderate_small` of C80; the numbers before the boxes are moved into place are bounded from the final ones. Being moderate is symmetric in the arithmetics, so neither can be laid out without the other. `C118_exact` is the case of exact arithmetic, `C118_traded` transports C117. `C118_pixels` and `C118_quarters` give lengths on which all lawful arithmetics agree; `C118_ties` is a document of moderate size with a percentage on which binary64 and exact arithmetic differ, `C118_large` one that is not moderate. Not covered: elements with an intrinsic ratio, since there numbers are multiplied, and percentages that are not allowed in C80. Full claim for documents of moderate size without intrinsic ratios; `C118_ties` and `C118_large` are its limits.
* **C119 A taller block pushes what follows down by exactly as much** (proved). `Node.Stretched` (Spec/Stretched.lean) relates documents that differ in the height of one block (`Node.Taller`) inside of blocks of automatic height (`Node.Amid`); `Blueprint.Stretched`, a case of `Blueprint.Grown`, and `Blueprint.Lowered` say what that does to the boxes. Lemmas/Stretched.lean goes through the blueprint of C91 by induction over the path to the block: a stack that starts lower by the amount is lower by it everywhere, a stack in which one block is taller continues lower, and the height of a block of automatic height is where its last child ends. `C91_blueprint` carries this over to the layouts (`C119_boxes`), `C113_exact` and `agrees_blueprints` of C118 carry it over to floating point (`C119_whole`, `C119_moderate`). `C119_rounded`, `C119_percent` and `C119_html5` are the limits: large fractions, percentages of the height inside, and the root by the rules of HTML5. Numbers are compared by value, since an amount that is not whole makes floats of ints. Not covered: a relatively positioned block that is stretched itself, and a stretched block with a maximum height. Full claim; `C119_rounded`, `C119_percent` and `C119_html5` are the limits named in the statement.
* **C120 Blocks without margins may be put in any order** (proved). `Node.Shuffled` (Spec/Shuffled.lean) relates two blocks whose children are a permutation of each other, `Reordered` says that the boxes of the children are a permutation of each other apart from the vertical place, and `Node.Amid` and `Blueprint.Grown` of C119, with nothing as the amount, put this inside of other blocks. Without margins (`Node.NilAbove` and `Node.NilBelow` follow the first and the last descendants, whose margins may reach out; other margins inside are free) nothing collapses (`flush_plan`, by induction over these), so the children are simply piled up (`stack_pile`); exact sums do not depend on the order (`pile_perm`), and the last child ends at the sum of all heights (`pile_end`). What is around follows by `amid_plan`. Floating point as for C119. `C120_margins`, `C120_reach` and `C120_relative` show what goes wrong otherwise. Full claim; `C120_margins`, `C120_reach` and `C120_relative` are the limits named in the statement.
