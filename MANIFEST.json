{
 "claims": [
  {
   "property": "C01",
   "status": "proved",
   "theorems": [
    "Colosseum.C01_units_history_independent"
   ],
   "note": "For every rounding and every history of parses, multiplications and negations, by induction on the history."
  },
  {
   "property": "C02",
   "status": "proved",
   "theorems": [
    "Colosseum.C02_suffix_exact",
    "Colosseum.C02_suffix_kind"
   ],
   "note": "For every rounding satisfying FP.Laws (exact arithmetic and binary64 do); kind-only version for any rounding. Float literals are those of an independent grammar (Spec/Literals)."
  },
  {
   "property": "C03",
   "status": "partial",
   "theorems": [
    "Colosseum.C03_units_accepts",
    "Colosseum.C03_units_rejects_partial",
    "Colosseum.C03_units_string_total",
    "Colosseum.C03_false_inf_angle"
   ],
   "note": "Acceptance is proved as an iff with the independent relation Denotes, float literals being those of an independent grammar (Spec/Literals). Rejection is ValueError except when formatting the message raises OverflowError (an infinite angle object); that corner is refuted."
  },
  {
   "property": "C04",
   "status": "partial",
   "theorems": [
    "Colosseum.C04_binary64_partial",
    "Colosseum.C04_print_parse_partial",
    "Colosseum.C04_false_huge_int"
   ],
   "note": "Proved for every unit object whose magnitude is a float, with Python's floats and repr(float) (C04_binary64_partial), and for any rounding and any repr that float() inverts (C04_print_parse_partial); false for int magnitudes beyond 2^53 that no float equals (refuted with 9007199254740993px)."
  },
  {
   "property": "C05",
   "status": "partial",
   "theorems": [
    "Colosseum.C05_px_on_grid_partial",
    "Colosseum.C05_px_int_iff_integral",
    "Colosseum.C05_px_error_iff",
    "Colosseum.C05_px_rounding",
    "Colosseum.C05_px_grid_exact",
    "Colosseum.C05_false_huge_int"
   ],
   "note": "Grid, int tag and 1/128 bound proved under FP.Laws; false only for plain pixel int magnitudes that no float equals (refuted)."
  },
  {
   "property": "C06",
   "status": "partial",
   "theorems": [
    "Colosseum.C06_px_monotone_partial",
    "Colosseum.C06_false_mixed_viewport",
    "Colosseum.C06_px_neg"
   ],
   "note": "Sign symmetry proved in full; monotonicity proved except for comparing int with float magnitudes of viewport units, where it is refuted under binary64."
  },
  {
   "property": "C07",
   "status": "partial",
   "theorems": [
    "Colosseum.C07_vmin_vmax",
    "Colosseum.C07_physical_ratios_partial",
    "Colosseum.C07_false_ratio_b64",
    "Colosseum.C07_ratios_rounded"
   ],
   "note": "vmin/vmax for any rounding; the physical ratios exactly in exact arithmetic (C07_physical_ratios_partial), and to within one layout unit for every rounding that satisfies FP.Laws, for lengths up to 2^40 px (C07_ratios_rounded); exact equality is refuted under binary64 at a rounding tie (C07_false_ratio_b64)."
  },
  {
   "property": "C08",
   "status": "partial",
   "theorems": [
    "Colosseum.C08_percent_proportional_partial",
    "Colosseum.C08_percent_rounded",
    "Colosseum.C08_false_b64",
    "Colosseum.C08_percent_zero",
    "Colosseum.C08_percent_hundred",
    "Colosseum.C08_percent_none"
   ],
   "note": "Zero, hundred percent and TypeError under FP.Laws; the 1/128 bound in exact arithmetic (refuted under binary64) and the 1/128 + 7 ulp bound under FP.Laws."
  },
  {
   "property": "C09",
   "status": "partial",
   "theorems": [
    "Colosseum.C09_lengths_partial",
    "Colosseum.C09_false_angle"
   ],
   "note": "False as stated: 'css.width = \"90deg\"' stores an angle (C09_false_angle). C09_lengths_partial covers every other value of every type, under the floating point laws."
  },
  {
   "property": "C10",
   "status": "proved",
   "theorems": [
    "Colosseum.C10_hex_short",
    "Colosseum.C10_hex_short_alpha",
    "Colosseum.C10_hex_long",
    "Colosseum.C10_hex_long_alpha",
    "Colosseum.C10_short_eq_long"
   ],
   "note": "All four lengths of hex colours, for every digit in either case and in every script, against the independent digit tables."
  },
  {
   "property": "C11",
   "status": "partial",
   "theorems": [
    "Colosseum.C11_exact",
    "Colosseum.C11_hex_range_partial",
    "Colosseum.C11_hex_short_range",
    "Colosseum.C11_false_sign",
    "Colosseum.C11_false_script",
    "Colosseum.C11_ascii_digits",
    "Colosseum.C11_hex_error"
   ],
   "note": "Channels in 0..255 for strings of hex digits; refuted for signed or blank pairs such as #-1-1-1 that int(x, 16) accepts. Every other # string raises ValueError. C11_exact says exactly which # strings are accepted and as which colour: three or four digits, or three or four pairs that are two digits, a signed digit or a digit and a blank. C11_false_script: digits of other scripts than ASCII are accepted; C11_ascii_digits: no others, in a short ASCII string."
  },
  {
   "property": "C12",
   "status": "partial",
   "theorems": [
    "Colosseum.C12_only",
    "Colosseum.C12_named_color",
    "Colosseum.C12_objects",
    "Colosseum.C12_unknown_name",
    "Colosseum.C12_false_empty"
   ],
   "note": "Every CSS name, in any letter case, gives the CSS channels of an independent table; unknown names raise ValueError; refuted for the empty string (IndexError). C12_only: nothing else is accepted outside # and functional notation. Letter case is that of Unicode: the sign of the unit kelvin counts as a K."
  },
  {
   "property": "C13",
   "status": "proved",
   "theorems": [
    "Colosseum.C13_rgb",
    "Colosseum.C13_rgba",
    "Colosseum.C13_hsl",
    "Colosseum.C13_hsla",
    "Colosseum.C13_fraction",
    "Colosseum.C13_wrong_count",
    "Colosseum.C13_color_error"
   ],
   "note": "rgb/rgba/hsl/hsla strings whose components are literals of the independent grammar, for every rounding; wrong counts and bad numbers raise ValueError. The converse is C68."
  },
  {
   "property": "C14",
   "status": "partial",
   "theorems": [
    "Colosseum.C14_hsl_range",
    "Colosseum.C14_hsl_grey",
    "Colosseum.C14_hsl_accurate_partial",
    "Colosseum.C14_hsl_exact_partial",
    "Colosseum.C14_false_sector",
    "Colosseum.C14_swapped",
    "Colosseum.C14_swapped_exact"
   ],
   "note": "Range and grey for all colours; channels within the stated error of the CSS formula outside hue 240..300, where the code repeats a sector (refuted at 270). In the wrong sector red and green are exchanged and nothing else: C14_swapped, C14_swapped_exact."
  },
  {
   "property": "C15",
   "status": "proved",
   "theorems": [
    "Colosseum.C15_url_text",
    "Colosseum.C15_print_parse",
    "Colosseum.C15_accepts_iff",
    "Colosseum.C15_rejects",
    "Colosseum.C15_non_string"
   ],
   "note": "Accepted form as an iff; address for quoted and bare forms; print/parse for every address; everything else ValueError."
  },
  {
   "property": "C16",
   "status": "partial",
   "theorems": [
    "Colosseum.C16_accepts",
    "Colosseum.C16_directions",
    "Colosseum.C16_wrong_count_partial",
    "Colosseum.C16_wrong_word_count",
    "Colosseum.C16_bad_string",
    "Colosseum.C16_false_inf",
    "Colosseum.C16_false_unit_object"
   ],
   "note": "Acceptance as an iff for numbers, strings and sequences; refuted error class for three items with an infinite length and for a bare length object (AttributeError)."
  },
  {
   "property": "C17",
   "status": "partial",
   "theorems": [
    "Colosseum.C17_binary64_partial",
    "Colosseum.C17_accepts",
    "Colosseum.C17_top_right_partial",
    "Colosseum.C17_false_bottom_left",
    "Colosseum.C17_string_error",
    "Colosseum.C17_other_text",
    "Colosseum.C17_print_parse_partial"
   ],
   "note": "Accepted text as an iff with the independent RectText; top and right as claimed; bottom and left are exchanged by the code (refuted); print/parse for the magnitudes C04 covers."
  },
  {
   "property": "C18",
   "status": "partial",
   "theorems": [
    "Colosseum.C18_pairs",
    "Colosseum.C18_rejects",
    "Colosseum.C18_other_values",
    "Colosseum.C18_false_plain_sequence",
    "Colosseum.C18_false_blank",
    "Colosseum.C18_false_number"
   ],
   "note": "Pairing, levels from both ends and rejections proved; refuted for plain sequences of longer strings, texts with blanks and numeric items (TypeError)."
  },
  {
   "property": "C19",
   "status": "partial",
   "theorems": [
    "Colosseum.C19_accepts_iff",
    "Colosseum.C19_stored",
    "Colosseum.C19_rejects_partial",
    "Colosseum.C19_non_string_item",
    "Colosseum.C19_false_none",
    "Colosseum.C19_false_comma",
    "Colosseum.C19_false_blank_keyword",
    "Colosseum.C19_false_uri_object"
   ],
   "note": "Acceptance as an iff for strings and sequences of strings, stored order, ValueError otherwise; refuted for None, urls with commas and stored Uri objects."
  },
  {
   "property": "C20",
   "status": "partial",
   "theorems": [
    "Colosseum.C20_unchanged_partial",
    "Colosseum.C20_disabled",
    "Colosseum.C20_false_clear",
    "Colosseum.C20_false_del",
    "Colosseum.C20_false_iadd",
    "Colosseum.C20_false_imul"
   ],
   "note": "Unchanged under every history of disabled and reading operations; refuted for clear, del, += and *=."
  },
  {
   "property": "C21",
   "status": "partial",
   "theorems": [
    "Colosseum.C21_rejected_partial",
    "Colosseum.C21_failures",
    "Colosseum.C21_false_no_box"
   ],
   "note": "C21_failures is the exact statement for all states; the claim holds unless the node's layout is None, where an accepted value is stored and AttributeError is raised (C21_false_no_box)."
  },
  {
   "property": "C22",
   "status": "proved",
   "theorems": [
    "Colosseum.C22_read_back",
    "Colosseum.C22_others_unchanged"
   ],
   "note": "Reachable states; 'validated form' is KeywordOf or the parser of the property's kind, whose own meaning is the subject of C01-C20."
  },
  {
   "property": "C23",
   "status": "proved",
   "theorems": [
    "Colosseum.C23_reads",
    "Colosseum.C23_delete"
   ],
   "note": "All three deletion forms, and what every getter returns in every reachable state (C23_reads)."
  },
  {
   "property": "C24",
   "status": "proved",
   "theorems": [
    "Colosseum.C24_canonical",
    "Colosseum.C24_produced",
    "Colosseum.C24_copy"
   ],
   "note": "Invariant over all histories, plus a sharper form (C24_produced) and copies."
  },
  {
   "property": "C25",
   "status": "partial",
   "theorems": [
    "Colosseum.C25_reassign_partial",
    "Colosseum.C25_exactly",
    "Colosseum.C25_false_border_spacing",
    "Colosseum.C25_false_text_align",
    "Colosseum.C25_false_border_color",
    "Colosseum.C25_false_quotes",
    "Colosseum.C25_false_clip"
   ],
   "note": "Reassigning what a property reads as: accepted and changes nothing for the values characterised by Survives (C25_exactly gives the exact condition); refuted for border_spacing, unset text_align and border colours, quotes and clip."
  },
  {
   "property": "C26",
   "status": "partial",
   "theorems": [
    "Colosseum.C26_copy_partial",
    "Colosseum.C26_false_keys",
    "Colosseum.C26_false_clip",
    "Colosseum.C26_false_quotes"
   ],
   "note": "copy() reproduces every readable value when every stored value survives revalidation and differs from the initial value; refuted for keys equal to the initial value, clip and quotes."
  },
  {
   "property": "C27",
   "status": "proved",
   "theorems": [
    "Colosseum.C27_sides",
    "Colosseum.C27_succeeds",
    "Colosseum.C27_getter"
   ],
   "note": "Every reachable state and value: a successful assignment gives each side the value CSS prescribes (C27_sides); exactly which values succeed (C27_succeeds); the getter (C27_getter)."
  },
  {
   "property": "C28",
   "status": "partial",
   "theorems": [
    "Colosseum.C28_rejected_partial",
    "Colosseum.C28_prefix",
    "Colosseum.C28_false"
   ],
   "note": "False as stated: margin = (1, 2, 3, 'bad') leaves three sides assigned (C28_false). Partial: no change unless the first of several values was accepted. C28_prefix says exactly which sides have changed."
  },
  {
   "property": "C29",
   "status": "partial",
   "theorems": [
    "Colosseum.C29_any_order",
    "Colosseum.C29_false_exception"
   ],
   "note": "Success and resulting state do not depend on the order (C29_any_order), for any state and any values, up to the identity of new colour objects. The type of the exception does depend on the order (C29_false_exception)."
  },
  {
   "property": "C30",
   "status": "partial",
   "theorems": [
    "Colosseum.C30_accepted",
    "Colosseum.C30_recorded",
    "Colosseum.C30_neither",
    "Colosseum.C30_false_angle",
    "Colosseum.C30_false_infinite"
   ],
   "note": "C30_accepted characterises acceptance for every value and state exactly. The English statement is false in two corners: a width written as an angle (C30_false_angle) and an infinite width in outline (C30_false_infinite)."
  },
  {
   "property": "C31",
   "status": "proved",
   "theorems": [
    "Colosseum.C31_resets"
   ],
   "note": "Every reachable state: mentioned kinds read as the parsed part or are left alone when already equal, unmentioned kinds read as initial values, nothing else changes."
  },
  {
   "property": "C32",
   "status": "partial",
   "theorems": [
    "Colosseum.C32_outline",
    "Colosseum.C32_rejected_partial",
    "Colosseum.C32_border",
    "Colosseum.C32_false_outline",
    "Colosseum.C32_false_no_box"
   ],
   "note": "Borders: nothing changes whenever the assignment of a box-bearing or unbound declaration raises (C32_border). False for outline with an angle (C32_false_outline; what is left behind then: C32_outline) and for nodes without a box (C32_false_no_box)."
  },
  {
   "property": "C33",
   "status": "proved",
   "theorems": [
    "Colosseum.C33_names",
    "Colosseum.C33_same",
    "Colosseum.C33_unknown",
    "Colosseum.C33_unambiguous"
   ],
   "note": "names of properties written from the CSS tables; hyphens and underscores may be mixed freely"
  },
  {
   "property": "C34",
   "status": "proved",
   "theorems": [
    "Colosseum.C34_success",
    "Colosseum.C34_failure"
   ],
   "note": "update is compared with the sequence of item assignments/deletions in order (Python dict order = keyword order); unknown name raises NameError"
  },
  {
   "property": "C35",
   "status": "proved",
   "theorems": [
    "Colosseum.C35_keys_items",
    "Colosseum.C35_str_order",
    "Colosseum.C35_before_strict",
    "Colosseum.C35_single",
    "Colosseum.C35_str_text",
    "Colosseum.C35_text",
    "Colosseum.C35_prints",
    "Colosseum.C35_raises"
   ],
   "note": "The text is given by the model of str() of every value; str(css) raises exactly if a stored length is infinite or not a number."
  },
  {
   "property": "C36",
   "status": "partial",
   "theorems": [
    "Colosseum.C36_marks_iff",
    "Colosseum.C36_delete_iff",
    "Colosseum.C36_delete_sides_iff",
    "Colosseum.C36_shorthand",
    "Colosseum.C36_changes_mark",
    "Colosseum.C36_no_change_partial",
    "Colosseum.C36_delete_unset",
    "Colosseum.C36_false_follower",
    "Colosseum.C36_false_shorthand"
   ],
   "note": "C36_changes_mark covers every operation; the no-op half is partial: unset followers and shorthands mark the box dirty without need. Exactly when a single or four-sided property marks: C36_marks_iff, C36_delete_iff, C36_delete_sides_iff; shorthands always mark: C36_shorthand."
  },
  {
   "property": "C37",
   "status": "partial",
   "theorems": [
    "Colosseum.C37_spreads_partial",
    "Colosseum.C37_false_cleaned_below"
   ],
   "note": "partial: holds for documents whose boxes start dirty and where a box is only declared clean while its parent's box is clean; false otherwise (C37_false_cleaned_below). The histories include layouts of any subtree, whether they return or raise, insertions of nodes with dirty boxes (as new ones are) and removals."
  },
  {
   "property": "C38",
   "status": "proved",
   "theorems": [
    "Colosseum.C38_size",
    "Colosseum.C38_box",
    "Colosseum.C38_new"
   ],
   "note": "All six attributes, every value and state; C38_box adds that the whole subtree becomes dirty in documents as in C37. On a node without a box the value is stored and AttributeError raised (part of the statement)."
  },
  {
   "property": "C39",
   "status": "partial",
   "theorems": [
    "Colosseum.C39_horizontal",
    "Colosseum.C39_vertical",
    "Colosseum.C39_undefined",
    "Colosseum.C39_false_huge"
   ],
   "note": "identities hold in exact arithmetic and in binary64 when all numbers are multiples of 1/64 below 2^44 px; C39_false_huge shows the bound matters"
  },
  {
   "property": "C40",
   "status": "partial",
   "theorems": [
    "Colosseum.C40_kept",
    "Colosseum.C40_sum",
    "Colosseum.C40_new",
    "Colosseum.C40_false_inner_reset"
   ],
   "note": "reset is only allowed on the root (C40_false_inner_reset); the sum formula needs the numbers to be on the layout grid or exact arithmetic, coherence itself holds for every rounding"
  },
  {
   "property": "C41",
   "status": "partial",
   "theorems": [
    "Colosseum.C41_running_max",
    "Colosseum.C41_monotone",
    "Colosseum.C41_new",
    "Colosseum.C41_all_integers",
    "Colosseum.C41_false_fraction"
   ],
   "note": "counted lists the integers that count; C41_false_fraction: fractional margins never count"
  },
  {
   "property": "C42",
   "status": "proved",
   "theorems": [
    "Colosseum.C42_raises",
    "Colosseum.C42_document",
    "Colosseum.C42_paths"
   ],
   "note": "Proved for every document, path by path, whether the layout returns or raises (C42_raises)."
  },
  {
   "property": "C43",
   "status": "partial",
   "theorems": [
    "Colosseum.C43_history_partial",
    "Colosseum.C43_contents_partial",
    "Colosseum.C43_blocks_partial",
    "Colosseum.C43_again_partial",
    "Colosseum.C43_false_missing_box",
    "Colosseum.C43_false_hidden_box"
   ],
   "note": "Proved for all contents of the boxes when boxes are present at the same places and all displayed nodes have one; after any number of layouts that returned or raised, if every displayed node had a box (C43_history_partial); and, for documents whose stacked children are all blocks, whatever hidden nodes have boxes. The full claim is false: a displayed node without a box, and a hidden node after a stacked block, make the result depend on earlier layouts (two refutations)."
  },
  {
   "property": "C44",
   "status": "partial",
   "theorems": [
    "Colosseum.C44_fills_partial",
    "Colosseum.C44_grid_partial",
    "Colosseum.C44_false_rounding"
   ],
   "note": "Exactly, for every document, where the sums stay below 2^44 layout values (all quantities are shown to be on the 1/64 grid), or where arithmetic is exact; false for huge magnitudes with binary64 rounding (C44_false_rounding). The shortfall of the two-auto-margins case is bounded below 2px."
  },
  {
   "property": "C45",
   "status": "partial",
   "theorems": [
    "Colosseum.C45_stack_partial",
    "Colosseum.C45_next_partial",
    "Colosseum.C45_false_fraction"
   ],
   "note": "Partial: a relatively positioned child is not at its place in the stack, so the start is stated for unpositioned children only, and the exact sums need arithmetic without rounding (exact arithmetic, or layout units below 2^53). The collapsed bottom margin is that of the engine; C45_false_fraction shows that fractional margins never take part in it (a bottom margin of 7.5px is lost)."
  },
  {
   "property": "C46",
   "status": "partial",
   "theorems": [
    "Colosseum.C46_end_partial",
    "Colosseum.C46_encloses_partial",
    "Colosseum.C46_empty_partial",
    "Colosseum.C46_false_relative",
    "Colosseum.C46_false_trailing"
   ],
   "note": "Partial: the equation holds for every document and every arithmetic; the enclosure needs an unpositioned block-level last child, and is refuted without that: C46_false_relative (offset of the last child leaks into the height), C46_false_trailing (inline content after blocks gives height 0)."
  },
  {
   "property": "C47",
   "status": "partial",
   "theorems": [
    "Colosseum.C47_width_partial",
    "Colosseum.C47_height_partial",
    "Colosseum.C47_false_auto_width",
    "Colosseum.C47_false_min_height",
    "Colosseum.C47_false_max_height"
   ],
   "note": "Proved for specified widths (the used width is exactly the width limited by max-width and then by min-width), max-height with specified heights, and min-height of empty auto-height blocks. False for width auto (limits ignored), for min-height with a specified height or with children, and for max-height with auto height: witnesses C47_false_*."
  },
  {
   "property": "C48",
   "status": "partial",
   "theorems": [
    "Colosseum.C48_boxes",
    "Colosseum.C48_false_after_block",
    "Colosseum.C48_place_partial",
    "Colosseum.C48_without_partial",
    "Colosseum.C48_false_last"
   ],
   "note": "C48_without_partial gives every number of the boxes of the other elements, C48_place_partial their absolute positions. Missing: the last child of a block of automatic height is kept (C48_false_last, C48_false_after_block)."
  },
  {
   "property": "C49",
   "status": "partial",
   "theorems": [
    "Colosseum.C49_session_partial",
    "Colosseum.C49_origins_partial",
    "Colosseum.C49_sum_partial",
    "Colosseum.C49_false_redisplayed"
   ],
   "note": "C49_session_partial covers every document after any sequence of edits, layouts (returned or raised), removals of nodes, and insertions of new nodes below displayed ones; the origin of a box is the position of its parent content, except that a box created during the layout may have origin 0 (refuted through layout, assignment to display, layout). Where every displayed node has a box, the position formula holds without exception. Not covered: insertions below hidden nodes, and boxes moved by hand between layouts."
  },
  {
   "property": "C50",
   "status": "partial",
   "theorems": [
    "Colosseum.C50_left_partial",
    "Colosseum.C50_false_rtl",
    "Colosseum.C50_left_only",
    "Colosseum.C50_top_only_partial",
    "Colosseum.C50_top_partial",
    "Colosseum.C50_false_double"
   ],
   "note": "C50_left_partial and C50_top_partial give the exact position of every relatively positioned block in terms of its place in the flow and CSS 9.4.3. Two layouts are compared by C50_left_only (changing left and right of any element of any document changes no number of any box but the horizontal position of this one, in every arithmetic) and C50_top_only_partial (the same for top and bottom, unless the element is the last child of a block of automatic height). False as stated: with rtl and both offsets left wins (C50_false_rtl); the top border and padding are added twice (C50_false_double); the shift of a last child leaks into the height of its parent (C46_false_relative). Missing: percentages vertically and very large numbers in C50_top_partial."
  },
  {
   "property": "C51",
   "status": "partial",
   "theorems": [
    "Colosseum.C51_height_partial",
    "Colosseum.C51_whole",
    "Colosseum.C51_standards",
    "Colosseum.C51_top_partial",
    "Colosseum.C51_false_height",
    "Colosseum.C51_false_relative"
   ],
   "note": "Partial: with HTML5 the sum is the display height exactly when the arithmetic is exact on the operands (C51_height_partial), and for every arithmetic when the display height is a whole number (C51_whole); the standard changes nothing but the root's content height (C51_standards). C51_top_partial gives the move by the collapsed top margin. False parts: the height is assigned even when it is negative (C51_false_height); a relatively positioned root is moved further because its border and padding are added twice (C51_false_relative)."
  },
  {
   "property": "C52",
   "status": "partial",
   "theorems": [
    "Colosseum.C52_blocks_partial",
    "Colosseum.C52_false_stale"
   ],
   "note": "Partial: proved for every tree of plain blocks in which every element has a box (as after construction), for every arithmetic; includes relatively positioned blocks, percentages, negative lengths, limits and keywords. Without boxes it is false: a stale box below an element that was hidden before can have the height None (C52_false_stale)."
  },
  {
   "property": "C53",
   "status": "partial",
   "theorems": [
    "Colosseum.C53_refused",
    "Colosseum.C53_all_partial",
    "Colosseum.C53_false_skipped"
   ],
   "note": "Proved for every node the layout comes to; a floated element after a stacked block is silently skipped (refuted), so for all displayed nodes it is proved where stacked children are all blocks."
  },
  {
   "property": "C54",
   "status": "partial",
   "theorems": [
    "Colosseum.C54_before_partial",
    "Colosseum.C54_append_partial",
    "Colosseum.C54_place_partial",
    "Colosseum.C54_grid_partial",
    "Colosseum.C54_false_stale"
   ],
   "note": "Proved for documents whose displayed nodes all have boxes; C54_false_stale shows a leftover box of the last child changing earlier siblings. Absolute positions need sums small enough to be exact."
  },
  {
   "property": "C55",
   "status": "partial",
   "theorems": [
    "Colosseum.C55_false_padding",
    "Colosseum.C55_percent_partial",
    "Colosseum.C55_false_side_padding",
    "Colosseum.C55_false_top_margin",
    "Colosseum.C55_false_margin"
   ],
   "note": "Proved for width, left/right margin and top/bottom padding. False for left/right padding and top/bottom margin, which use the height of the containing block (the engine passes the contexts the wrong way round): witnesses C55_false_*, and in general C55_false_padding and C55_false_margin (0 below a static parent; the length height of a relatively positioned parent otherwise)."
  },
  {
   "property": "C56",
   "status": "partial",
   "theorems": [
    "Colosseum.C56_height_product",
    "Colosseum.C56_width_ignored",
    "Colosseum.C56_zero_ignored",
    "Colosseum.C56_width_partial",
    "Colosseum.C56_height_partial",
    "Colosseum.C56_fills_partial",
    "Colosseum.C56_false_ratio_height",
    "Colosseum.C56_false_ratio_width",
    "Colosseum.C56_false_zero",
    "Colosseum.C56_false_limits"
   ],
   "note": "Partial: C56_width_partial and C56_height_partial give the CSS value in the cases the code handles (specified; intrinsic; no ratio; default), C56_fills_partial the assignment to the box. False in the other cases: the height from the ratio is multiplied instead of divided (C56_false_ratio_height), a specified height with a ratio is ignored for the width (C56_false_ratio_width), an intrinsic size of 0 is ignored (C56_false_zero), min and max sizes are ignored (C56_false_limits). C56_height_product, C56_width_ignored and C56_zero_ignored say what the engine does in the cases left out, for all such elements."
  },
  {
   "property": "C57",
   "status": "proved",
   "theorems": [
    "Colosseum.C57_accepts",
    "Colosseum.C57_keywords",
    "Colosseum.C57_lengths"
   ],
   "note": "C57_keywords is the claim; C57_accepts and C57_lengths characterise acceptance for every value."
  },
  {
   "property": "C58",
   "status": "partial",
   "theorems": [
    "Colosseum.C58_value_error_partial",
    "Colosseum.C58_keyword_properties",
    "Colosseum.C58_texts",
    "Colosseum.C58_false_empty_color",
    "Colosseum.C58_false_cursor",
    "Colosseum.C58_false_clip",
    "Colosseum.C58_false_spacing",
    "Colosseum.C58_false_integer",
    "Colosseum.C58_false_quotes",
    "Colosseum.C58_false_infinite_angle",
    "Colosseum.C58_shorthand",
    "Colosseum.C58_shorthand_text",
    "Colosseum.C58_shorthand_neither",
    "Colosseum.C58_false_shorthand_empty",
    "Colosseum.C58_false_shorthand_angle",
    "Colosseum.C58_sides",
    "Colosseum.C58_sides_length",
    "Colosseum.C58_false_sides"
   ],
   "note": "Every error is ValueError for decent printable values on nodes that are unbound or have a box (C58_texts: every non-empty text for every property but quotes). Refuted by concrete values raising IndexError, TypeError, AttributeError and OverflowError. The shorthand properties too: C58_shorthand (fine parts), C58_shorthand_neither (no parts), refuted by an empty part and by an infinite angle."
  },
  {
   "property": "C59",
   "status": "partial",
   "theorems": [
    "Colosseum.C59_accepts",
    "Colosseum.C59_within_partial",
    "Colosseum.C59_rejects",
    "Colosseum.C59_false_infinite",
    "Colosseum.C59_false_nan"
   ],
   "note": "Exact characterisation of acceptance (C59_accepts) and rejection (C59_rejects); false parts: int(inf) raises OverflowError, nan passes every range check."
  },
  {
   "property": "C60",
   "status": "proved",
   "theorems": [
    "Colosseum.C60_order",
    "Colosseum.C60_any"
   ],
   "note": "Any permutation of both keyword lists of any property; C60_any: of any Choices object whose constants are strings or None."
  },
  {
   "property": "C61",
   "status": "proved",
   "theorems": [
    "Colosseum.C61_px_accurate",
    "Colosseum.C61_px_total"
   ],
   "note": "Against the independent CSS table CssPixels, under FP.Sharp (relative error 2^-53). That px never raises holds with unlimited exponents; with the range of doubles it overflows exactly where C105 says."
  },
  {
   "property": "C62",
   "status": "proved",
   "theorems": [
    "Colosseum.C62_initial_is_validated",
    "Colosseum.C62_followers"
   ],
   "note": "objects compared up to identity (Val.forget)"
  },
  {
   "property": "C63",
   "status": "partial",
   "theorems": [
    "Colosseum.C63_grid_partial",
    "Colosseum.C63_false_ratio"
   ],
   "note": "False as soon as an intrinsic ratio is used (C63_false_ratio); proved for documents whose visible elements have no ratio."
  },
  {
   "property": "C64",
   "status": "partial",
   "theorems": [
    "Colosseum.C64_margins_partial",
    "Colosseum.C64_grid_partial",
    "Colosseum.C64_false_half",
    "Colosseum.C64_false_direction"
   ],
   "note": "Proved for all margins, widths and directions of the block where sums are exact (C64_grid_partial: all numbers up to 2^44 px in double arithmetic), except that two auto margins are rounded down to whole pixels (C64_false_half) and that the direction of the block itself counts instead of that of its container (C64_false_direction)."
  },
  {
   "property": "C65",
   "status": "partial",
   "theorems": [
    "Colosseum.C65_left_partial",
    "Colosseum.C65_added",
    "Colosseum.C65_false_huge"
   ],
   "note": "In every arithmetic the content starts at the sum as rounded (C65_added); the exact sum wherever the three-term sum is exact (C65_left_partial). C65_false_huge: beyond 2^53 the rounding is seen."
  },
  {
   "property": "C66",
   "status": "proved",
   "theorems": [
    "Colosseum.C66_looks",
    "Colosseum.C66_boxes"
   ],
   "note": "Proved for every document, failing layouts included."
  },
  {
   "property": "C67",
   "status": "proved",
   "theorems": [
    "Colosseum.C67_usable",
    "Colosseum.C67_dirty",
    "Colosseum.C67_raises"
   ],
   "note": "Proved. runLayout keeps the tree at the moment of the exception; C67_raises shows that it raises exactly when layout does."
  },
  {
   "property": "C68",
   "status": "partial",
   "theorems": [
    "Colosseum.C68_exact",
    "Colosseum.C68_proper",
    "Colosseum.C68_functional_partial",
    "Colosseum.C68_false_unclosed",
    "Colosseum.C68_false_open"
   ],
   "note": "Acceptance as an iff with an independent grammar for strings with both brackets; refuted for strings without them: 'rgb(10, 20, 50' is accepted with blue 5, 'rgb[10, 20, 50]' is accepted. C68_exact is the iff for every string beginning with rgb or hsl: the functional notation with any two characters in place of the brackets."
  },
  {
   "property": "C69",
   "status": "partial",
   "theorems": [
    "Colosseum.C69_notation",
    "Colosseum.C69_assign_text_partial",
    "Colosseum.C69_false_none",
    "Colosseum.C69_false_hsl",
    "Colosseum.C69_false_infinite",
    "Colosseum.C69_false_blank_quote",
    "Colosseum.C69_false_cursor"
   ],
   "note": "Proved for all values but those excluded by Readable; refuted for None, hsl colours, infinite magnitudes, quotes with spaces, urls with commas and the empty cursor."
  },
  {
   "property": "C70",
   "status": "partial",
   "theorems": [
    "Colosseum.C70_reads",
    "Colosseum.C70_false_border",
    "Colosseum.C70_equal",
    "Colosseum.C70_text",
    "Colosseum.C70_assign_partial",
    "Colosseum.C70_false_color",
    "Colosseum.C70_false_none",
    "Colosseum.C70_false_object",
    "Colosseum.C70_repr"
   ],
   "note": "Reads, equality, text and representation are proved for all reachable declarations (C70_reads, C70_equal, C70_text, C70_repr). Assigning the text back keeps all parts when they are words or finite lengths (C70_assign_partial). Missing because false: `border` always reads as the empty string (C70_false_border), a stored colour makes the text unacceptable (C70_false_color), a stored None prints as None (C70_false_none), the object itself is refused (C70_false_object)."
  },
  {
   "property": "C71",
   "status": "partial",
   "theorems": [
    "Colosseum.C71_length",
    "Colosseum.C71_percent_partial",
    "Colosseum.C71_root",
    "Colosseum.C71_false_indefinite",
    "Colosseum.C71_false_max",
    "Colosseum.C71_false_limited"
   ],
   "note": "Proved for all lengths (C71_length), for percentages of a parent whose height is a length (C71_percent_partial) and for the root (C71_root), with max-height a length or none. False otherwise: a percentage of auto or of a percentage is 0 below a static parent (C71_false_indefinite), a percentage ignores the max-height of the parent (C71_false_limited), a max-height in percent is 0 below a static parent (C71_false_max)."
  },
  {
   "property": "C72",
   "status": "partial",
   "theorems": [
    "Colosseum.C72_width",
    "Colosseum.C72_height",
    "Colosseum.C72_top_partial",
    "Colosseum.C72_left_partial",
    "Colosseum.C72_false_left",
    "Colosseum.C72_false_overlap",
    "Colosseum.C72_false_relative",
    "Colosseum.C72_false_auto"
   ],
   "note": "Sizes and horizontal auto margins are proved for all inline elements that are not replaced (C72_width, C72_height); the vertical position for all static ones and the horizontal position for replaced ones, as far as sums are exact (C72_top_partial, C72_left_partial). False: other inline elements ignore their left margin, border and padding (C72_false_left, for all documents), elements of a line overlap (C72_false_overlap), relative ones count the space above twice (C72_false_relative), an auto top margin raises (C72_false_auto)."
  },
  {
   "property": "C73",
   "status": "partial",
   "theorems": [
    "Colosseum.C73_message",
    "Colosseum.C73_usable",
    "Colosseum.C73_complete",
    "Colosseum.C73_false_object",
    "Colosseum.C73_false_percentage",
    "Colosseum.C73_false_shorthand"
   ],
   "note": "C73_message, C73_usable and C73_complete hold for all properties and values; for color and background-color the list has one more text, that of the default object. False: that text cannot be used (C73_false_object), percentages are accepted but not listed for some lengths (C73_false_percentage), shorthands do not name the property (C73_false_shorthand)."
  },
  {
   "property": "C74",
   "status": "proved",
   "theorems": [
    "Colosseum.C74_notation"
   ],
   "note": "For all documents and replacements under the laws of rounding."
  },
  {
   "property": "C75",
   "status": "proved",
   "theorems": [
    "Colosseum.C75_symmetric",
    "Colosseum.C75_transitive",
    "Colosseum.C75_plain_float",
    "Colosseum.C75_reflexive",
    "Colosseum.C75_text"
   ],
   "note": "C75_symmetric and C75_text hold for all values, the others for the values properties hold; C75_plain_float shows that transitivity fails with plain floats, which no property holds."
  },
  {
   "property": "C76",
   "status": "partial",
   "theorems": [
    "Colosseum.C76_equal_partial",
    "Colosseum.C76_ignored_partial",
    "Colosseum.C76_false_equal"
   ],
   "note": "For lengths in viewport units only while 64*value*size fits 53 bits (C76_false_equal shows why)."
  },
  {
   "property": "C77",
   "status": "proved",
   "theorems": [
    "Colosseum.C77_company",
    "Colosseum.C77_reordered"
   ],
   "note": "For all arithmetics. Documents in which a displayed node has no box are excluded in the statement, because such a node keeps what an earlier layout left (C54_false_stale)."
  },
  {
   "property": "C78",
   "status": "proved",
   "theorems": [
    "Colosseum.C78_needed",
    "Colosseum.C78_exactly"
   ],
   "note": "For all arithmetics. Necessity has no hypotheses. Sufficiency needs boxes everywhere (C52_false_stale shows why), finite sizes, and known content sizes of inline elements that are not replaced, because percentages and heights below an unknown size raise TypeError."
  },
  {
   "property": "C79",
   "status": "partial",
   "theorems": [
    "Colosseum.C79_border",
    "Colosseum.C79_padding",
    "Colosseum.C79_vertical",
    "Colosseum.C79_inline",
    "Colosseum.C79_false_style"
   ],
   "note": "Borders, paddings, vertical margins and the horizontal margins of inline elements are proved for lengths and keywords (percentages: C55, C64). C79_false_style: border-style none does not make a border 0 wide."
  },
  {
   "property": "C80",
   "status": "proved",
   "theorems": [
    "Colosseum.C80_bound",
    "Colosseum.C80_across",
    "Colosseum.C80_margins",
    "Colosseum.C80_left",
    "Colosseum.C80_moved",
    "Colosseum.C80_stack",
    "Colosseum.C80_encloses",
    "Colosseum.C80_inline",
    "Colosseum.C80_root",
    "Colosseum.C80_display",
    "Colosseum.C80_place",
    "Colosseum.C80_later"
   ],
   "note": "No missing part. Hypotheses are about the input only: `Node.Moderate` and that the layout returns (characterised in C78). Without moderate sizes the claims about sums fail by rounding, which is why the theorems of the earlier properties assume exactness."
  },
  {
   "property": "C81",
   "status": "proved",
   "theorems": [
    "Colosseum.C81_nested",
    "Colosseum.C81_contained",
    "Colosseum.C81_screen",
    "Colosseum.C81_apart"
   ],
   "note": "Hypotheses on the document and the display only (Moderate, Flowing); column is an example meeting them. Vertical margins are arbitrary."
  },
  {
   "property": "C82",
   "status": "partial",
   "theorems": [
    "Colosseum.C82_ends",
    "Colosseum.C82_root",
    "Colosseum.C82_gap",
    "Colosseum.C82_false_negative",
    "Colosseum.C82_false_nested",
    "Colosseum.C82_false_border",
    "Colosseum.C82_false_empty"
   ],
   "note": "Partial with respect to CSS 2.1: the four refutations show where the engine differs. The positive theorems describe the margins that do collapse exactly, for all documents of blocks."
  },
  {
   "property": "C83",
   "status": "proved",
   "theorems": [
    "Colosseum.C83_notation",
    "Colosseum.C83_minus",
    "Colosseum.C83_fewest",
    "Colosseum.C83_nearest",
    "Colosseum.C83_unit"
   ],
   "note": "The sign of zero and numbers beyond the range of exponents are not modelled (see the trusted base)."
  },
  {
   "property": "C84",
   "status": "proved",
   "theorems": [
    "Colosseum.C84_reference",
    "Colosseum.C84_exact",
    "Colosseum.C84_whole"
   ],
   "note": "No missing part for the documents of the statement. Percentages, relative positions, inline content and replaced elements are outside it; C44, C45, C50, C55, C71 and C72 are about those one by one. C84_exact and C84_whole: no bound on sizes when arithmetic is exact or the document is in whole pixels."
  },
  {
   "property": "C85",
   "status": "proved",
   "theorems": [
    "Colosseum.C85_exception",
    "Colosseum.C85_unique",
    "Colosseum.C85_refused"
   ],
   "note": "Proved for every arithmetic. Excludes sizes that are not finite lengths, elements without boxes and inline elements of unknown size; for those C85_refused still holds."
  },
  {
   "property": "C86",
   "status": "proved",
   "theorems": [
    "Colosseum.C86_sideways",
    "Colosseum.C86_direction",
    "Colosseum.C86_vertical_matters"
   ],
   "note": "C86_sideways compares two successful layouts, for every arithmetic. C86_direction adds that a change of direction never makes a layout fail or succeed. C86_vertical_matters shows that the same is not true of top and bottom: they change the height of the parent. Two runs that both fail are compared in C86_direction only, since a horizontal offset of a wrong kind raises."
  },
  {
   "property": "C87",
   "status": "partial",
   "theorems": [
    "Colosseum.C87_aligned_partial",
    "Colosseum.C87_false_padding"
   ],
   "note": "C87_aligned_partial holds for every arithmetic, any parents and either standard. Missing: left or right paddings in per cent, which the engine takes of the height of the containing block; C87_false_padding refutes the property for them. For replaced elements whether the height is auto may not change either, since CSS lets their width depend on it."
  },
  {
   "property": "C88",
   "status": "proved",
   "theorems": [
    "Colosseum.C88_mirror",
    "Colosseum.C88_centred",
    "Colosseum.C88_untroubled"
   ],
   "note": "C88_mirror, for documents whose hypotheses are those of C84 (moderate size, normal flow, no percentages), which both documents must meet. C88_centred shows that the condition on two automatic margins is needed. C88_untroubled: documents of any size, when arithmetic is exact or they are in whole pixels."
  },
  {
   "property": "C89",
   "status": "proved",
   "theorems": [
    "Colosseum.C89_grown",
    "Colosseum.C89_fraction",
    "Colosseum.C89_untroubled"
   ],
   "note": "C89_grown, under the hypotheses of C84 for both documents. C89_fraction shows that margins that are not whole numbers of pixels must be excluded. C89_untroubled: documents of any size, when arithmetic is exact or they are in whole pixels."
  },
  {
   "property": "C90",
   "status": "proved",
   "theorems": [
    "Colosseum.C90_scaled",
    "Colosseum.C90_centred",
    "Colosseum.C90_untroubled"
   ],
   "note": "C90_scaled, under the hypotheses of C84 for both documents. C90_centred shows that the condition on two automatic margins is needed. C90_untroubled: documents of any size, when arithmetic is exact or they are in whole pixels."
  },
  {
   "property": "C91",
   "status": "proved",
   "theorems": [
    "Colosseum.C91_blueprint",
    "Colosseum.C91_boxes",
    "Colosseum.C91_reshown",
    "Colosseum.C91_place"
   ],
   "note": "The blueprint fixes every number of every box but the origins; C91_place adds where the boxes are on the display: the sum of the positions in the blueprint on the way, where these are multiples of 1/64 small enough for exact sums."
  },
  {
   "property": "C92",
   "status": "proved",
   "theorems": [
    "Colosseum.C92_degrees",
    "Colosseum.C92_whole",
    "Colosseum.C92_gradians",
    "Colosseum.C92_mono",
    "Colosseum.C92_opposite",
    "Colosseum.C92_infinite"
   ],
   "note": "C92_degrees, C92_whole, C92_mono, C92_opposite, C92_infinite; C92_gradians for binary64. The error bound includes the rounding of large ints to floats. C92_mono compares values of one type: an int and a float of the same value may give different products."
  },
  {
   "property": "C93",
   "status": "proved",
   "theorems": [
    "Colosseum.C93_em",
    "Colosseum.C93_ex_ch",
    "Colosseum.C93_pixels"
   ],
   "note": "C93_em and C93_ex_ch equate layouts of two documents, C93_pixels bounds the pixels of every unit but % against CSS for the font of size -1."
  },
  {
   "property": "C94",
   "status": "partial",
   "theorems": [
    "Colosseum.C94_displacement",
    "Colosseum.C94_untroubled_displacement",
    "Colosseum.C94_necessary",
    "Colosseum.C94_group_partial",
    "Colosseum.C94_group_all",
    "Colosseum.C94_false_margin",
    "Colosseum.C94_untroubled_partial",
    "Colosseum.C94_untroubled_all"
   ],
   "note": "False in general, since the engine takes the top margin of the grouping block itself (0) for the distance to the block above, not the collapsed one: C94_false_margin. C94_group_partial proves the claim when the first of the grouped blocks is the first child or its top margin is not larger than the margin the block before it leaves; C94_group_all is the case of all children, without that condition. Assumed for both documents: moderate size. C94_untroubled_partial and C94_untroubled_all: documents of any size, when arithmetic is exact or the document is in whole pixels. C94_displacement and C94_untroubled_displacement say how far the elements move when the condition fails, and C94_necessary that it is necessary."
  },
  {
   "property": "C95",
   "status": "partial",
   "theorems": [
    "Colosseum.C95_displacement",
    "Colosseum.C95_untroubled_displacement",
    "Colosseum.C95_necessary",
    "Colosseum.C95_insert_partial",
    "Colosseum.C95_false_margins",
    "Colosseum.C95_false_minimum",
    "Colosseum.C95_untroubled_partial"
   ],
   "note": "False in general: C95_false_margins (the margins above and below the empty block add up instead of collapsing) and C95_false_minimum (a block that was empty loses its min-height). C95_insert_partial proves it wherever one of the margins above and below is 0, at the beginning and at the end when there is no margin there, and in empty blocks of specified height or without minimal height. Assumed for both documents: moderate size. C95_untroubled_partial: documents of any size, when arithmetic is exact or the document is in whole pixels. C95_displacement and C95_untroubled_displacement say how far the elements below move when the block is between two margins, and C95_necessary that the condition is necessary there."
  },
  {
   "property": "C96",
   "status": "proved",
   "theorems": [
    "Colosseum.C96_text"
   ],
   "note": "Proved for binary64 floats and Python's repr of them (modelled in Py/Repr)."
  },
  {
   "property": "C97",
   "status": "proved",
   "theorems": [
    "Colosseum.C97_levels",
    "Colosseum.C97_contexts",
    "Colosseum.C97_tables"
   ],
   "note": "C97_levels for all declarations reachable by assignments; C97_contexts for all nodes."
  },
  {
   "property": "C98",
   "status": "proved",
   "theorems": [
    "Colosseum.C98_accepts",
    "Colosseum.C98_value",
    "Colosseum.C98_unambiguous",
    "Colosseum.C98_refused"
   ],
   "note": "Spec/Grammar.lean `Meaning`, `Takes`, `Refuses`. Exceptions are exact for all values; for quotes they are relative to the parameter standing for `ast.literal_eval` outside plain string literals."
  },
  {
   "property": "C99",
   "status": "proved",
   "theorems": [
    "Colosseum.C99_outside",
    "Colosseum.C99_first",
    "Colosseum.C99_root",
    "Colosseum.C99_auto"
   ],
   "note": "C99_outside (all boxes outside), C99_first (the box of the element and those it is the first child of), C99_root (the root). C99_auto shows that the height must be given."
  },
  {
   "property": "C100",
   "status": "proved",
   "theorems": [
    "Colosseum.C100_unchanged",
    "Colosseum.C100_good",
    "Colosseum.C100_needs_box"
   ],
   "note": "C100_unchanged: if no box is dirty after any operations, nothing has changed. C100_good: so the boxes are those of a new layout. C100_needs_box: an element without box can change without a mark."
  },
  {
   "property": "C101",
   "status": "proved",
   "theorems": [
    "Colosseum.C101_exactly",
    "Colosseum.C101_layout"
   ],
   "note": "C101_exactly: when copy() raises, and every stored value of the copy. C101_layout: the copy is laid out as the original."
  },
  {
   "property": "C102",
   "status": "proved",
   "theorems": [
    "Colosseum.C102_alike",
    "Colosseum.C102_needs_width",
    "Colosseum.C102_needs_height"
   ],
   "note": "For every arithmetic. The width and the height of the parents are needed (C102_needs_width, C102_needs_height). Proved from the blueprint of C91 by induction on the path to the parent."
  },
  {
   "property": "C103",
   "status": "proved",
   "theorems": [
    "Colosseum.C103_exchange",
    "Colosseum.C103_history",
    "Colosseum.C103_needs_box"
   ],
   "note": "In every state for the exchange of two operations (C103_exchange); for whole histories if the declaration never belongs to an element without a box (C103_history), which is needed (C103_needs_box)."
  },
  {
   "property": "C104",
   "status": "partial",
   "theorems": [
    "Colosseum.C104_neg",
    "Colosseum.C104_scale",
    "Colosseum.C104_one",
    "Colosseum.C104_sign",
    "Colosseum.C104_assoc_partial",
    "Colosseum.C104_false_assoc",
    "Colosseum.C104_only_numbers",
    "Colosseum.C104_two_units"
   ],
   "note": "False in one clause: x*(y*u) and (x*y)*u can differ in the last place for floats (C104_false_assoc); proved for whole numbers and for products of the eighteen units themselves. Everything else is proved for all operands."
  },
  {
   "property": "C105",
   "status": "proved",
   "theorems": [
    "Colosseum.C105_moderate",
    "Colosseum.C105_float",
    "Colosseum.C105_int",
    "Colosseum.C105_errors",
    "Colosseum.C105_value_error",
    "Colosseum.C105_every",
    "Colosseum.C105_nearest",
    "Colosseum.C105_ties",
    "Colosseum.C105_rounding",
    "Colosseum.C105_unlimited"
   ],
   "note": "C105_value_error is the witness for the last clause."
  },
  {
   "property": "C106",
   "status": "partial",
   "theorems": [
    "Colosseum.C106_accepts",
    "Colosseum.C106_rejects",
    "Colosseum.C106_idle",
    "Colosseum.C106_false_negative",
    "Colosseum.C106_gap"
   ],
   "note": "False in the part that negative percentages are refused by properties: C106_false_negative shows they are accepted everywhere, since is_length is tried first."
  },
  {
   "property": "C107",
   "status": "partial",
   "theorems": [
    "Colosseum.C107_definition",
    "Colosseum.C107_validated",
    "Colosseum.C107_read_back",
    "Colosseum.C107_refused",
    "Colosseum.C107_delete",
    "Colosseum.C107_getter",
    "Colosseum.C107_marks",
    "Colosseum.C107_instances",
    "Colosseum.C107_unvalidated",
    "Colosseum.C107_unvalidated_delete",
    "Colosseum.C107_delete_marks",
    "Colosseum.C107_false_unvalidated",
    "Colosseum.C107_commented"
   ],
   "note": "Partial because the claim fails for `unvalidated_property` (`C107_false_unvalidated`); for `validated_property` it holds in full. Objects given as initial values are modelled by what their member `value` does; constants of choices are assumed to have no such member."
  },
  {
   "property": "C108",
   "status": "proved",
   "theorems": [
    "Colosseum.C108_level",
    "Colosseum.C108_boxes",
    "Colosseum.C108_relative",
    "Colosseum.C108_place"
   ],
   "note": "C108_place adds the absolute positions to C108_boxes."
  },
  {
   "property": "C109",
   "status": "proved",
   "theorems": [
    "Colosseum.C109_width",
    "Colosseum.C109_height",
    "Colosseum.C109_slanted",
    "Colosseum.C109_percent"
   ],
   "note": "Conditions shown to be needed by C109_slanted and C109_percent."
  },
  {
   "property": "C110",
   "status": "partial",
   "theorems": [
    "Colosseum.C110_css_partial",
    "Colosseum.C110_false_border",
    "Colosseum.C110_false_negative",
    "Colosseum.C110_false_fraction",
    "Colosseum.C110_false_first",
    "Colosseum.C110_false_nested",
    "Colosseum.C110_false_last",
    "Colosseum.C110_false_empty",
    "Colosseum.C110_false_given",
    "Colosseum.C110_false_least",
    "Colosseum.C110_false_most",
    "Colosseum.C110_false_auto",
    "Colosseum.C110_false_even",
    "Colosseum.C110_false_direction",
    "Colosseum.C110_false_double",
    "Colosseum.C110_false_offsets",
    "Colosseum.C110_false_moved",
    "Colosseum.C110_whole_partial",
    "Colosseum.C110_exact_partial"
   ],
   "note": "The full claim is false of the code: C110_false_* have documents where the engine departs from CSS 2.1, one for each condition of C110_css_partial. By the rules of HTML5 the root is as high as the display (C80), so that it is left out there. C110_whole_partial and C110_exact_partial are for documents of any size, in whole pixels or with exact arithmetic."
  },
  {
   "property": "C111",
   "status": "proved",
   "theorems": [
    "Colosseum.C111_reference",
    "Colosseum.C111_level"
   ],
   "note": "No missing part for documents of moderate size (C80), where margins in per cent are from 0 to 100 and offsets are lengths; offsets in per cent and any percentages are in C114_exact and C114_level. Percentages of vertical paddings and borders, inline content and replaced elements are outside the statement. Where this layout differs from CSS 2.1 is the subject of C46, C50 and C110."
  },
  {
   "property": "C112",
   "status": "partial",
   "theorems": [
    "Colosseum.C112_less",
    "Colosseum.C112_trichotomy",
    "Colosseum.C112_strict",
    "Colosseum.C112_nan",
    "Colosseum.C112_mirror",
    "Colosseum.C112_raises",
    "Colosseum.C112_pixels",
    "Colosseum.C112_validator",
    "Colosseum.C112_false_units",
    "Colosseum.C112_false_le"
   ],
   "note": "Proved for all numbers: < on percentages is the order of their points on the extended line, is strict, total apart from nan, mirrored by >, agrees with pixels, and is what the validator uses; the exceptions of all other comparisons are determined. Refuted: the order does not respect units (50% < 60px compares 50 with 60) and <= and >= raise TypeError for all units."
  },
  {
   "property": "C113",
   "status": "partial",
   "theorems": [
    "Colosseum.C113_whole",
    "Colosseum.C113_any",
    "Colosseum.C113_plain",
    "Colosseum.C113_exact",
    "Colosseum.C113_fills",
    "Colosseum.C113_stack",
    "Colosseum.C113_false_percent",
    "Colosseum.C113_false_large"
   ],
   "note": "C113_false_percent and C113_false_large show that the restriction to whole pixels up to 2**53 cannot be dropped; the positive theorems have no other gap."
  },
  {
   "property": "C114",
   "status": "proved",
   "theorems": [
    "Colosseum.C114_level",
    "Colosseum.C114_exact",
    "Colosseum.C114_whole",
    "Colosseum.C114_tutorial"
   ],
   "note": "C114_exact and C114_level have no bounds at all; C114_whole is for lengths that are whole pixels (Plain). The layout of the root by HTML5 rules is included in C114_whole and C114_tutorial."
  },
  {
   "property": "C115",
   "status": "proved",
   "theorems": [
    "Colosseum.C115_box",
    "Colosseum.C115_size",
    "Colosseum.C115_style",
    "Colosseum.C115_delete",
    "Colosseum.C115_assign",
    "Colosseum.C115_shorthand"
   ],
   "note": "Full claim, for all operations, values and states; `C115_style` ties documents to declarations."
  },
  {
   "property": "C116",
   "status": "partial",
   "theorems": [
    "Colosseum.C116_notation",
    "Colosseum.C116_same",
    "Colosseum.C116_unambiguous",
    "Colosseum.C116_distinct_partial",
    "Colosseum.C116_false_url"
   ],
   "note": "Proved for lengths that are finite and that floats can hold, and for urls without double quotes; C116_false_url is the witness that two cursors with other urls have the same representation."
  },
  {
   "property": "C117",
   "status": "proved",
   "theorems": [
    "Colosseum.C117_boxes",
    "Colosseum.C117_whole",
    "Colosseum.C117_border",
    "Colosseum.C117_rounding",
    "Colosseum.C117_margin"
   ],
   "note": "Full claim; `C117_rounding` and `C117_margin` are its limits."
  },
  {
   "property": "C118",
   "status": "proved",
   "theorems": [
    "Colosseum.C118_percent",
    "Colosseum.C118_whole",
    "Colosseum.C118_fifths",
    "Colosseum.C118_fours",
    "Colosseum.C118_boxes",
    "Colosseum.C118_exact",
    "Colosseum.C118_traded",
    "Colosseum.C118_pixels",
    "Colosseum.C118_quarters",
    "Colosseum.C118_ties",
    "Colosseum.C118_large"
   ],
   "note": "Full claim for documents of moderate size without intrinsic ratios; `C118_ties` and `C118_large` are its limits."
  },
  {
   "property": "C119",
   "status": "proved",
   "theorems": [
    "Colosseum.C119_boxes",
    "Colosseum.C119_whole",
    "Colosseum.C119_moderate",
    "Colosseum.C119_root",
    "Colosseum.C119_pixels",
    "Colosseum.C119_rounded",
    "Colosseum.C119_percent",
    "Colosseum.C119_html5"
   ],
   "note": "Full claim; `C119_rounded`, `C119_percent` and `C119_html5` are the limits named in the statement."
  },
  {
   "property": "C120",
   "status": "proved",
   "theorems": [
    "Colosseum.C120_boxes",
    "Colosseum.C120_whole",
    "Colosseum.C120_moderate",
    "Colosseum.C120_each",
    "Colosseum.C120_margins",
    "Colosseum.C120_reach",
    "Colosseum.C120_relative"
   ],
   "note": "Full claim; `C120_margins`, `C120_reach` and `C120_relative` are the limits named in the statement."
  }
 ]
}