{
 "claims": [
  {
   "property": "C01",
   "status": "proved",
   "theorems": [
    "Boxes.C01_from_ascii_any",
    "Boxes.C01_from_ascii_any_disagrees",
    "Boxes.C01_from_ascii_refused",
    "Boxes.C01_from_ascii",
    "Boxes.C01_rejected_iff",
    "Boxes.C01_metrics",
    "Boxes.C01_ascii",
    "Boxes.C01_malformed_escape_disagrees"
   ],
   "note": "For texts made of visible characters and complete escape sequences; C01_malformed_escape_disagrees shows the sums fail for ESC + other character."
  },
  {
   "property": "C02",
   "status": "proved",
   "theorems": [
    "Boxes.C02_reset_iff",
    "Boxes.C02_position_maps",
    "Boxes.C02_terminator"
   ],
   "note": ""
  },
  {
   "property": "C03",
   "status": "proved",
   "theorems": [
    "Boxes.C03_output"
   ],
   "note": ""
  },
  {
   "property": "C04",
   "status": "proved",
   "theorems": [
    "Boxes.C04_rtrim",
    "Boxes.C04_rtrim_blank",
    "Boxes.C04_trim"
   ],
   "note": "Full trim assumes blanks one column wide, as the code does (U+3000 is wider)."
  },
  {
   "property": "C05",
   "status": "proved",
   "theorems": [
    "Boxes.C05_prepend",
    "Boxes.C05_append",
    "Boxes.C05_append_blank_disagrees"
   ],
   "note": "Append: the line must have a non-blank character; first-character map agrees unless the text ends in a non-reset escape sequence. C05_append_blank_disagrees is the counterexample for blank lines."
  },
  {
   "property": "C06",
   "status": "proved",
   "theorems": [
    "Boxes.C06_cut_front",
    "Boxes.C06_concat",
    "Boxes.C06_strcat",
    "Boxes.C06_substr",
    "Boxes.C06_trimdup",
    "Boxes.C06_trimdup_range",
    "Boxes.C06_ltrim",
    "Boxes.C06_is_blank",
    "Boxes.C06_is_visible",
    "Boxes.C06_strchr"
   ],
   "note": ""
  },
  {
   "property": "C07",
   "status": "proved",
   "theorems": [
    "Boxes.C07_expand",
    "Boxes.C07_buffer",
    "Boxes.C07_no_tabs",
    "Boxes.C07_tab_positions",
    "Boxes.C07_no_positions"
   ],
   "note": "For texts that fit the work buffer (C07_buffer covers the bound)."
  },
  {
   "property": "C08",
   "status": "partial",
   "theorems": [
    "Boxes.C08_keep_all",
    "Boxes.C08_unexpand",
    "Boxes.C08_keep_partial",
    "Boxes.C08_two_tabs_disagree"
   ],
   "note": "Unexpand mode fully proved. Keep mode proved for the recorded tabs that lie in the indentation when at most one tab is restored; C08_two_tabs_disagree is a counterexample for two tabs; C08_keep_all states what is restored for any number of tabs."
  },
  {
   "property": "C09",
   "status": "proved",
   "theorems": [
    "Boxes.C09_indentation",
    "Boxes.C09_kept"
   ],
   "note": "Assumes blanks one column wide, as the code does. Lines with no columns are kept as they are."
  },
  {
   "property": "C10",
   "status": "proved",
   "theorems": [
    "Boxes.C10_widths"
   ],
   "note": ""
  },
  {
   "property": "C11",
   "status": "proved",
   "theorems": [
    "Boxes.C11_accepted_never_ends",
    "Boxes.C11_horizontal_iff",
    "Boxes.C11_vertical_iff",
    "Boxes.C11_common_iff_gcd",
    "Boxes.C11_unit_elastic",
    "Boxes.C11_never_ends"
   ],
   "note": "C11_never_ends: an acceptable-looking design for which the computation does not terminate."
  },
  {
   "property": "C12",
   "status": "proved",
   "theorems": [
    "Boxes.C12_heights"
   ],
   "note": ""
  },
  {
   "property": "C13",
   "status": "proved",
   "theorems": [
    "Boxes.C13_top_bottom"
   ],
   "note": "For designs that satisfy GoodDesign (what the parser guarantees)."
  },
  {
   "property": "C14",
   "status": "proved",
   "theorems": [
    "Boxes.C14_left_right"
   ],
   "note": "For designs that satisfy GoodDesign (what the parser guarantees)."
  },
  {
   "property": "C15",
   "status": "proved",
   "theorems": [
    "Boxes.C15_rectangle"
   ],
   "note": ""
  },
  {
   "property": "C16",
   "status": "proved",
   "theorems": [
    "Boxes.C16_program",
    "Boxes.C16_drawing",
    "Boxes.C16_box",
    "Boxes.C16_every_line"
   ],
   "note": "C16_box describes every printed row; C16_every_line is the corollary for the input lines; C16_program goes from the bytes read to the bytes printed; C16_drawing describes the complete output, with indentation, sides and empty lines, from the pieces read on."
  },
  {
   "property": "C17",
   "status": "proved",
   "theorems": [
    "Boxes.C17_vertical"
   ],
   "note": ""
  },
  {
   "property": "C18",
   "status": "proved",
   "theorems": [
    "Boxes.C18_horizontal",
    "Boxes.C18_right_padding_disagrees"
   ],
   "note": "C18_right_padding_disagrees: with halign r and a single free column the right padding is lost."
  },
  {
   "property": "C19",
   "status": "proved",
   "theorems": [
    "Boxes.C19_justify"
   ],
   "note": "Blanks must be one column wide (see DESIGN.md: U+3000)."
  },
  {
   "property": "C20",
   "status": "proved",
   "theorems": [
    "Boxes.C20_adjusted_design",
    "Boxes.C20_room",
    "Boxes.C20_drawing_total",
    "Boxes.C20_vertical_needs_room",
    "Boxes.C20_horizontal_needs_room",
    "Boxes.C20_sides"
   ],
   "note": "C20_drawing_total covers the whole drawing path for every GoodDesign; the needs_room theorems show that the hypotheses are necessary."
  },
  {
   "property": "C21",
   "status": "proved",
   "theorems": [
    "Boxes.C21_padding",
    "Boxes.C21_exact",
    "Boxes.C21_alternates",
    "Boxes.C21_requested_size"
   ],
   "note": ""
  },
  {
   "property": "C22",
   "status": "proved",
   "theorems": [
    "Boxes.C22_line_ends",
    "Boxes.C22_removed_line_ends"
   ],
   "note": ""
  },
  {
   "property": "C23",
   "status": "proved",
   "theorems": [
    "Boxes.C23_pieces",
    "Boxes.C23_structure",
    "Boxes.C23_line_literal",
    "Boxes.C23_line_visible",
    "Boxes.C23_printed",
    "Boxes.C23_overlap_disagrees",
    "Boxes.C23_shared_side_disagrees",
    "Boxes.C23_found_total",
    "Boxes.C23_blank_input",
    "Boxes.C23_total",
    "Boxes.C23_line_crossed"
   ],
   "note": "C23_overlap_disagrees and C23_shared_side_disagrees: inputs for which top and bottom part, or the two sides, are the same characters lead to undefined behaviour."
  },
  {
   "property": "C24",
   "status": "proved",
   "theorems": [
    "Boxes.C24_killed",
    "Boxes.C24_default"
   ],
   "note": ""
  },
  {
   "property": "C25",
   "status": "partial",
   "theorems": [
    "Boxes.C25_line_partial",
    "Boxes.C25_shape",
    "Boxes.C25_input",
    "Boxes.C25_margins",
    "Boxes.C25_shapes",
    "Boxes.C25_top",
    "Boxes.C25_bottom",
    "Boxes.C25_missing_corners_disagrees",
    "Boxes.C25_lost_character_disagrees"
   ],
   "note": "Proved: what exactly is accepted (C25_line_partial: corners, then the shape lines in order, elastic ones repeatedly, cut by blanks only), which texts are compared (C25_shapes, C25_shape, C25_input, C25_margins), and how many lines top and bottom part have (C25_top, C25_bottom). The English claim is false of the code in two points: corners may be missing altogether (C25_missing_corners_disagrees), and the left corner may lose a character that is not blank (C25_lost_character_disagrees)."
  },
  {
   "property": "C26",
   "status": "proved",
   "theorems": [
    "Boxes.C26_first_best"
   ],
   "note": "For designs whose blankward caches are empty at the start, as they are in the program."
  },
  {
   "property": "C27",
   "status": "proved",
   "theorems": [
    "Boxes.C27_viable",
    "Boxes.C27_exactly",
    "Boxes.C27_input",
    "Boxes.C27_design",
    "Boxes.C27_colour"
   ],
   "note": ""
  },
  {
   "property": "C28",
   "status": "proved",
   "theorems": [
    "Boxes.C28_sizes",
    "Boxes.C28_elastic",
    "Boxes.C28_accepted",
    "Boxes.C28_good"
   ],
   "note": "Sizes and elasticity checks are characterised exactly; C28_accepted holds for every accepted design of every file; C28_good gives GoodDesign, under which the drawing theorems exclude the internal-error path."
  },
  {
   "property": "C29",
   "status": "partial",
   "theorems": [
    "Boxes.C29_kept",
    "Boxes.C29_completes_partial",
    "Boxes.C29_west_disagrees",
    "Boxes.C29_reads_beyond"
   ],
   "note": "C29_kept holds for all inputs. The exact result (C29_completes_partial) needs a shape on the left side below the top corner or a left side one column wide: C29_west_disagrees and C29_reads_beyond show that the code reads behind the shape table otherwise."
  },
  {
   "property": "C30",
   "status": "proved",
   "theorems": [
    "Boxes.C30_minimum"
   ],
   "note": ""
  },
  {
   "property": "C31",
   "status": "proved",
   "theorems": [
    "Boxes.C31_selected",
    "Boxes.C31_order",
    "Boxes.C31_exclusions",
    "Boxes.C31_required_all_disagrees",
    "Boxes.C31_printed"
   ],
   "note": "C31_required_all_disagrees notes that the text for \"all\" cannot be required."
  },
  {
   "property": "C32",
   "status": "proved",
   "theorems": [
    "Boxes.C32_accepted",
    "Boxes.C32_query"
   ],
   "note": "For arguments without newline."
  },
  {
   "property": "C33",
   "status": "proved",
   "theorems": [
    "Boxes.C33_merged",
    "Boxes.C33_ends",
    "Boxes.C33_alias_disagrees"
   ],
   "note": "Names are compared by primary name only; C33_alias_disagrees shows that aliases may collide between files."
  },
  {
   "property": "C34",
   "status": "partial",
   "theorems": [
    "Boxes.C34_names",
    "Boxes.C34_search",
    "Boxes.C34_global",
    "Boxes.C34_explicit",
    "Boxes.C34_explicit_disagrees"
   ],
   "note": "Proved for file names that boxes can represent; C34_explicit_disagrees: a file given with -f whose name has a control character is silently replaced by another one."
  },
  {
   "property": "C35",
   "status": "proved",
   "theorems": [
    "Boxes.C35_padding",
    "Boxes.C35_documented",
    "Boxes.C35_padding_disagrees"
   ],
   "note": "Exact language of the padding option including what the code tolerates; documented arguments mean what is documented; disagreement with the documentation shown."
  },
  {
   "property": "C36",
   "status": "proved",
   "theorems": [
    "Boxes.C36_alignment"
   ],
   "note": "Exact language and effect of the alignment option."
  },
  {
   "property": "C37",
   "status": "proved",
   "theorems": [
    "Boxes.C37_tabs",
    "Boxes.C37_tabs_documented",
    "Boxes.C37_tabs_disagrees",
    "Boxes.C37_size",
    "Boxes.C37_size_documented",
    "Boxes.C37_size_disagrees",
    "Boxes.C37_range"
   ],
   "note": "Exact language and effect of the tab and size options; range invariant over all command lines; disagreements with the documentation shown."
  },
  {
   "property": "C38",
   "status": "proved",
   "theorems": [
    "Boxes.C38_first",
    "Boxes.C38_rejected",
    "Boxes.C38_later_word_disagrees",
    "Boxes.C38_yes",
    "Boxes.C38_no",
    "Boxes.C38_disjoint"
   ],
   "note": "Yes/no words; the first option decides over all sequences of options; a later invalid word is silently accepted (disagreement shown)."
  },
  {
   "property": "C39",
   "status": "proved",
   "theorems": [
    "Boxes.C39_sorted",
    "Boxes.C39_unique",
    "Boxes.C39_names",
    "Boxes.C39_tags",
    "Boxes.C39_entry",
    "Boxes.C39_tags_text",
    "Boxes.C39_list",
    "Boxes.C39_heading"
   ],
   "note": "Listing of all designs; the detailed listing of one design is C65."
  },
  {
   "property": "C40",
   "status": "proved",
   "theorems": [
    "Boxes.C40_scan",
    "Boxes.C40_errors",
    "Boxes.C40_delims",
    "Boxes.C40_escape",
    "Boxes.C40_round_trip",
    "Boxes.C40_sequence_disagrees"
   ],
   "note": "Scanner rule for strings characterised exactly; round trip with the escaping of the listing; a sequence that contains a quote is not read back (C40_sequence_disagrees), which the statement excludes."
  },
  {
   "property": "C41",
   "status": "proved",
   "theorems": [
    "Boxes.C41_tag",
    "Boxes.C41_name",
    "Boxes.C41_exact",
    "Boxes.C41_newline_disagrees"
   ],
   "note": "A single newline behind the identifier is tolerated by the code (C41_newline_disagrees); exact for strings without newline."
  },
  {
   "property": "C42",
   "status": "proved",
   "theorems": [
    "Boxes.C42_concat",
    "Boxes.C42_repeat",
    "Boxes.C42_strndup",
    "Boxes.C42_trimdup",
    "Boxes.C42_trimdup_empty",
    "Boxes.C42_strrspn",
    "Boxes.C42_strrspn_all"
   ],
   "note": ""
  },
  {
   "property": "C43",
   "status": "proved",
   "theorems": [
    "Boxes.C43_last_occurrence",
    "Boxes.C43_empty_needle",
    "Boxes.C43_prefix"
   ],
   "note": ""
  },
  {
   "property": "C44",
   "status": "proved",
   "theorems": [
    "Boxes.C44_history",
    "Boxes.C44_history_ub",
    "Boxes.C44_answer"
   ],
   "note": ""
  },
  {
   "property": "C45",
   "status": "proved",
   "theorems": [
    "Boxes.C45_plain",
    "Boxes.C45_rounds",
    "Boxes.C45_mend",
    "Boxes.C45_detected_size_disagrees",
    "Boxes.C45_padding_disagrees",
    "Boxes.C45_blank_line_disagrees"
   ],
   "note": "C45_detected_size_disagrees, C45_padding_disagrees, C45_blank_line_disagrees: mending an intact box need not reproduce it."
  },
  {
   "property": "C46",
   "status": "proved",
   "theorems": [
    "Boxes.C46_trim_input",
    "Boxes.C46_remove_mode"
   ],
   "note": ""
  },
  {
   "property": "C47",
   "status": "proved",
   "theorems": [
    "Boxes.C47_pieces",
    "Boxes.C47_lines"
   ],
   "note": ""
  },
  {
   "property": "C48",
   "status": "proved",
   "theorems": [
    "Boxes.C48_reading_total",
    "Boxes.C48_control_character_disagrees"
   ],
   "note": "C48_control_character_disagrees: a form feed in the input leads to a NULL dereference. In remove mode an empty line makes the code read the memory in front of its buffer (parameter junk)."
  },
  {
   "property": "C49",
   "status": "proved",
   "theorems": [
    "Boxes.C49_substitution_bound",
    "Boxes.C49_drawn",
    "Boxes.C49_rewritten",
    "Boxes.C49_refused",
    "Boxes.C49_control_disagrees",
    "Boxes.C49_between_disagrees"
   ],
   "note": "Regular expression replacement is a black box (any function). C49_rewritten: exactly the results of the rules (iff); C49_refused: failure iff a rule fails; C49_drawn: the box that is drawn around the rewritten lines; the code disagrees for rules that make a control character (C49_control_disagrees), and intermediate texts widen the box (C49_between_disagrees)"
  },
  {
   "property": "C50",
   "status": "proved",
   "theorems": [
    "Boxes.C50_empty_side"
   ],
   "note": "For consistent shapes (GoodShape) and a sane character database."
  },
  {
   "property": "C51",
   "status": "partial",
   "theorems": [
    "Boxes.C51_indentation_partial",
    "Boxes.C51_open_side_disagrees"
   ],
   "note": "Proved for lines whose left side was found. C51_open_side_disagrees: with an open left side the indentation is doubled."
  },
  {
   "property": "C52",
   "status": "partial",
   "theorems": [
    "Boxes.C52_blocks",
    "Boxes.C52_mandatory_partial",
    "Boxes.C52_mandatory_disagrees"
   ],
   "note": "C52_mandatory_partial needs at most one SHAPES and one ELASTIC block; C52_mandatory_disagrees: blocks are counted, so a repeated block makes up for a missing one."
  },
  {
   "property": "C53",
   "status": "partial",
   "theorems": [
    "Boxes.C53_distinct",
    "Boxes.C53_names",
    "Boxes.C53_own_names_disagrees"
   ],
   "note": "Proved between designs (C53_distinct) and for the origin of names; C53_own_names_disagrees: within one design nothing is checked."
  },
  {
   "property": "C54",
   "status": "proved",
   "theorems": [
    "Boxes.C54_tags",
    "Boxes.C54_valid"
   ],
   "note": "For tag texts without newlines and with complete escape sequences."
  },
  {
   "property": "C55",
   "status": "partial",
   "theorems": [
    "Boxes.C55_entries",
    "Boxes.C55_indent_partial",
    "Boxes.C55_indent_disagrees",
    "Boxes.C55_shapes",
    "Boxes.C55_elastic_partial",
    "Boxes.C55_elastic_first_disagrees"
   ],
   "note": "Proved except for: C55_indent_disagrees (capital letters, non-ASCII letters), C55_elastic_first_disagrees (ELASTIC in front of SHAPES)."
  },
  {
   "property": "C56",
   "status": "proved",
   "theorems": [
    "Boxes.C56_one",
    "Boxes.C56_all"
   ],
   "note": ""
  },
  {
   "property": "C57",
   "status": "proved",
   "theorems": [
    "Boxes.C57_eol",
    "Boxes.C57_indent"
   ],
   "note": "Exact words."
  },
  {
   "property": "C58",
   "status": "proved",
   "theorems": [
    "Boxes.C58_last",
    "Boxes.C58_switches",
    "Boxes.C58_words",
    "Boxes.C58_cumulative",
    "Boxes.C58_help",
    "Boxes.C58_questionmark",
    "Boxes.C58_bad"
   ],
   "note": "Invariants over all sequences of options reported by getopt_long, which itself is not modelled."
  },
  {
   "property": "C59",
   "status": "proved",
   "theorems": [
    "Boxes.C59_files"
   ],
   "note": "Exact condition for acceptance and the resulting files."
  },
  {
   "property": "C60",
   "status": "proved",
   "theorems": [
    "Boxes.C60_sample"
   ],
   "note": "Full characterisation of accepted samples and of the result; text without escape sequences."
  },
  {
   "property": "C61",
   "status": "proved",
   "theorems": [
    "Boxes.C61_tokens",
    "Boxes.C61_unique",
    "Boxes.C61_total",
    "Boxes.C61_exit_disagrees",
    "Boxes.C61_sample_disagrees",
    "Boxes.C61_comment_disagrees",
    "Boxes.C61_bom_disagrees"
   ],
   "note": "C61_tokens is an equivalence for every text, every mode and every fuel beyond the length of the text; Reads also describes texts with errors (unrecognised characters, unterminated strings, lost samples). C61_total: only a carriage return can stop the scanner. C61_sample_disagrees, C61_comment_disagrees, C61_bom_disagrees and C61_exit_disagrees show texts that a user may expect to be read otherwise."
  },
  {
   "property": "C62",
   "status": "proved",
   "theorems": [
    "Boxes.C62_grammar",
    "Boxes.C62_read",
    "Boxes.C62_total"
   ],
   "note": "FileTokens is a total grammar, including the designs with syntax errors and what is skipped behind them; C62_read is the equivalence for texts, C62_total says that texts without carriage returns always are understood. The actions of the part of an item before a syntax error are not modelled."
  },
  {
   "property": "C63",
   "status": "proved",
   "theorems": [
    "Boxes.C63_first_shape_line",
    "Boxes.C63_shape_line",
    "Boxes.C63_parent",
    "Boxes.C63_parent_exact",
    "Boxes.C63_entry",
    "Boxes.C63_entry_refused"
   ],
   "note": "Shape lines, entry values and parent paths; the null dereference for control characters in shape lines is part of the statement (outcome ub)."
  },
  {
   "property": "C64",
   "status": "proved",
   "theorems": [
    "Boxes.C64_side",
    "Boxes.C64_shapes",
    "Boxes.C64_body",
    "Boxes.C64_sufficient",
    "Boxes.C64_rounds",
    "Boxes.C64_box"
   ],
   "note": "Sides: C64_side (refinement of match_vertical_side to the first longest hit), C64_shapes (order of the candidate lines), C64_body (every line), C64_sufficient and C64_rounds (which comparison is used), C64_box (extent of the box and composition with C25)."
  },
  {
   "property": "C65",
   "status": "proved",
   "theorems": [
    "Boxes.C65_details",
    "Boxes.C65_all"
   ],
   "note": "Refinement of the whole printed text to a table (Spec/Details.lean); conversion to the output encoding is not modelled."
  },
  {
   "property": "C66",
   "status": "proved",
   "theorems": [
    "Boxes.C66_hits",
    "Boxes.C66_total",
    "Boxes.C66_east_disagrees",
    "Boxes.C66_elastic_disagrees"
   ],
   "note": "C66_hits: the score is the number of hits (shape, shape line, input line) of a separate specification; C66_total: no access out of bounds; C66_east_disagrees and C66_elastic_disagrees: differences to the comments in the code. Excluded: coloured design lines that are trimmed on both sides in a literal comparison."
  },
  {
   "property": "C67",
   "status": "proved",
   "theorems": [
    "Boxes.C67_design",
    "Boxes.C67_good",
    "Boxes.C67_output",
    "Boxes.C67_overflow_disagrees"
   ],
   "note": "C67_design gives every outcome and every field of the design; C67_good makes the drawing theorems applicable; C67_output describes the output from the bytes read on. C67_overflow_disagrees: an argument outside of ASCII overflows a buffer."
  },
  {
   "property": "C68",
   "status": "proved",
   "theorems": [
    "Boxes.C68_printed",
    "Boxes.C68_shows",
    "Boxes.C68_common_indent",
    "Boxes.C68_rule_disagrees",
    "Boxes.C68_escape_disagrees"
   ],
   "note": "C68_printed gives what is printed in every tab mode, C68_shows that nothing is lost under the stated conditions, C68_common_indent that the condition for kept tabs holds right after a removal; C68_rule_disagrees and C68_escape_disagrees show where the code loses text or an escape sequence without them"
  },
  {
   "property": "C69",
   "status": "proved",
   "theorems": [
    "Boxes.C69_complete",
    "Boxes.C69_mending",
    "Boxes.C69_rewriting",
    "Boxes.C69_help",
    "Boxes.C69_refused",
    "Boxes.C69_destination",
    "Boxes.C69_input",
    "Boxes.C69_bounds",
    "Boxes.C69_chosen",
    "Boxes.C69_listing",
    "Boxes.C69_query",
    "Boxes.C69_drawing",
    "Boxes.C69_empty",
    "Boxes.C69_created",
    "Boxes.C69_removing",
    "Boxes.C69_parent_global",
    "Boxes.C69_create_disagrees",
    "Boxes.C69_no_color_disagrees"
   ],
   "note": "C69_help, C69_refused, C69_destination, C69_input, C69_bounds, C69_chosen, C69_listing, C69_query, C69_drawing, C69_empty, C69_created, C69_removing, C69_mending. C69_create_disagrees: -c fails if no configuration file can be found. C69_no_color_disagrees: --no-color has no effect on the text left after removal. C69_rewriting: designs with replacement rules. C69_complete: the same from the texts of arguments and configuration files (with C62, C75)."
  },
  {
   "property": "C70",
   "status": "proved",
   "theorems": [
    "Boxes.C70_printed",
    "Boxes.C70_printed_plain",
    "Boxes.C70_blank_default",
    "Boxes.C70_removed"
   ],
   "note": "C70_removed: for a design whose boxes can be recognised, removal of a box around any texts gives these texts back, with the escape sequences that survive cutting (BackKept, FrontKept); C70_printed gives the printed lines, C70_printed_plain for texts without escape sequences; C70_blank_default: when blank lines are dropped by default; drawing such a box is C71"
  },
  {
   "property": "C71",
   "status": "proved",
   "theorems": [
    "Boxes.C71_restored",
    "Boxes.C71_lines",
    "Boxes.C71_identity",
    "Boxes.C71_empty_line_disagrees",
    "Boxes.C71_margin_disagrees",
    "Boxes.C71_mode_none_loses",
    "Boxes.C71_pipeline",
    "Boxes.C71_configured",
    "Boxes.C71_loaded",
    "Boxes.C71_program"
   ],
   "note": "C71_restored for any texts, C71_lines if the first and the last line are not empty, C71_identity and C71_program (main loop run twice) give the text back exactly if no line is empty; C71_pipeline says so of two runs of the complete program (boxes -d X | boxes -d X -r). C71_configured and C71_loaded say which designs of configuration files qualify. C71_empty_line_disagrees and C71_margin_disagrees show that the conditions are needed."
  },
  {
   "property": "C72",
   "status": "proved",
   "theorems": [
    "Boxes.C72_areas",
    "Boxes.C72_extra",
    "Boxes.C72_logging",
    "Boxes.C72_activate",
    "Boxes.C72_module",
    "Boxes.C72_module_all",
    "Boxes.C72_message",
    "Boxes.C72_overflow_disagrees",
    "Boxes.C72_accepts_nonsense_disagrees"
   ],
   "note": "C72_areas, C72_extra, C72_logging, C72_activate, C72_module, C72_message (for messages of less than 1024 bytes). C72_overflow_disagrees: longer messages overflow the buffer. C72_accepts_nonsense_disagrees: a later -x is not checked."
  },
  {
   "property": "C73",
   "status": "proved",
   "theorems": [
    "Boxes.C73_replaced",
    "Boxes.C73_one_call",
    "Boxes.C73_second_call"
   ],
   "note": "for every library that conforms to the PCRE2 manual (Spec.Pcre2); matching itself is not modelled"
  },
  {
   "property": "C74",
   "status": "proved",
   "theorems": [
    "Boxes.C74_coloured",
    "Boxes.C74_coloured_pipeline",
    "Boxes.C74_mended",
    "Boxes.C74_empty_line_disagrees",
    "Boxes.C74_not_full_disagrees",
    "Boxes.C74_width_disagrees",
    "Boxes.C74_height_disagrees",
    "Boxes.C74_align_disagrees",
    "Boxes.C74_pipeline"
   ],
   "note": "C74_mended, and C74_coloured and C74_coloured_pipeline for text in colour, for the program run twice with the design chosen by the user and without replacement rules. The options are those that -m sets (killblank = 0). C74_pipeline says so of two runs of the complete program (boxes -d X | boxes -d X -m). C74_empty_line_disagrees, C74_not_full_disagrees, C74_width_disagrees, C74_height_disagrees and C74_align_disagrees show that boxes around empty lines and boxes with blank rows besides the padding grow, and that boxes with a requested size or an alignment are not kept."
  },
  {
   "property": "C75",
   "status": "proved",
   "theorems": [
    "Boxes.C75_reading",
    "Boxes.C75_unique",
    "Boxes.C75_same",
    "Boxes.C75_refused"
   ],
   "note": "C75_reading, C75_unique, C75_same, C75_refused."
  },
  {
   "property": "C76",
   "status": "proved",
   "theorems": [
    "Boxes.C76_ends",
    "Boxes.C76_drawing",
    "Boxes.C76_never_ends_disagrees"
   ],
   "note": "C76_ends: every run of the modelled program ends (in an outcome, an error, or undefined behaviour) whenever the configuration texts are finite in number and every design loaded from them has sides that meet; C76_drawing: for drawing, the condition is exact - output if the sides of the first design meet, no end at all if they do not; C76_never_ends_disagrees: a concrete configuration that is accepted and with which the default command line never ends (in the model counters are unbounded; in C the int counters overflow after 2^31 steps)."
  },
  {
   "property": "C77",
   "status": "proved",
   "theorems": [
    "Boxes.C77_program",
    "Boxes.C77_configured",
    "Boxes.C77_loaded",
    "Boxes.C77_pipeline",
    "Boxes.C77_traces_unique",
    "Boxes.C77_traces_counted",
    "Boxes.C77_order_disagrees"
   ],
   "note": "C77_program: a box drawn by one run of the main loop is removed by a second run that has to detect the design, for every list of designs with which an input can be compared and in which the box shows the most traces of its design; the text comes back exactly. C77_pipeline: the same for two runs of the complete program (boxes -d X | boxes -r); C77_configured, C77_loaded: all designs that the parser accepts can be compared. C77_traces_unique, C77_traces_counted: the number of traces is determined and is what match_design counts. Restricted to plain texts and uncoloured designs. C77_order_disagrees: the default of -k comes from the first design of the list, so that with a first design with blank upper and lower sides a blank line stays."
  },
  {
   "property": "C78",
   "status": "proved",
   "theorems": [
    "Boxes.C78_restored",
    "Boxes.C78_lines",
    "Boxes.C78_identity",
    "Boxes.C78_indentation_disagrees",
    "Boxes.C78_sequences_disagrees",
    "Boxes.C78_end_disagrees",
    "Boxes.C78_program",
    "Boxes.C78_pipeline"
   ],
   "note": "C78_restored for any such lines (also empty ones), C78_lines if the first and the last line are not empty, C78_identity and C78_program (main loop run twice) give the lines back exactly if no line is empty; C78_pipeline says so of two runs of the complete program, with colours printed or not. The conditions on where sequences may be are needed: C78_indentation_disagrees, C78_sequences_disagrees, C78_end_disagrees."
  },
  {
   "property": "C79",
   "status": "partial",
   "theorems": [
    "Boxes.C79_contents_partial",
    "Boxes.C79_none",
    "Boxes.C79_string_partial",
    "Boxes.C79_unterminated_disagrees",
    "Boxes.C79_move",
    "Boxes.C79_set"
   ],
   "note": "The characters are right, the terminator is missing unless it was in memory by chance: C79_contents_partial, C79_string_partial, C79_unterminated_disagrees."
  },
  {
   "property": "C80",
   "status": "partial",
   "theorems": [
    "Boxes.C80_no_tab_partial",
    "Boxes.C80_text",
    "Boxes.C80_tab_overruns",
    "Boxes.C80_shape_disagrees",
    "Boxes.C80_sized",
    "Boxes.C80_prepend",
    "Boxes.C80_append",
    "Boxes.C80_expand",
    "Boxes.C80_expand_exact",
    "Boxes.C80_input",
    "Boxes.C80_escape",
    "Boxes.C80_count_safe",
    "Boxes.C80_count",
    "Boxes.C80_shown_exists"
   ],
   "note": "all texts without tabs; texts with tabs are written beyond the end of a buffer, with the exact condition"
  },
  {
   "property": "C81",
   "status": "proved",
   "theorems": [
    "Boxes.C81_same_box",
    "Boxes.C81_program",
    "Boxes.C81_tab_disagrees"
   ],
   "note": "For texts in which no escape sequence stands in front of a tab, tabs not kept, designs without replacement rules (as the property says). C81_tab_disagrees shows that the condition on tabs is needed."
  },
  {
   "property": "C82",
   "status": "proved",
   "theorems": [
    "Boxes.C82_drawn",
    "Boxes.C82_removed",
    "Boxes.C82_identity",
    "Boxes.C82_program",
    "Boxes.C82_program_removed",
    "Boxes.C82_pipeline"
   ],
   "note": "For designs without replacement rules when drawing, and designs chosen by name when removing (as the property says)."
  },
  {
   "property": "C83",
   "status": "proved",
   "theorems": [
    "Boxes.C83_printed",
    "Boxes.C83_removed"
   ],
   "note": "For designs as described in the property, terminals for which ESC is no blank."
  },
  {
   "property": "C84",
   "status": "proved",
   "theorems": [
    "Boxes.C84_restored",
    "Boxes.C84_lines",
    "Boxes.C84_identity",
    "Boxes.C84_pipeline"
   ],
   "note": "For designs as in C83 (the plain version as in C71), lines as in C78, terminals for which ESC is no blank. C83_printed: the program prints what is left."
  },
  {
   "property": "C85",
   "status": "proved",
   "theorems": [
    "Boxes.C85_rows",
    "Boxes.C85_program",
    "Boxes.C85_trailing_disagrees",
    "Boxes.C85_side_disagrees"
   ],
   "note": "For self-contained shape lines and self-contained lines of text, designs without replacement rules, character databases in which every blank is white space. C85_trailing_disagrees and C85_side_disagrees show that the conditions are needed."
  },
  {
   "property": "C86",
   "status": "proved",
   "theorems": [
    "Boxes.C86_nested"
   ],
   "note": "For any number of commands in a pipeline. The lines must be plain and not empty, each row shorter than the buffer, and designs must have no white space other than spaces."
  },
  {
   "property": "C87",
   "status": "proved",
   "theorems": [
    "Boxes.C87_removed",
    "Boxes.C87_mended",
    "Boxes.C87_program",
    "Boxes.C87_erased"
   ],
   "note": "Removing and mending a box whose right side, top, bottom and padding have been disturbed by editing: -r prints the texts, -m draws the box around them (C87_removed, C87_mended), also for the complete program (C87_erased, C87_program)."
  },
  {
   "property": "C88",
   "status": "proved",
   "theorems": [
    "Boxes.C88_printed",
    "Boxes.C88_exact",
    "Boxes.C88_unchanged",
    "Boxes.C88_program",
    "Boxes.C88_indented_disagrees"
   ],
   "note": "for plain texts that share no visible character with the design and are not indented as a whole (or -i text/none); C88_exact says what is printed otherwise: the indentation is doubled (C88_indented_disagrees)"
  },
  {
   "property": "C89",
   "status": "proved",
   "theorems": [
    "Boxes.C89_documented",
    "Boxes.C89_complete",
    "Boxes.C89_config",
    "Boxes.C89_help",
    "Boxes.C89_else",
    "Boxes.C89_defaults",
    "Boxes.C89_shown",
    "Boxes.C89_like",
    "Boxes.C89_likes",
    "Boxes.C89_first_design",
    "Boxes.C89_first_alone",
    "Boxes.C89_settings_disagrees"
   ],
   "note": "The defaults shown for -i and -p depend on the design (C89_settings_disagrees)."
  },
  {
   "property": "C90",
   "status": "proved",
   "theorems": [
    "Boxes.C90_mended",
    "Boxes.C90_program",
    "Boxes.C90_indented_disagrees"
   ],
   "note": "Texts that are indented as a whole are a disagreement (C90_indented_disagrees)."
  },
  {
   "property": "C91",
   "status": "proved",
   "theorems": [
    "Boxes.C91_case",
    "Boxes.C91_alias",
    "Boxes.C91_unknown"
   ],
   "note": "Aliases: for configuration files without parents. In a parent file an alias is dropped if a child file has it (C33)."
  },
  {
   "property": "C92",
   "status": "proved",
   "theorems": [
    "Boxes.C92_edited",
    "Boxes.C92_bare"
   ],
   "note": "For texts without empty lines which fill the box; C74 shows what happens otherwise."
  },
  {
   "property": "C93",
   "status": "proved",
   "theorems": [
    "Boxes.C93_mended",
    "Boxes.C93_pipeline",
    "Boxes.C93_grows_disagrees",
    "Boxes.C93_underflow_disagrees"
   ],
   "note": "main() puts the least size of the first design on the design that is detected; so the theorem has a condition on sizes, and two witnesses show what happens without it (C93_grows_disagrees, C93_underflow_disagrees)."
  },
  {
   "property": "C94",
   "status": "proved",
   "theorems": [
    "Boxes.C94_refused",
    "Boxes.C94_explained",
    "Boxes.C94_first",
    "Boxes.C94_run",
    "Boxes.C94_quotes_disagrees"
   ],
   "note": "The messages are those about the command line. What the C library prints (getopt_long, perror) is a parameter. Debug messages are not part of it. C94_quotes_disagrees: two messages that do not quote the argument."
  },
  {
   "property": "C95",
   "status": "proved",
   "theorems": [
    "Boxes.C95_flexible",
    "Boxes.C95_program",
    "Boxes.C95_plain_line"
   ],
   "note": "For designs without replacement rules. Width means the columns of a row behind its indentation before trailing blanks are removed; a right side that shows nothing consists of further columns of blanks."
  },
  {
   "property": "C96",
   "status": "proved",
   "theorems": [
    "Boxes.C96_blanks",
    "Boxes.C96_last_break"
   ],
   "note": "whole program, any design, rules, colours; texts that differ in plain white space at line ends"
  },
  {
   "property": "C97",
   "status": "proved",
   "theorems": [
    "Boxes.C97_others"
   ],
   "note": "complete program, any number of configuration files"
  },
  {
   "property": "C98",
   "status": "proved",
   "theorems": [
    "Boxes.C98_moved_box",
    "Boxes.C98_program",
    "Boxes.C98_plain"
   ],
   "note": "Designs without replacement rules; indentation mode b or n; in mode b not with tab mode k; in tab mode u, or with tabs in the text, the move must be a multiple of the tab stops; at least one line shows something."
  },
  {
   "property": "C99",
   "status": "proved",
   "theorems": [
    "Boxes.C99_settings",
    "Boxes.C99_order",
    "Boxes.C99_neighbours"
   ],
   "note": "The options as getopt_long reports them (C75); help and version end the reading of the command line, so they are excluded. Messages on stderr are not covered: the first error is reported."
  }
 ]
}