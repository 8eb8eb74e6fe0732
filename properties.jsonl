{"id": "C01", "title": "Escape-aware text metrics", "statement": "For any text line made of visible characters and complete ANSI escape sequences, the computed metrics are right: the number of columns is the sum of the display widths of the visible characters, visible plus invisible characters add up to the length of the line, indentation is the width of the leading blanks, and trailing space is the number of blanks at the end (zero for a line of blanks only). A line is rejected only if one of its visible characters is a forbidden control character.", "quantifier": "every text line (any length, any mix of visible characters and escape sequences), every width/blank classification of characters", "why_tests_cant": "Metrics drive all layout; a test covers a handful of strings, but the claim is about every interleaving of escape sequences and characters of any width.", "anchors": ["src/bxstring.c:bxs_from_unicode", "src/unicode.c:advance_next32", "src/tools.c:is_csi_reset"]}
{"id": "C02", "title": "Character position maps are exact", "statement": "After analysing a text line, position i of the visible-character map is the index of exactly the i-th visible character; position i of the first-character map is that same index, or the start of the escape sequence directly in front of it when that sequence is not a reset. Both maps end with the index of the terminator, so cutting at a mapped position never splits an escape sequence.", "quantifier": "every text line of visible characters and complete escape sequences, every visible index", "why_tests_cant": "An off-by-one in the maps shows up only for particular arrangements of escape sequences.", "anchors": ["src/bxstring.c:bxs_from_unicode", "src/bxstring.h:first_char", "src/bxstring.h:visible_char"]}
{"id": "C03", "title": "Monochrome output strips exactly the escape sequences", "statement": "When colour output is off, printing a line emits exactly its visible characters, in order: no character of the text is lost and no part of an escape sequence leaks; when colour output is on the line is emitted unchanged.", "quantifier": "every text line of visible characters and complete escape sequences, both colour settings", "why_tests_cant": "Leaks or losses depend on the arrangement of sequences in the line.", "anchors": ["src/bxstring.c:bxs_filter_visible", "src/bxstring.c:bxs_to_output"]}
{"id": "C04", "title": "Right-trimming removes only trailing blanks", "statement": "Right-trimming a line that has a non-blank character yields the same visible text without its trailing blanks; a line consisting only of blanks is left unchanged. Full trimming likewise removes exactly the leading and trailing blanks, provided blank characters are one column wide.", "quantifier": "every text line", "why_tests_cant": "Depends on interplay of blanks, wide characters and escape sequences at the line end.", "anchors": ["src/bxstring.c:bxs_rtrim", "src/bxstring.c:bxs_trim"]}
{"id": "C05", "title": "Adding spaces keeps metrics consistent", "statement": "Prepending n spaces to an analysed line gives exactly the analysis of the line with n spaces in front. Appending n spaces gives exactly the analysis of the line with n spaces at the end whenever the line has a non-blank character (or n is zero) and the line does not end in an escape sequence other than a reset.", "quantifier": "every text line, every n", "why_tests_cant": "The functions update nine fields by hand instead of re-analysing; equality for all strings needs a proof.", "anchors": ["src/bxstring.c:bxs_prepend_spaces", "src/bxstring.c:bxs_append_spaces"]}
{"id": "C06", "title": "Cutting and slicing act on visible characters", "statement": "Cutting n visible characters from the front of a line leaves exactly the visible text without its first n characters; concatenating lines concatenates their visible texts and adds their columns; slicing by position returns exactly that slice; trimmed duplication of a visible range returns the range without surrounding blanks.", "quantifier": "every text line, every n and every range", "why_tests_cant": "Holds for all index/escape combinations or not at all.", "anchors": ["src/bxstring.c:bxs_cut_front", "src/bxstring.c:bxs_concat", "src/bxstring.c:bxs_strcat", "src/bxstring.c:bxs_substr", "src/bxstring.c:bxs_trimdup", "src/bxstring.c:bxs_ltrim"]}
{"id": "C07", "title": "Tab expansion keeps columns", "statement": "Expanding tabs yields a line without tabs in which every non-tab character appears in the original order, each tab has been replaced by at least one and at most tabstop spaces, and the character after a tab starts at a multiple of the tab stop. In keep mode the recorded tab positions are exactly the columns at which the tabs stood.", "quantifier": "every input line below the length limit, every tab stop >= 1", "why_tests_cant": "Column arithmetic must hold for every placement of tabs.", "anchors": ["src/tools.c:expand_tabs_into"]}
{"id": "C08", "title": "Leading tabs are restored to the same column", "statement": "In unexpand mode the re-tabbed indentation reaches exactly the original indentation column and uses as many tabs as fit. In keep mode with a single restored tab the same column is reached.", "quantifier": "every indentation, every tab stop, every recorded tab position list", "why_tests_cant": "Arithmetic claim over all indentations and tab stops.", "anchors": ["src/tools.c:tabbify_indent", "src/generate.c:output_box", "src/remove.c:output_input"]}
{"id": "C09", "title": "Common indentation is found and removed faithfully", "statement": "The common indentation is the smallest indentation over all lines that have any column, and zero if there is none. When drawing a box with indentation removed, every line that has columns loses exactly that many leading blanks and nothing else of its visible text, so putting them back restores the visible text of every line, and relative indentation between lines is unchanged; lines without columns stay as they are. The longest line value is the width of the longest of the new lines. When text indentation is kept or a box is removed, lines are not touched.", "quantifier": "every list of input lines whose blanks are one column wide", "why_tests_cant": "Minimum/maximum over arbitrary many lines; all combinations of blank and non-blank lines.", "anchors": ["src/input.c:get_indent", "src/input.c:analyze_input", "src/tools.c:analyze_line_ascii"]}
{"id": "C10", "title": "Horizontal sides are fitted minimally and equal", "statement": "If the computation of the top and bottom side succeeds, both sides get the same width, which is the smallest width that both sides can reach by repeating their elastic shapes (alternating between two elastic shapes) and that is not less than the longest text line and the minimum inner width of the design. Every non-elastic shape is used exactly once, and the columns assigned to the shapes of a side add up to the width.", "quantifier": "every design whose sides have one or two elastic shapes, every text width and requested minimum width", "why_tests_cant": "Iterative balancing algorithm over unbounded widths.", "anchors": ["src/generate.c:horiz_precalc"]}
{"id": "C11", "title": "Box drawing terminates exactly when the sides can meet", "statement": "The fitting of opposite box sides terminates if and only if there is a common length of at least the target that both sides can reach; with one elastic shape per side of lengths a and b this is the case exactly when gcd(a,b) divides the difference of the fixed parts of the two sides (so always when an elastic shape has length one).", "quantifier": "every pair of opposite sides, every target size", "why_tests_cant": "Non-termination cannot be observed by tests, and the criterion is number theoretic.", "anchors": ["src/generate.c:horiz_precalc", "src/generate.c:vert_precalc"]}
{"id": "C12", "title": "Vertical sides are fitted minimally and equal", "statement": "If the computation of the left and right side succeeds, both get the same number of lines, the smallest number that both can reach by repeating elastic shapes and that is not less than the number of text lines and the minimum inner height. Every non-elastic shape is used exactly once.", "quantifier": "every design whose sides have one or two elastic shapes, every number of text lines and requested minimum height", "why_tests_cant": "Iterative balancing algorithm over unbounded heights.", "anchors": ["src/generate.c:vert_precalc"]}
{"id": "C13", "title": "Top and bottom sides are assembled completely", "statement": "The assembled top (bottom) side consists of the middle shapes in left-to-right order, each repeated as often as was computed, and nothing else; every line of it is exactly as wide as the computed width, and the bottom side is read in the same left-to-right direction.", "quantifier": "every design with consistent shape sizes, every computed repetition", "why_tests_cant": "Loops over index arithmetic with mutated counters for all repetition counts.", "anchors": ["src/generate.c:vert_assemble", "src/generate.c:horiz_chars_required"]}
{"id": "C14", "title": "Left and right sides are assembled completely", "statement": "The assembled left (right) side starts with the full upper corner, ends with the full lower corner and in between shows the middle shapes from top to bottom, each repeated cyclically for exactly its computed number of lines; every line of the side is filled.", "quantifier": "every design with consistent shape sizes, every computed repetition", "why_tests_cant": "Loops over index arithmetic with mutated counters for all heights.", "anchors": ["src/generate.c:horiz_assemble", "src/generate.c:vert_generate"]}
{"id": "C15", "title": "The drawn box is a rectangle", "statement": "Before trailing blanks are trimmed, every printed line of a box has the same display width: indentation plus left side plus inner width plus right side.", "quantifier": "every accepted design, every input text, all alignments, paddings and sizes", "why_tests_cant": "Combines all layout arithmetic; must hold for every text and option combination.", "anchors": ["src/generate.c:output_box", "src/generate.c:generate_box"]}
{"id": "C16", "title": "The text is drawn completely, in order and unaltered", "statement": "The body of a drawn box contains every input line exactly once and in the original order; the visible content of each line is unchanged apart from blanks shifted by justification; all other body rows carry only blanks between the sides.", "quantifier": "every accepted design, every input text, all alignments, paddings and sizes", "why_tests_cant": "Must hold for all texts; a skipped or duplicated line shows only for certain size/padding combinations.", "anchors": ["src/generate.c:output_box"]}
{"id": "C17", "title": "Vertical placement honours padding and alignment", "statement": "Above the text there are the top padding lines plus the share of spare lines given by the vertical alignment (none for top, half rounded down for centre, all for bottom), and below it the bottom padding plus the rest; the parts add up to the inner height of the box.", "quantifier": "every box height, number of lines, padding and vertical alignment", "why_tests_cant": "Arithmetic over unbounded values with unsigned subtraction.", "anchors": ["src/generate.c:output_box"]}
{"id": "C18", "title": "Horizontal placement honours padding and alignment", "statement": "Left of the text block there are the left padding columns plus the share of the spare columns given by the horizontal alignment, right of it the right padding plus the rest; both add up to the inner width minus the text width.", "quantifier": "every inner width, text width, padding and horizontal alignment (except a single spare column, which is given to one side as a whole)", "why_tests_cant": "Arithmetic over unbounded values with unsigned subtraction and a special case.", "anchors": ["src/generate.c:output_box"]}
{"id": "C19", "title": "Line justification stays within the text block", "statement": "Justifying a line left, centred or right moves its text so that it starts at the left edge, is centred (the odd column going left or right depending on the skew), or ends at the right edge of the text block; it never needs more columns than the block has, and only blanks are removed from the front of the line.", "quantifier": "every line, text width, indentation mode and skew", "why_tests_cant": "Mixed signed/unsigned arithmetic for all values.", "anchors": ["src/generate.c:justify_line", "src/generate.c:output_box"]}
{"id": "C20", "title": "Drawing never underflows its size arithmetic", "statement": "For every design that passed the parser checks, every input and every combination of size and padding options, none of the unsigned subtractions in the layout computation (inner size, vertical and horizontal fill, trailing space) goes below zero, and the fill buffers are never written beyond their allocated length.", "quantifier": "every accepted design, every input, every size/padding/alignment option", "why_tests_cant": "Wrap-around needs particular combinations; absence is a universal claim.", "anchors": ["src/generate.c:horiz_precalc", "src/generate.c:vert_precalc", "src/generate.c:output_box", "src/boxes.c:adjust_size_and_padding"]}
{"id": "C21", "title": "Requested size takes precedence over padding", "statement": "With a requested box size that is too small for the padding, padding is reduced alternately on opposite sides (top/left first) by exactly the excess, or to zero if the excess is larger; without a requested size the box grows so that text, padding and sides fit. Padding is never negative and never increased beyond what was asked for.", "quantifier": "every padding, requested size, text size and design", "why_tests_cant": "Loop with alternating decrement over unbounded values.", "anchors": ["src/boxes.c:adjust_size_and_padding", "src/boxes.c:apply_expected_size"]}
{"id": "C22", "title": "Line terminators and final newline are preserved", "statement": "Every output line except possibly the last is followed by the chosen line terminator, and the last one is followed by it exactly if the input ended with a line break.", "quantifier": "every output of drawing or removing a box", "why_tests_cant": "Must hold for any number of lines and skipped sides.", "anchors": ["src/generate.c:output_box", "src/remove.c:output_input", "src/input.c:has_linebreak"]}
{"id": "C23", "title": "Removing a box never invents or reorders text", "statement": "Whatever the matcher decides, each line printed by box removal is a contiguous piece of one input line (possibly with the indentation of the input in front), and the lines keep their original order. If the top part found ends before the bottom part found begins, the blank lines above and below the box stay as they are, the top and bottom part are gone, and of each body line exactly the text between the end of the left side (with its padding) and the start of the right side remains.", "quantifier": "every input, every design, every outcome of the matcher in which the top part ends before the bottom part starts", "why_tests_cant": "Universal over inputs and over all match decisions.", "anchors": ["src/remove.c:apply_results_to_input", "src/remove.c:remove_vertical_from_input", "src/remove.c:remove_top_from_input", "src/remove.c:remove_bottom_from_input"]}
{"id": "C24", "title": "Blank-line killing removes only blank lines within its limit", "statement": "When removing a box, blank-line removal takes only blank lines adjacent to the removed top and bottom part, stops at the first non-blank line, and while mending without -k it removes at most as many lines as the design has padding on that side; with killing enabled all leading and trailing blank body lines go.", "quantifier": "every input, padding and option setting", "why_tests_cant": "Loop with conditions for arbitrarily many lines.", "anchors": ["src/remove.c:killblank"]}
{"id": "C25", "title": "Shape line matching is sound", "statement": "If a horizontal line is accepted as box top or bottom, then it can be read, after dropping blanks at its ends, as a sequence of the side's shape lines in order, where non-elastic shapes occur exactly once, elastic ones repeatedly, and shortened shape lines have lost only blanks.", "quantifier": "every input line, every design, every shape line", "why_tests_cant": "Backtracking matcher over all strings.", "anchors": ["src/remove.c:hmm", "src/remove.c:hmm_shiftable", "src/remove.c:shorten"]}
{"id": "C26", "title": "Design autodetection picks the first best match", "statement": "Autodetection tries the four comparison types one after the other, on all designs to which the type applies, and stops after a type once more than two hits were found. It returns the design with the highest number of hits among the candidates tried; among equals the one tried first (earlier type, then earlier definition); and no design exactly when no candidate has any hit.", "quantifier": "every list of designs and every hit count", "why_tests_cant": "Argmax over arbitrary lists with early exit.", "anchors": ["src/detect.c:autodetect_design"]}
{"id": "C27", "title": "Comparison mode follows colour of input and design", "statement": "For every combination of coloured/monochrome input and design exactly one comparison type is applicable: literal when both agree in being monochrome or coloured and the type that ignores escape sequences on the coloured side(s) as documented; both being coloured additionally admits ignoring escape sequences on both sides.", "quantifier": "all inputs, designs and comparison types", "why_tests_cant": "Claim ranges over all inputs and designs through their colour classification.", "anchors": ["src/detect.c:comp_type_is_viable", "src/detect.c:input_is_mono", "src/detect.c:design_is_mono"]}
{"id": "C28", "title": "Accepted designs have a consistent geometry", "statement": "A design that passes the checks at the end of its definition has no elastic corner, every elastic shape exists, every side has one or two elastic shapes which never touch each other, all existing shapes of a horizontal side have the same height and all existing shapes of a vertical side the same width; such a design never triggers the internal-error path of side computation.", "quantifier": "every shape table", "why_tests_cant": "Universal over shape tables; relates parser checks and the drawing code.", "anchors": ["src/parsecode.c:check_sizes", "src/parsecode.c:corner_check", "src/parsecode.c:non_existent_elastics", "src/parsecode.c:insufficient_elasticity", "src/parsecode.c:adjoining_elastics", "src/parsecode.c:perform_se_check"]}
{"id": "C29", "title": "Missing shapes are completed so that a box can be drawn", "statement": "After a shapes block has been processed successfully every corner exists, every side has at least one existing elastic shape in its middle, generated shapes are blank and fit the size of their neighbours, and shapes the user defined are unchanged.", "quantifier": "every shape table with at least one non-empty shape", "why_tests_cant": "Universal over shape tables; generation uses neighbour-dependent arithmetic.", "anchors": ["src/parsecode.c:action_finalize_shapes", "src/shape.c:genshape", "src/shape.c:findshape"]}
{"id": "C30", "title": "Minimum design size covers every side", "statement": "The minimum width (height) of a design is the larger of the total widths (heights) of its two horizontal (vertical) sides including corners, so a box of at least that size has room for every shape once.", "quantifier": "every shape table", "why_tests_cant": "Universal over shape tables.", "anchors": ["src/parsecode.c:action_finalize_shapes"]}
{"id": "C31", "title": "Tag query semantics", "statement": "A design is selected by a tag query exactly if it has none of the tags marked with a minus, all of the tags marked with a plus, and, when there are unsigned tags, at least one unsigned or plus tag; only-exclusion queries select everything else. The order of the query terms does not matter.", "quantifier": "every tag list and every parsed query", "why_tests_cant": "Loop with early exits over arbitrary query lists; order independence is universal.", "anchors": ["src/query.c:filter_by_tag", "src/query.c:parse_query", "src/query.c:query_by_tag"]}
{"id": "C32", "title": "Tag queries are validated and deduplicated", "statement": "A query string is accepted exactly if every non-empty comma-separated element is, after trimming and removal of one sign, a valid tag (or the match-all marker) and no tag occurs twice regardless of sign and case; the accepted query contains the elements in order, plus the match-all marker when there is no inclusion term.", "quantifier": "every query string", "why_tests_cant": "Parser over arbitrary strings.", "anchors": ["src/query.c:parse_query", "src/tools.c:trimdup", "src/tools.c:array_contains0"]}
{"id": "C33", "title": "Child configuration wins over parent", "statement": "When configuration files are merged, every design name appears once (ignoring case) and is taken from the file that comes first in the child-to-parent order; designs of one file keep their order; parents are visited once, so parsing ends even if parent references are circular.", "quantifier": "every graph of configuration files and every list of designs per file", "why_tests_cant": "Universal over file graphs; termination.", "anchors": ["src/parsing.c:copy_designs", "src/parsing.c:designs_contain", "src/parsing.c:parse_config_files", "src/parsing.c:record_parent_config_files"]}
{"id": "C34", "title": "Configuration file discovery order", "statement": "The configuration file is taken from the -f option if given, otherwise from the BOXES environment variable if set (a failure there is final), otherwise from the first readable candidate in the documented order of user and system locations; inside a directory the documented file names are tried in order.", "quantifier": "every environment, option setting and file system state", "why_tests_cant": "Universal over file system states.", "anchors": ["src/discovery.c:discover_config_file", "src/discovery.c:locate_config_common", "src/discovery.c:locate_config_in_dir"]}
{"id": "C35", "title": "Padding option parsing", "statement": "The padding option is accepted exactly if it is a non-empty sequence of area letters (a, h, v, t, l, b, r in either case), each followed by a number that is not negative as a 32 bit integer; the number may be preceded by blanks and a sign, and may be missing (meaning 0) except at the end. Later areas override earlier ones; a, h and v set the corresponding groups of sides; all other sides keep their value. Every option of the documented form (letters with digits, below 2^31) is accepted and means what is documented.", "quantifier": "every option string", "why_tests_cant": "Parser over arbitrary strings.", "anchors": ["src/cmdline.c:padding"]}
{"id": "C36", "title": "Alignment option parsing", "statement": "The alignment option sets exactly the alignments named by its letters (h+l/c/r, v+t/c/b, j+l/c/r, or the single-letter shortcuts l, c, r for all three) and rejects every other string.", "quantifier": "every option string", "why_tests_cant": "Parser over arbitrary strings.", "anchors": ["src/cmdline.c:alignment"]}
{"id": "C37", "title": "Numeric option parsing stays in range", "statement": "The tab option is accepted exactly if it begins with a number which, as a 32 bit integer, is from 1 to 16, optionally followed by exactly one of e, k, u. The size option is accepted exactly if the numbers at the beginning of its parts are not negative and not both zero. After any accepted command line all settings are in their ranges; so tab distances used for division are never zero.", "quantifier": "every option string", "why_tests_cant": "Parser over arbitrary strings; division by zero is excluded universally.", "anchors": ["src/cmdline.c:tab_handling", "src/cmdline.c:size_of_box", "src/cmdline.c:process_commandline"]}
{"id": "C38", "title": "Yes/no words are unambiguous", "statement": "A word is never accepted as both yes and no; exactly the documented words (any case) are accepted; the first option on the command line that says something about blank lines decides, unless a box is to be mended, in which case blank lines are kept.", "quantifier": "every string and every sequence of occurrences", "why_tests_cant": "Universal over strings.", "anchors": ["src/tools.c:strisyes", "src/tools.c:strisno", "src/cmdline.c:killblank", "src/cmdline.c:process_commandline"]}
{"id": "C39", "title": "Design listing is a sorted permutation", "statement": "Listing designs shows every design exactly once, sorted case-insensitively by name; tag counts list each tag once with the number of designs carrying it.", "quantifier": "every list of designs", "why_tests_cant": "Universal over lists.", "anchors": ["src/list.c:sort_designs_by_name", "src/list.c:style_sort", "src/list.c:count_tag", "src/list.c:names"]}
{"id": "C40", "title": "Printed shapes can be read back", "statement": "A shape line printed by the design listing, with quotes and backslashes escaped, is read back by the configuration file scanner as the identical line, provided the line has no escape sequence that itself contains a quote or backslash.", "quantifier": "every shape line", "why_tests_cant": "Round-trip law over all strings.", "anchors": ["src/list.c:escape", "src/lexer.l:STRING rule"]}
{"id": "C41", "title": "Identifiers and tags follow one lexical rule", "statement": "A design name or tag is accepted exactly if it starts with a letter, continues with letters, digits and separators, has no two separators in a row, does not end with a separator and does not start with the reserved word.", "quantifier": "every string", "why_tests_cant": "Universal over strings.", "anchors": ["src/tools.c:is_ascii_id", "src/tools.c:tag_is_valid"]}
{"id": "C42", "title": "String helper laws", "statement": "Repeating a string n times, concatenating any number of strings, duplicating at most n characters and trimming a range give exactly the expected strings, whose length matches the allocated buffer.", "quantifier": "every string and count", "why_tests_cant": "Buffer-size claims are universal.", "anchors": ["src/tools.c:repeat", "src/tools.c:concat_strings_alloc", "src/tools.c:bx_strndup", "src/tools.c:trimdup", "src/tools.c:my_strrspn", "src/tools.c:btrim"]}
{"id": "C43", "title": "Last-occurrence search", "statement": "Searching a string for the last occurrence of another returns the right-most position at which it occurs, and nothing exactly if it does not occur.", "quantifier": "every haystack and needle", "why_tests_cant": "Universal over strings; scanning from the end with pointer comparison.", "anchors": ["src/unicode.c:u32_strnrstr"]}
{"id": "C44", "title": "Blank-neighbour cache is coherent", "statement": "Asking whether all shapes to the left (right) of a shape are blank on a line gives the same answer whether or not it was asked before, in any order of questions. The answer is yes at the outer edge of the box, no for a middle shape of the opposite vertical side, and otherwise yes exactly if that line is blank in every existing shape on that hand of the same horizontal side.", "quantifier": "every design and every history of questions", "why_tests_cant": "Universal over histories of cached calls.", "anchors": ["src/shape.c:is_blankward", "src/shape.c:is_blankward_calc"]}
{"id": "C45", "title": "Mending runs removal once and then drawing once", "statement": "With -m the input is read once, the box is removed without printing anything, and then exactly one box is drawn around the text that remains, with the minimum size that the design had before the removal (requested size included); if nothing remains nothing is drawn. Without -m exactly one of drawing or removing happens.", "quantifier": "every option setting, list of designs and input", "why_tests_cant": "Loop control with a counter mutated inside.", "anchors": ["src/boxes.c:main", "src/boxes.c:handle_input"]}
{"id": "C46", "title": "Reading trims trailing white space only", "statement": "When drawing, an input line is cut behind its last visible character that is not white space, keeping one escape sequence that directly follows it; a line of white space only becomes empty. When removing a box, only the line break (newline, then carriage return) is taken off the end of the line.", "quantifier": "all texts made of visible characters and complete escape sequences; all characters as white space or not", "why_tests_cant": "The cut position depends on the interplay of white space and escape sequences anywhere in the line.", "anchors": ["src/tools.c: btrim32", "src/input.c: trim_trailing_ws_carefully"]}
{"id": "C47", "title": "Input is split into lines without loss", "statement": "The pieces read from the input, put together, are the input; each piece fits the line buffer and contains a line break at most at its end; a line is split only if it exceeds the buffer. There is one line per piece, and the final-newline flag says whether the input ends in a line break.", "quantifier": "all byte sequences of any length", "why_tests_cant": "Holds for arbitrary input sizes, including lines longer than the buffer.", "anchors": ["src/input.c: read_all_input, has_linebreak"]}
{"id": "C48", "title": "Reading never crashes on legitimate text", "statement": "For input without control characters other than tab, line breaks and escape, reading and analysing the input succeeds, gives every line a text, and involves no NULL dereference, out-of-bounds access or unsigned underflow.", "quantifier": "all inputs, tab distances of at least one, indentation modes, draw and remove mode", "why_tests_cant": "A crash can depend on any combination of characters; tests sample only a few.", "anchors": ["src/input.c: read_all_input, analyze_input, get_indent", "src/bxstring.c: bxs_from_unicode, bxs_cut_front"]}
{"id": "C49", "title": "Replacement rules work one after the other on every line and keep the line bound", "statement": "Each replacement rule is applied to what the rule before it made of a line; the line becomes what the last rule made of it, its recorded metrics are those of the new text, and no line is lost, added or reordered. The recorded maximum line width becomes the largest width of the old maximum and all texts that the rules made, so it is at least the width of every line and never decreases. The indentation is measured anew exactly in indentation mode 'text'. If and only if a rule fails on a line, the program ends with an error.", "quantifier": "all replacement rules (arbitrary functions on texts), all inputs", "why_tests_cant": "Rules are arbitrary regular expressions; layout arithmetic relies on the bound.", "anchors": ["src/input.c: apply_substitutions", "src/tools.c: analyze_line_ascii"]}
{"id": "C50", "title": "A side is left out exactly if it shows nothing", "statement": "A side of the box counts as empty, and is therefore not printed, exactly if each of its shapes is missing or consists of visible blanks (or characters without width) only; escape sequences do not count as content.", "quantifier": "every design with consistent shapes, each of the four sides", "why_tests_cant": "Depends on the combination of up to five shapes, each with arbitrary lines and colour codes.", "anchors": ["src/shape.c: isempty, isdeepempty, empty_side"]}
{"id": "C51", "title": "Removing a box keeps the indentation", "statement": "When a box is removed in the default indentation mode, the indentation of the whole box is what the remaining text is indented by: each body line begins with the indentation of the input, followed by the text that was inside the box.", "quantifier": "every input line, every design, every position of the side in the line", "why_tests_cant": "Must hold for every indentation, padding and line content, with the sides found anywhere.", "anchors": ["src/remove.c:remove_vertical_from_input", "src/remove.c:calculate_start_idx"]}
{"id": "C52", "title": "A design needs a sample, shapes and elastic shapes", "statement": "A design is accepted only if it has a SAMPLE, a SHAPES and an ELASTIC block and is closed with the name it was opened with.", "quantifier": "every design definition", "why_tests_cant": "Universal over definitions; counting instead of checking is only visible with repeated blocks.", "anchors": ["src/parsecode.c:action_add_design", "src/parsecode.c:action_sample_block", "src/parser.y:block"]}
{"id": "C53", "title": "Design names are unambiguous within a file", "statement": "No two designs of one configuration file share a name or alias (ignoring case); a design has the names written in the file, except aliases which a child configuration already uses; names and aliases of one design differ from each other.", "quantifier": "every configuration file", "why_tests_cant": "Universal over files with any number of designs.", "anchors": ["src/parsecode.c:action_add_alias", "src/parsecode.c:action_add_design", "src/parsecode.c:design_name_exists"]}
{"id": "C54", "title": "Tags of a design are collected, validated and deduplicated", "statement": "The tags of a design are exactly the valid tags among the comma-separated parts of all its tag texts, each once and in order of first occurrence; invalid parts and texts with escape sequences are ignored.", "quantifier": "every design definition", "why_tests_cant": "Universal over strings and number of tag entries.", "anchors": ["src/parsecode.c:tag_record", "src/parsecode.c:tag_split_add", "src/parsecode.c:tag_add"]}
{"id": "C55", "title": "A design contains what is written in the file", "statement": "Of an accepted design author, designer and indentation mode are those given last, rules are kept in order with their kind, the padding of each side is that of the last entry that concerns the side, shape lines are kept as given, all other shapes are blank, and exactly the shapes listed as elastic and the generated middle shapes are elastic.", "quantifier": "every accepted design definition", "why_tests_cant": "Universal over definitions with entries in any order and number.", "anchors": ["src/parsecode.c:action_record_keyword", "src/parsecode.c:action_padding_entry", "src/parsecode.c:action_add_regex_rule", "src/parsecode.c:action_first_shape_line", "src/parsecode.c:action_add_shape_line", "src/parser.y:elist_entry"]}
{"id": "C56", "title": "Only the needed designs are kept", "statement": "If a design is requested, only a design of that name or alias is kept; if none is requested and not all are wanted, only the first good design of the file; if all are wanted, all that are not refused. A refused design does not affect the others.", "quantifier": "every configuration file and combination of options", "why_tests_cant": "Universal over files; interaction of options and error recovery.", "anchors": ["src/parsecode.c:design_needed", "src/parsecode.c:full_parse_required", "src/parsecode.c:action_add_design", "src/parser.y:config_file"]}
{"id": "C57", "title": "Line break and indentation words", "statement": "The line break option accepts exactly CR, LF and CRLF in any case; the indentation option accepts exactly the abbreviations of box, text and none in any case; each stands for what it says.", "quantifier": "every option string", "why_tests_cant": "Universal over strings.", "anchors": ["src/cmdline.c:eol_override", "src/cmdline.c:indentation_mode"]}
{"id": "C58", "title": "Options do not interfere", "statement": "On an accepted command line every setting is determined by the options about it, wherever they are and whatever other options there are: the last one counts for design, configuration file, encoding, colour, line break, indentation, tab distance, width, height and query; switches are on if their option occurs; several padding or alignment options are read as one. Help and version requests after acceptable options make everything else irrelevant; unknown options are errors.", "quantifier": "every sequence of options", "why_tests_cant": "Universal over sequences of options; tests only cover single options and a few pairs.", "anchors": ["src/cmdline.c:process_commandline", "src/cmdline.c:create_new_opt"]}
{"id": "C59", "title": "File arguments", "statement": "At most two file names may follow the options; the first is read, the second written, a dash or a missing name stands for standard input or output; a command line is rejected if a named file cannot be opened; no other setting depends on the files.", "quantifier": "every list of file names and every file system", "why_tests_cant": "Universal over argument lists and file systems.", "anchors": ["src/cmdline.c:input_output_files"]}
{"id": "C60", "title": "Sample blocks keep the picture as written", "statement": "A SAMPLE block is accepted exactly if it is the first one of its design, its text is not blank, and it has no characters other than printable ones and line breaks. The sample kept is the text with blank lines removed from the start and white space from the end, with the line breaks of the output, and ends with one line break.", "quantifier": "all texts without escape sequences, all designs being read", "why_tests_cant": "Samples are arbitrary text; trimming at both ends and line break conversion interact, and tests use the samples of the shipped file only.", "anchors": ["src/parsecode.c:action_sample_block"]}
{"id": "C61", "title": "The text of a configuration file is split into the right tokens", "statement": "The scanner yields certain tokens for a text exactly if the text is made of these tokens according to the lexical rules of configuration files (white space and comments between tokens, reserved words in any case, names, strings between the current delimiters, delimiters that may be changed inside of a design, numbers with a sign, shape names only inside of SHAPES and ELASTIC, sample text up to a line 'ends'; characters that make no sense, unterminated strings and samples yield the tokens that lead to a syntax error), in every mode and with every valid pair of string delimiters. Every text without a carriage return is made of tokens, in one way only.", "quantifier": "all texts, all modes, all valid delimiters, all token sequences", "why_tests_cant": "The scanner is a set of competing patterns in seven modes; tests cover a few files, not every interplay of words, delimiters and modes.", "anchors": ["src/lexer.l:95-518"]}
{"id": "C62", "title": "A configuration file means what it declares", "statement": "The tokens of a configuration file are understood as a list of parents and designs (with their names, aliases, entries and blocks in order) exactly if they follow the grammar; a syntax error is reported for the design in which it occurs, and the reader goes on at the next design or parent. Together with C61: a text is read as certain declarations exactly if it consists of tokens that declare them.", "quantifier": "all token sequences, all declarations, all texts", "why_tests_cant": "The set of grammatical files is infinite, and a wrong grammar rule only shows with the file that uses it.", "anchors": ["src/parser.y:159-415", "src/lexer.l:95-518"]}
{"id": "C63", "title": "Forbidden characters are refused where they would break the output", "statement": "A line of a shape is accepted exactly if it has at least one visible character, no line breaks or control characters, and (after the first line) the width of the shape; a control character in it makes the program access a null pointer instead of reporting the error. The value of an entry with a control character, a line break or an escape sequence is refused. The name of a parent file has none of them, is trimmed, `:global:` stands for the global configuration, and the file must be readable.", "quantifier": "all lines, values, paths and character databases", "why_tests_cant": "The set of Unicode texts is unbounded; tests contain one or two control characters.", "anchors": ["src/parsecode.c:action_first_shape_line", "src/parsecode.c:action_add_shape_line", "src/parsecode.c:action_parent_config", "src/parsecode.c:action_record_keyword", "src/unicode.c:is_allowed_in_shape"]}
{"id": "C64", "title": "Which sides and which box are recognised on removal", "statement": "When a box is to be removed, the box reaches from the first to the last line that is not blank. In each line between the top and the bottom part, the left (right) side recognised is the first of the longest matches among the shape lines of the west (east) side that are not the corners; a shape line may be shortened by blanks, by as few as possible and on its outer side first. A left match begins no further right than the first visible character, a right match ends no further left than the last visible one (up to the blanks cut). The kind of comparison (colours ignored in design, in input, both, neither) is the first applicable one for which more than half of the side pieces are found, else the last applicable one.", "quantifier": "all designs, all inputs, all comparisons and all positions", "why_tests_cant": "The outcome depends on the competition of all shape lines at all positions under up to four comparisons; a wrong tie-break or boundary only shows for special combinations of design and input.", "anchors": ["src/remove.c:592-650 (find_top_side, find_bottom_side)", "src/remove.c:713-870 (match_vertical_side, sufficient_body_quality, find_vertical_shapes)", "src/remove.c:1110-1165"]}
{"id": "C65", "title": "The description of a design shows what was declared", "statement": "With `-l -d name`, the program prints a heading with an underline of the same length and a table with the aliases, author, designer, configuration file, indentation mode, numbered replacement and reversion rules, minimum box dimensions, default padding of the sides that have one, whether removing a box removes blank lines by default (yes unless top and bottom are blank), tags, elastic shapes clockwise from the upper left corner, and all lines of the shapes that show something, with quotes and backslashes escaped; on request (`-q` undocumented mode) the sample in place of the shapes. Missing values are replaced by the documented defaults. Escape sequences are printed only when colours are used. Without a chosen design, all of them are listed.", "quantifier": "all designs whose texts are well-formed, all line terminators, both colour settings", "why_tests_cant": "The separators, defaults and continuation rows depend on which of many optional parts are present; the combinations are unbounded.", "anchors": ["src/list.c:170-190 (escape)", "src/list.c:194-353 (print_design_details)", "src/list.c:357-402 (list_designs)"]}
{"id": "C66", "title": "How often a design is found in the input", "statement": "When the design of a box is to be detected, the score of a design is the number of pairs of a shape line (not blank) and an input line where the shape line is found: west corners at the beginning and east corners at the end of the first (last) lines, as many as the shape is high, unless the sides they belong to show nothing; the shapes between the corners anywhere in these lines (an elastic shape directly followed by another copy), if the box has a top and a bottom; the shapes of the left (right) side at the beginning (end) of the lines between. On the left, each input line counts once per shape, on the right, each shape line counts once. Blanks around the input line and the outer blanks of the shapes do not matter, escape sequences only if the kind of comparison says so. No comparison reads outside the shapes or the input.", "quantifier": "all designs with shapes of consistent heights, all inputs, all kinds of comparison", "why_tests_cant": "The score is a sum over sixteen shapes with different rules, boundaries at the first and last lines, and texts cut at computed positions; tests see only which design is chosen for a few inputs.", "anchors": ["src/detect.c:match_design", "src/detect.c:find_west_corner", "src/detect.c:find_east_corner", "src/detect.c:find_horizontal_shape", "src/detect.c:find_vertical_west", "src/detect.c:find_vertical_east", "src/detect.c:prepare_comp_input", "src/detect.c:prepare_comp_shape"]}
{"id": "C67", "title": "The option -c puts its argument in front of every line", "statement": "With `-c ARG`, no design of the configuration is used. Unless a size, padding or justification is requested, the output has exactly one line per input line: the common indentation of the input, ARG, one space, and the input line without the common indentation, its tabs expanded and trailing blanks removed. Line ends are those of the input. This holds for every ARG that shows something and has no more bytes than columns, i.e. for ASCII text. An ARG without columns or of more than 16382 columns is refused. An ARG with a control character or with more bytes in UTF-8 than columns (any character outside of ASCII) leads to undefined behaviour: a null pointer is dereferenced, or a buffer overflows.", "quantifier": "all arguments, all inputs of readable lines, all settings of the other options", "why_tests_cant": "The design is built from the argument and then goes through the size, assembly and output code; that no empty top, bottom or right side shows up holds for all sizes of text only because of how these parts fit together.", "anchors": ["src/boxes.c:72-175 (build_design)", "src/boxes.c:207-235 (handle_config_parsing)", "src/boxes.c:300-376"]}
{"id": "C68", "title": "What is left after removing a box is printed completely", "statement": "After a box was removed, one line is printed per remaining line, in order, without trailing blanks. By default it is the remaining text itself. With unexpanded tabs (-t ..u) the leading blanks are printed as tabs and fewer than one tab stop of spaces for the same columns, followed by the rest of the line. With kept tabs (-t ..k) the common indentation is printed with the tabs of the line restored, followed by the rest of the line. With its tabs replaced the printed line shows the line that is left, so no text is lost, provided blanks are one column wide and, for kept tabs, that the line has the common indentation (as is the case right after the removal of a box with a left side, unless reversion rules change the text).", "quantifier": "for all remaining lines, tab modes, tab stops, recorded tab positions and line terminators", "why_tests_cant": "Tests show a few boxes, nearly all with expanded tabs and without colours; that no text is lost depends on the indentation, the recorded tabs, escape sequences and the removal having computed the common indentation over all lines.", "anchors": ["src/remove.c:1174-1223", "src/remove.c:1075-1108", "src/tools.c:363-400", "src/bxstring.c:381-390"]}
{"id": "C69", "title": "The complete program does what its options say, from command line to printed text", "statement": "Help and version are printed if and only if they are requested before any wrong option, whatever else is there. A wrong option, unusable file arguments or a missing configuration file end the program with an error. Otherwise the output goes to the second file argument or standard output and depends, of all inputs, only on the one named by the first argument; with -l or -q it does not depend on any input. Without -l, -q, -r, -m and -c, the printed text is the complete box of the first design of the configuration files - the one called by the name given with -d - around the input; with -c the text given there is put before each line; with -q exactly the designs whose tags match are printed in order; with -l the designs are listed or the chosen one is described; with -r the lines that are left after removing the box of the chosen or detected design are printed; without input nothing is printed. Colours are used as the last of the options for and against them says, otherwise as the terminal says.", "quantifier": "for all command lines, configuration files with any parents, environments, file systems, inputs, substitution results of the regular expression library and terminals", "why_tests_cant": "Each run of the black-box test suite exercises one fixed command line on one fixed input; that the stages compose (settings of one stage reach the next, no other input leaks into the result) is a statement about all combinations.", "anchors": ["src/boxes.c:497-564", "src/boxes.c:207-296", "src/boxes.c:383-453", "src/cmdline.c:724-862", "src/parsing.c:161-300", "src/generate.c:855-1104", "src/remove.c:1174-1223"]}
{"id": "C70", "title": "Removing a box gives back the text that was in it", "statement": "If the input is a box around some texts (top rows made of the corners and the shapes of the top side, body rows made of a line of the left side, the text and a line of the right side, bottom rows accordingly, all with trailing blanks cut off and indented alike), and the design is one whose sides are visible in every line, then `boxes -r` with that design finds exactly this box and leaves exactly those texts, in order, each without the left padding and behind the common indentation; blank lines at the beginning and at the end are dropped as far as -k and the padding say, and nothing else is lost or added.", "quantifier": "for all designs with visible, equally shaped sides, all numbers of repetitions of elastic shapes, all indentations, all texts without double-width blanks (also texts that look like parts of the box, and texts with escape sequences, which are kept except for those at the edges of the text that cutting drops), all options", "why_tests_cant": "whether a body text can be confused with a side, a corner or an edge depends on all combinations of design and text; tests run a few designs on a few texts", "anchors": ["src/remove.c:remove_box", "src/remove.c:find_top_side", "src/remove.c:hmm", "src/remove.c:find_vertical_shapes", "src/remove.c:remove_vertical_from_input"]}
{"id": "C71", "title": "Drawing a box and removing it again gives back the text", "statement": "If boxes draws a box around a text of plain lines and is run again with -r and the same design on what it printed, it prints exactly the text it was given, with the same line ends and with or without a newline at the end as before, whatever the design, the padding and the indentation of the text (indentation mode box or text). Lines that are empty come back as lines in which nothing shows; the texts above the first and below the last line that shows something are dropped as the -k option says. With the indentation mode none, the common indentation is lost and nothing else.", "quantifier": "for all designs with visible, equally shaped sides whose left corner begins with something to see, all texts without tabs, escape sequences and trailing white space, all line ends, all options that do not move the text (no alignment to the centre or right, no justification, no requested width, tabs as spaces), both through the functions and through the whole main loop run twice", "why_tests_cant": "The round trip depends on the design, the sizes, the numbers of repetitions of elastic shapes, the indentation and the trimming of the box's rows at once; the test suite has one test case with fixed output for each direction and never composes them.", "anchors": ["src/generate.c:855-1104", "src/remove.c:1174-1223", "src/input.c:57-347", "src/boxes.c:207-296"]}
{"id": "C72", "title": "Debug messages are printed exactly for the areas asked for with -x", "statement": "The option -x accepts (undoc), debug, and debug: followed by areas separated by commas, in any case and with blanks around them, and refuses unknown areas. After the command line was processed, a message about an area is printed on stderr if and only if one of the -x options asks for this area, for all areas, or (main only) for debug without areas; requests add up. A printed message of less than 1024 bytes consists of the base name of its source file in brackets, padded to nine characters, and the text; without a request nothing is printed. (Longer messages overflow the buffer.)", "quantifier": "for all option lists, argument strings, areas, module paths and messages", "why_tests_cant": "The tests run a few fixed -x arguments; that no combination of earlier options turns an unrequested area on or drops a request is a statement about all option lists and messages.", "anchors": ["src/cmdline.c:470-515", "src/cmdline.c:571-604", "src/logging.c:38-154"]}
{"id": "C73", "title": "Replacement by regular expression gives the complete result, however long it is", "statement": "Given a regular expression library that behaves as PCRE2 documents (the result is stored if it fits the buffer together with its NUL, otherwise the needed size is reported), a replacement always yields the complete result of the substitution after at most two calls of the library, however much longer than the input it is; it fails exactly if the library reports an error, and the loop always ends.", "quantifier": "for all results of any length, all inputs, all library behaviours that conform", "why_tests_cant": "The growing of the buffer happens only for results longer than twice the input; tests use a few short texts.", "anchors": ["src/regulex.c: u32_regex_replace"]}
{"id": "C74", "title": "Mending a box that is intact gives back the same box", "statement": "If boxes draws a box around a text and is run again with the same options and -m on what it printed, the second run prints exactly the same box: the text with its escape sequences, its place in the box, the size and the indentation of the box and the line ends. It prints nothing while it removes the box. This is so for texts without empty lines in boxes that are as high as the text with its padding, unless an alignment, a justification or a size is asked for. (-m removes no blank rows other than the padding; they would become part of the text.)", "quantifier": "for all texts of lines that are not empty and may be in colour (any length, indentation, escape sequences, line ends), all designs whose boxes can be recognised, both indentation modes that keep the indentation, all paddings and tab stops", "why_tests_cant": "It is the composition of drawing, reading, analysis, recognition of the box, removal, a second analysis with the sizes put back, and drawing; one test mends one box. Whether the sizes and paddings that are changed in the first round are put back for the second shows only for some designs and texts.", "anchors": ["src/boxes.c: main", "src/boxes.c: handle_input", "src/boxes.c: adjust_size_and_padding", "src/remove.c: remove_box", "src/remove.c: output_input"]}
{"id": "C75", "title": "Options can be written in all the usual ways", "statement": "Every option can be given by its letter or by its long name; the long name may be shortened as long as no other long name begins like that. Letters of options without value can be joined behind one dash, and a value can follow its letter directly or be the next word; a value follows a long name behind an equals sign or as the next word, whatever that word looks like. All other words, and a single dash, are file names wherever they stand; behind two dashes all words are. What is written in none of these ways is refused, unless help or the version is requested in front of it. The program does the same for all ways of writing the same options and file names.", "quantifier": "every list of arguments", "why_tests_cant": "Universal over lists of words of any length; tests use a few spellings of a few options.", "anchors": ["src/cmdline.c:732-943 (process_commandline, short_options, long_options)", "src/cmdline.h:32-35"]}
{"id": "C76", "title": "The program ends unless it has to draw a box that cannot be closed", "statement": "For every command line, every environment with finitely many configuration texts and every input, the program comes to an end, provided that for each loaded design the top and bottom sides can be filled to a common width and the left and right sides to a common height. Removing, mending, listing and refusing never hang on any input. When a box is drawn around a readable non-empty text, the program ends with the output exactly if the design meets this condition; if it does not, the program never ends, although the design file was accepted.", "quantifier": "all command lines, machines (files, configuration texts, environment), and inputs", "why_tests_cant": "Termination for all inputs, and the absence of it for a class of designs, cannot be observed by finitely many runs; a test can only time out.", "anchors": ["src/boxes.c:497-564", "src/generate.c:37-226", "src/generate.c:228-411", "src/parsing.c:217-312", "src/detect.c:548-593"]}
{"id": "C77", "title": "A box is removed without naming its design", "statement": "If a box is drawn around plain text lines with a design that forms a complete frame without colours, and what was printed is given to a second run that removes a box without being told which design, with any list of designs that contains this one, then the second run prints exactly the original lines, provided that of all designs without colours in the list the printed box shows the most traces of this one (of designs with equally many, the first one counts). The number of traces of a design in an input is determined: it is the number of places where a line of a shape is found. Only the design that is found determines what is removed, except that the default for removing blank lines is taken from the first design in the list.", "quantifier": "all designs, lists of designs, option settings, and plain texts", "why_tests_cant": "The choice depends on the interplay of any number of designs with every possible text; tests can only check that particular boxes are recognised among particular designs.", "anchors": ["src/detect.c:95-546", "src/detect.c:548-593", "src/remove.c:868-1030", "src/boxes.c:380-394"]}
{"id": "C78", "title": "Drawing a box around coloured text and removing it keeps the colours", "statement": "If boxes draws a box around lines that contain escape sequences (colours) and is run again with -r and the same design on what it printed, the lines come back exactly, each with all of its escape sequences in their places, with the same line ends and the same end of the text. If escape sequences are not output (no colours), the lines come back without them. Each line may begin with one sequence that is no reset behind its indentation, may end with one reset sequence, and may have any number of sequences within. Sequences in front of the indentation, a second sequence in a row behind the indentation, and a sequence other than a reset at the end of a line may be lost.", "quantifier": "for all designs whose boxes can be restored, all such lines with any escape sequences, all line ends, indentation modes box and text, all options that do not move the text, both through the functions and through two runs of the complete program, with and without colours", "why_tests_cant": "the escape sequences take part in every computation of positions and widths, when drawing and again when removing; the test suite has a few coloured inputs for drawing and for removing and never composes the two", "anchors": ["src/unicode.c", "src/bxstring.c:bxs_trim", "src/generate.c:output_box", "src/remove.c:remove_vertical_from_input", "src/input.c"]}
{"id": "C79", "title": "Inserting blanks into a string", "statement": "`u32_insert_space_at(&s, idx, n)` replaces the string s by the string with n blanks inserted at position idx, or at its end if s is shorter; with n == 0 nothing changes.", "quantifier": "for all strings, all positions, all numbers of blanks, all contents and sizes of the block of memory that holds the string", "why_tests_cant": "whether the result is terminated depends on what the memory contained that realloc() hands out; the unit test passes or fails accordingly", "anchors": ["src/unicode.c:344-359", "utest/unicode_test.c:185-206"]}
{"id": "C80", "title": "Texts are kept in memory that is large enough for them", "statement": "Whenever a text is analysed, shifted by spaces, escaped for a listing, or read from the input, everything is written within the memory that was reserved for it, whatever its length and its characters: the ASCII form and the two position maps of a string, the four buffers of a string to which spaces are added in front or behind, the work string and the list of tab positions when tabs are expanded, the array of input lines, and the buffers in which invisible characters are counted. For the analysis this holds of all texts without tabs; a text with a tab (a line of a shape, a sample or a replacement in the configuration file) is written beyond the end of its ASCII form unless its escape sequences happen to make room.", "quantifier": "for all texts, numbers of lines, numbers of spaces and tab distances from 1 to 16, and for all character databases with widths like those of libunistring", "why_tests_cant": "The sizes are computed by other rules than the data that is written (display width against characters, doubling of a map against one entry per character); an overrun by a few bytes shows no effect in a test, and which texts overrun is a question about all texts.", "anchors": ["src/bxstring.c:83-180", "src/bxstring.c:472-547", "src/tools.c:221-276", "src/tools.c:487-543", "src/input.c:216-264", "src/list.c:170-190", "src/bxstring.c:35-79"]}
{"id": "C81", "title": "Colours do not change the box", "statement": "Two inputs whose lines show the same characters and differ only in their escape sequences get the same box: the same number of rows, rows that show the same characters in the same places, and the same line breaks; if one can be drawn, so can the other. When no colours are printed, exactly the same is printed for both. This is so as long as no tab stands behind an escape sequence in its line (tab expansion counts the unseen characters of the sequence as columns), tabs are not kept (-t Nk), and the design has no replacement rules.", "quantifier": "for all designs, options, configuration files, all inputs of complete lines and all ways to place escape sequences in them", "why_tests_cant": "A test compares a few coloured texts with the uncoloured ones; the claim is about every text and every placement of sequences in it, in the indentation, between and behind blanks, and about all designs and alignments.", "anchors": ["src/input.c:62-92", "src/input.c:195-264", "src/input.c:276-347", "src/tools.c:221-276", "src/generate.c:855-1108", "src/bxstring.c:83-180"]}
{"id": "C82", "title": "The colours of a design do not matter where no colours are shown", "statement": "Two designs whose shapes show the same characters and differ only in their escape sequences draw the same box: the same number of rows, rows that show the same characters, and the same line breaks. When no colours are printed, exactly the same is printed, and no escape sequence is in it. From an input without escape sequences, both designs remove the same (if one was chosen by name): the same lines are printed, or the same failure is reported. So on a terminal without colours, a box drawn with a design in colour can be removed with that design, and exactly the text is left. (Drawing: with designs that have no replacement rules.)", "quantifier": "for all designs and all ways to place escape sequences in their shapes, all options, all inputs", "why_tests_cant": "A test draws and removes boxes with a few coloured designs; the claim is about every design and every placement of colours in it, and about the choice between two ways of comparing a design with the input that is made for each row.", "anchors": ["src/generate.c:46-1108", "src/remove.c:110-1224", "src/detect.c:42-200", "src/bxstring.c:551-565"]}
{"id": "C83", "title": "A box in colour is removed with its design, and its text is left", "statement": "A box drawn with a coloured design, as it is on a terminal that shows the colours (the rows of top and bottom show the characters of the design, with any escape sequences; the rows between are the indentation, a line of the left side, a text, a line of the right side, all with their escape sequences), is removed with the same design. Each row of top and bottom is removed, from each other row exactly the text without the left padding is left, with its own escape sequences and with the indentation restored if so requested. Then blank lines at the beginning and the end are dropped as the options say. The same is left when none of the rows shows a colour. (The design: a line of the left side begins with blanks, at most one sequence and a visible character, the last visible character of a line of the right side is no blank, the lines of each of the two sides have the same number of characters, and at least as many as columns.)", "quantifier": "for all designs of this kind, all texts with and without escape sequences, all options", "why_tests_cant": "A test removes one coloured box; the claim is about every placement of escape sequences in the design and in the text. Which of four ways of comparing is used depends on the whole input and on how much was found in it.", "anchors": ["src/remove.c:110-1224", "src/detect.c:42-200", "src/shape.c"]}
{"id": "C84", "title": "A box in colour can be drawn and removed again without a trace", "statement": "When a box is drawn with a coloured design (of the kind described in C83) around lines that may themselves be in colour, and the output is given to a second run that removes the box with the same design and the same options, the text is printed as it was read, line by line with its own escape sequences, and no escape sequence of the box is left. If the run that draws shows no colours, the same holds with the lines without their escape sequences. In between, the drawn box consists of the rows which the size of the text and of the design require, and before blank lines are dropped exactly the lines of the box between top and bottom come back: the padding above as empty lines, the lines of the text, the padding below.", "quantifier": "for all designs of this kind, all texts with and without escape sequences, all options that draw a box, terminals with and without colours", "why_tests_cant": "A test draws and removes one coloured box; whether the sequences of the design are told apart from those of the text depends on every combination of the two, and on the kind of comparison which is chosen from the complete input.", "anchors": ["src/generate.c:300-760", "src/remove.c:110-1224", "src/detect.c:42-200", "src/bxstring.c", "src/boxes.c:200-420"]}
{"id": "C85", "title": "The colours of a line end with the line", "statement": "When a box is drawn, no colours are active at the end of any line that is printed, so that neither the next line nor what the terminal shows after the output is coloured. (Provided that this is so for the parts: each line of each shape has no escape sequences, or its last sequence ends all colours and its last visible character is no blank; in each line of the input, the colours are off directly behind its last visible character that is no white space.) This holds for every indentation mode, alignment, justification, padding and size, and for every treatment of tabs. Without colour output, no escape sequences are printed at all.", "quantifier": "for all designs and all inputs of this kind, all options, all line ends, terminals with and without colours", "why_tests_cant": "Where escape sequences end up depends on cutting (indentation, justification) and trimming (of input lines and of printed rows) in combination with every placement of sequences; a test looks at one combination.", "anchors": ["src/generate.c:855-1104", "src/bxstring.c:454-468", "src/input.c", "src/unicode.c"]}
{"id": "C86", "title": "Boxes in boxes can be removed one after the other", "statement": "If boxes is used as a filter several times in a row (boxes -d a | boxes -d b | ...), each run draws its box around everything that the run before has printed. Removing the boxes in the opposite order, each with the command that drew it and -r, prints the original text, whatever the number of boxes and whichever designs are combined, including the same design several times: an inner box is never taken for the outer one. This is so for plain texts without empty lines, designs that make a frame with only spaces for blanks, and options that keep the indentation.", "quantifier": "for all machines, all lists of commands (of any length, with any designs that make a frame), all plain texts", "why_tests_cant": "The number of nested boxes, the designs and the texts are unbounded; the removal has to find the outer box although the text inside consists of box parts, perhaps of the same design.", "anchors": ["src/remove.c: remove_box, find_top_side, find_bottom_side", "src/generate.c: generate_box, output_box", "src/boxes.c: main", "src/input.c: read_all_input"]}
{"id": "C87", "title": "Mending a box in which somebody has written draws the box around the edited text", "statement": "Take a box whose text has been edited: texts have become longer or shorter, so that the right side is out of line; the top and the bottom have the wrong width; blank rows of the padding are missing. boxes -m with the options that are used for drawing prints exactly what these options print when they read the text itself (with the indentation of the box): the box is fitted to the new text, and no line of text is changed, lost or added. boxes -r prints exactly the texts, with the indentation of the box. This is so for plain texts without empty lines and designs that make a frame, for any indentation mode.", "quantifier": "for all machines, all command lines that draw with a design chosen by name, all configured designs that make a frame, all boxes of that design with any texts, any distance between text and right side in each row, any width of top and bottom, any number of rows of padding up to the configured one", "why_tests_cant": "The edited box can be damaged in unboundedly many ways; tests show single damaged boxes. The claim compares the mended box with the box drawn around the text for all of them.", "anchors": ["src/remove.c: remove_box, match_horiz_line, match_vertical_side, remove_vertical_from_input", "src/boxes.c: main (mend loop)", "src/generate.c: generate_box", "doc/boxes.1.in: -m"]}
{"id": "C88", "title": "Removing a box where there is none leaves the text as it is", "statement": "boxes -r with a named design, reading a plain text in which no visible character of the design's shapes occurs, prints the text as it is: every line, in order, none shortened, and the last line with or without a line terminator as in the input. This is so if some line of the text is not indented, or if indentation is not to be restored (-i text, -i none). Otherwise, the common indentation is put in front of the lines a second time, and nothing else changes (documented as a disagreement).", "quantifier": "for all machines, all command lines that choose a design by name and remove, all configured designs that make a frame, all plain texts (any number of lines, empty lines included) that share no visible character with the design", "why_tests_cant": "Removal guesses where the box is; that it does not eat any text which has no box depends on the matching of every row and column of every design against every line of text. Tests show only texts of a few lines with a few designs.", "anchors": ["src/remove.c: remove_box, find_top_side, find_bottom_side, match_horiz_line, find_vertical_shapes, match_vertical_side, remove_vertical_from_input, output_input", "doc/boxes.1.in: -r"]}
{"id": "C89", "title": "The help text tells the truth about options and defaults", "statement": "boxes --help lists options, the arguments they take, and defaults. Every option name that the text shows is accepted; it takes an argument exactly if the text shows one; names in the same line are the same option; and every option that the program has is shown. The defaults shown for -a (hlvt), -e (LF), -t (8e), -d (first one in file) and -f (the file named in the text) are the defaults: giving them explicitly changes nothing, and the file named is the one used without -f; where the text says that there is none, every run without -f fails. The help text and the version go to standard output, whatever else is on the command line behind the option. For -i and -p the defaults shown hold only where the design has no settings of its own (documented as a disagreement).", "quantifier": "for all machines (files, environment, input, character data), all command lines and all configuration files; all arguments behind the options shown", "why_tests_cant": "The help text is a list of string literals which nothing connects to the option table, to the initial values of the options or to the search for the configuration file. That spelling out a default changes nothing is a statement about every run; a test compares the help text with a recorded copy of itself.", "anchors": ["src/cmdline.c:83-118", "src/cmdline.c:741-800", "src/discovery.c:242-311", "src/boxes.c:182-200", "src/parsecode.c:686-729"]}
{"id": "C90", "title": "Mending where there is no box draws one", "statement": "boxes -d X -m, reading a plain text in which no visible character of the shapes of design X occurs, prints exactly what boxes -d X prints for that text: the box is drawn around the text as it is, empty lines at the beginning and at the end included. This is so if some line of the text is not indented, or if indentation is not to be restored (-i text, -i none). A text that is indented as a whole is indented twice (documented as a disagreement).", "quantifier": "for all machines, all command lines that choose a design by name, all configured designs that make a frame, all plain texts (any number of lines, empty lines included) that share no visible character with the design", "why_tests_cant": "Mending first removes what it takes for a box and then draws a new one from what is left. That nothing is taken away from a text without a box, that blank lines survive the removal and that the second reading of the options gives the same size and padding depends on all texts and designs; editor macros run the command on any selection.", "anchors": ["src/boxes.c:270-302", "src/boxes.c:362-411", "src/boxes.c:503-566", "src/remove.c:592-650", "src/remove.c:1014-1041", "src/remove.c:1075-1226"]}
{"id": "C91", "title": "A design can be chosen by any of its names, in upper or lower case", "statement": "Given with -d, the name of a design may be written in upper or lower case: the program does the same, whatever else is on the command line (drawing, removing, mending, listing, tag queries). In a configuration file without parents, any alias of a design may be given instead of its name, provided that no other design in the file has one of the two names. A name that no design in any of the configuration files has ends the program with an error.", "quantifier": "for all machines, all command lines with -d at any place, all configurations with parents (upper/lower case, unknown names) or without parents (aliases)", "why_tests_cant": "The name is compared in the parser while the file is read; equality of two complete runs for all command lines and configurations is a relational statement", "anchors": ["src/cmdline.c:262-273", "src/parsecode.c:276-332", "src/parsecode.c:608-625", "src/parsing.c:161-309"]}
{"id": "C92", "title": "Mending once is enough", "statement": "When boxes -d X -m has mended a box in which somebody has written, or has drawn the box around a plain text that had none, then running it once more on what it has printed prints the same again (for texts without empty lines that fill the box).", "quantifier": "for all machines, all restorable designs without rules, all command lines that draw, all edited boxes and plain texts", "why_tests_cant": "Idempotence over all designs, options and edited boxes is a property of pairs of runs", "anchors": ["src/boxes.c:515-563", "src/remove.c:1-1260", "src/generate.c:1-1120"]}
{"id": "C93", "title": "A box is mended without naming its design", "statement": "boxes -d X | boxes -m gives the box that boxes -d X printed: the second run finds out the design, removes the box and draws it again exactly as it was (for texts without empty lines that fill the box, and designs of which the box shows more traces than of any other; unless the least size of the first design of the configuration is at fault, which is wrongly applied to the box).", "quantifier": "for all machines, all configurations with readable shapes, all restorable designs without rules at any place in the configuration, all command lines that draw without -p, -i, -s, and all plain texts", "why_tests_cant": "The result depends on all designs of the configuration, on the text and on the state that one round of mending leaves to the next; two designs whose minimum sizes differ are needed to see the fault", "anchors": ["src/boxes.c:515-563", "src/remove.c:826-905", "src/generate.c:60-80"]}
{"id": "C94", "title": "A refused command line is explained", "statement": "The program prints a message about the command line on standard error if and only if it refuses the command line. The message begins with the name of the program, says what is wrong with the first option that is not accepted (or else with the files), and shows the part of the argument that is at fault: the text of the alignment, padding, size or line break, the first term of a query that is no tag or appears twice, the first unknown debug area, the third file. What comes after the refused option plays no part.", "quantifier": "for all command lines", "why_tests_cant": "Each option has its own conditions and its own messages, the terms of queries and areas are checked in a loop; the number of command lines is unbounded", "anchors": ["src/cmdline.c:71-75", "src/cmdline.c:151-680", "src/cmdline.c:732-941", "src/query.c:47-116"]}
{"id": "C95", "title": "The box has the size that was asked for", "statement": "With -s WxH the printed box has at least H lines and at least W columns (behind its indentation). It has exactly H lines if the minimum height of the design is not larger, the text with the corners has room in it, and the left and right sides can be made that high; and exactly W columns under the same conditions for the width. Whatever padding the design or -p asks for, it is reduced instead of making the box larger. Sides that show nothing do not count.", "quantifier": "for all machines, all command lines that draw with -s, all designs without rules, and all readable inputs", "why_tests_cant": "The size depends on the least common extent of two sides of any shapes, on padding of four sides from two places, on blank sides and on the text; samples cannot show that the box is never larger than asked for", "anchors": ["src/boxes.c:239-263", "src/boxes.c:304-355", "src/generate.c:104-640", "src/cmdline.c:320-371"]}
{"id": "C96", "title": "Blanks at the ends of lines and the kind of line breaks make no difference when a box is drawn", "statement": "If two inputs differ only in the plain white space at the ends of their lines - trailing blanks, tabs, carriage returns - then a run of the program that neither removes nor mends a box does the same for both: same text, same file, same error. This holds for every command line and every design, with substitution rules too. Whether the input ends in a line break decides only whether the box does: the box without it, plus one line break of the kind chosen with -e, is the box with it.", "quantifier": "for all machines, all command lines without -r and -m, all pairs of inputs that differ only in white space at the ends of lines", "why_tests_cant": "Trailing white space reaches trimming, tab expansion, measuring, rules and the final line break separately; a test would have to pair every input with every change at every line end", "anchors": ["src/input.c:195-214", "src/tools.c:298-340", "src/input.c:216-300", "src/generate.c:855-990"]}
{"id": "C97", "title": "Other designs in the configuration do not matter for the one that is chosen", "statement": "If a design is chosen with -d, the program does the same whatever other designs are in the configuration files: designs with other names may be added, changed, removed or broken without any effect on the output. Only the designs that have the given name or alias count, and the parent files.", "quantifier": "for all command lines with -d, all machines, all sets of configuration files that agree on the designs with that name and on the parents", "why_tests_cant": "Configuration files can hold any number of designs in any order over several files; a test has one set of them", "anchors": ["src/parsecode.c:304-332", "src/parsecode.c:608-625", "src/parsecode.c:707-729", "src/parsing.c:266-309"]}
{"id": "C98", "title": "Indenting the text moves the box", "statement": "If every line of the input is given the same number of spaces in front, the box is the same. When the box is to be indented like its text (indentation mode box), each printed line is the old one with that many spaces in front, or with as many tabs as make up that many columns if leading spaces are to become tabs (tab mode u; the number must then be a multiple of the tab stops); when indentation is dropped (mode none), exactly the same is printed. This holds with tabs in the text if the spaces are a multiple of the tab stops, with colours, and with blank lines; some line must show something. Tab mode k together with mode box is left out, because there the printed indentation is taken from the input lines themselves.", "quantifier": "for all designs without replacement rules, all command lines that draw a box in mode box or none, all texts and all numbers of spaces", "why_tests_cant": "The indentation is found as a minimum over all lines, removed from each, and put back in front of every row of the box; tests try a few texts", "anchors": ["src/input.c:58-92", "src/input.c:276-340", "src/generate.c:880-990"]}
{"id": "C99", "title": "The order of options about different things does not matter", "statement": "Options may be given in any order as long as those about the same thing keep theirs: with such a reordered command line the program does exactly the same, whether it is accepted or refused. Only options about the same thing are sensitive to order: repeated ones, -k and its long forms together with -m, and help, version and unknown options, which end the reading of the command line.", "quantifier": "for all command lines without help and version requests, all reorderings that keep the order within each topic, all machines", "why_tests_cant": "There are as many orders as permutations of the options; tests use a few fixed ones", "anchors": ["src/cmdline.c:780-926", "src/cmdline.c:151-229", "src/cmdline.c:336-466", "src/cmdline.c:524-604"]}
