# Formal model of `boxes` — design

Source: `/repo/src` (C). Model and proofs: Lean 4 in `lean/Verif`. Nothing here builds or runs the C code; the
model is a hand translation, function by function, with file/line citations on every definition.

## Layout of the Lean project

| directory            | content |
|----------------------|---------|
| `Verif/Model/*.lean` | the translated functions (total, computable), roughly one module per C file |
| `Verif/Spec/*.lean`  | small independent specifications (inductive predicates, plain list/arithmetic formulas) |
| `Verif/Lemmas/*.lean`| helper lemmas, not claims |
| `Verif/Props/*.lean` | the property theorems `Cxx_...`, each with a concrete `example` that meets its hypotheses |

`seeded/LOG.jsonl` records the faults seeded into the model to test the theorems: one line per edit, the theorems that
failed, and what was tightened when none failed.

## Names of theorems

* `Cxx_name`: part of the proof of property Cxx.
* `Cxx_name_partial`: proves less than the English statement; the comment says what is missing.
* `Cxx_name_disagrees`: the code does not do what the documentation or the naive reading of the property says. A concrete
  witness is evaluated in the model. The general theorem beside it has the condition that excludes the witness, or
  describes what the code really does.

## Modelling conventions

* A NUL-terminated string is the `List Nat` of its characters before the NUL (code points for `uint32_t *`, bytes
  for `char *`). The terminator is not stored. Strings are assumed to hold valid Unicode scalar values (they come out
  of `iconv`).
* `size_t`/`int` values are `Nat`/`Int` without an upper bound. *Subtraction* is never silently truncated: where C
  subtracts unsigned numbers, the model uses a checked subtraction that yields a distinct outcome on underflow, or the
  theorem proves that the guard `b ≤ a` holds. Additions are assumed not to exceed 2^64.
* Results are `Res`: `ok`, `fail n` (the program reports an error or ends with status n) or `ub` (undefined behaviour:
  null dereference, access outside of an array, underflow of a size). Theorems say in which of the three cases a call is.
* Character classification by libunistring (`uc_width`, `uc_is_blank`, `uc_is_cntrl`, white-space properties) is a
  parameter `CharDb`; theorems hold for every classification satisfying the hypotheses they name. `Sane db` collects the
  facts about ASCII that the program relies on.
* Memory allocation always succeeds. Which debug messages are printed is modelled (C72), what they say is not.
* Loops that need not terminate (`horiz_precalc`, `vert_precalc`) carry a fuel argument; "terminates" means some fuel
  suffices. Other loops have a fuel that is proved to be sufficient, or are structural.
* The file system and the environment are parameters (predicates and functions), so theorems hold for all of them.

## Per property: what is modelled and how it is proved

* **C01 Escape-aware text metrics** (proved). `advance_next32`, `bxs_from_unicode`, `bxs_from_ascii` against the inductive `Text s v` ("`s` consists of the visible characters `v` and complete escape sequences"); loop invariant over the accumulator.
* **C02 Character position maps are exact** (proved). `is_csi_reset`, the two position maps; spec `slots`/`ResetSeq`; invariant of C01 with positions.
* **C03 Monochrome output strips exactly the escape sequences** (proved). `bxs_to_output`; corollary of C01 for both colour settings.
* **C04 Right-trimming removes only trailing blanks** (proved). `bxs_trim`, `bxs_rtrim`; equality with the analysis of the shortened text.
* **C05 Adding spaces keeps metrics consistent** (proved). `bxs_prepend_spaces`, `bxs_append_spaces`; same method, with a counterexample for blank lines.
* **C06 Cutting and slicing act on visible characters** (proved). `bxs_cut_front`, `bxs_substr`, `bxs_strcat`, `bxs_concat`, `bxs_trimdup`, `bxs_ltrim`, `bxs_strchr`, `bxs_is_blank`, `bxs_is_visible_char`; equality with the analysis of the expected text.
* **C07 Tab expansion keeps columns** (proved). `expand_tabs_into`; inductive relation `Expand` between text with tabs, column and result; induction on the text.
* **C08 Leading tabs are restored to the same column** (partial). `tabbify_indent`; display column of the restored indentation equals the number of blanks.
* **C09 Common indentation is found and removed faithfully** (proved). `get_indent`, `analyze_input`; minimum over all lines that have columns; induction over lines.
* **C10 Horizontal sides are fitted minimally and equal** (proved). `horiz_precalc` as a step function; spec: least common length of the two sets of reachable widths (`fitting`); invariant over steps.
* **C11 Box drawing terminates exactly when the sides can meet** (proved). the same loop with fuel; ends for some fuel iff a common length exists; gcd criterion; a design accepted by the parser for which it never ends.
* **C12 Vertical sides are fitted minimally and equal** (proved). `vert_precalc`; same as C10 (one generic loop, `precalcLoop`).
* **C13 Top and bottom sides are assembled completely** (proved). `horiz_chars_required`, `vert_assemble`, `horiz_generate`; each assembled line is the concatenation of replicated shape lines.
* **C14 Left and right sides are assembled completely** (proved). `horiz_assemble`, `vert_generate`; each side is the list of replicated lines.
* **C15 The drawn box is a rectangle** (proved). `generate_box`, `output_box`; every printed row has the same width before trimming.
* **C16 The text is drawn completely, in order and unaltered** (proved). `output_box`, composed with reading and analysis (`C16_program`): the bytes read determine the bytes printed.
* **C17 Vertical placement honours padding and alignment** (proved). vertical part of `output_box` as a closed formula.
* **C18 Horizontal placement honours padding and alignment** (proved). horizontal part of `output_box` as a closed formula.
* **C19 Line justification stays within the text block** (proved). `justify_line`; visible text moves by the right number of columns.
* **C20 Drawing never underflows its size arithmetic** (proved). checked subtraction in the model; theorem: no underflow for designs that the parser accepts; converses show the conditions necessary.
* **C21 Requested size takes precedence over padding** (proved). `apply_expected_size`, `adjust_size_and_padding`; closed form for the shrinking loop, proved by induction.
* **C22 Line terminators and final newline are preserved** (proved). line terminators of every printed line for drawing and removal.
* **C23 Removing a box never invents or reorders text** (proved). `apply_results_to_input` and everything below it over arbitrary match results; each output line is a piece (`TakenFrom`) of the input line. C23_found_total, C23_total: with a parsed design and input as read, the search never leaves its data and the removal succeeds unless the parts found overlap.
* **C24 Blank-line killing removes only blank lines within its limit** (proved). `killblank`; maximal run of blank lines within the limit.
* **C25 Shape line matching is sound** (partial). `hmm`, `hmm_shiftable`, `shorten`, `match_outer_shape`, `match_horiz_line`, `find_top_side`, `find_bottom_side`; spec `Recognised`: corners, then shape lines in order, cut by blanks only.
* **C26 Design autodetection picks the first best match** (proved). all of `detect.c`; the result is the first design with the highest number of hits over the applicable comparisons (`FirstBest`).
* **C27 Comparison mode follows colour of input and design** (proved). `comp_type_is_viable`, `input_is_mono`, `design_is_mono`; truth table in terms of escape sequences present.
* **C28 Accepted designs have a consistent geometry** (proved). `check_sizes`, `corner_check`, elasticity checks, `action_add_design`; invariants over all parser runs give `GoodDesign`, the hypothesis of the drawing theorems.
* **C29 Missing shapes are completed so that a box can be drawn** (partial). `action_finalize_shapes`; every defined shape is kept; exact description of the ones added.
* **C30 Minimum design size covers every side** (proved). `minwidth`/`minheight` computed by the parser cover both opposite sides.
* **C31 Tag query semantics** (proved). `filter_by_tag`, `query_by_tag`; selection iff the boolean meaning of the query terms holds.
* **C32 Tag queries are validated and deduplicated** (proved). `parse_query`, `validate_tag`; accepted iff all terms are valid; result without duplicates.
* **C33 Child configuration wins over parent** (proved). `parse_config_files`, `copy_designs`, `record_parent_config_files` over an arbitrary file graph; spec `Visit` (breadth-first work list), termination for finite graphs.
* **C34 Configuration file discovery order** (partial). `discover_config_file` over an abstract file system (predicates for files and directories); first existing candidate.
* **C35 Padding option parsing** (proved). `padding()` of cmdline.c over character lists; exact accepted language and effect.
* **C36 Alignment option parsing** (proved). `alignment()`; exact accepted language and effect.
* **C37 Numeric option parsing stays in range** (proved). `tab_handling()`, `size_of_box()` with `strtol`; exact language; invariant over all command lines.
* **C38 Yes/no words are unambiguous** (proved). `strisyes`, `strisno`, `killblank()`; abbreviations, disjointness, first option decides.
* **C39 Design listing is a sorted permutation** (proved). `list_designs`, `sort_designs_by_name`, `print_tags`, `count_tag`; sorting by specification of `qsort` (sorted permutation), uniqueness.
* **C40 Printed shapes can be read back** (proved). string rule of the scanner and `escape()`; round trip.
* **C41 Identifiers and tags follow one lexical rule** (proved). the regular expression by its meaning, against an independent grammar.
* **C42 String helper laws** (proved). string helpers of tools.c; equational laws.
* **C43 Last-occurrence search** (proved). `u32_strnrstr`; greatest position of an occurrence.
* **C44 Blank-neighbour cache is coherent** (proved). `is_blankward` with its caches as state; answers of any history of calls equal the direct computation.
* **C45 Mending runs removal once and then drawing once** (proved). the loop of `main` as a state machine over `removePhase`/`mainPhase`.
* **C46 Reading trims trailing white space only** (proved). `trim_trailing_ws_carefully`, `btrim32`.
* **C47 Input is split into lines without loss** (proved). `fgets` splitting; concatenation of the pieces is the input; each line one piece.
* **C48 Reading never crashes on legitimate text** (proved). `read_all_input` never fails or reaches undefined behaviour for text without forbidden characters.
* **C49 Replacement rules work one after the other on every line and keep the line bound** (proved). `apply_substitutions` around an arbitrary replacement function; line bound and metrics of the result; spec: `stages`, `largest`; `C49_rewritten` is an equivalence.
* **C50 A side is left out exactly if it shows nothing** (proved). `empty_side`, `isdeepempty`; iff no shape line on the side shows a visible character.
* **C51 Removing a box keeps the indentation** (partial). indentation of the lines after removal.
* **C52 A design needs a sample, shapes and elastic shapes** (partial). `num_mandatory` logic in `action_add_design`.
* **C53 Design names are unambiguous within a file** (partial). `design_name_exists`, `alias_exists_in_child_configs`; invariant over all runs.
* **C54 Tags of a design are collected, validated and deduplicated** (proved). `tag_record`, `tag_split_add`, `tag_add`.
* **C55 A design contains what is written in the file** (partial). `action_record_keyword`, `action_padding_entry`, shape and elastic actions; state after any sequence of entries.
* **C56 Only the needed designs are kept** (proved). `design_needed`, `full_parse_required`; which designs remain in the list.
* **C57 Line break and indentation words** (proved). `eol_override()`, `indentation_mode()`; exact words.
* **C58 Options do not interfere** (proved). option switch of `process_commandline` folded over any sequence of options.
* **C59 File arguments** (proved). `input_output_files()` over an abstract file system.
* **C60 Sample blocks keep the picture as written** (proved). `action_sample_block`, `adjust_eols`, `find_first_nonblank_line`.
* **C61 The text of a configuration file is split into the right tokens** (proved). all rules of lexer.l (longest match, first rule, start conditions) as a tokenizer; spec `Reads` relates text and tokens; induction over the tokens.
* **C62 A configuration file means what it declares** (proved). parser.y as a recursive descent reader with the error recovery of bison at design level; spec `FileTokens` (inductive grammar).
* **C63 Forbidden characters are refused where they would break the output** (proved). `bxs_valid_in_*`, `is_allowed_in_*`, `action_first_shape_line`, `action_add_shape_line`, `action_parent_config`.
* **C64 Which sides and which box are recognised on removal** (proved). `match_vertical_side`, `sufficient_body_quality`, `find_vertical_shapes`, `find_top_side`/`find_bottom_side`, `remove_box` search part; spec: first of the longest hits.
* **C65 The description of a design shows what was declared** (proved). `print_design_details`, `list_designs`; refinement of the printed text to a declarative table.
* **C66 How often a design is found in the input** (proved). `match_design` and the five search functions; spec: `NumberOf` the triples (shape, shape line, input line) that are a `Hit` in a `Scene` described by `Sees`; totality `C66_total`.
* **C67 The option -c puts its argument in front of every line** (proved). `build_design`; the result is a `GoodDesign`, then `C16_drawing` with C13/C14 gives the printed lines; spec: `marginShape`, `LeastIndent`, `Unindented`.
* **C68 What is left after removing a box is printed completely** (proved). `output_input`, `bxs_first_char_ptr`; spec: `EndTrimmed`, `From`, `Printed`, `Shows`; the common indentation from `Measured` in C23_structure.
* **C69 The complete program does what its options say, from command line to printed text** (proved). `main` with all stages composed (`wholeProgram`): the theorems of the stages are combined; bounds of loops are shown to be irrelevant (`C69_bounds`); spec: `Drawing`, `Commented`, `PrintedText`, `UsableFiles`, `named`, `colours`.
* **C70 Removing a box gives back the text that was in it** (proved). The box is described row by row (`BoxAround`, with `EdgeRow` and `BodyRow`), the designs by `Recognisable`; shown by composing the specifications of the searches (`findFirstLine_spec`, `findBox_spec`, C25, C64) with the fact that each row is its own exact hit: an edge row is found literally (`edge_found`), a side line is found completely at both ends of a body row, and no hit can be better (`west_best`, `east_best`); then C23_total and `removeVertical_spec` give the texts.
* **C71 Drawing a box and removing it again gives back the text** (proved). The rows that are drawn are described (`drawn_rows`, from C16), what the program prints is read back character by character (`reread`) and shown to be a `BoxAround`, so that C70 applies; then the texts are compared line by line (`C71_restored`, `C71_lines`, `C71_identity`) and the two runs of the main loop are put together (`C71_program`), finally two runs of the whole program with its configuration files, options and streams (`C71_pipeline`); spec: `ReadInLines`, `PlainLine`, `Restorable`, `PlainDrawing`, `PlainRemoving`, `comesBack`.
* **C72 Debug messages are printed exactly for the areas asked for with -x** (proved). `debug_areas`, `undocumented_options` and logging.c (Model/Logging); induction over the areas and over the options; spec: `Topic`, `Names`, `AsksFor`, `WellSaid`, `Undoc`. Messages of 1024 bytes and more overflow the buffer (`C72_overflow_disagrees`).
* **C73 Replacement by regular expression gives the complete result, however long it is** (proved). `u32_regex_replace` (Model/Regex) around one call of `pcre2_substitute` as a function of the size of the buffer; spec: `Pcre2` states what the PCRE2 manual says about the call.
* **C74 Mending a box that is intact gives back the same box** (proved). The lines that are left when the box is removed are shown to be the lines that were read by the first run (C71 gives the texts, `NoTabpos` the rest), removal for mending is removal without output (`handleRemove_mending`), the second adjustment of sizes and padding undoes nothing (`adjust_again`), and the two rounds of the main loop are put together (`run_mended`). `C74_pipeline` is about two runs of the whole program. `C74_coloured` and `C74_coloured_pipeline` say the same of lines with escape sequences, from the rows of boxes around coloured text (C78).
* **C75 Options can be written in all the usual ways** (proved). The option tables and `getopt_long` (Model/Getopt); spec: `Reading`, an inductive definition of the ways of writing options with its own tables (Spec/Getopt). Shown to be equivalent to what the model reports (`C75_reading`), by induction over the words; `C75_same` and `C75_refused` carry this over to the whole program.
* **C76 The program ends unless it has to draw a box that cannot be closed** (proved). The fuel of the model's loops stands for the number of steps: `none` means that the loop has not ended. `C76_ends` finds a fuel for every run of `wholeProgram`: the loops over parents end by `C33_ends`, the loops of `horiz_precalc` and `vert_precalc` by the exact conditions of C11, and that detection and mending keep every design closable is an invariant of `mainLoop` (Lemmas/Ends). Spec: `SidesMeet` (Spec/Ends). `C76_drawing` gives the exact condition when drawing; `C76_never_ends_disagrees` is a concrete configuration.
* **C77 A box is removed without naming its design** (proved). Spec/Found: `Traces` counts the hits of a design in a text compared literally (the declarative `Sees`/`Hit` of C66), `MostTraces` says that one design has more than the others. Lemmas/Trace shows that a drawn box shows at least four traces of its own design (so that it is found at all), Lemmas/Found that a round of detection ends with the design that has the most, Lemmas/Alike that the caches which detection leaves in a design do not matter for removing. `C77_program` puts the two runs together, `C77_pipeline` carries this over to `wholeProgram` (spec: Spec/FoundPipe; `C77_loaded` discharges the conditions on the designs); `C77_traces_unique` and `C77_traces_counted` show that `Traces` is a function and what it computes.
* **C78 Drawing a box around coloured text and removing it keeps the colours** (proved). Lines in colour are described by `ColouredLine` (grammar of escape sequences: `Text`, `EscSeq`, `ResetSeq`). The rows drawn around them are described with their sequences (`text_rows`, `drawnTexts_rows`), read back (`reread_text`), shown to be a `BoxAround`, and C70_removed, which keeps sequences, gives the texts back (`C78_restored`, `C78_lines`, `C78_identity`). The rows without their sequences are a box around the lines without theirs (`rowsOf_visible`), so that both kinds of output can be read again (`C78_program`, `C78_pipeline`). What is lost otherwise is shown by `C78_indentation_disagrees`, `C78_sequences_disagrees`, `C78_end_disagrees`.
* **C79 Inserting blanks into a string** (partial). Memory is modelled as a block of places that may not have been written; `strlen`, `realloc`, `u32_move` and `u32_set` are modelled on it. `C79_contents_partial`: what is in the block after the call, place by place; `C79_string_partial`: the block holds a string exactly if a terminator happened to be in place, and then the right one; `C79_unterminated_disagrees`: for a block of the exact size, the terminator is always missing.
* **C80 Texts are kept in memory that is large enough for them** (partial). Model/Capacity repeats the functions together with the sizes of their buffers; writing behind an end is the outcome `ub`. By induction over the text with the invariants of the loops (room left in `ascii`, free places in the maps) these are shown to be the functions of the other models: `C80_no_tab_partial` (all texts without tabs, complete sequences or not), `C80_text` (exact condition for any text of complete sequences), `C80_tab_overruns` (texts with tabs), `C80_prepend`, `C80_append`, `C80_expand`, `C80_input`, `C80_escape`, `C80_count_safe`; `C80_count` says what is counted (spec: `ShownAs`).
* **C81 Colours do not change the box** (proved). Spec/SameShown: `ShowSame` (two texts with the same visible characters), `TabsFirst`. Each stage is described by relations that determine what is seen: what is read (`read_same`), the least indentation (`leastIndent_unique`), the rows (`RowAt`, `IndentOf`, `Shifted`: `rowAt_same`, `row_same`), trimming (`rtrim_same`), printing (`render_same`). `C81_same_box` for one drawing, `C81_program` for the complete program. `C81_tab_disagrees`: a tab behind a sequence is expanded differently.
* **C82 The colours of a design do not matter where no colours are shown** (proved). Spec/Recoloured: `Recoloured` (two designs that differ only in escape sequences). Drawing: every stage (assembling the sides, the rows, trimming) is shown to respect the relation `ShowSame` between lines, by induction over the loops with a relation between two runs (`ResRel`, `ListRel`). Removing: for an input without escape sequences only the kinds of comparison that use the visible text of a shape line apply, and they give the same for both designs (`comp_shape_same`, `findBox_same`, `removeBox_same`). `C82_identity` and `C82_pipeline` combine this with C71.
* **C83 A box in colour is removed with its design, and its text is left** (proved). Spec/InColour: `InColour` (a design and its coloured version) and `ColouredBox` (the rows as read, escape sequences included). If no row is in colour, the rows are a plain box (`colouredBox_plain`), and C70 and C82 apply. Otherwise literal comparison and comparison of visible characters apply. The rows of top and bottom are recognised by their visible characters (`edge_colour`, by C82's `horizShapes_same`); in the body, literal comparison finds exactly the two sides (`colouredBox_body`), which is enough for it to be the kind that is used (`sum_enough`), and cuts out exactly the text (`removeVerticalLine_literal`).
* **C84 A box in colour can be drawn and removed again without a trace** (proved). The rows that are drawn with a coloured design are described with all their sequences (`DrawnColoured`, `tinted_rows`: a relation between the run and the run with the plain design, by the relations of C82), then read again (`tinted_reread`) and shown to be a `ColouredBox`, so that C83 says what is left (`C84_restored`). `C84_lines` and `C84_identity` follow as in C78; `C84_pipeline` is about two runs of the whole program, where for output without colours the second run reads a plain box, and C70 and C82 apply.
* **C85 The colours of a line end with the line** (proved). Spec/ColoursOff: `ColoursOff` (the last escape sequence of a text, if any, ends all colours), `SelfContained`, `SelfContainedLine`. `ColoursOff` is shown to be preserved by reading (`line_off`), expanding tabs (`coloursOff_expand`), removing indentation and justifying (`textOff_from`), and the invariant `Beginning` (colours off at the end and behind the last character that is no blank) by putting parts together (`beginning_append`) and by trimming (`beginning_trimmed`). With C16 (the rows of a box) this gives `C85_rows`, and `C85_program` for the complete program. `C85_trailing_disagrees`, `C85_side_disagrees`: sequences behind trailing blanks are lost.
* **C86 Boxes in boxes can be removed one after the other** (proved). Spec/Nested: `PlainText`, `Filters` (one run of the whole program from standard input to standard output), `Pipeline` (several runs in a row), `undo` (the same command with -r). The rows of a box around plain lines are plain lines again (`drawn_plain`), so C71 applies to the box around the box; induction over the list of commands (`C86_nested`).
* **C87 Mending a box in which somebody has written draws the box around the edited text** (proved). Spec/Edited: `EditedBox` (a box whose right side need not be in line, whose top and bottom may have any width and whose vertical padding may be incomplete). `edited_back`: removing such a box leaves exactly the texts with the indentation restored (through C70_removed; the right side is found line by line, and the padding is found from the left). `C87_removed`/`C87_erased`: `-r` prints the texts; `C87_mended`/`C87_program`: `-m` draws exactly the box that is drawn around the texts, whatever the indentation mode, the sizes of the damaged box and the number of rows.
* **C88 Removing a box where there is none leaves the text as it is** (proved). Spec/NoBox: `Foreign` (no visible character of a shape occurs in the text), `Unboxed`, `Within`. A row of a box cannot be found in such a text (`edge_foreign`, by induction over `SideRow`: the part between the corners would have to consist of shapes), and neither can a side (`side_foreign`); so by C23 the body is the text from the first to the last line that shows something, and nothing is cut off (`noBox_removed`). `C88_printed`, `C88_exact`: what `-r` prints; `C88_unchanged`, `C88_program`: the text as it is. `C88_indented_disagrees`: an indented text is indented twice.
* **C89 The help text tells the truth about options and defaults** (proved). Model/Help: `helpLines`, `usageLong`, `printedBy`. Spec/Help reads the option names off a line of the text. `C89_documented`, `C89_complete`: the names of the text and the option table of Model/Getopt agree in both directions. `shownDefault` reads a default off a line. `C89_defaults`, `C89_shown`: a relation `SameArgs` between the two runs (alignment and the flag for line breaks may differ while they mean the same) is kept by every option and implies the same run. `C89_first_design`/`C89_first_alone`: the parser stops after the first design, and naming that design selects it. `C89_config`: the file in the text is the one which is used. `C89_help`, `C89_else`: what is printed. `C89_settings_disagrees`: the defaults for -i and -p are those of the design.
* **C90 Mending where there is no box draws one** (proved). Over C88: `noBox_output` gives the lines that removal leaves; they are the lines of the text (`C90_mended`, with `lines_eq` and `breaks_at_end`), so the second round of mending analyses the same input as drawing does and draws the same box (`run_mended`, `adjust_again`, `generate_opts`). `C90_program`: the complete program. `C90_indented_disagrees`: an indented text.
* **C91 A design can be chosen by any of its names, in upper or lower case** (proved). `hasName` depends on the name up to upper and lower case only. `Alike`: two names that mean the same for every design of a file; then `parseDesign`, `parseDecls`, `parseConfigFile`, `mergeLoop` and `definingFile` give the same (`parseDesign_alike` … `definingFile_alike`). `optionLoop_named`: no option reads the name that -d has stored, so two command lines that differ in it store the same elsewhere (`wholeProgram_named`). `C91_case`, `C91_alias` for the complete program; aliases for a file without parents, because an alias of a parent file is dropped when a child file has it. `C91_unknown`: every design is left out by the parser (`parseDecls_unnamed`), so that there is none.
* **C92 Mending once is enough** (proved). `C87_program` (or `C90_program`) gives what the first run prints: what drawing the box around the text prints. `C74_pipeline` says that mending leaves this as it is.
* **C93 A box is mended without naming its design** (proved). Spec/MendAny: `SameSize`. Drawing depends neither on the caches that detection fills (`generate_uncached`) nor on a minimum size that the text exceeds (`generate_sizes`, `targetLen_fit`). `run_mended_detected`: the two rounds with the design that detection finds (`design_found` of C77). `C93_mended`, `C93_pipeline`. `C93_grows_disagrees`, `C93_underflow_disagrees`: `main` restores the minimum size of the first design on the detected one.
* **C94 A refused command line is explained** (proved). Model/Messages has what each function of cmdline.c and `parse_query` print before they report an error. Spec/Messages: `Explains` relates a refused option to its message, with the conditions for the reason that is given. `option_message`: case by case, over the characterisations of C32, C35-C38, C57, C72; `loop_message`: induction over the options. `C94_refused`, `C94_explained`, `C94_first`, `C94_run`. `C94_quotes_disagrees`: `-s` writes an `x` over an `X` before it quotes its argument, `-t` prints the number that is left in an `int`.
* **C95 The box has the size that was asked for** (proved). Spec/Size: `FitsIn`, `CanBeHigh`, `CanBeWide`, `RowOf`. `box_size`: C13 and C14 give the least extents that both sides can have and that have room for text and minimum size; C21 gives the minimum size with -s (padding is reduced, the minimum stays), C15 and C16 the rows. `C95_program`: the complete program; `C95_flexible`: sides with one elastic shape of extent one can have any size; `C95_plain_line`.
* **C96 Blanks at the ends of lines and the kind of line breaks make no difference when a box is drawn** (proved). Spec/Trailing: `SameStarts`. `btrim32_blanks` from C46; `readLines_blanks`: the same lines are read. `outputBox_final`, `renderBox_final`: the final line break of the input reaches the output only as the line end of the last line; `analyzeInput_final`: rules and measuring do not touch it. `C96_blanks` and `C96_last_break`: the complete program.
* **C97 Other designs in the configuration do not matter for the one that is chosen** (proved). Spec/Others: `Matters` (a parent, or a design with the name), `SameFiles`. `parseDesign_other`: a design with other names fails before its contents are looked at; `parseDecls_matters`: induction over the declarations, reading a file is reading the part that matters; through `mergeLoop` and `loadDesigns` to `C97_others` for the complete program.
* **C98 Indenting the text moves the box** (proved). Spec/Moved: `Filled`, `AllWhite`, `printedLines`, `Moved`, `movedBy`. `read_moved`: what is read of a moved line is moved, or empty; `leastIndent_moved`: the least indentation grows by the same number; `unindented_moved`: the text block is the same; `same_box`, `rowAt_indent`, `indentOf_moved` (spaces or tabs), `row_moved`, `rtrim_moved` for the rows, `render_moved` for the output; lifted to the program with `whole_draws`. Examples: coloured text with a tab and a blank line; `-t 2u`; `-i none`; a text of blank lines, whose box is not moved.
* **C99 The order of options about different things does not matter** (proved). Spec/Order: `optionTopic`, `SameByTopic` (for every topic, the same options in the same order). `handleOption_mix`: an option neither reads nor changes the parts of the settings it does not set, shown by overwriting those parts with others; `handle_swap`: so two options about different things can change places (including `-r` with `-m` and `-c` with `-d`, which set a common part to the same value); `optionLoop_order`: induction, moving each option to the front. Examples show pairs about the same thing that cannot be swapped.

## Where the code and the expected behaviour differ

Each of these was found while stating or proving a property; the theorem named evaluates a concrete witness in the model
or describes the behaviour for all inputs.

| # | behaviour | theorem |
|---|-----------|---------|
| 1 | ESC followed by a character that starts no sequence is counted inconsistently | `C01_malformed_escape_disagrees` |
| 2 | appending spaces to a blank line leaves the trailing-blank count wrong | `C05_append_blank_disagrees` |
| 3 | tab mode `k` with two recorded tabs restores another column | `C08_two_tabs_disagree` |
| 4 | a design accepted by the parser makes the program run forever | `C11_accepted_never_ends`, `C11_never_ends` |
| 5 | right alignment with one free column loses the right padding | `C18_right_padding_disagrees` |
| 6 | removal: top and bottom part, or both sides, may be the same characters; sizes underflow | `C23_overlap_disagrees`, `C23_shared_side_disagrees` |
| 7 | removal accepts a top line without corners; may cut a visible character off the corner | `C25_missing_corners_disagrees`, `C25_lost_character_disagrees` |
| 8 | completing shapes reads beyond the shape table | `C29_west_disagrees`, `C29_reads_beyond` |
| 9 | the query term `+(all)` never matches | `C31_required_all_disagrees` |
| 10 | aliases may collide between configuration files, and within one design | `C33_alias_disagrees`, `C53_own_names_disagrees` |
| 11 | `-f` with a control character in the name silently uses another file | `C34_explicit_disagrees` |
| 12 | padding, size and tab options accept undocumented spellings | `C35_padding_disagrees`, `C37_tabs_disagrees`, `C37_size_disagrees` |
| 13 | an invalid word in a second `-k` is accepted | `C38_later_word_disagrees` |
| 14 | a listed escape sequence with a quote is not read back | `C40_sequence_disagrees` |
| 15 | a trailing newline is tolerated in identifiers | `C41_newline_disagrees` |
| 16 | mending an intact box need not reproduce it | `C45_detected_size_disagrees`, `C45_padding_disagrees`, `C45_blank_line_disagrees` |
| 17 | a control character in the input leads to a null dereference | `C48_control_character_disagrees` |
| 18 | removal with an open left side doubles the indentation | `C51_open_side_disagrees` |
| 19 | a repeated block makes up for a missing one | `C52_mandatory_disagrees` |
| 20 | capital letters of `indent`; ELASTIC in front of SHAPES | `C55_indent_disagrees`, `C55_elastic_first_disagrees` |
| 21 | a sample line ending in "ends", a comment on an unterminated last line, a byte order mark before a word | `C61_sample_disagrees`, `C61_comment_disagrees`, `C61_bom_disagrees` |
| 22 | a control character in a shape line leads to a null dereference | `C63_first_shape_line`, `C63_shape_line` (outcome `ub`) |
| 23 | lines of the right side are counted once per shape line; a single copy hides a later pair of an elastic shape | `C66_east_disagrees`, `C66_elastic_disagrees` |
| 24 | `-c` with a character outside of ASCII writes behind a buffer | `C67_overflow_disagrees` |
| 25 | kept tabs after a reversion rule that shortens the indentation: text is left out; of several escape sequences at the beginning of a remaining line only the last is printed | `C68_rule_disagrees`, `C68_escape_disagrees` |
| 26 | `-c` needs no configuration file, but the program fails if none is found | `C69_create_disagrees` |
| 27 | `--no-color` has no effect on the text that is left when a box is removed | `C69_no_color_disagrees` |
| 28 | an empty line within a box comes back as a line of blanks when the box is removed | `C71_empty_line_disagrees` |
| 29 | a design whose left side begins with a blank in every row: the blank is taken for indentation, the text comes back shifted to the right | `C71_margin_disagrees` |
| 30 | `log_debug` formats into a buffer of 1024 bytes without a limit: with `-x debug`, a long argument of `-c` is written beyond its end | `C72_overflow_disagrees` |
| 31 | after one accepted `-x` option any text is accepted as the argument of a later one | `C72_accepts_nonsense_disagrees` |
| 32 | a replacement rule that makes a control character ends in a null pointer access instead of an error message | `C49_control_disagrees` |
| 33 | texts that come up between two replacement rules widen the box although they are not printed | `C49_between_disagrees` |
| 34 | mending (`-m`) an intact box around a text with an empty line, or with more blank rows than the padding, makes the box wider, every time | `C74_empty_line_disagrees`, `C74_not_full_disagrees` |
| 35 | mending with the same `-s` as the box was drawn with loses padding and indents the box, or makes it wider | `C74_width_disagrees`, `C74_height_disagrees` |
| 36 | mending with the same `-a` as the box was drawn with indents the box | `C74_align_disagrees` |
| 37 | a design whose sides cannot be filled to a common length is accepted, and drawing with it never ends | `C76_never_ends_disagrees` |
| 38 | when a box is removed without naming its design, the default of `-k` is taken from the first design of the configuration, not from the one that is found | `C77_order_disagrees` |
| 39 | when a box is drawn around a line and removed again, escape sequences in front of its indentation, all but the last of several at its beginning, and a sequence at its end that is no reset are lost | `C78_indentation_disagrees`, `C78_sequences_disagrees`, `C78_end_disagrees` |
| 40 | `u32_insert_space_at` does not move the terminator of the string: the result is not terminated (the function is used by a unit test only) | `C79_unterminated_disagrees` |
| 41 | the ASCII form of a text has no room for tabs: a shape line, sample line or replacement with tabs in the configuration file is written beyond the end of its buffer | `C80_shape_disagrees`, `C80_tab_overruns` |
| 42 | the unseen characters of an escape sequence count as columns when a tab behind it is expanded, so coloured text is laid out differently from the same text without colours | `C81_tab_disagrees` |
| 43 | a sequence that ends the colours is lost if there are blanks in front of it at the end of an input line or of a printed row (`btrim32`, `bxs_rtrim`), so the colours of the text spread to the box, and those of the box to the following lines | `C85_trailing_disagrees`, `C85_side_disagrees` |
| 44 | `boxes -r` on an indented text that contains no box doubles its indentation, and puts spaces into its empty lines (`remove_vertical_from_input` restores an indentation which it has not removed); `boxes -m` does the same before it draws | `C88_indented_disagrees`, `C90_indented_disagrees` |
| 45 | the help text says `[default: box]` for `-i` and `[default: none]` for `-p`, but the default is the setting of the design, if it has one | `C89_settings_disagrees` |
| 46 | `boxes -m` without `-d`: `main` restores the saved minimum size of the *first* design of the configuration on the design that was *detected* (`src/boxes.c:540-549`), so an intact box may grow; and if the detected design has no padding and wider corners than the first design, the size computation underflows (`src/generate.c:73-80`) and the program does not end | `C93_grows_disagrees`, `C93_underflow_disagrees` |
| 47 | a refused `-s` is quoted with `x` where the user wrote `X` (`src/cmdline.c:459`); a refused `-t` is reported with the number that is left of the argument in an `int`, which the user did not write (`src/cmdline.c:527-530`) | `C94_quotes_disagrees` |

## Trusted base

* Lean's kernel. Axioms used: at most `propext`, `Classical.choice`, `Quot.sound` (checked with `#print axioms`; no
  `sorry`, no user axioms, no compiler-trusting tactics).
* The faithfulness of the hand translation in `Verif/Model`. Each definition cites the lines it models.
* The reading of the C library functions used: `strtol`, `strtok`, `strspn`, `strstr`, `fgets`, `qsort` (any sorted
  permutation), `strcasecmp` (ASCII), `access`/`stat`/`opendir` (predicates), `getopt_long` (GNU C library, `Model/Getopt`).

### Modelled

`bxstring.c`, `unicode.c` (except conversions and `u32_insert_space_at`), `shape.c`, `generate.c`, `input.c`, `detect.c`,
`remove.c`, `query.c`, `parsing.c` (merging), `parsecode.c`, `parser.y` (grammar with recovery per design), `lexer.l` (all
rules), `list.c`, `discovery.c` (not Windows), `regulex.c` (`u32_regex_replace`), `logging.c`, `cmdline.c` (each option, the order of options, the help text), `tools.c` (string
helpers, tabs, words, identifiers), `boxes.c` (`build_design`, size and padding, all of `main` with the order of its stages).

### Not modelled

* character set conversion (`iconv`), libunistring tables, PCRE2 matching (a replacement is any function), terminal capabilities, Windows code, memory management, the texts of most debug messages;
* overflow of additions, casts to `int`, `atoi`/`strtol` beyond `long`;
* the effects of the entries of a design in front of a syntax error within an item (the design is dropped by the recovery);
* messages on stderr other than those about the command line (`Model/Messages`).

## Evidence that the model is the program

The correspondence between the Lean definitions and the C code rests on reading:
each definition cites the lines it models.  As a check, the model was run
(interpreted) on the project's own black-box tests, with the character data base
and the regular expression engine supplied by Python.  All 184 numbered
cases agree with the recorded output, and all 216 sunny-day cases: drawing, mending and removing with each of the 72
designs of `boxes-config`.  The scripts and the way to repeat this are in
`validation/`.  No theorem depends on it.
