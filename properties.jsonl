{"id": "C01", "title": "Blank numeric fields are zero", "statement": "A numeric field that contains only blanks is read as 0 (integer field) or 0.0 (float field), for every field width and with every combination of the reading options.", "quantifier": "every blank string, every width, every setting of accept_spaces / preserve_value_strings", "why_tests_cant": "unbounded family of strings and option combinations", "anchors": ["endf_parserpy/interpreter/fortran_utils.py:read_fort_int", "endf_parserpy/interpreter/fortran_utils.py:fortstr2float"]}
{"id": "C02", "title": "Integer fields round-trip", "statement": "Every integer whose decimal text fits into the field is written into exactly `width` columns and is read back as the same integer; an integer that does not fit makes the produced text longer than the field.", "quantifier": "all integers and all field widths", "why_tests_cant": "infinitely many integers; boundary at width depends on sign and digits", "anchors": ["endf_parserpy/interpreter/endf_utils.py:write_cont", "endf_parserpy/interpreter/fortran_utils.py:read_fort_int"]}
{"id": "C03", "title": "Exponents without E", "statement": "Reading a number written Fortran style without exponent character (mantissa immediately followed by a signed exponent) gives the same value as reading it with the E present, for every mantissa accepted by the reader.", "quantifier": "all mantissa and exponent texts", "why_tests_cant": "infinite set of number texts; corner case of mantissa ending in the decimal point", "anchors": ["endf_parserpy/interpreter/fortran_utils.py:fortstr2float"]}
{"id": "C04", "title": "Blanks inside numbers are ignored on request", "statement": "With accept_spaces=True the value read from a field does not depend on blanks inserted anywhere in the text.", "quantifier": "all texts, all sets of insertion positions", "why_tests_cant": "exponentially many placements", "anchors": ["endf_parserpy/interpreter/fortran_utils.py:fortstr2float"]}
{"id": "C05", "title": "Written floats fill exactly the field", "statement": "Every finite float written in exponential form occupies exactly `width` columns, under every combination of abuse_signpos and keep_E, whenever the exponent has at most three digits and the width leaves room for the mantissa.", "quantifier": "all values, all widths and write options", "why_tests_cant": "carry propagation cases (9.99999.. -> 10.0) and exponent-digit boundaries cannot be enumerated", "anchors": ["endf_parserpy/interpreter/fortran_utils.py:float2expformstr", "endf_parserpy/interpreter/fortran_utils.py:float2fortstr"]}
{"id": "C06", "title": "Written floats are accurate", "statement": "The value read back from a field written in exponential form differs from the original value by at most half a unit in the last printed mantissa digit.", "quantifier": "all values, widths and write options", "why_tests_cant": "infinitely many values; rounding and carry cases", "anchors": ["endf_parserpy/interpreter/fortran_utils.py:float2expformstr", "endf_parserpy/interpreter/fortran_utils.py:fortstr2float"]}
{"id": "C07", "title": "Writing is stable", "statement": "Writing a value, reading the field back and writing the result again yields the identical text.", "quantifier": "all values, widths and write options", "why_tests_cant": "infinitely many values, double rounding cases", "anchors": ["endf_parserpy/interpreter/fortran_utils.py:float2expformstr", "endf_parserpy/interpreter/fortran_utils.py:fortstr2float"]}
{"id": "C08", "title": "prefer_noexp never loses accuracy", "statement": "With prefer_noexp=True the chosen text fits the field and its value is at least as close to the original as the exponential form.", "quantifier": "all values and write options", "why_tests_cant": "infinitely many values; many formatting branches", "anchors": ["endf_parserpy/interpreter/fortran_utils.py:float2fortstr", "endf_parserpy/interpreter/fortran_utils.py:float2basicnumstr"]}
{"id": "C09", "title": "preserve_value_strings reproduces float fields", "statement": "With preserve_value_strings=True, reading a float field and writing it back gives the identical text of the field.", "quantifier": "all field texts of the given width", "why_tests_cant": "infinite set of texts including blank and short fields", "anchors": ["endf_parserpy/interpreter/fortran_utils.py:fortstr2float", "endf_parserpy/interpreter/fortran_utils.py:float2fortstr", "endf_parserpy/utils/math_utils.py:EndfFloat"]}
{"id": "C10", "title": "Control numbers round-trip", "statement": "The MAT, MF and MT numbers written to columns 67-75 are read back unchanged by the control record reader for every triple in the representable range, and outside of this range the record is no longer aligned.", "quantifier": "all MAT/MF/MT triples and all 66-column bodies", "why_tests_cant": "large product space; silent misalignment outside of range", "anchors": ["endf_parserpy/interpreter/endf_utils.py:write_ctrl", "endf_parserpy/interpreter/endf_utils.py:read_ctrl"]}
{"id": "C11", "title": "Record lines have fixed columns", "statement": "Every line produced by the record writers (text, CONT, DIR, INTG, LIST, TAB1, TAB2, SEND/FEND/MEND/TEND) consists of a 66 column body, 9 control columns and, if line numbers are included, 5 sequence columns.", "quantifier": "all record contents that fit their fields, all options", "why_tests_cant": "any field content may break the alignment", "anchors": ["endf_parserpy/interpreter/endf_utils.py:write_cont", "endf_parserpy/interpreter/endf_utils.py:write_text", "endf_parserpy/interpreter/endf_utils.py:write_dir", "endf_parserpy/interpreter/endf_utils.py:write_intg", "endf_parserpy/interpreter/endf_utils.py:write_list", "endf_parserpy/interpreter/endf_utils.py:write_tab1", "endf_parserpy/interpreter/endf_utils.py:write_send"]}
{"id": "C12", "title": "CONT records round-trip", "statement": "Reading a CONT/HEAD record written by the CONT writer returns the integers unchanged and the floats as rounded by the field writer, including the zero_as_blank option where zero fields are written as blanks.", "quantifier": "all values of the six fields and control numbers, all write options", "why_tests_cant": "infinite value space times options", "anchors": ["endf_parserpy/interpreter/endf_utils.py:read_cont", "endf_parserpy/interpreter/endf_utils.py:write_cont", "endf_parserpy/interpreter/endf_utils.py:prepare_zerostr_fields"]}
{"id": "C13", "title": "TEXT records round-trip", "statement": "Reading a TEXT record written from text of at most 66 characters returns the text padded with blanks to 66 characters, and longer text destroys the control columns.", "quantifier": "all texts", "why_tests_cant": "unbounded texts", "anchors": ["endf_parserpy/interpreter/endf_utils.py:read_text", "endf_parserpy/interpreter/endf_utils.py:write_text"]}
{"id": "C14", "title": "DIR records round-trip", "statement": "Reading a DIR record written by the DIR writer returns the same four integers, with the first two fields blank.", "quantifier": "all integers fitting the fields", "why_tests_cant": "infinite value space", "anchors": ["endf_parserpy/interpreter/endf_utils.py:read_dir", "endf_parserpy/interpreter/endf_utils.py:write_dir"]}
{"id": "C15", "title": "INTG records round-trip", "statement": "For every NDIGIT between 2 and 6, reading a compact covariance (INTG) record written by the INTG writer returns the same indices and matrix elements and the record is 66 columns wide.", "quantifier": "all NDIGIT, all indices and elements fitting their slots, all control numbers", "why_tests_cant": "product space of five formats and 18 slots; the NDIGIT=3 slot count interacts with the MAT column", "anchors": ["endf_parserpy/interpreter/endf_utils.py:read_intg", "endf_parserpy/interpreter/endf_utils.py:write_intg"]}
{"id": "C16", "title": "LIST records round-trip", "statement": "Reading a LIST record written by the LIST writer returns the same header, exactly the NPL values in order, and leaves the read position right behind the record.", "quantifier": "all list lengths and contents, everything that follows the record", "why_tests_cant": "unbounded length, padding of last line", "anchors": ["endf_parserpy/interpreter/endf_utils.py:read_list", "endf_parserpy/interpreter/endf_utils.py:write_list", "endf_parserpy/interpreter/endf_utils.py:read_endf_numbers", "endf_parserpy/interpreter/endf_utils.py:write_endf_numbers"]}
{"id": "C17", "title": "TAB1 records round-trip", "statement": "Reading a TAB1 record written by the TAB1 writer returns the same interpolation table and the same points in order and leaves the read position right behind the record.", "quantifier": "all numbers of regions and points, including zero", "why_tests_cant": "unbounded lengths; corner case of empty tables", "anchors": ["endf_parserpy/interpreter/endf_utils.py:read_tab1", "endf_parserpy/interpreter/endf_utils.py:write_tab1", "endf_parserpy/interpreter/endf_utils.py:read_tab1_body_lines", "endf_parserpy/interpreter/endf_utils.py:write_tab1_body_lines"]}
{"id": "C18", "title": "TAB2 records round-trip", "statement": "Reading a TAB2 record written by the TAB2 writer returns the same interpolation table and leaves the read position right behind the record.", "quantifier": "all numbers of regions", "why_tests_cant": "unbounded lengths", "anchors": ["endf_parserpy/interpreter/endf_utils.py:read_tab2", "endf_parserpy/interpreter/endf_utils.py:write_tab2"]}
{"id": "C19", "title": "Number block layout", "statement": "n numbers are laid out in ceil(n/6) lines of six 11-column fields and reading n numbers consumes exactly these lines and returns exactly n numbers.", "quantifier": "all n, all number sequences", "why_tests_cant": "unbounded n, remainder cases", "anchors": ["endf_parserpy/interpreter/endf_utils.py:read_endf_numbers", "endf_parserpy/interpreter/endf_utils.py:write_endf_numbers"]}
{"id": "C20", "title": "Line numbering", "statement": "Within a section the lines are numbered consecutively 1..99999 and wrap to 1; the sequence number never needs more than five columns and the first 75 columns of each line are untouched.", "quantifier": "sections of any length", "why_tests_cant": "wrap-around only after 99999 lines", "anchors": ["endf_parserpy/interpreter/endf_utils.py:add_linenumbers_to_section", "endf_parserpy/interpreter/endf_parser.py:write"]}
{"id": "C21", "title": "Tape structure is checked exactly", "statement": "In strict mode the section splitter accepts a file if and only if it has the ENDF tape structure: tape head, then materials made of files made of sections each closed by SEND, FEND, MEND, finally TEND and only blank lines after it.", "quantifier": "all sequences of lines", "why_tests_cant": "all finite sequences of control triples", "anchors": ["endf_parserpy/interpreter/endf_utils.py:split_sections"]}
{"id": "C22", "title": "No data line is lost, duplicated or moved", "statement": "Whenever the section splitter succeeds, each MF/MT section contains exactly the data lines of the file carrying this MF/MT, in file order.", "quantifier": "all sequences of lines and all option settings", "why_tests_cant": "unbounded inputs", "anchors": ["endf_parserpy/interpreter/endf_utils.py:split_sections"]}
{"id": "C23", "title": "ignore_blank_lines equals deleting blank lines", "statement": "With ignore_blank_lines=True the result of splitting a file equals the result of splitting the file with all blank lines deleted.", "quantifier": "all files, all positions of blank lines", "why_tests_cant": "blank lines may occur anywhere, including before the tape head", "anchors": ["endf_parserpy/interpreter/endf_utils.py:split_sections", "endf_parserpy/interpreter/endf_utils.py:skip_blank_lines"]}
{"id": "C24", "title": "Lenient and strict section splitting agree", "statement": "On every file accepted in strict mode, ignore_send_records=True gives the same sections.", "quantifier": "all valid files", "why_tests_cant": "unbounded inputs", "anchors": ["endf_parserpy/interpreter/endf_utils.py:split_sections"]}
{"id": "C25", "title": "Written tapes are structurally valid", "statement": "The list of lines produced by write() for sections of one material is accepted by the strict section splitter and yields the same MF/MT sections in ascending order.", "quantifier": "all collections of MF/MT sections", "why_tests_cant": "unbounded number of sections and lines", "anchors": ["endf_parserpy/interpreter/endf_parser.py:write", "endf_parserpy/interpreter/endf_utils.py:split_sections", "endf_parserpy/interpreter/endf_utils.py:write_send", "endf_parserpy/interpreter/endf_utils.py:write_fend", "endf_parserpy/interpreter/endf_utils.py:write_mend", "endf_parserpy/interpreter/endf_utils.py:write_tend"]}
{"id": "C26", "title": "Verbatim sections survive parse and write", "statement": "Sections that are excluded from parsing are written such that the first 75 columns of all of their lines are unchanged, and reading the written file again gives these lines again.", "quantifier": "all section texts", "why_tests_cant": "unbounded texts", "anchors": ["endf_parserpy/interpreter/endf_parser.py:parse", "endf_parserpy/interpreter/endf_parser.py:write", "endf_parserpy/interpreter/endf_utils.py:add_linenumbers_to_section"]}
{"id": "C27", "title": "include/exclude select exactly the requested sections", "statement": "A section is processed iff it is not excluded (exclude given), or it is included (only include given), or neither is given; exclude takes precedence; numbers select whole MF files and pairs select single sections.", "quantifier": "all exclude/include arguments and all MF/MT pairs", "why_tests_cant": "argument space is unbounded", "anchors": ["endf_parserpy/interpreter/endf_parser.py:should_skip_section"]}
{"id": "C28", "title": "A parsed section has been consumed completely", "statement": "If the section parser succeeds for a recipe ending in SEND then every line of the section has been read by exactly one record in order; left over or missing lines make it fail.", "quantifier": "all recipes and all section texts", "why_tests_cant": "all recipes and inputs", "anchors": ["endf_parserpy/interpreter/endf_parser.py:process_send_line", "endf_parserpy/interpreter/endf_utils.py:read_send", "endf_parserpy/interpreter/endf_parser.py:parse"]}
{"id": "C29", "title": "nofail keeps the failed section as its raw lines", "statement": "With nofail=True a section whose parsing fails is returned as exactly its original lines, so that it can be written back.", "quantifier": "all failing sections", "why_tests_cant": "depends on in-place list mutation for every input", "anchors": ["endf_parserpy/interpreter/endf_parser.py:parse"]}
{"id": "C30", "title": "A parser object has no memory", "statement": "The result of parse() on a parser object depends only on its arguments and the constructor options and not on earlier, possibly failed, parse() calls.", "quantifier": "all histories of calls on one parser object", "why_tests_cant": "unbounded histories including failures inside of lookahead conditions", "anchors": ["endf_parserpy/interpreter/endf_parser.py:parse", "endf_parserpy/interpreter/meta_control_utils.py:perform_lookahead", "endf_parserpy/interpreter/endf_parser.py:set_parser_state"]}
{"id": "C31", "title": "Linear field expressions are evaluated correctly", "statement": "For a field expression of a recipe the evaluator returns constant and coefficient such that constant + coefficient * unknown equals the value of the expression for every value of the unknown, and fails if there are several unknowns.", "quantifier": "all expressions and all environments", "why_tests_cant": "all expression trees", "anchors": ["endf_parserpy/interpreter/endf_mapping_utils.py:eval_expr"]}
{"id": "C32", "title": "Solving a field for its unknown is inverse to evaluating it", "statement": "The value assigned to the unknown variable of a field during reading makes the field expression evaluate exactly to the number read, so that writing gives this number again.", "quantifier": "all linear expressions with non-zero coefficient, all field values", "why_tests_cant": "all expression trees and values", "anchors": ["endf_parserpy/interpreter/endf_mapping_utils.py:varvalue_expr_conversion", "endf_parserpy/interpreter/endf_mapping_utils.py:eval_expr_without_unknown_var"]}
{"id": "C33", "title": "Mismatch tolerance policy", "statement": "A field whose expected value is already determined is rejected iff the read value differs and none of the selected tolerances (ignore zero mismatch for zeros, ignore number mismatch for flagged numbers, ignore varspec mismatch for flagged variables, ignore all in lookahead) applies.", "quantifier": "all option combinations and field kinds", "why_tests_cant": "combinatorial decision logic", "anchors": ["endf_parserpy/interpreter/endf_mapping_core.py:map_recorddic_to_datadic"]}
{"id": "C34", "title": "Conditions have Boolean semantics with missing variables false", "statement": "A condition of a recipe evaluates to the Boolean combination of its comparisons; a comparison that refers to an undefined variable makes the condition it occurs in evaluate to false instead of failing.", "quantifier": "all conditions and environments", "why_tests_cant": "all condition trees", "anchors": ["endf_parserpy/interpreter/meta_control_utils.py:eval_if_condition", "endf_parserpy/interpreter/meta_control_utils.py:determine_truthvalue"]}
{"id": "C35", "title": "For loops run the body for start..stop in order", "statement": "A for loop in a recipe executes its body once for each integer from start to stop in ascending order (and not at all if stop < start), and the loop variable is gone afterwards.", "quantifier": "all loop bounds and bodies", "why_tests_cant": "unbounded iteration counts", "anchors": ["endf_parserpy/interpreter/meta_control_utils.py:cycle_for_loop"]}
{"id": "C36", "title": "Lookahead leaves no trace", "statement": "Evaluating a condition with lookahead does not change the data, the read position or the loop variables seen by the rest of the recipe, whatever the looked-at instructions do.", "quantifier": "all recipes, inputs and lookahead depths", "why_tests_cant": "all interpreter states", "anchors": ["endf_parserpy/interpreter/meta_control_utils.py:perform_lookahead", "endf_parserpy/interpreter/meta_control_utils.py:undo_lookahead_changes", "endf_parserpy/interpreter/endf_parser.py:get_parser_state", "endf_parserpy/interpreter/endf_parser.py:set_parser_state"]}
{"id": "C37", "title": "No internal bookkeeping in results", "statement": "After a section has been processed successfully the resulting dictionary contains no internal bookkeeping entries and no abbreviation variables.", "quantifier": "all recipes and inputs", "why_tests_cant": "all recipes", "anchors": ["endf_parserpy/interpreter/meta_control_utils.py:initialize_working_vars", "endf_parserpy/interpreter/meta_control_utils.py:remove_working_vars", "endf_parserpy/interpreter/meta_control_utils.py:open_section", "endf_parserpy/interpreter/meta_control_utils.py:close_section"]}
{"id": "C38", "title": "LIST bodies consume exactly the announced numbers", "statement": "Mapping a LIST body succeeds only if the body template uses exactly the NPL numbers of the record, each of them once and in order.", "quantifier": "all body templates and list lengths", "why_tests_cant": "all templates", "anchors": ["endf_parserpy/interpreter/endf_mappings.py:map_list_dic"]}
{"id": "C39", "title": "Parsing then writing reproduces the records", "statement": "If a sequence of records is parsed according to a recipe, writing the resulting dictionary according to the same recipe yields the same sequence of records.", "quantifier": "all recipes of the modelled language, all record sequences that parse with all tolerances off", "why_tests_cant": "all recipes and inputs", "anchors": ["endf_parserpy/interpreter/endf_parser.py:run_instruction", "endf_parserpy/interpreter/endf_mapping_core.py:map_record_helper"]}
{"id": "C40", "title": "Writing then parsing reproduces the variables", "statement": "If a dictionary can be written according to a recipe, parsing the records gives back each variable used by the recipe with its value.", "quantifier": "all recipes of the modelled language and all dictionaries", "why_tests_cant": "all recipes and inputs", "anchors": ["endf_parserpy/interpreter/endf_parser.py:run_instruction", "endf_parserpy/interpreter/endf_mapping_core.py:map_record_helper"]}
{"id": "C41", "title": "List and dict array representations are equivalent", "statement": "Reading with array_type='list' gives the arrays of array_type='dict' re-based to start at zero, for index ranges visited in ascending order.", "quantifier": "all index ranges, nesting depths and values", "why_tests_cant": "unbounded arrays", "anchors": ["endf_parserpy/interpreter/helpers.py:list_set", "endf_parserpy/interpreter/helpers.py:list_setdefault", "endf_parserpy/interpreter/helpers.py:array_dict_to_list", "endf_parserpy/interpreter/helpers.py:shift_indices"]}
{"id": "C42", "title": "EndfPath get returns what set stored", "statement": "After p.set(d, v), p.get(d) returns v, and q.get(d) is unchanged for every path q that neither extends nor is extended by p.", "quantifier": "all paths, nested dictionaries and values", "why_tests_cant": "all trees and paths", "anchors": ["endf_parserpy/utils/accessories.py:EndfPath.get", "endf_parserpy/utils/accessories.py:EndfPath.set"]}
{"id": "C43", "title": "EndfPath exists and remove", "statement": "p.exists(d) is true iff p.get(d) succeeds; after p.remove(d), p no longer exists and unrelated paths are unchanged.", "quantifier": "all paths and nested dictionaries", "why_tests_cant": "all trees and paths", "anchors": ["endf_parserpy/utils/accessories.py:EndfPath.exists", "endf_parserpy/utils/accessories.py:EndfPath.remove"]}
{"id": "C44", "title": "EndfPath equality", "statement": "Equality of EndfPath objects is an equivalence relation that holds exactly if both consist of the same elements.", "quantifier": "all pairs/triples of paths", "why_tests_cant": "all paths", "anchors": ["endf_parserpy/utils/accessories.py:EndfPath.__eq__"]}
{"id": "C45", "title": "EndfPath text round-trip", "statement": "Building a path from its printed text gives the same path, and array notation a[1,2] denotes the same path as a/1/2.", "quantifier": "all paths", "why_tests_cant": "all paths", "anchors": ["endf_parserpy/utils/accessories.py:EndfPath.__init__", "endf_parserpy/utils/accessories.py:EndfPath.__str__"]}
{"id": "C46", "title": "EndfDict is a transparent view", "statement": "Every sequence of item assignments, deletions and look-ups through an EndfDict has the effect of the corresponding path operations on the wrapped dictionary.", "quantifier": "all operation sequences", "why_tests_cant": "unbounded histories", "anchors": ["endf_parserpy/utils/accessories.py:EndfObject"]}
{"id": "C47", "title": "Wildcards enumerate exactly the matching paths", "statement": "A path with wildcards is expanded to exactly the paths that exist in the dictionary and result from replacing each wildcard by a key of the visited level.", "quantifier": "all dictionaries and wildcard patterns", "why_tests_cant": "all trees and patterns", "anchors": ["endf_parserpy/utils/matching.py:endf_path_generator"]}
{"id": "C48", "title": "Match expressions have Boolean semantics", "statement": "A match expression is true iff it is true for some choice of wildcard values; in particular A|B is true whenever A is true.", "quantifier": "all expressions and dictionaries", "why_tests_cant": "all expressions", "anchors": ["endf_parserpy/utils/matching.py:eval_tree", "endf_parserpy/utils/matching.py:eval_expr"]}
{"id": "C49", "title": "Object comparison is consistent", "statement": "Comparing an object with itself reports no difference; with fail_on_diff=True a ValueError is raised exactly if the comparison without it returns False; the outcome does not depend on the order of arguments.", "quantifier": "all pairs of nested objects and tolerances", "why_tests_cant": "all trees", "anchors": ["endf_parserpy/utils/debugging_utils.py:compare_objects", "endf_parserpy/utils/debugging_utils.py:_compare_objects", "endf_parserpy/utils/math_utils.py:math_isclose"]}
{"id": "C50", "title": "Complete retrieval check is sound and complete", "statement": "With check_arrays, writing succeeds only if every integer indexed array element in the dictionary has been retrieved.", "quantifier": "all dictionaries and access histories", "why_tests_cant": "all access histories", "anchors": ["endf_parserpy/utils/debugging_utils.py:TrackingDict", "endf_parserpy/utils/debugging_utils.py:TrackingList"]}
{"id": "C51", "title": "Log ring buffer keeps the last entries", "statement": "After any sequence of log calls the ring buffer returns the last min(n, capacity) entries in order.", "quantifier": "all capacities from 1 on and all histories", "why_tests_cant": "unbounded histories with wrap-around", "anchors": ["endf_parserpy/interpreter/logging_utils.py:RingBuffer"]}
{"id": "C52", "title": "Directory update is correct", "statement": "After update_directory the directory in MF1/MT451 lists exactly the sections present with the number of lines each has when written, and repeating the update changes nothing.", "quantifier": "all dictionaries", "why_tests_cant": "all collections of sections", "anchors": ["endf_parserpy/utils/endf6_plumbing.py:update_directory"]}
{"id": "C53", "title": "Description editing", "statement": "get_description after set_description returns the given lines padded to 66 columns; insert_description inserts exactly the given lines after the given position and keeps NWD consistent.", "quantifier": "all texts and positions", "why_tests_cant": "all texts", "anchors": ["endf_parserpy/utils/endf6_plumbing.py:get_description", "endf_parserpy/utils/endf6_plumbing.py:set_description", "endf_parserpy/utils/endf6_plumbing.py:insert_description"]}
{"id": "C54", "title": "JSON key sanitizing", "statement": "sanitize_fieldname_types converts exactly the keys that are texts of integers to integers at all dictionary levels and keeps all values; applying it twice equals applying it once.", "quantifier": "all nested dictionaries", "why_tests_cant": "all trees", "anchors": ["endf_parserpy/utils/user_tools.py:sanitize_fieldname_types"]}
{"id": "C55", "title": "locate finds variables", "statement": "Every location returned by locate leads to the variable, and each occurrence that is not nested below another occurrence is returned exactly once.", "quantifier": "all nested dictionaries", "why_tests_cant": "all trees", "anchors": ["endf_parserpy/utils/user_tools.py:locate", "endf_parserpy/utils/user_tools.py:get_endf_values"]}
{"id": "C56", "title": "Parsed/unparsed listing is a partition", "statement": "Every MF/MT section of a parse result is listed exactly once, either as parsed or as unparsed.", "quantifier": "all parse results", "why_tests_cant": "all dictionaries", "anchors": ["endf_parserpy/utils/user_tools.py:list_parsed_sections", "endf_parserpy/utils/user_tools.py:list_unparsed_sections"]}
{"id": "C57", "title": "Recipe selection", "statement": "The MF/MT specific recipe is used if it exists, otherwise the MF recipe, otherwise the section stays unparsed; a format flavour overrides exactly its own entries.", "quantifier": "all recipe dictionaries and MF/MT pairs", "why_tests_cant": "all dictionaries", "anchors": ["endf_parserpy/interpreter/endf_recipe_utils.py:get_responsible_recipe_parsetree", "endf_parserpy/interpreter/endf_recipe_utils.py:get_responsible_recipe_parsefun", "endf_parserpy/endf_recipes/utils.py:defdic"]}
{"id": "C58", "title": "Recipe cache is transparent and crash safe", "statement": "Using a cache directory gives the same parse trees as using none, after every history of runs including runs killed at any point while the cache is filled.", "quantifier": "all histories, all crash points", "why_tests_cant": "crash points and interleavings", "anchors": ["endf_parserpy/interpreter/endf_recipe_utils.py:get_recipe_parsetree"]}
{"id": "C59", "title": "writefile protects existing files", "statement": "writefile never modifies an existing file unless overwrite=True, and a failing conversion leaves the file untouched even with overwrite=True.", "quantifier": "all file systems, all dictionaries, all failures of the conversion", "why_tests_cant": "all failure points", "anchors": ["endf_parserpy/interpreter/endf_parser.py:writefile"]}
{"id": "C60", "title": "Command line editing never loses the original", "statement": "With backups enabled, at every crash point of an editing command the original content exists completely under the original or the backup name, and no other existing file is overwritten.", "quantifier": "all file systems and crash points", "why_tests_cant": "crash points, name collisions", "anchors": ["endf_parserpy/cli/cmd_utils.py:create_backup_file", "endf_parserpy/cli/cmd_utils.py:atomic_rename", "endf_parserpy/cli/actions/replace.py:_replace_element"]}
{"id": "C61", "title": "explain finds the best matching description", "statement": "Looking up the description of a variable terminates and returns the description of the first matching path where an exact element is preferred over a wildcard from left to right, and nothing iff no description matches.", "quantifier": "all description trees and paths", "why_tests_cant": "all trees, termination of a backtracking loop", "anchors": ["endf_parserpy/interpreter/endf_parser.py:explain"]}
{"id": "C62", "title": "Array arithmetic is element-wise", "statement": "Arithmetic between scalars and (nested) lists broadcasts element-wise, results have the shape of the list operand, and division returns an integer exactly when both operands are integers and the division is exact.", "quantifier": "all nested lists and scalars", "why_tests_cant": "all shapes", "anchors": ["endf_parserpy/utils/math_utils.py:math_op", "endf_parserpy/utils/math_utils.py:math_div", "endf_parserpy/utils/math_utils.py:math_mod"]}
{"id": "C63", "title": "Compiled field assignments solve the equation", "statement": "The assignment generated by the compiler for the unknown variable of a field satisfies the field equation for all values of the other variables for which the divisor does not vanish.", "quantifier": "all expressions, all environments", "why_tests_cant": "all expression trees", "anchors": ["endf_parserpy/compiler/expr_utils/equation_utils.py:solve_equation"]}
{"id": "C64", "title": "Expression simplification preserves value", "statement": "Every rewriting step used by the compiler on expression trees (normalisation, expansion, factoring, integer folding) preserves the value of the expression.", "quantifier": "all expressions and environments", "why_tests_cant": "all expression trees", "anchors": ["endf_parserpy/compiler/expr_utils/node_trafos.py:factorout_common", "endf_parserpy/compiler/expr_utils/node_trafos.py:expand_product", "endf_parserpy/compiler/expr_utils/node_trafos.py:evaluate_int_addition", "endf_parserpy/compiler/expr_utils/tree_trafos.py:normalize_exprtree"]}
{"id": "C65", "title": "The C++ float reader stays inside its buffer", "statement": "Reading any 11-column field with the C++ reader writes at most 13 characters into its 13 character buffer.", "quantifier": "all field contents and options", "why_tests_cant": "all inputs", "anchors": ["endf_parserpy/compiler/cpp_templates/module_header_reading.hpp:endfstr2float"]}
{"id": "C66", "title": "C++ and Python readers agree on fields", "statement": "On every 11-column field accepted by the Python float reader the C++ reader produces the same normalised number text, and both read blank fields as zero.", "quantifier": "all fields", "why_tests_cant": "all inputs", "anchors": ["endf_parserpy/compiler/cpp_templates/module_header_reading.hpp:endfstr2float", "endf_parserpy/interpreter/fortran_utils.py:fortstr2float"]}
{"id": "C67", "title": "C++ and Python number lines identically", "statement": "Both writers assign the same sequence numbers to the lines of a section of any length.", "quantifier": "all section lengths", "why_tests_cant": "wrap-around after 99999 lines", "anchors": ["endf_parserpy/compiler/cpp_templates/module_header_writing.hpp:write_section_verbatim", "endf_parserpy/compiler/cpp_templates/module_header_writing.hpp:cpp_prepare_line", "endf_parserpy/interpreter/endf_utils.py:add_linenumbers_to_section"]}
{"id": "C68", "title": "C++ index shifting", "statement": "The C++ array store returns for each index vector the value stored last under this index vector, in dict mode and in list mode, for ascending index ranges starting anywhere.", "quantifier": "all histories of ascending stores", "why_tests_cant": "unbounded histories", "anchors": ["endf_parserpy/compiler/cpp_templates/index_shifter.hpp:IndexShifter", "endf_parserpy/compiler/cpp_templates/index_shifter.hpp:IndexShifterStore"]}
{"id": "C69", "title": "Deep equality of EndfDict objects", "statement": "Comparing nested dictionaries/lists with == is true iff they are structurally equal, and fails only for cyclic structures.", "quantifier": "all nested objects, including ones sharing sub-objects", "why_tests_cant": "all object graphs", "anchors": ["endf_parserpy/utils/accessories.py:recursive_equality_check"]}
{"id": "C70", "title": "C++ and Python select the same sections", "statement": "For sequence-valued exclude/include arguments both parsers process the same MF/MT sections.", "quantifier": "all arguments and MF/MT pairs", "why_tests_cant": "unbounded arguments", "anchors": ["endf_parserpy/compiler/cpp_templates/module_header.hpp:should_parse_section", "endf_parserpy/interpreter/endf_parser.py:should_skip_section"]}
{"id": "C71", "title": "strict_datatypes decides about floats in integer slots", "statement": "With strict_datatypes=True a number that is not an integer object in one of the four integer slots of a CONT-like record makes writing fail with InvalidIntegerError; with strict_datatypes=False an integral number is written exactly like the integer and every other number is refused.", "quantifier": "all values in all four slots", "why_tests_cant": "the decision concerns every number and every slot, tests sample a few", "anchors": ["endf_parserpy/interpreter/endf_utils.py:166-187"]}
{"id": "C72", "title": "Writing leaves the dictionary unchanged", "statement": "A successful write() of a section leaves the user's dictionary exactly as it was, except that missing MF and MT entries are added; no bookkeeping entries, abbreviations or other changes remain at any depth.", "quantifier": "all recipes and all dictionaries that can be written", "why_tests_cant": "The interpreter inserts and removes working entries in the user's own dictionaries at every nesting level; tests see only a few recipes and nesting shapes.", "anchors": ["endf_parserpy/interpreter/endf_parser.py:1025-1046", "endf_parserpy/interpreter/meta_control_utils.py:41-133"]}
{"id": "C73", "title": "C++ float fields have eleven columns", "statement": "Every finite number the compiled parser writes into a float field occupies exactly eleven columns, whatever the write options.", "quantifier": "all numbers and all combinations of write options", "why_tests_cant": "The text depends on sign, exponent length, rounding carry and options; tests sample a few numbers.", "anchors": ["endf_parserpy/compiler/cpp_templates/module_header_writing.hpp:160-326"]}
{"id": "C74", "title": "C++ float fields read back", "statement": "A number written by the compiled parser is read again, by the compiled parser and by the Python parser, up to half a unit of the last digit of the exponential form; zero stays zero.", "quantifier": "all numbers and all combinations of write options", "why_tests_cant": "Rounding, carries, three-digit exponents and skipped characters interact for every number.", "anchors": ["endf_parserpy/compiler/cpp_templates/module_header_writing.hpp:160-326", "endf_parserpy/compiler/cpp_templates/module_header_reading.hpp:212-258"]}
{"id": "C75", "title": "C++ and Python write the same number", "statement": "For the same options the Python writer and the C++ writer produce fields with the same value.", "quantifier": "all numbers, all options", "why_tests_cant": "Two independent implementations of rounding and layout; equality for all numbers is not testable.", "anchors": ["endf_parserpy/compiler/cpp_templates/module_header_writing.hpp:160-326", "endf_parserpy/interpreter/fortran_utils.py:60-208"]}
{"id": "C76", "title": "C++ reading stays within the line", "statement": "The compiled parser reads fields and control numbers of a line without accessing memory behind the end of the line.", "quantifier": "all lines", "why_tests_cant": "Accesses behind the end usually read harmless bytes, so tests pass.", "anchors": ["endf_parserpy/compiler/cpp_templates/module_header_reading.hpp:212-301", "endf_parserpy/compiler/cpp_templates/module_header_reading.hpp:374-399"]}
{"id": "C77", "title": "C++ and Python read the same integers", "statement": "Every text the Python parser accepts in an integer field or as control number is read as the same number by the compiled parser.", "quantifier": "all texts", "why_tests_cant": "unbounded input space", "anchors": ["endf_parserpy/compiler/cpp_templates/module_header_reading.hpp:260-271", "endf_parserpy/interpreter/fortran_utils.py:read_fort_int"]}
{"id": "C78", "title": "C++ number sequences and table bodies", "statement": "The compiled parser reads a sequence of numbers or the body of a TAB1 record as the Python parser does and continues at the same line; a table it has written is read again with the same ranges and points.", "quantifier": "all lengths and all lines", "why_tests_cant": "Line breaks after six numbers and the number of lines consumed have to be right for every length.", "anchors": ["endf_parserpy/compiler/cpp_templates/module_header_reading.hpp:491-612", "endf_parserpy/compiler/cpp_templates/module_header_writing.hpp:358-418", "endf_parserpy/interpreter/endf_utils.py:342-411"]}
{"id": "C79", "title": "C++ returns every section of a file", "statement": "For a file with the structure of a tape, the compiled parser returns the tape head and exactly the sections of the file: a section that is excluded or has no recipe with all its lines, the others as the function generated from the recipe reads them.", "quantifier": "all tapes, selections and sets of recipes", "why_tests_cant": "Test files have recipes for all sections; a lost line in a section kept as text is not noticed.", "anchors": ["endf_parserpy/compiler/code_generator_parsing.py:279-426", "endf_parserpy/compiler/cpp_templates/module_header_reading.hpp:624-659"]}
{"id": "C80", "title": "C++ accepts the same files as Python", "statement": "With the same options, the compiled parser refuses a file whose structure of SEND, FEND, MEND and TEND records is wrong, and accepts every file the Python parser accepts.", "quantifier": "all lists of lines and all options", "why_tests_cant": "unbounded input space; the state machine has many paths that regular files never take", "anchors": ["endf_parserpy/compiler/code_generator_parsing.py:230-276", "endf_parserpy/compiler/code_generator_parsing.py:305-414", "endf_parserpy/interpreter/endf_utils.py:482-557"]}
{"id": "C81", "title": "C++ writes tapes", "statement": "The lines the compiled parser writes have the structure of a tape, with the number of the material in the end records, and are accepted by the parsers; sections kept as text are read back with the same content.", "quantifier": "all dictionaries of sections", "why_tests_cant": "unbounded input space; uninitialised variables often hold plausible values", "anchors": ["endf_parserpy/compiler/code_generator_writing.py:356-488", "endf_parserpy/compiler/cpp_templates/module_header_writing.hpp:416-492"]}
{"id": "C82", "title": "C++ arrays come back under their indices", "statement": "A variable with indices that the compiled parser has read element by element is returned as the dictionary the Python parser builds from the same elements: the same indices, the same values, nothing lost and nothing added.", "quantifier": "all sequences of assignments to elements, any number of indices; for matrices all loop ranges", "why_tests_cant": "The containers keep start and last index and compute positions; recipes in the tests only use a few index ranges, and a lost element is silent.", "anchors": ["endf_parserpy/compiler/cpp_types/cpp_type_nested_vector/definition.py:13-145", "endf_parserpy/compiler/cpp_types/cpp_type_matrix2d/definition.py:13-120", "endf_parserpy/compiler/cpp_types/cpp_type_matrix2d/assign.py:60-210"]}
{"id": "C83", "title": "Compiled parser and interpreter return the same sections", "statement": "For the same recipe and the same lines, the function generated by the compiler and the interpreter return the same dictionary, and refuse the same lines.", "quantifier": "all recipes that can be compiled, all sections, all options", "why_tests_cant": "Tests compare both parsers for a few files; the agreement for a recipe rests on the generated code, its declared variables, loops and nested blocks, for every content of a section.", "anchors": ["endf_parserpy/compiler/code_generator_core.py:110-149", "endf_parserpy/compiler/code_generator_core.py:480-830", "endf_parserpy/compiler/endf2cpp_aux.py:231-238", "endf_parserpy/compiler/cpp_templates/module_header_reading.hpp:323-460", "endf_parserpy/interpreter/endf_parser.py:440-986"]}
{"id": "C84", "title": "Ignoring mismatches never changes what was accepted before", "statement": "A file that parse() accepts is accepted with the same result if one or more of ignore_zero_mismatch, ignore_number_mismatch and ignore_varspec_mismatch are switched on.", "quantifier": "all recipes, files, and combinations of options", "why_tests_cant": "The options are consulted in every field, also while looking ahead; a test shows one file for one combination.", "anchors": ["endf_parserpy/interpreter/endf_mapping_core.py:119-164", "endf_parserpy/interpreter/endf_parser.py:909-988", "endf_parserpy/interpreter/meta_control_utils.py:398-455"]}
{"id": "C85", "title": "Fuzzy matching never changes what was accepted before", "statement": "A file that parse() accepts with exact comparison of numbers is accepted with the same result with fuzzy_matching=True.", "quantifier": "all recipes and files", "why_tests_cant": "The two comparisons take different paths through the code, for numbers and lists, in every field.", "anchors": ["endf_parserpy/interpreter/endf_mapping_core.py:140-147", "endf_parserpy/utils/math_utils.py:95-121", "endf_parserpy/utils/math_utils.py:301-325"]}
{"id": "C86", "title": "The shipped recipes give the same result in both parsers", "statement": "For every recipe delivered with the package, the compiled parser and the interpreter return the same dictionary for a section that both accept.", "quantifier": "all shipped recipes, all sections", "why_tests_cant": "Files in the tests have a few of the possible branches, loop counts and table sizes of each recipe.", "anchors": ["endf_parserpy/endf_recipes/endf6", "endf_parserpy/endf_recipes/pendf", "endf_parserpy/compiler/code_generator_core.py:110-149", "endf_parserpy/interpreter/endf_parser.py:440-986"]}
{"id": "C87", "title": "Abbreviations are only a notation", "statement": "Reading a section with a recipe that has abbreviations (NW := NEP[j]*(NA[j]+2)) gives the same result as with the expressions written in place of the names. This is what the compiler does, while the interpreter stores abbreviations in the dictionary, evaluates them at each use and removes them at the end.", "quantifier": "all recipes, all sections", "why_tests_cant": "The two mechanisms differ in scope and time of evaluation; tests use the few recipes with abbreviations, and a few sections for each.", "anchors": ["endf_parserpy/interpreter/meta_control_utils.py:41-64", "endf_parserpy/interpreter/endf_mapping_utils.py:63-68", "endf_parserpy/compiler/variable_management.py:66-86", "endf_parserpy/compiler/code_generator_core.py:366-404"]}
{"id": "C88", "title": "Parsing, writing and parsing again gives the same dictionary", "statement": "If a section is parsed, the dictionary written, and the written lines parsed again with the same recipe and options, parsing succeeds and the second dictionary is equal to the first, with the same keys, types and values.", "quantifier": "all recipes, all sections, all options", "why_tests_cant": "The package's own tests do this for a few files; whether it holds depends on every way a recipe can determine variables from fields, on formatting of every number, and on the layout of each record kind.", "anchors": ["endf_parserpy/interpreter/endf_parser.py:440-755", "endf_parserpy/interpreter/endf_parser.py:1028-1046", "endf_parserpy/interpreter/endf_utils.py:71-455", "endf_parserpy/interpreter/endf_mappings.py:55-437"]}
{"id": "C89", "title": "A whole file survives parsing, writing and parsing again", "statement": "If a file is parsed, the result written with write, and the written lines parsed again by the same parser with the same exclude and include arguments, parsing succeeds and gives the same sections: equal dictionaries for the sections that are parsed, and lines equal in the columns up to MT for the others; no section is lost, added or changed.", "quantifier": "all files, all sets of recipes, all options and selections of sections", "why_tests_cant": "Tests compare some evaluated files; the claim couples the splitter, the choice of recipes, the interpreter in both directions, number formatting, line numbering and the end records for every combination of sections.", "anchors": ["endf_parserpy/interpreter/endf_parser.py:909-988", "endf_parserpy/interpreter/endf_parser.py:990-1146", "endf_parserpy/interpreter/endf_utils.py:458-560"]}
{"id": "C90", "title": "The compiled parser and the interpreter write the same records", "statement": "For every recipe, the function the compiler generates for writing a section and the interpreter write the same records for the same dictionary: the same kinds of records in the same order, with the same MAT, MF and MT numbers and the same values in the same fields.", "quantifier": "all recipes, all dictionaries", "why_tests_cant": "Tests compare the two writers on some evaluated files; the two share no code, and whether they agree depends on the order in which variables are written, on the nesting of sections and loops, and on the form of the expressions of each recipe.", "anchors": ["endf_parserpy/compiler/code_generator_writing.py:92-353", "endf_parserpy/compiler/code_generator_writing_core.py", "endf_parserpy/compiler/cpp_templates/index_shifter.hpp:120-200", "endf_parserpy/interpreter/endf_parser.py:990-1146"]}
{"id": "C91", "title": "Abbreviations do not change what is written", "statement": "Writing a section with a recipe that defines abbreviations gives the same records, the same dictionary afterwards, or the same exception, as writing it with the recipe in which every use of an abbreviation is replaced by its definition.", "quantifier": "all recipes, all dictionaries", "why_tests_cant": "Tests write sections with a few shipped recipes; an abbreviation is kept in the dictionary itself while a section is written, so whether it changes the outcome depends on where it is defined, in which branch, loop or section it is used, and on which names the dictionary has.", "anchors": ["endf_parserpy/interpreter/endf_parser.py:990-1146", "endf_parserpy/interpreter/meta_control_utils.py", "endf_parserpy/compiler/code_generator_core.py:283-475"]}
{"id": "C92", "title": "Shipped recipes: both parsers write the same records", "statement": "For every ENDF recipe shipped with the package, the function the compiler generates for writing and the interpreter write the same records for the same dictionary, and every section the interpreter can write can be written by the compiled parser.", "quantifier": "all shipped recipes the model covers, all dictionaries", "why_tests_cant": "Tests write the evaluated files at hand; branches of the recipes that no file uses, missing variables and other values of the counters are not seen.", "anchors": ["endf_parserpy/endf_recipes/endf6", "endf_parserpy/endf_recipes/jendl", "endf_parserpy/endf_recipes/pendf", "endf_parserpy/compiler/code_generator_writing_core.py:27-53", "endf_parserpy/endf_recipes/endf6/endf_recipe_mf1_mt460.py:14-18"]}
{"id": "C93", "title": "Lines of a section written by both parsers", "statement": "For the same dictionary the compiled parser and the interpreter write the same number of lines for a section, with the same control numbers, and with fields that either parser reads as the same numbers, so that one parser can read what the other one has written.", "quantifier": "all recipes, all dictionaries, all options of writing", "why_tests_cant": "Tests compare the lines of a few evaluated files; the two writers are different programs (one cuts blocks of six fields, the other one fills a line and starts a new one when it is full), and their texts for numbers, the padding of the last line and the zero fields of the SEND record differ.", "anchors": ["endf_parserpy/compiler/cpp_templates/module_header_writing.hpp:298-438", "endf_parserpy/compiler/endf2cpp_aux.py:229-276", "endf_parserpy/compiler/code_generator_core.py:478-792", "endf_parserpy/interpreter/endf_utils.py:71-424"]}
{"id": "C94", "title": "Sections written by the compiled parser can be read by both parsers", "statement": "What the compiled parser writes for a dictionary is read by the interpreter exactly as if the interpreter had written it: with the same dictionary, whatever the parsing options. For a section that has been read before, writing with the compiled parser and reading with either parser gives the dictionary back.", "quantifier": "all recipes, all dictionaries that both parsers write, all options of reading", "why_tests_cant": "The lines of the two writers differ as texts, field by field, so a comparison of files proves nothing, and whether a reader depends on one of the differences (a decimal point where an integer is tried first, blanks in the last line of a list, a blank line) has to be settled for every record, loop, condition and lookahead of a recipe.", "anchors": ["endf_parserpy/interpreter/endf_parser.py:434-851", "endf_parserpy/interpreter/endf_utils.py:71-424", "endf_parserpy/interpreter/fortran_utils.py:18-240", "endf_parserpy/compiler/cpp_templates/module_header_writing.hpp:298-438"]}
{"id": "C95", "title": "Files written by the compiled parser and read by the interpreter", "statement": "A dictionary of a whole file (tape head and any MF/MT sections) that the compiled parser writes with write_endf is read back by the interpreter: parsing succeeds and returns the tape head and every section with exactly the same dictionaries, and no other section.", "quantifier": "all files of one material, all shipped recipes, any number of sections", "why_tests_cant": "The two parsers frame sections differently: SEND, FEND, MEND and TEND records are written by generated code and the master function, with its own memory of MAT and of the last MF; whether the interpreter finds the sections and each recipe reads its lines has to be settled for every combination of sections.", "anchors": ["endf_parserpy/compiler/code_generator_writing.py:285-488", "endf_parserpy/compiler/cpp_templates/module_header_writing.hpp:416-461", "endf_parserpy/interpreter/endf_parser.py:909-1014", "endf_parserpy/interpreter/endf_utils.py:426-560"]}
{"id": "C96", "title": "Whole files read by both parsers", "statement": "If both the interpreter (EndfParser.parse) and the compiled parser (parse_endf) accept a file, they return the same MF/MT sections, and for each section the same dictionary: the same keys and equal values.", "quantifier": "all files of one material, all shipped recipes that were compared, any number of sections", "why_tests_cant": "The interpreter splits the file by control numbers first, drops the SEND records and appends its own; the generated functions run on one stream, and each must stop exactly behind the SEND record of its section or every later section is read from the wrong line. Where a function stops depends on the counters in the data.", "anchors": ["endf_parserpy/compiler/code_generator_parsing.py:160-428", "endf_parserpy/compiler/code_generator_parsing.py:482-514", "endf_parserpy/interpreter/endf_parser.py:909-988", "endf_parserpy/interpreter/endf_utils.py:426-560"]}
{"id": "C97", "title": "Replacing a section on the command line", "statement": "After `endf-cli replace MF/MT source destination` (or `replace MF ...`) the destination is a readable ENDF file in which the section MF/MT (all sections of the file MF) is the one of the source and every other section, with the tape head, is unchanged in columns 1-75.", "quantifier": "all pairs of files of one material, all sections and files, all options and recipes", "why_tests_cant": "Both files pass through the lenient splitter, the dictionary, and the writer, which has to recreate all end records. The command prefers the compiled parser, and what happens to sections that are not concerned depends on whether it has a recipe for them; tests replace a section in a file where it has.", "anchors": ["endf_parserpy/cli/actions/replace.py:44-99", "endf_parserpy/cli/cmd_utils.py:73-97", "endf_parserpy/utils/accessories.py:217-290", "endf_parserpy/interpreter/endf_parser.py:909-1110", "endf_parserpy/compiler/code_generator_parsing.py:305-414"]}
{"id": "C98", "title": "Comparing files on the command line", "statement": "`endf-cli compare A B` exits with status 0 exactly if both files have the same MF/MT sections with the same content: the same variables and indices at all levels, equal integers and texts, and floats within the tolerances. In particular a file equals itself, and a file equals the one obtained by reading and writing it.", "quantifier": "all pairs of files that can be parsed, all recipes and options, all tolerances", "why_tests_cant": "The comparison recurses through dictionaries of any shape and reports differences by a flag that is collected over all levels; a level where a difference is dropped shows only for a difference at that place. That a rewritten file compares equal needs the round trip of every section.", "anchors": ["endf_parserpy/cli/actions/compare.py:36-55", "endf_parserpy/utils/debugging_utils.py:97-223", "endf_parserpy/interpreter/endf_parser.py:909-988"]}
{"id": "C99", "title": "Exit status of the commands", "statement": "`endf-cli validate` ends with status 0 exactly if every file named on the command line exists and can be parsed by itself, and its summary gives each file its own verdict. `endf-cli match` ends with status 0 exactly if all files could be searched. `endf-cli show` and `endf-cli update-directory` end with status 0 when they have done their work.", "quantifier": "all lists of files and patterns, all contents of the files, all recipes and options", "why_tests_cant": "One parser object reads all files one after the other, so that a verdict may depend on what happened with earlier files, in any order and number; tests validate one or two files that are fine.", "anchors": ["endf_parserpy/cli/actions/validate.py:28-58", "endf_parserpy/cli/actions/match.py:33-66", "endf_parserpy/cli/actions/show.py:33-44", "endf_parserpy/cli/actions/update_directory.py:35-47", "endf_parserpy/cli/cmd.py:50-62", "endf_parserpy/interpreter/endf_parser.py:909-988"]}
{"id": "C100", "title": "Directory and description changed on the command line", "statement": "After `endf-cli update-directory` and `endf-cli insert-text` the file can be read in strict mode; the directory in MF1/MT451 lists exactly the sections of the file, each once, with the number of lines it has in the file; all other sections have the text they had. `update-directory` changes nothing else in MF1/MT451. `insert-text` puts the lines of the text after the given line of the description, keeps the other lines of the description and counts them in NWD.", "quantifier": "all files with one material in strict layout whose MF1/MT451 was read, all texts and line numbers", "why_tests_cant": "The directory describes the file it is part of, so that its own length enters; the sections not parsed are passed on as lines. The interplay of splitter, recipe interpreter, plumbing functions and writer has to be right for every set of sections and every length of the text.", "anchors": ["endf_parserpy/cli/actions/update_directory.py:35-47", "endf_parserpy/cli/actions/insert_text.py:41-54", "endf_parserpy/utils/endf6_plumbing.py:79-208", "endf_parserpy/interpreter/endf_parser.py:990-1075", "endf_parserpy/endf_recipes/endf6/endf_recipe_mf1_mt451.py"]}
{"id": "C101", "title": "Options of the parser on the command line", "statement": "Whatever options are given to an `endf-cli` command, the parser that reads and writes the files has every given option set to the value asked for (the last one if it is given repeatedly); an option that it does not have is refused; and every option not given has the default documented for the parser class. `replace` differs as documented in its code only: end records and tape head are not checked, zeros are checked unless asked otherwise. Giving an option does not change which parser is used.", "quantifier": "all sequences of options, with and without the compiled parser, all commands", "why_tests_cant": "The options go through a table, a merge with the arguments of the command, a filter that depends on the parser and a fallback that swallows every exception; any combination of options may take another way through it.", "anchors": ["endf_parserpy/cli/cmd_utils.py:24-101", "endf_parserpy/cli/actions/replace.py:54-68", "endf_parserpy/interpreter/endf_parser.py:104-131", "endf_parserpy/cpp_parsers/endf_parser_cpp.py:43-61"]}
{"id": "C102", "title": "Entries displayed by show", "statement": "`show_content`, which `endf-cli show` uses, displays whatever object a path leads to: a number or text by itself; for a dictionary or list one line for each entry down to the depth asked for, in the order of the keys, with the path of the entry below the object, and its value, or the note that it is a subsection or array where it is deeper. No entry is missing and none is displayed twice. The displayed path, given to EndfPath, leads from the object to the entry.", "quantifier": "all nested objects with numbers, texts, dictionaries and lists, all depths and prefixes", "why_tests_cant": "Objects can be nested in any way, and recursion stops at a depth that is counted down while the path is built up in a prefix; whether exactly the entries within the depth appear, under paths that the path class accepts, has to be settled for all shapes, including objects without entries and numbers that keep their text.", "anchors": ["endf_parserpy/utils/user_tools.py:147-169", "endf_parserpy/cli/actions/show.py:33-44", "endf_parserpy/utils/accessories.py:131-188"]}
{"id": "C103", "title": "Look-ups in syntax trees", "statement": "The functions through which all generators and interpreters look into the syntax trees of recipes and queries find what is there: search_name is true exactly if some node at any depth has the name; retrieve_value gives the value of the first token of the type from left to right, and None exactly if there is none; get_child gives the child with the name after the given number of others, and IndexError exactly if there are not so many; get_child_value gives the value of the first token of the type among the children. reconstruct_tree_str gives the values of all tokens from left to right, separated by one blank.", "quantifier": "all syntax trees, all names and positions", "why_tests_cant": "Trees have any shape and depth, and the functions stop at the first hit of a depth-first walk; that no node is skipped and none found too late holds for a few sample recipes without holding for all.", "anchors": ["endf_parserpy/utils/tree_utils.py:24-111"]}
