{
 "claims": [
  {
   "property": "C01",
   "status": "proved",
   "theorems": [
    "Verif.C01_blank_int",
    "Verif.C01_blank_float"
   ],
   "note": "all texts of white space characters, all reading options"
  },
  {
   "property": "C02",
   "status": "proved",
   "theorems": [
    "Verif.C02_int_roundtrip",
    "Verif.C02_int_overflow",
    "Verif.C02_fits_iff"
   ],
   "note": "round-trip for all integers and widths; overflow direction; numeric characterisation of the integers that fit"
  },
  {
   "property": "C03",
   "status": "partial",
   "theorems": [
    "Verif.C03_partial",
    "Verif.C03_fails"
   ],
   "note": "holds for mantissas ending in a digit; C03_fails shows that `1.+3` is rejected while `1.E+3` is accepted"
  },
  {
   "property": "C04",
   "status": "proved",
   "theorems": [
    "Verif.C04_blanks_ignored",
    "Verif.C04_needs_option"
   ],
   "note": "value and success independent of inserted blanks; the option is necessary"
  },
  {
   "property": "C05",
   "status": "proved",
   "theorems": [
    "Verif.C05_exp_width",
    "Verif.C05_float_width",
    "Verif.float2expformstr_fuel",
    "Verif.C05_narrow"
   ],
   "note": "width >= 9 leaves room for a digit behind the point with three exponent digits; values are exact rationals with at most three exponent digits"
  },
  {
   "property": "C06",
   "status": "proved",
   "theorems": [
    "Verif.C06_exp_accuracy"
   ],
   "note": "half a unit of the last printed digit, value as read back by every reader of this width"
  },
  {
   "property": "C07",
   "status": "partial",
   "theorems": [
    "Verif.C07_partial",
    "Verif.C07_fails",
    "Verif.C07_value_stable"
   ],
   "note": "identical text in exponential form; with prefer_noexp the text can change once (C07_fails: 999999999.9) but the value never does, and non-exponential texts are stable"
  },
  {
   "property": "C08",
   "status": "proved",
   "theorems": [
    "Verif.C08_noexp"
   ],
   "note": "text fills the field and is at least as accurate as the exponential form"
  },
  {
   "property": "C09",
   "status": "partial",
   "theorems": [
    "Verif.C09_partial",
    "Verif.C09_fails"
   ],
   "note": "identical text for non-blank fields of full width; blank fields become 0.000000+0"
  },
  {
   "property": "C10",
   "status": "proved",
   "theorems": [
    "Verif.C10_ctrl_roundtrip",
    "Verif.C10_ctrl_width",
    "Verif.C10_blank_is_zero",
    "Verif.C10_short_is_zero"
   ],
   "note": "round trip for all triples in range behind any body; exactly nine columns iff in range; blank or missing control columns are zero"
  },
  {
   "property": "C100",
   "status": "partial",
   "theorems": [
    "Verif.C100_update_partial",
    "Verif.C100_insert_partial"
   ],
   "note": "Proved for the Python parser and files with one material in strict layout whose MF1/MT451 was read with its recipe, provided that writing succeeds and the lines of the section fit in their columns. Missing: that writing succeeds; NWD < 5, where the directory is wrong (C52_nwd_fails); a text ending in a blank line put at the end of the description."
  },
  {
   "property": "C101",
   "status": "partial",
   "theorems": [
    "Verif.C101_partial",
    "Verif.C101_found",
    "Verif.C101_choice",
    "Verif.C101_replace",
    "Verif.C101_always_on",
    "Verif.C101_ignored_fails"
   ],
   "note": "Proved for every sequence of options that the parser used has. False for options that the compiled parser does not have: they are ignored without notice (C101_ignored_fails), and --fuzzy_matching changes the parser (C101_choice). Options that are on by default cannot be switched off (C101_always_on)."
  },
  {
   "property": "C102",
   "status": "partial",
   "theorems": [
    "Verif.C102_partial",
    "Verif.C102_ends",
    "Verif.C102_value",
    "Verif.C102_path",
    "Verif.C102_fails",
    "Verif.C102_preserved_fails"
   ],
   "note": "Proved for all dictionaries and lists without empty dictionaries or lists within the depth displayed, and for single numbers and texts; displayed paths lead to the entries. False for empty dictionaries and lists, which end with a ValueError (C102_fails, C102_ends says exactly when), and for single numbers read with preserve_value_strings (C102_preserved_fails)."
  },
  {
   "property": "C103",
   "status": "partial",
   "theorems": [
    "Verif.C103_search",
    "Verif.C103_retrieve",
    "Verif.C103_child",
    "Verif.C103_text_partial",
    "Verif.C103_text_fails"
   ],
   "note": "Look-ups proved for all trees; the reconstructed text for trees in which every tree has children. False for the text of trees with a child without children, which leaves two blanks (C103_text_fails)."
  },
  {
   "property": "C11",
   "status": "proved",
   "theorems": [
    "Verif.C11_columns",
    "Verif.C11_numbered",
    "Verif.C12_end_records"
   ],
   "note": "all writers on contents that fit; INTG with NDIGIT=3 needs the 13 elements of the format (the reader returns 14, see C15)"
  },
  {
   "property": "C12",
   "status": "proved",
   "theorems": [
    "Verif.C12_cont_fields",
    "Verif.C12_cont_roundtrip",
    "Verif.C12_cont_preserve",
    "Verif.C12_end_records",
    "Verif.C12_send_exact"
   ],
   "note": "includes zero_as_blank, which the package uses for SEND/FEND/MEND/TEND only"
  },
  {
   "property": "C13",
   "status": "proved",
   "theorems": [
    "Verif.C13_text_roundtrip",
    "Verif.C13_text_overflow"
   ],
   "note": ""
  },
  {
   "property": "C14",
   "status": "proved",
   "theorems": [
    "Verif.C14_dir_roundtrip"
   ],
   "note": ""
  },
  {
   "property": "C15",
   "status": "partial",
   "theorems": [
    "Verif.C15_partial",
    "Verif.C15_ndigit_range",
    "Verif.C15_ndigit3_fails",
    "Verif.C15_ndigit3_extra"
   ],
   "note": "NDIGIT 2,4,5,6 proved; the code violates the property for NDIGIT=3 (14 slots, the last one overlaps the MAT columns)"
  },
  {
   "property": "C16",
   "status": "proved",
   "theorems": [
    "Verif.C16_list_fields",
    "Verif.C16_list_roundtrip",
    "Verif.C16_count_mismatch"
   ],
   "note": ""
  },
  {
   "property": "C17",
   "status": "partial",
   "theorems": [
    "Verif.C17_partial",
    "Verif.C17_inRange_partial",
    "Verif.C17_fails"
   ],
   "note": "zero regions or points can be read but writing raises IndexError"
  },
  {
   "property": "C18",
   "status": "partial",
   "theorems": [
    "Verif.C18_partial",
    "Verif.C18_fails"
   ],
   "note": "zero regions can be read but writing raises IndexError"
  },
  {
   "property": "C19",
   "status": "proved",
   "theorems": [
    "Verif.C19_read_count",
    "Verif.C19_block_roundtrip",
    "Verif.C19_empty_fails"
   ],
   "note": "n > 0 for writing (n = 0 raises IndexError, C19_empty_fails); reading for all n"
  },
  {
   "property": "C20",
   "status": "proved",
   "theorems": [
    "Verif.C20_linenumbers",
    "Verif.C20_no_linenumbers"
   ],
   "note": ""
  },
  {
   "property": "C21",
   "status": "proved",
   "theorems": [
    "Verif.C21_structure"
   ],
   "note": "strict mode accepts exactly the tapes of the grammar in Spec/Tape.lean"
  },
  {
   "property": "C22",
   "status": "proved",
   "theorems": [
    "Verif.C22_sections",
    "Verif.C22_head",
    "Verif.C22_strict_nothing_else"
   ],
   "note": "every section of an accepted tape is stored under its MF/MT with exactly its lines, and nothing else is stored"
  },
  {
   "property": "C23",
   "status": "partial",
   "theorems": [
    "Verif.C23_partial",
    "Verif.C23_up_to_head_partial",
    "Verif.C23_fails"
   ],
   "note": "blank lines inside the tape do not matter; leading blank lines are stored as tape head (C23_fails)"
  },
  {
   "property": "C24",
   "status": "partial",
   "theorems": [
    "Verif.C24_partial",
    "Verif.C24_fails"
   ],
   "note": "lenient mode agrees with strict mode on accepted tapes; blank lines behind the TEND record make lenient mode fail (C24_fails)"
  },
  {
   "property": "C25",
   "status": "partial",
   "theorems": [
    "Verif.C25_written_partial",
    "Verif.C25_no_tpid",
    "Verif.C25_no_section_fails"
   ],
   "note": "written tapes follow the grammar if a tape head and a section are present; recipe execution is a parameter"
  },
  {
   "property": "C26",
   "status": "partial",
   "theorems": [
    "Verif.C26_verbatim_partial",
    "Verif.C26_fails",
    "Verif.C26_newline_fails"
   ],
   "note": "verbatim sections come back in columns 1-75; a short tape head or a line feed inside a line breaks it"
  },
  {
   "property": "C27",
   "status": "proved",
   "theorems": [
    "Verif.C27_selection",
    "Verif.C27_parse",
    "Verif.C27_cpp_agrees",
    "Verif.C27_cpp_differs"
   ],
   "note": "selection rule; effect on the result of parse; same rule in C++ for numbers and tuples; lists of length two and plain numbers differ"
  },
  {
   "property": "C28",
   "status": "proved",
   "theorems": [
    "Verif.C28_complete",
    "Verif.C28_each_line_once"
   ],
   "note": "Section text = lines with MT (or blank) followed by the SEND line, as split_sections delivers it."
  },
  {
   "property": "C29",
   "status": "partial",
   "theorems": [
    "Verif.C29_partial",
    "Verif.Example.C29_fails",
    "Verif.Example.C29_rewrite_fails",
    "Verif.Example.C29_truncated_fails"
   ],
   "note": "With nofail a failing section is returned as its lines followed by a SEND record (for every section of every successful call). The code violates the full property: the SEND record added for parsing stays (so the tape written from the result has two SEND records and can't be read again), and exceptions that are no ParserException are raised in spite of nofail."
  },
  {
   "property": "C30",
   "status": "partial",
   "theorems": [
    "Verif.C30_nolook_partial",
    "Verif.C30_success_partial",
    "Verif.Example.C30_fails"
   ],
   "note": "Independence of earlier calls proved for recipes without lookahead after arbitrary calls, and for all recipes after successful calls without nofail. The code violates the full property: a failing lookahead leaves ignore_all_mismatches set."
  },
  {
   "property": "C31",
   "status": "proved",
   "theorems": [
    "Verif.C31_linear",
    "Verif.C31_unknown",
    "Verif.C31_several",
    "Verif.C31_succeeds",
    "Verif.C31_loopVariable",
    "Verif.C31_current",
    "Verif.C31_enclosing",
    "Verif.C31_undefined"
   ],
   "note": "all expressions and environments; element-wise arithmetic of lists is not part of this evaluator model"
  },
  {
   "property": "C32",
   "status": "partial",
   "theorems": [
    "Verif.C32_solve",
    "Verif.C32_rewrite_partial",
    "Verif.C32_preserve_fails",
    "Verif.C32_zero_factor_fails"
   ],
   "note": "solution exact for all expressions; rewriting needs plain numbers (not kept as text) and no variable with factor zero that is still missing, both shown necessary"
  },
  {
   "property": "C33",
   "status": "proved",
   "theorems": [
    "Verif.C33_policy",
    "Verif.C33_length",
    "Verif.C33_list",
    "Verif.C33_asymmetric"
   ],
   "note": "decision for every field position and option combination; fuzzy comparison is asymmetric"
  },
  {
   "property": "C34",
   "status": "partial",
   "theorems": [
    "Verif.C34_boolean_partial",
    "Verif.C34_value",
    "Verif.C34_element_fails"
   ],
   "note": "undefined names make the comparison false; a missing element of an existing array raises an exception"
  },
  {
   "property": "C35",
   "status": "proved",
   "theorems": [
    "Verif.C35_loop",
    "Verif.C35_empty",
    "Verif.C35_gone"
   ],
   "note": "Exact characterisation of success for all bounds, bodies and states; the loops of list bodies are covered by the run relation in C38."
  },
  {
   "property": "C36",
   "status": "proved",
   "theorems": [
    "Verif.C36_outcome",
    "Verif.C36_restores",
    "Verif.Example.C36_flag_stays"
   ],
   "note": "Data, position, loop variables and tolerances seen by the chosen branch are those before the lookahead. C36_flag_stays: if another exception escapes from the lookahead, the tolerance flag of the parser object stays set (see C30)."
  },
  {
   "property": "C37",
   "status": "proved",
   "theorems": [
    "Verif.C37_read"
   ],
   "note": "Clean: no internal keys and no abbreviated expressions at any depth."
  },
  {
   "property": "C38",
   "status": "partial",
   "theorems": [
    "Verif.C38_exact",
    "Verif.C38_padding_partial",
    "Verif.Example.C38_padding_fails"
   ],
   "note": "Exact for templates without PADLINE. With PADLINE the code may skip beyond the end of the list (C38_padding_fails)."
  },
  {
   "property": "C39",
   "status": "partial",
   "theorems": [
    "Verif.C39_partial",
    "Verif.C39_success_partial",
    "Verif.C39_writes_partial",
    "Verif.C39_zero_fails",
    "Verif.C39_missing_fails",
    "Verif.C39_pad_fails",
    "Verif.C39_text_fails",
    "Verif.C39_shadow_fails",
    "Verif.C39_whole_fails",
    "Verif.C39_loop_fails"
   ],
   "note": "Proved by simulation over all recipes and lines: what has been read can be written with all parsing options (C39_writes_partial), and with strict ones all records come out with the same values (C39_success_partial), if the recipe is tidy (texts stored completely, zeros skipped by PADLINE, conditions decided by present variables), every record could be written right after it was read, and names are unique and not those of loop variables. C39_partial needs less, but success of writing is a hypothesis there. Missing: default options, which really lose values (C39_zero_fails). Each condition has a counterexample where it does not hold."
  },
  {
   "property": "C40",
   "status": "partial",
   "theorems": [
    "Verif.C40_partial",
    "Verif.C40_text_fails",
    "Verif.C40_length_fails",
    "Verif.C40_late_fails",
    "Verif.C40_zero_fails",
    "Verif.C40_digits_fails",
    "Verif.C40_extra_fails"
   ],
   "note": "For every recipe of the modelled language, every dictionary and every successful writing and reading run with records of equal values: all values read are the ones of the dictionary at the same place, and every variable determined by a field of a written record comes back. Conditions: unique names of searched variables, abbreviation names not used for data, texts and control numbers taken from the current section, conditions decided at reading time. Missing: that reading succeeds is a hypothesis; the _fails theorems show why the conditions are needed."
  },
  {
   "property": "C41",
   "status": "partial",
   "theorems": [
    "Verif.C41_partial",
    "Verif.C41_gaps",
    "Verif.C41_empty_fails",
    "Verif.C41_descending"
   ],
   "note": "Array writes without gaps give the same content in list and dict mode; gaps and empty arrays disagree (shown)."
  },
  {
   "property": "C42",
   "status": "proved",
   "theorems": [
    "Verif.C42_get",
    "Verif.C42_other",
    "Verif.C42_failing",
    "Verif.C42_list_leaves"
   ],
   "note": "Reading a path after setting it gives the value set, paths apart from it are unchanged, a failing assignment leaves every value readable before readable, for all objects and paths; list elements are only replaced."
  },
  {
   "property": "C43",
   "status": "partial",
   "theorems": [
    "Verif.C43_exists",
    "Verif.C43_remove_partial",
    "Verif.C43_fails"
   ],
   "note": "exists is true iff get succeeds; after remove the path doesn't exist, for dictionaries. Missing: list elements (removal shifts the others), see C43_fails."
  },
  {
   "property": "C44",
   "status": "partial",
   "theorems": [
    "Verif.C44_partial",
    "Verif.C44_prefix",
    "Verif.C44_refl_symm",
    "Verif.C44_fails"
   ],
   "note": "Equality of paths of the same length is element-wise and an equivalence there. Equality of paths of different length holds for prefixes (C44_fails)."
  },
  {
   "property": "C45",
   "status": "proved",
   "theorems": [
    "Verif.C45_roundtrip",
    "Verif.C45_roundtrip_tuple",
    "Verif.C45_array"
   ],
   "note": "A valid path is recovered from its text and from its tuple; A[i,j] is A/i/j."
  },
  {
   "property": "C46",
   "status": "partial",
   "theorems": [
    "Verif.C46_partial",
    "Verif.C46_nested_get",
    "Verif.C46_nested_set",
    "Verif.C46_fails",
    "Verif.C46_tuple_fails"
   ],
   "note": "Views read and write the underlying dictionary at the joined path for all sequences of operations with keys that are paths; C46_fails and C46_tuple_fails show keys for which they don't."
  },
  {
   "property": "C47",
   "status": "partial",
   "theorems": [
    "Verif.C47_one_partial",
    "Verif.C47_fails",
    "Verif.C47_two_fails",
    "Verif.C47_index_fails"
   ],
   "note": "For a path with one wildcard, the results that exist are exactly the matching paths. Results that don't exist (C47_fails), several wildcards (C47_two_fails) and lists (C47_index_fails) violate the claim."
  },
  {
   "property": "C48",
   "status": "partial",
   "theorems": [
    "Verif.C48_choice",
    "Verif.C48_or_partial",
    "Verif.C48_or_fails"
   ],
   "note": "Truth of an expression that can be evaluated is truth for some choice of wildcard values, for all expressions and dictionaries. A|B with A true is true if the wildcards of B have values; false otherwise (C48_or_fails)."
  },
  {
   "property": "C49",
   "status": "partial",
   "theorems": [
    "Verif.C49_self",
    "Verif.C49_raise_partial",
    "Verif.C49_dict",
    "Verif.C49_symm_partial",
    "Verif.C49_kind_fails",
    "Verif.C49_symm_fails"
   ],
   "note": "No difference to itself; an exception exactly if the result without fail_on_diff is False; symmetric without relative tolerance. The exception isn't always a ValueError (C49_kind_fails), and with the default tolerances the order of arguments matters (C49_symm_fails)."
  },
  {
   "property": "C50",
   "status": "partial",
   "theorems": [
    "Verif.C50_dict_partial",
    "Verif.C50_list_partial",
    "Verif.C50_complete",
    "Verif.C50_untouched_fails",
    "Verif.C50_list_fails"
   ],
   "note": "After any access history: if one element of an array in nested dictionaries was retrieved and the test passes, all were; the test fails only if one was retrieved and another one wasn't. Arrays of which nothing was retrieved and lists in lists are not checked."
  },
  {
   "property": "C51",
   "status": "proved",
   "theorems": [
    "Verif.C51_last",
    "Verif.C51_length",
    "Verif.C51_last_entry",
    "Verif.C51_zero_fails"
   ],
   "note": "For all capacities from 1 on and all sequences of entries. With capacity 0 logging raises ZeroDivisionError."
  },
  {
   "property": "C52",
   "status": "partial",
   "theorems": [
    "Verif.C52_recipe",
    "Verif.C52_lines",
    "Verif.C52_rows",
    "Verif.C52_repeat",
    "Verif.C52_partial",
    "Verif.Example.C52_nwd_fails"
   ],
   "note": "Proved for dictionaries whose MF1/MT451 is written with its recipe and NWD >= 5; with NWD < 5 the entry of MF1/MT451 is wrong (shown). Arrays are dicts; lists fail on .keys()."
  },
  {
   "property": "C53",
   "status": "partial",
   "theorems": [
    "Verif.C53_set",
    "Verif.C53_set_newline",
    "Verif.C53_insert_partial",
    "Verif.C53_insert_fails",
    "Verif.C53_long"
   ],
   "note": "set/get and insert of descriptions; a trailing empty line at the end of the inserted text is lost (shown)."
  },
  {
   "property": "C54",
   "status": "partial",
   "theorems": [
    "Verif.C54_partial",
    "Verif.C54_succeeds",
    "Verif.C54_twice_fails",
    "Verif.C54_int_fails",
    "Verif.C54_list_fails"
   ],
   "note": "A call that succeeds converted exactly the keys that are integer texts at all dictionary levels and kept the values; it succeeds for all dictionaries with text keys denoting different integers. Applying it twice raises IndexError; dictionaries in lists are not converted."
  },
  {
   "property": "C55",
   "status": "partial",
   "theorems": [
    "Verif.C55_leads",
    "Verif.C55_values",
    "Verif.C55_partial",
    "Verif.C55_none",
    "Verif.C55_fails"
   ],
   "note": "Locations lead to the variable, are distinct, and are exactly the occurrences for which no dictionary on the way contains the variable. An occurrence in a sub-dictionary next to another occurrence isn't returned (C55_fails)."
  },
  {
   "property": "C56",
   "status": "proved",
   "theorems": [
    "Verif.C56_partition",
    "Verif.C56_once",
    "Verif.C56_result",
    "Verif.C56_parse"
   ],
   "note": "For all objects with two levels in which sections are dictionaries or lists, which includes all results of parse."
  },
  {
   "property": "C57",
   "status": "proved",
   "theorems": [
    "Verif.C57_selected",
    "Verif.C57_unparsed",
    "Verif.C57_override",
    "Verif.C57_override_file",
    "Verif.C57_flavour"
   ],
   "note": "Choice of the recipe characterised for all recipe dictionaries; definitions of a flavour change exactly their own entries."
  },
  {
   "property": "C58",
   "status": "partial",
   "theorems": [
    "Verif.C58_partial",
    "Verif.C58_crash_fails",
    "Verif.C58_version_fails"
   ],
   "note": "For every history of lookups with an injective hash and dump/load inverse, cached recipes equal freshly parsed ones; fails after a run killed while writing the cache and after a change of the parser itself."
  },
  {
   "property": "C59",
   "status": "partial",
   "theorems": [
    "Verif.C59_partial",
    "Verif.C59_writes",
    "Verif.C59_encode_fails",
    "Verif.C59_cpp_partial",
    "Verif.C59_cpp_fails"
   ],
   "note": "Python writefile: a failing conversion leaves the file system unchanged and overwrite=False never touches an existing file; fails if the text cannot be encoded, and for the C++ writer which truncates first."
  },
  {
   "property": "C60",
   "status": "proved",
   "theorems": [
    "Verif.C60",
    "Verif.C60_name_gone",
    "Verif.C60_no_backup_cpp"
   ],
   "note": "At every step of an in-place edit with backup the original content is reachable under the name or a backup name, and no older backup is lost."
  },
  {
   "property": "C61",
   "status": "partial",
   "theorems": [
    "Verif.C61_partial",
    "Verif.C61_none_partial",
    "Verif.places_mem",
    "Verif.C61_last_fails",
    "Verif.C61_text_fails",
    "Verif.C61_empty_fails"
   ],
   "note": "Termination with an explicit bound and equality with the first place in order, for all trees whose texts are not on the way to other places; the wildcard is not tried for the last element, and a described array element raises AttributeError."
  },
  {
   "property": "C62",
   "status": "partial",
   "theorems": [
    "Verif.C62_list_scalar_partial",
    "Verif.C62_scalar_list_partial",
    "Verif.C62_list_list_partial",
    "Verif.C62_list_scalar_succeeds",
    "Verif.C62_lengths",
    "Verif.C62_div",
    "Verif.C62_nested_fails"
   ],
   "note": "Element-wise for lists of numbers of any length, division as claimed. Nested lists are handled by Python operators on the inner lists (C62_nested_fails)."
  },
  {
   "property": "C63",
   "status": "partial",
   "theorems": [
    "Verif.C63_partial",
    "Verif.C63_fails",
    "Verif.C63_int_fails"
   ],
   "note": "All expressions, all environments in which no divisor vanishes; assumes equal names have equal indices and no product with a single factor loses it. The code violates the claim for x*a+x*a*b and, in integer fields, for (x+1)/2."
  },
  {
   "property": "C64",
   "status": "partial",
   "theorems": [
    "Verif.C64_normalize",
    "Verif.C64_steps",
    "Verif.C64_fold",
    "Verif.C64_factor_partial",
    "Verif.C64_simplify_partial",
    "Verif.C64_factor_fails",
    "Verif.C64_index_fails",
    "Verif.C64_recursion_fails",
    "Verif.C64_empty_fails"
   ],
   "note": "Normalisation and integer folding preserve the value of all trees; factoring under the two stated conditions, with counterexamples for each and an endless recursion for 1+1."
  },
  {
   "property": "C65",
   "status": "proved",
   "theorems": [
    "Verif.C65"
   ],
   "note": "Every eleven character field; the buffer is a list whose length is bounded by 13."
  },
  {
   "property": "C66",
   "status": "partial",
   "theorems": [
    "Verif.C66_partial",
    "Verif.C66_underscore_fails",
    "Verif.C66_tab_fails",
    "Verif.C66_more"
   ],
   "note": "Every text the Python reader accepts that has no underscore and no whitespace other than blanks is read by the C++ reader as the same number. Underscores and tabs differ (proved); the C++ reader accepts more (C66_more). std::stod is modelled over exact rationals."
  },
  {
   "property": "C67",
   "status": "partial",
   "theorems": [
    "Verif.C67_recipe",
    "Verif.C67_verbatim_partial",
    "Verif.C67_verbatim_fails"
   ],
   "note": "Recipe-written sections: any length. Sections copied verbatim: equal up to 99999 lines, different from line 100000 on (proved)."
  },
  {
   "property": "C68",
   "status": "partial",
   "theorems": [
    "Verif.C68_sets_partial",
    "Verif.C68_gets_partial",
    "Verif.C68_dict",
    "Verif.C68_list",
    "Verif.C68_last_fails",
    "Verif.C68_gap_fails",
    "Verif.C68_gap_one"
   ],
   "note": "All histories of nested ascending loops over any number of arrays and indices, both modes, reading and writing. The object stored first stays (C68_last_fails); gaps and descending first indices are undefined behaviour in C++ (C68_gap_fails)."
  },
  {
   "property": "C69",
   "status": "partial",
   "theorems": [
    "Verif.C69_partial",
    "Verif.C69_shared_fails",
    "Verif.C69_float_fails",
    "Verif.C69_text_fails"
   ],
   "note": "On a heap of objects: for objects that aren't cyclic and contain no list or dictionary twice, the comparison succeeds and is true iff structurally equal. Shared sub-objects, EndfFloat objects and lists compared with texts violate the claim."
  },
  {
   "property": "C70",
   "status": "partial",
   "theorems": [
    "Verif.C27_cpp_agrees",
    "Verif.C27_cpp_differs"
   ],
   "note": "same selection for numbers and tuples; two-element lists and single numbers are treated differently"
  },
  {
   "property": "C71",
   "status": "proved",
   "theorems": [
    "Verif.C71_strict_datatypes",
    "Verif.C71_cont_rejects"
   ],
   "note": ""
  },
  {
   "property": "C72",
   "status": "proved",
   "theorems": [
    "Verif.C72_unchanged"
   ],
   "note": "For dictionaries without internal entries."
  },
  {
   "property": "C73",
   "status": "partial",
   "theorems": [
    "Verif.C73_partial",
    "Verif.C73_fails"
   ],
   "note": "All numbers between 1e-99 and 1e99, and those with three-digit exponents that have no zero in the middle; other numbers can need twelve columns, an exception in the middle of writing (proved)."
  },
  {
   "property": "C74",
   "status": "partial",
   "theorems": [
    "Verif.C74_partial",
    "Verif.C74_fails",
    "Verif.C74_fails_more"
   ],
   "note": "Same range as C73, all options. Outside of it the code loses a zero of the exponent: 1e100 is written as 1e10 (proved)."
  },
  {
   "property": "C75",
   "status": "partial",
   "theorems": [
    "Verif.C75_partial",
    "Verif.C75_text_fails"
   ],
   "note": "Without prefer_noexp, width 11, range of C73: same value read from both texts. The texts differ (proved). Missing: prefer_noexp."
  },
  {
   "property": "C76",
   "status": "partial",
   "theorems": [
    "Verif.C76_partial",
    "Verif.C76_fails"
   ],
   "note": "No access behind the end for lines of at least 74 characters; every shorter line, also an empty one, is accessed behind its end (proved for all of them)."
  },
  {
   "property": "C77",
   "status": "partial",
   "theorems": [
    "Verif.C77_partial",
    "Verif.C77_underscore_fails",
    "Verif.C77_range_fails",
    "Verif.C77_more",
    "Verif.ctrlNum_agree"
   ],
   "note": "All fields without underscores and other white space than blanks, for numbers that fit into four bytes; otherwise different or undefined (proved)."
  },
  {
   "property": "C78",
   "status": "partial",
   "theorems": [
    "Verif.C78_partial",
    "Verif.C78_tab1_partial",
    "Verif.C78_roundtrip_partial",
    "Verif.C78_empty_fails",
    "Verif.C78_int_fails"
   ],
   "note": "All lengths from 1 on, with and without validate_control_records. Empty sequences consume a line in C++ (proved for all tapes); interpolation tables in float format are read differently (proved)."
  },
  {
   "property": "C79",
   "status": "partial",
   "theorems": [
    "Verif.C79_partial",
    "Verif.C79_fails",
    "Verif.C79_norecipe_fails",
    "Verif.C79_validate_fails"
   ],
   "note": "proved for one material whose sections have recipes, lines of at least 75 columns; sections without recipe lose their first line, which is proved in general"
  },
  {
   "property": "C80",
   "status": "partial",
   "theorems": [
    "Verif.C80_partial",
    "Verif.C80_tpid_partial",
    "Verif.C80_truncated_fails",
    "Verif.C80_materials_fails",
    "Verif.C80_blank_fails",
    "Verif.C80_fails"
   ],
   "note": "which sections are refused is proved; truncated files are accepted, several materials and trailing blank lines refused"
  },
  {
   "property": "C81",
   "status": "partial",
   "theorems": [
    "Verif.C81_partial",
    "Verif.C81_verbatim",
    "Verif.C81_roundtrip_partial",
    "Verif.C81_undef_fails",
    "Verif.C81_fails"
   ],
   "note": "proved for sections with recipes; sections without recipe get wrong or uninitialised material numbers in the end records"
  },
  {
   "property": "C82",
   "status": "partial",
   "theorems": [
    "Verif.C82_partial",
    "Verif.C82_read",
    "Verif.C82_matrix_partial",
    "Verif.C82_fails",
    "Verif.C82_gap_fails",
    "Verif.C82_matrix_fails",
    "Verif.C82_double_fails",
    "Verif.C82_swapped_fails"
   ],
   "note": "Arrays filled with indices that are not negative, and matrices filled completely or on one side of the diagonal, are returned as the Python parser returns them; the _fails theorems give index ranges for which elements are lost, added or refused."
  },
  {
   "property": "C83",
   "status": "partial",
   "theorems": [
    "Verif.C83_partial",
    "Verif.C83_abbr_partial",
    "Verif.C83_options_partial",
    "Verif.C83_reopen_fails",
    "Verif.C83_empty_list_fails",
    "Verif.C83_overwrite_fails",
    "Verif.C83_close_fails",
    "Verif.C83_right_fails",
    "Verif.C83_stop_fails",
    "Verif.C83_lookahead_fails",
    "Verif.C83_lookahead_end_fails"
   ],
   "note": "Simulation of the generated code by the interpreter for all recipes passing a decidable check, lookahead included, all plain lines and sections with non-empty tables and lists that open each sub-section once: if both accept, the dictionaries agree. Missing: agreement on refusals; recipes with INTG. The _fails theorems are concrete differences between the two parsers."
  },
  {
   "property": "C84",
   "status": "proved",
   "theorems": [
    "Verif.C84"
   ],
   "note": "For whole files, all recipes (also with lookahead) and all combinations of the three options."
  },
  {
   "property": "C85",
   "status": "partial",
   "theorems": [
    "Verif.C85_partial",
    "Verif.C85_type_partial",
    "Verif.C85_fails"
   ],
   "note": "For whole files and all recipes and options: the same result, or a TypeError (C85_type_partial); without TypeError for recipes without lookahead if the first run does not tolerate deviations in fields marked by a question mark (C85_partial). The TypeError does occur: a list compared with a text of the same length (C85_fails)."
  },
  {
   "property": "C86",
   "status": "partial",
   "theorems": [
    "Verif.C86_partial",
    "Verif.C86_mf40_fails",
    "Verif.C86_nested_fails"
   ],
   "note": "For 41 of the 44 shipped recipes (Shipped.compared), under the conditions on sections of C83. C86_mf40_fails, C86_nested_fails: the recipe of MF40 uses a loop variable twice, and the interpreter never reads such sections, while the compiled parser does. Missing: the recipes of MF2/MT151, MF32 and of MF6 for PENDF."
  },
  {
   "property": "C87",
   "status": "partial",
   "theorems": [
    "Verif.C87_partial",
    "Verif.C87_branch_fails",
    "Verif.C87_first_fails",
    "Verif.C87_clash_fails"
   ],
   "note": "For recipes that pass a decidable check of the use of abbreviations (AbbrOk), which 43 of the 44 shipped recipes do: the outcome is the same, or the interpreter refuses the name of an abbreviation. C87_branch_fails, C87_first_fails, C87_clash_fails show the deviations."
  },
  {
   "property": "C88",
   "status": "partial",
   "theorems": [
    "Verif.C88_partial",
    "Verif.C88_success_partial",
    "Verif.C88_options_partial",
    "Verif.C88_number_partial",
    "Verif.C88_fails"
   ],
   "note": "Under the conditions of C39. C88_partial (strict options, no value changed by formatting, lookahead only at records that are read next): the written lines, with line numbers or further lines behind them, are read without error and give exactly the same dictionary and records. C88_options_partial (recipes without lookahead): the same for all parsing options, whatever deviations were tolerated, if no value of the written records is changed by formatting; the records then are the written ones. Numbers that come from a field written by the package meet the condition (C88_number_partial). Missing: lookahead at records that are not read next, lookahead with tolerated deviations, kept number texts; numbers with more digits than are written really change (C88_fails). C88_success_partial: that the lines can be written is proved as well (not assumed), if the records written hold integers where Python writes with str() or range(), tables are not empty and strict_datatypes is off (the default of the parser)."
  },
  {
   "property": "C89",
   "status": "partial",
   "theorems": [
    "Verif.C89_partial",
    "Verif.C89_success_partial",
    "Verif.C89_materials_fails"
   ],
   "note": "Whole files: parse, write, parse again gives the same sections, for one material, strict options and the section conditions of C88; false for several materials. C89_success_partial: that the file can be written is proved as well, under the conditions of C88_success_partial for each parsed section."
  },
  {
   "property": "C90",
   "status": "partial",
   "theorems": [
    "Verif.C90_partial",
    "Verif.C90_abbr_partial",
    "Verif.C90_counter_fails",
    "Verif.C90_division_fails",
    "Verif.C90_condition_fails",
    "Verif.C90_missing_fails",
    "Verif.C90_named_list_fails",
    "Verif.C90_lookahead_fails"
   ],
   "note": "Simulation of the generated writing function by the interpreter for all recipes passing a decidable check: if both write the section, the records are the same. C90_abbr_partial: with abbreviations. Missing: division other than of even products by two, refusals. The _fails theorems are concrete differences between the two writers."
  },
  {
   "property": "C91",
   "status": "partial",
   "theorems": [
    "Verif.C91_partial",
    "Verif.C91_clash_fails"
   ],
   "note": "Same outcome of writeSection with a recipe and with its abbreviations written out, or the interpreter refuses the name of an abbreviation, for recipes that pass two decidable checks (AbbrOk, AbbrFree). C91_clash_fails shows the deviation of the two writers."
  },
  {
   "property": "C92",
   "status": "partial",
   "theorems": [
    "Verif.C92_partial",
    "Verif.C92_mf1_mt460_fails",
    "Verif.C92_jendl_fails"
   ],
   "note": "For 36 shipped recipes: if the interpreter and the compiled parser both write a dictionary, they write the same records. Missing: seven recipes (among them those with other divisions), and that whatever the interpreter writes is written by the compiled parser; C92_mf1_mt460_fails and C92_jendl_fails show that this does not hold for the shipped recipes MF1/MT460 and JENDL MF8/MT457."
  },
  {
   "property": "C93",
   "status": "partial",
   "theorems": [
    "Verif.C93_partial",
    "Verif.C93_record_partial",
    "Verif.C93_read_cont",
    "Verif.C93_read_numbers",
    "Verif.C93_empty_list_fails"
   ],
   "note": "The lines of the compiled writer and of the interpreter say the same for records that say the same, kind by kind and for whole sections; refuted for LIST records without values. Missing: prefer_noexp, numbers outside KeptNum or too long for the columns, preserved texts of numbers, the columns behind the control numbers."
  },
  {
   "property": "C94",
   "status": "partial",
   "theorems": [
    "Verif.C94_partial",
    "Verif.C94_shipped_partial",
    "Verif.C94_cycle_partial",
    "Verif.C94_compiled_partial",
    "Verif.C93_empty_list_fails"
   ],
   "note": "The interpreter reads the lines of the compiled writer as its own, for all recipes without TEXT and INTG records and all parsing options; for 36 shipped recipes, those with TEXT records included, also the whole cycle, and the compiled parser reading its own lines. Missing: INTG records, LIST records without values (refuted), prefer_noexp, preserved texts of numbers, and the conditions of C88, C90 and C93."
  },
  {
   "property": "C95",
   "status": "partial",
   "theorems": [
    "Verif.C95_partial"
   ],
   "note": "Whole files of one material with the shipped recipes of C92, sections meeting the conditions of C94_cycle_partial; missing: sections given as lines, several materials, tolerant options."
  },
  {
   "property": "C96",
   "status": "partial",
   "theorems": [
    "Verif.C96_partial"
   ],
   "note": "Missing: the conditions on the sections (SharedSec: Fit of C83, Foreseen of C88), sections without recipe or not selected (C79), several materials, blank lines, lines with less than 75 characters, tolerant options"
  },
  {
   "property": "C97",
   "status": "partial",
   "theorems": [
    "Verif.C97_partial",
    "Verif.C97_cpp_partial",
    "Verif.C97_refused",
    "Verif.C97_mat_fails",
    "Verif.C97_cpp_fails"
   ],
   "note": "Proved for two files of the same material in strict layout, for the Python parser (C97_partial) and, where all sections have recipes, for the compiled parser (C97_cpp_partial, which includes that writing succeeds and that both parsers read the result alike). False for a source of another material (C97_mat_fails) and, with the compiled parser, for destinations with sections without recipe, which lose their first line (C97_cpp_fails). Missing: replacing the tape head, several materials, blank or short lines."
  },
  {
   "property": "C98",
   "status": "partial",
   "theorems": [
    "Verif.C98_status",
    "Verif.C98_refused",
    "Verif.C98_self",
    "Verif.C98_rewritten_partial",
    "Verif.C98_fails"
   ],
   "note": "Exit status characterised for all files the Python parser reads. A rewritten file compares equal if all its sections are parsed (conditions of C89); with sections that are not parsed it is false (C98_fails). Missing: NaN, the compiled parser."
  },
  {
   "property": "C99",
   "status": "partial",
   "theorems": [
    "Verif.C99_validate_partial",
    "Verif.C99_summary_partial",
    "Verif.C99_missing_fails",
    "Verif.C99_match",
    "Verif.C99_done_fails",
    "Verif.StatusEx.C99_summary_fails"
   ],
   "note": "validate: status 0 exactly if all files matched can be parsed by themselves; the verdicts of the summary for recipes without lookahead. Violated for missing files, for the summary after a failed lookahead, and by show and update-directory, which always end with status 1."
  }
 ]
}
