# Design of the formal model of endf-parserpy

The source under study is `/repo` (endf-parserpy 0.12.0, Python plus C++ templates).  It is
read as text only; nothing is executed.  The model is Lean 4 (core plus single Mathlib modules).

## Conventions

* Texts are `List Char`; Python slicing `s[i:j]` is `(s.drop i).take (j-i)`.
* Exceptions are values (`Except Err α`), one constructor per Python exception class that matters.  Where the state at the
  moment of an exception is observable, a result type carries it: `Out` (recipe interpreter), `Mut` (in-place changes of
  objects), `Steps` (sequence of states of a file system).
* Dictionaries are association lists in insertion order, matching Python `dict` semantics.
* In-place mutation becomes a function returning the new value.
* Loops become structural recursion or recursion with fuel; where fuel is used a theorem says
  how much fuel is enough, or the fuel is the recursion limit of Python (`RecursionError`).
* Floats: the value of a number is an exact rational.  Rounding of IEEE doubles is NOT modelled
  (see "Trusted base"); rounding to the printed number of digits is modelled exactly.
* Every definition cites file and lines of `/repo`; simplifications are stated in its comment.
* `Verif/Model/*.lean`: the code.  `Verif/Spec/*.lean`: notions used in statements that do not refer to the code (grammar
  of tapes, value of a decimal text, dictionaries without internal entries, conditions on runs).  `Verif/Lemmas/*.lean`:
  proofs.  `Verif/Props/*.lean`: the property theorems, each with a concrete case that meets its hypotheses (`example`).
* A property that the code violates is proved in negated form on a concrete witness
  (theorem name ends in `_fails`), next to the strongest positive part (`_partial`).

## Trusted base

* Lean 4.33.0 kernel; axioms `propext`, `Classical.choice`, `Quot.sound` only (every theorem named in `MANIFEST.json` was
  checked with `#print axioms`).  No `sorry`, no own axioms, no `native_decide`, no `bv_decide`.
* The reading of the Python/C++ sources by which each definition was written, and the semantics of the Python, C++ and
  POSIX primitives in `Model/Py.lean`, `Model/Dict.lean`, `Model/Cpp.lean` (`std::stod`), `Model/Files.lean` (file system).
* For theorems about shipped recipes: the script `tools/recipes2lean.py`, which parses the recipe texts and writes
  `Model/Shipped.lean`.
* Not modelled: lark parsing of recipe texts (recipes enter as syntax trees), IEEE-754 rounding,
  Unicode digits/whitespace beyond the ASCII set, `inf`/`nan`, pybind11, the text of the
  generated C++ code (only the runtime templates and the expression rewriting are modelled),
  logging output, argument parsing of the command line, performance.

## What the model files cover

| file in `Verif/Model` | code | left out or simplified |
|---|---|---|
| Py, Dict | Python text and dictionary primitives | ASCII only |
| Fields | `fortran_utils.py`: reading and writing of number fields | doubles are exact rationals |
| Records | all readers and writers of records in `endf_utils.py` | `with_ctrl=True` as in all calls |
| Sections | `split_sections` | |
| Write | `EndfParser.write` around the sections, include/exclude in Python and C++ | recipe execution is a parameter |
| Value, Eval | variable look-up, expressions, linear solving (`endf_mapping_utils.py`) | arrays are dictionaries; lists only as whole values |
| Mapping | `map_record_helper` with all tolerances | |
| Recipe | interpreter, reading direction: records, lists, sections, loops, conditions, lookahead, abbreviations | comparison of values other than numbers is an error |
| RecipeWrite | interpreter, writing direction, rendering of records as lines | lines are made at the end |
| Parse | `EndfParser.parse`, choice of recipes, state kept by the parser object | no user supplied parsing functions |
| Arrays | list and dict representation of arrays, conversion | |
| Obj, PathText | `EndfPath`, `EndfDict`, `EndfList` | objects are values |
| Ident | `recursive_equality_check` on a heap with object identities | |
| Matching | match expressions and wildcards | generators are lists |
| UserTools, Plumbing, Recipe451 | `locate`, `sanitize_…`, `list_(un)parsed_sections`, directory and description of MF1/MT451 | |
| Compare, Track, Ring | `compare_objects`, `math_op`, tracking containers, ring buffer | no numpy |
| Files | `writefile` of both parsers, backups, recipe cache | one process; no directories or links |
| Explain | `explain` | |
| Trafo | expression algebra of the compiler: normal form, factoring, folding, solving | exact rationals |
| Cpp, Shifter | C++ templates: float reader, line numbers, array store | |
| CppWrite, CppLib | C++ templates: float writer, integer fields, lines, number sequences, table bodies | four-byte `int`; one byte per character |
| CppTape | generated master functions: reading and writing of whole files | the functions of the recipes are arbitrary; a stream is the list of lines that follow |
| CppArr | `NestedVector` and `Matrix2d` | `size_t` is unbounded; element types are not distinguished |
| CppFun | generated functions for sections: the generator (`genProg`, `compile`) and the run of the generated code (`runCode`, `runFun`) | no INTG records, abbreviations are in CppAbbr; one tree of values for each variable token, although the code has one variable for each of its types; `NestedVector` for all arrays; doubles are exact rationals; a read of an uninitialised variable or beyond a line is `undef` |
| CppWriteFun | the run of the functions for writing sections (`writeCode`, `writeFun`) | the code is that of CppFun, from which reading and writing functions are generated alike; up to the records that are handed to the templates; no INTG records; no `list_mode`; doubles are exact rationals |
| CppLines | the lines for the records of CppWriteFun (`fieldText`, `headLine`, `CRec.lines`, `recLines`) | fields are put from left to right, where the code follows the recipe; no INTG records |
| CppFile | the compiled parser on a file: CppWriteFun and CppLines inside of CppTape (`funLines`, `PCtx.compiled`), and the generated reading functions inside of `parse_endf` (`funRead`, `PCtx.reader`) | undefined behaviour inside of a writing function and recipes outside of `compile` have no result; `preserve_value_strings` off |
| Cli | `endf-cli replace` for whole sections and files: options, `EndfPath.get`/`set` for the paths `MF` and `MF/MT`, with the Python parser (`replaceLines`) and the compiled one (`replaceCpp`); `endf-cli compare` with the Python parser (`compareFiles`) and dictionaries as Python objects (`dicObj`) | the file system, the backup file, several destinations, argument parsing and longer paths are left out |
| CliOpts | options of the parser on the command line: table, argparse, choice of the parser and arguments of its constructor | abbreviated option names are left out; the rest of the constructors is an input |
| CppAbbr | abbreviations in the compiled parser | written out before the code is generated, in the code while it is generated |
| Shipped | the recipes in endf_recipes as syntax trees | written by `tools/recipes2lean.py` from the recipe texts; this translation is trusted |

## Result per property

Status as in `MANIFEST.json`.  "fails" = theorem that refutes the full claim on a concrete witness.

| id | status | modelled | proof | result |
|---|---|---|---|---|
| C01 | proved | `read_fort_int`, `fortstr2float` | case analysis | all texts of white space characters, all reading options |
| C02 | proved | `str(int).rjust(w)`, Python `int()` | induction on digits | round-trip for all integers and widths; overflow direction; numeric characterisation of the integers that fit |
| C03 | partial | sign scan inserting `E`, decimal grammar | induction on the text | holds for mantissas ending in a digit; C03_fails shows that `1.+3` is rejected while `1.E+3` is accepted |
| C04 | proved | `replace(" ", "")` before the scan | algebra of filters | value and success independent of inserted blanks; the option is necessary |
| C05 | proved | `float2expformstr` | digit arithmetic; the carry recursion needs at most one step | width >= 9 leaves room for a digit behind the point with three exponent digits; values are exact rationals with at most three exponent digits |
| C06 | proved | `float2expformstr`, half-even rounding | arithmetic | half a unit of the last printed digit, value as read back by every reader of this width |
| C07 | partial | writing what was read | text stability of rounding | identical text in exponential form; with prefer_noexp the text can change once (C07_fails: 999999999.9) but the value never does, and non-exponential texts are stable |
| C08 | proved | `float2basicnumstr`, `float2fortstr` | decision branch, accuracy comparison | text fills the field and is at least as accurate as the exponential form |
| C09 | partial | `EndfFloat` | case analysis | identical text for non-blank fields of full width; blank fields become 0.000000+0 |
| C10 | proved | control record | slicing algebra | round trip for all triples in range behind any body; exactly nine columns iff in range; blank or missing control columns are zero |
| C11 | proved | all record writers | width calculus | all writers on contents that fit; INTG with NDIGIT=3 needs the 13 elements of the format (the reader returns 14, see C15) |
| C12 | proved | CONT/HEAD and end records | field round trips | includes zero_as_blank, which the package uses for SEND/FEND/MEND/TEND only |
| C13 | proved | TEXT | slicing | as stated |
| C14 | proved | DIR | field round trips | as stated |
| C15 | partial | INTG | column arithmetic per NDIGIT | NDIGIT 2,4,5,6 proved; the code violates the property for NDIGIT=3 (14 slots, the last one overlaps the MAT columns) |
| C16 | proved | LIST | composition with C19 | as stated |
| C17 | partial | TAB1 | composition with C19 | zero regions or points can be read but writing raises IndexError |
| C18 | partial | TAB2 | composition with C19 | zero regions can be read but writing raises IndexError |
| C19 | proved | number blocks | induction on chunks of six | n > 0 for writing (n = 0 raises IndexError, C19_empty_fails); reading for all n |
| C20 | proved | numbering | modular arithmetic | as stated |
| C21 | proved | `split_sections`, strict | refinement to the grammar in Spec/Tape | strict mode accepts exactly the tapes of the grammar in Spec/Tape.lean |
| C22 | proved | same | refinement | every section of an accepted tape is stored under its MF/MT with exactly its lines, and nothing else is stored |
| C23 | partial | same, blank lines | simulation | blank lines inside the tape do not matter; leading blank lines are stored as tape head (C23_fails) |
| C24 | partial | lenient mode | simulation | lenient mode agrees with strict mode on accepted tapes; blank lines behind the TEND record make lenient mode fail (C24_fails) |
| C25 | partial | `write` | composition with C21/C22 | written tapes follow the grammar if a tape head and a section are present; recipe execution is a parameter |
| C26 | partial | `write` after `parse` | composition | verbatim sections come back in columns 1-75; a short tape head or a line feed inside a line breaks it |
| C27 | proved | selection of sections | decision logic | selection rule; same rule in C++ for numbers and tuples; lists of length two and plain numbers differ |
| C28 | proved | end of a section in the interpreter | invariant of the read position over all recipes | Section text = lines with MT (or blank) followed by the SEND line, as split_sections delivers it. |
| C29 | partial | `parse` with nofail | case analysis per section | With nofail a failing section is returned as its lines followed by a SEND record (for every section of every successful call). The code violates the full property: the SEND record added for parsing stays (so the tape written from the result has two SEND records and can't be read again), and exceptions that are no ParserException are raised in spite of nofail. |
| C30 | partial | state of the parser object | induction on histories of calls | Independence of earlier calls proved for recipes without lookahead after arbitrary calls, and for all recipes after successful calls without nofail. The code violates the full property: a failing lookahead leaves ignore_all_mismatches set. |
| C31 | proved | `eval_expr` | structural induction | all expressions and environments; element-wise arithmetic of lists is not part of this evaluator model |
| C32 | partial | solving | structural induction | solution exact for all expressions; rewriting needs plain numbers (not kept as text) and no variable with factor zero that is still missing, both shown necessary |
| C33 | proved | `map_record_helper` | case analysis per field position | decision for every field position and option combination; fuzzy comparison is asymmetric |
| C34 | partial | conditions | structural induction | undefined names make the comparison false; a missing element of an existing array raises an exception |
| C35 | proved | for loops | induction over the range | Exact characterisation of success for all bounds, bodies and states; the loops of list bodies are covered by the run relation in C38. |
| C36 | proved | lookahead | frame of the interpreter state | Data, position, loop variables and tolerances seen by the chosen branch are those before the lookahead. C36_flag_stays: if another exception escapes from the lookahead, the tolerance flag of the parser object stays set (see C30). |
| C37 | proved | `readSection` | invariant over all recipes | Clean: no internal keys and no abbreviated expressions at any depth. |
| C38 | partial | list bodies | run relation, induction | Exact for templates without PADLINE. With PADLINE the code may skip beyond the end of the list (C38_padding_fails). |
| C39 | partial | `readSection` then `writeSection` | simulation between the two interpreters over all recipes | Proved by simulation over all recipes and lines: what has been read can be written with all parsing options (C39_writes_partial), and with strict ones all records come out with the same values (C39_success_partial), if the recipe is tidy (texts stored completely, zeros skipped by PADLINE, conditions decided by present variables), every record could be written right after it was read, and names are unique and not those of loop variables. C39_partial needs less, but success of writing is a hypothesis there. Missing: default options, which really lose values (C39_zero_fails). Each condition has a counterexample where it does not hold. |
| C40 | partial | `writeSection` then `readSection` | the same simulation in the other direction | For every recipe of the modelled language, every dictionary and every successful writing and reading run with records of equal values: all values read are the ones of the dictionary at the same place, and every variable determined by a field of a written record comes back. Conditions: unique names of searched variables, abbreviation names not used for data, texts and control numbers taken from the current section, conditions decided at reading time. Missing: that reading succeeds is a hypothesis; the _fails theorems show why the conditions are needed. |
| C41 | partial | array containers | induction over write histories | Array writes without gaps give the same content in list and dict mode; gaps and empty arrays disagree (shown). |
| C42 | proved | `EndfPath.get/set` | structural induction | Reading a path after setting it gives the value set, paths apart from it are unchanged, a failing assignment leaves every value readable before readable, for all objects and paths; list elements are only replaced. |
| C43 | partial | `exists`, `remove` | structural induction | exists is true iff get succeeds; after remove the path doesn't exist, for dictionaries. Missing: list elements (removal shifts the others), see C43_fails. |
| C44 | partial | `__eq__` | list induction | Equality of paths of the same length is element-wise and an equivalence there. Equality of paths of different length holds for prefixes (C44_fails). |
| C45 | proved | path texts | scanner induction | A valid path is recovered from its text and from its tuple; A[i,j] is A/i/j. |
| C46 | partial | views | refinement to the underlying dictionary | Views read and write the underlying dictionary at the joined path for all sequences of operations with keys that are paths; C46_fails and C46_tuple_fails show keys for which they don't. |
| C47 | partial | wildcards | induction over the path | For a path with one wildcard, the results that exist are exactly the matching paths. Results that don't exist (C47_fails), several wildcards (C47_two_fails) and lists (C47_index_fails) violate the claim. |
| C48 | partial | match expressions | structural induction | Truth of an expression that can be evaluated is truth for some choice of wildcard values, for all expressions and dictionaries. A\|B with A true is true if the wildcards of B have values; false otherwise (C48_or_fails). |
| C49 | partial | `_compare_objects` | structural induction | No difference to itself; an exception exactly if the result without fail_on_diff is False; symmetric without relative tolerance. The exception isn't always a ValueError (C49_kind_fails), and with the default tolerances the order of arguments matters (C49_symm_fails). |
| C50 | partial | tracking containers | induction over histories | After any access history: if one element of an array in nested dictionaries was retrieved and the test passes, all were; the test fails only if one was retrieved and another one wasn't. Arrays of which nothing was retrieved and lists in lists are not checked. |
| C51 | proved | ring buffer | refinement to a list suffix | For all capacities from 1 on and all sequences of entries. With capacity 0 logging raises ZeroDivisionError. |
| C52 | partial | `update_directory` with the real MF1/MT451 recipe | execution of the recipe over symbolic dictionaries | Proved for dictionaries whose MF1/MT451 is written with its recipe and NWD >= 5; with NWD < 5 the entry of MF1/MT451 is wrong (shown). Arrays are dicts; lists fail on .keys(). |
| C53 | partial | description tools | induction on lines | set/get and insert of descriptions; a trailing empty line at the end of the inserted text is lost (shown). |
| C54 | partial | `sanitize_fieldname_types` | structural induction | A call that succeeds converted exactly the keys that are integer texts at all dictionary levels and kept the values; it succeeds for all dictionaries with text keys denoting different integers. Applying it twice raises IndexError; dictionaries in lists are not converted. |
| C55 | partial | `locate` | structural induction | Locations lead to the variable, are distinct, and are exactly the occurrences for which no dictionary on the way contains the variable. An occurrence in a sub-dictionary next to another occurrence isn't returned (C55_fails). |
| C56 | proved | `list_parsed_sections` … | list induction | For all objects with two levels in which sections are dictionaries or lists, which includes all results of parse. |
| C57 | proved | recipe look-up | case analysis | Choice of the recipe characterised for all recipe dictionaries; definitions of a flavour change exactly their own entries. |
| C58 | partial | recipe cache | induction over histories of runs | For every history of lookups with an injective hash and dump/load inverse, cached recipes equal freshly parsed ones; fails after a run killed while writing the cache and after a change of the parser itself. |
| C59 | partial | `writefile` | all states of a run | Python writefile: a failing conversion leaves the file system unchanged and overwrite=False never touches an existing file; fails if the text cannot be encoded, and for the C++ writer which truncates first. |
| C60 | proved | in-place editing | invariant of all states of a run | At every step of an in-place edit with backup the original content is reachable under the name or a backup name, and no older backup is lost. |
| C61 | partial | `explain` | loop = depth-first specification search | Termination with an explicit bound and equality with the first place in order, for all trees whose texts are not on the way to other places; the wildcard is not tried for the last element, and a described array element raises AttributeError. |
| C62 | partial | `math_op` | structural induction | Element-wise for lists of numbers of any length, division as claimed. Nested lists are handled by Python operators on the inner lists (C62_nested_fails). |
| C63 | partial | solving in the compiler | value preservation | All expressions, all environments in which no divisor vanishes; assumes equal names have equal indices and no product with a single factor loses it. The code violates the claim for x*a+x*a*b and, in integer fields, for (x+1)/2. |
| C64 | partial | simplification in the compiler | value preservation of each step | Normalisation and integer folding preserve the value of all trees; factoring under the two stated conditions, with counterexamples for each and an endless recursion for 1+1. |
| C65 | proved | C++ `read_float` buffer | loop invariant | Every eleven character field; the buffer is a list whose length is bounded by 13. |
| C66 | partial | C++ and Python field readers | refinement | Every text the Python reader accepts that has no underscore and no whitespace other than blanks is read by the C++ reader as the same number. Underscores and tabs differ (proved); the C++ reader accepts more (C66_more). std::stod is modelled over exact rationals. |
| C67 | partial | C++ line numbers | induction on lines | Recipe-written sections: any length. Sections copied verbatim: equal up to 99999 lines, different from line 100000 on (proved). |
| C68 | partial | `IndexShifterStore` | induction over histories of loops | All histories of nested ascending loops over any number of arrays and indices, both modes, reading and writing. The object stored first stays (C68_last_fails); gaps and descending first indices are undefined behaviour in C++ (C68_gap_fails). |
| C69 | partial | `recursive_equality_check` | induction on the heap depth | On a heap of objects: for objects that aren't cyclic and contain no list or dictionary twice, the comparison succeeds and is true iff structurally equal. Shared sub-objects, EndfFloat objects and lists compared with texts violate the claim. |
| C70 | partial | selection in C++ | decision logic | same selection for numbers and tuples; two-element lists and single numbers are treated differently |
| C71 | proved | integer slots | case analysis | as stated |
| C72 | proved | `writeSection` | invariant over all recipes | For dictionaries without internal entries. |
| C73 | partial | C++ `float2endfstr` | form of the text for all options, rounding carries | exponents with a zero in the middle can make a field of twelve columns |
| C74 | partial | C++ writer and both readers | value of the text, error of rounding | as C73; 1e100 becomes 1e10 |
| C75 | partial | C++ and Python float writer | both texts denote the rounding to the same number of digits | without `prefer_noexp` |
| C76 | partial | C++ access to fields, with undefined behaviour as a result of its own | bounds of the accesses | lines of 74 characters are enough, all shorter ones are accessed behind their end |
| C77 | partial | C++ `atoi` and Python `int` | decomposition of the field | no underscores, no other white space, four-byte range |
| C78 | partial | `cpp_read_vec`, table bodies | induction on the lines of six numbers; induction on the fields written | empty sequences and float texts in integer tables differ |
| C79 | partial | `parse_endf` of the generated module, `read_section_verbatim` | invariant of the loop over sections, files and the material | sections without recipe lose their first line (`C79_fails`, `C79_norecipe_fails`); validation of control records breaks verbatim reading (`C79_validate_fails`) |
| C80 | partial | `_check_end_records`, the end records in the loop | same invariant, one step for the records that are refused | truncated files are accepted, further materials and trailing blank lines refused, an empty line is undefined behaviour (`C80_fails` and others) |
| C81 | partial | `write_endf` of the generated module, `cpp_prepare_send`, `write_section_verbatim` | induction on files and sections; end records are read back by the Python reader; composition with C79 | sections without recipe (`C81_fails`, `C81_undef_fails`) |
| C82 | partial | `NestedVector`, `Matrix2d`, the statements that assign elements | invariant of filled containers; the Python image of an assignment is the assignment of the Python parser; positions of matrix elements are injective | negative indices (`C82_fails`), gaps (`C82_gap_fails`), parts of matrices that are not the half above or below the diagonal (`C82_matrix_fails`, `C82_double_fails`, `C82_swapped_fails`) |
| C83 | partial | the generator for sections, the run of the generated code, and the interpreter | simulation by induction on recipes, with an invariant between the C++ variables of each block and the dictionary of the interpreter | For recipes that pass a decidable check of the generated code (`funOk`: in each block and along each way through its conditions one type per variable, no variable of an outer block in fields, lookups in one block only), sections whose tables and lists are not empty, which open each sub-section once, and whose looked-at records can be read (`Fit`), and plain lines: if both accept, the dictionaries are the same, with all options of the compiled function, and of the interpreter if it accepts without tolerance. `C83_abbr_partial`: also for recipes with abbreviations, which the compiler writes out (C87). Missing: which of the two accepts; recipes with INTG. `C83_reopen_fails`, `C83_empty_list_fails`, `C83_overwrite_fails`, `C83_close_fails`, `C83_right_fails`, `C83_stop_fails`, `C83_lookahead_fails`, `C83_lookahead_end_fails` show where they differ. |
| C84 | proved | `checkField`, the interpreter, `parse` | comparison of two runs by induction on recipes; while looking ahead the outcomes are equal, otherwise the first run refuses or the outcomes are equal | |
| C85 | partial | as for C84 | as for C84; the outcomes are compared with a TypeError allowed in the second run | without TypeError: recipes without lookahead, the first run does not tolerate fields marked by `?`; C85_fails shows that the TypeError occurs |
| C86 | partial | the shipped recipes, and as for C83 | the check of C83 is evaluated for each recipe | The recipes in `Shipped.compared`, under the conditions on sections of C83. These are 41 of the 44 shipped recipes; missing are those of MF2/MT151, MF32, and of MF6 for PENDF, which do not pass the check. `C86_mf40_fails`: sections of MF40 with an NC sub-subsection are read by the compiled parser only |
| C87 | partial | the interpreter, and the expansion of abbreviations by the compiler (`writeOut`) | simulation by induction on recipes, with an invariant between the dictionaries with and without the entries of abbreviations, also for runs left by an exception | For recipes that pass a decidable check (`AbbrOk`: used behind their definition, not in conditions, inner sections and each other, not outside of the branch): the outcome is the same, or the interpreter refuses a name. `C87_branch_fails`, `C87_clash_fails` show where they differ |
| C88 | partial | `readSection`, `sectionLines` (the written text), `readSection` again | composition of C39 (same records are written), a proof for each record kind that its lines are read back (C12-C19), and an induction on recipes that reading depends on the lines only through the records | With strict options and without kept number texts, for records that lose nothing by formatting (`Stays`), and with lookahead only at records that are read next (`Foreseen`; no condition for recipes without lookahead; proved by showing that trial runs depend on the lines only through the records looked at, Lemmas/Ahead.lean): reading the written lines, with line numbers or further lines behind them, succeeds and gives exactly the same dictionary. `C88_options_partial`: the same for all parsing options and recipes without lookahead, if the values of the written records lose nothing by formatting (`Settled`); proved by a second induction that replays reading, act by act, with the written records (Lemmas/Replay.lean). `C88_number_partial`: numbers that come from a written field lose nothing. `C88_fails`: a number with more digits than are written `C88_success_partial`: that the lines can be written is a conclusion, not a hypothesis, for records with integers where `str()` or `range` is used (`IntsRec`), tables that are not empty (`FullRec`) and `strict_datatypes` off. |
| C89 | partial | `parse` (split, choice of recipes, `readSection` per section), `writeTape` with `sectionLines` as execution of the recipes (`PCtx.writer`), `parse` again | composition of C25 (the written tape is split into the texts of the sections), C88 (each section), and inductions over the dictionaries of sections for success and equality of the second parsing | For files of one material, strict options, full lines in the sections that are not parsed, and the conditions of C88 for each parsed section (`Faithful`), for both values of `zero_as_blank`, with or without line numbers; selections by `exclude`/`include` are the same in both parsings. In `C89_success_partial` that writing succeeds is a conclusion (under the conditions of `C88_success_partial` for each parsed section), in `C89_partial` a hypothesis. `C89_materials_fails`: a file with two materials is accepted and written, but the written file is refused. Missing: several materials, tolerant options, `exclude`/`include` of `write` (C27), `check_arrays` (C41). |
| C90 | partial | the run of the generated functions for writing, and the interpreter | simulation by induction on recipes, with an invariant between the C++ variables written so far, the dictionary of the block, and the dictionary of the interpreter | If both write the section, the records are the same (`RecAs`). For recipes that pass a decidable check of the generated code (`writeOk`: no division except for the half of a product such as `N*(N+1)`, variables of a field are taken from the dictionary of its block, variables in conditions have been written before or are found by a lookahead; where the dictionary may miss one of them, it is the only variable of its field and gets a number for which the condition is false; a lookahead may meet other variables, which do not occur in its condition), unique names in enclosing sections, and variables in the starts of loops that are not negative (`Positive`). With abbreviations, written out by the compiler: `C90_abbr_partial`. Missing: other divisions, refusals, and the lines themselves (C73-C75 for the fields). `C90_*_fails`: six differences |
| C91 | partial | `writeSection` of the interpreter with a recipe and with the recipe after `writeOut` | simulation by induction on recipes; the abbreviations kept in the dictionary are those of the recipe, and taking them away gives the other state | Same state (records and dictionary) or same exception, or the interpreter refuses the name of an abbreviation. For recipes that pass `AbbrOk` and `AbbrFree` (no abbreviation named MAT, MF, MT or like a text field). `C91_clash_fails`: an entry with the name of an abbreviation stops the interpreter and not the compiled function |
| C92 | partial | `writeSection` and `writeFun` for the recipes of Model/Shipped | C90_abbr_partial; its conditions on the code are evaluated for each of 36 shipped recipes | If both write the dictionary, the records are the same. Examples start from sections read by the interpreter. `C92_mf1_mt460_fails`: a shipped recipe with a loop variable as a field cannot be written by the compiled parser. `C92_jendl_fails`: with the JENDL recipe for MF8/MT457, a stable nucleus as in the manual is read by both parsers and written by the interpreter only. Missing: MF34/40, MF7/MT4, JENDL MF8/MT457, MF2/MT151, MF32, MF4 of the extended recipes |
| C93 | partial | the lines of the generated functions (`CRec.lines`, `recLines`: `cpp_write_field`, the bodies of tables and lists, SEND) and those of `write_*` | case by case over the kinds of records; places of fields in a line; induction on the list of values for the line-filling loop against blocks of six; C75 for numbers | Records that say the same (`RecAs`, conclusion of C90) give as many lines, with the same control numbers and with fields that both parsers read as the same numbers, and the same integers in the first line; so the interpreter reads the same CONT records and numbers (`C93_read_cont`, `C93_read_numbers`). `C93_empty_list_fails`: for a LIST record without values the compiled parser writes one line more, and the interpreter refuses the section. Missing: `prefer_noexp` and the numbers of `C74_fails`; numbers with their original text; numbers that do not fit the columns; columns behind the control numbers |
| C94 | partial | `readSection` (interpreter), `writeFun`, `recLines`, `runFun` (compiled) | induction on the recipe: a reading that succeeds on some lines succeeds, with the same state, on lines that say the same (`LineAs`: control numbers, numbers, integers from the third field on, not blank); composed with C90, C92, C93, and with C88 and C86 | `C94_partial`: what the interpreter reads from its own lines, it reads from those of the compiled function, dictionary and records, for all parsing options. `C94_shipped_partial`: for 33 of the shipped recipes. `C94_cycle_partial`: a section of any of the 36 recipes of C92 that has been read and is `Faithful` (C89) is written by the compiled function and read by the interpreter with exactly the same dictionary, TEXT records included. `C94_compiled_partial`: the compiled function reads the lines it has written with that dictionary. Missing: TEXT records in `C94_partial`, INTG records, LIST records without values (`C93_empty_list_fails`), `prefer_noexp`, keeping the texts of numbers, and the conditions of C88, C90, C93 |
| C95 | partial | `PCtx.compiled` (Model/CppFile: the functions of the recipes inside of `write_endf`), `masterWrite`, `parse` | composition: lines of a section by C94 (`section_compiled`: the data lines followed by any SEND record are read with the same dictionary), the file by C81, its sections by C22, the reading by the invariants of C89 | `C95_partial`: for files of one material with ascending MF and MT, whose sections (tape head included) were read before with the shipped recipes of C92 under the conditions of C94 (`Exchangeable`): the compiled parser writes the file, the interpreter parses it, and finds exactly the same dictionaries and nothing else. Missing: sections given as lines, several materials, tolerant options, the conditions of C94 |
| C96 | partial | `PCtx.reader` (Model/CppFile: `readFun`, the dictionary and the stream behind the section, inside of `parse_endf`), `masterParse`, `parse` | the proof of C83 extended by the position: after a recipe that ends with SEND the stream is behind the line where the interpreter found the SEND record (`fun_read`); a section read with the appended SEND record is read alike at its place in the file (Lemmas/Locate, by the records read, as in C88); the loop of `parse_endf` inverted by induction on sections and files (`pass_tape`); sections of the interpreter by C22 | `C96_partial`: for files of one material in which every section has one of the recipes of C86: if both parsers accept the file, the same sections are returned, with the same dictionaries (`SameAt`), and nothing else. Missing: the conditions of C83 and C88 on the sections (`SharedSec`), sections without recipe or not selected (C79), several materials, blank or short lines, tolerant options |
| C97 | partial | `replaceLines`, `replaceCpp`, `pathGet`, `pathSet` (Model/Cli) on top of `parse`, `writeTape`, `masterParse`, `masterWrite` | the lenient splitter agrees with the strict one (C24); with `include=[]` every section is stored as lines (`Orderly.parse`); the changed dictionary meets the conditions of C25 (`FilesOk.replace`), which gives the sections of the written file | `C97_partial`: with the Python parser, for two files of the same material, a section or a whole file. `C97_cpp_partial` (Props/CliCpp): the same with the compiled parser where all sections have recipes, from C79 and C81: the dictionary stays free of repeated keys and empty files (`Neat`), so that the sections in ascending order are those of a tape (`sortedSecs_files`); the strict Python splitter reads the same sections from the written file (`split_one`, from C21 and C22). Missing: the tape head as section to be replaced, several materials, blank or short lines. `C97_refused`: without the section in the source the command is refused and writes nothing. `C97_mat_fails`: a source of another material makes the destination unreadable although the command succeeds. `C97_cpp_fails`: with the compiled parser, the default, a section of the destination without recipe silently loses its first line. |
| C98 | partial | `compareFiles`, `dicObj` (Model/Cli), `cmpO`, `parse` | the comparison of objects is equivalent to the relation `Close` (Spec/Close) by induction on values without internal entries (`cmp_iff`, using C37 and C49); files have no empty MF (`split_file_ne`), so that sections decide (`cmpFile_iff`) | `C98_status`: status 0 iff all sections are close (`CloseSec`), otherwise 1; `C98_refused`: exceptions of the parser; `C98_self`; `C98_rewritten_partial`: with the conditions of C89 and all sections parsed. `C98_fails`: with sections that are not parsed, the line numbers added by the writer count as difference. Missing: NaN, the compiled parser. |
| C99 | partial | `validateCmd`, `matchCmd`, `showCmd`, `updateDirCmd`, `Ending.status` (Model/CliStatus) on top of `parse`; `glob` and the contents of the files are parameters | a successful call leaves the parser object unchanged (`parse_keep_ok` of C30), so that the first failure, which alone decides the status, is found by a fresh object; induction over the files | `C99_validate_partial`: status of `validate` for all recipes and lists of patterns. `C99_summary_partial`: the verdicts, for recipes without lookahead. `C99_match`. `C99_missing_fails`: a name without a file is dropped by `glob`, the status is 0. `C99_summary_fails`: after a failed lookahead the next file is declared ok although it can't be parsed. `C99_done_fails`: `show` and `update-directory` return to `cli_interface`, which calls `sys.exit(1)`; status 1 after success |
| C100 | partial | `updateDic`, `updateDirLines`, `insertDic`, `insertTextLines` (Model/CliStatus) on top of `parse`, `writeTape`, `updateDirectory`, `insertDescription` and the recipe of MF1/MT451 | with `include=[(1, 451)]` all other sections are passed on as lines (`read451`); the recipe is a flat program, so that all its lines end in the control numbers of the section (`secOk451`), which gives the conditions of C25 and C52; the description from C53 | `C100_update_partial`, `C100_insert_partial`: for the Python parser, provided that writing succeeds and the lines of the section fit in their columns; the new directory is that of the new file, the other sections keep their columns up to MT. Missing: success of the writing, `NWD < 5` (false, `C52_nwd_fails`), a blank last line of the text put at the end (false, see C53) |
| C101 | partial | `parserArgs`, `readArgs`, `mapArgs`, `pySig`, `cppSig`, `construct`, `getEndfParser`, `replaceOver` (Model/CliOpts); what constructors do besides taking their arguments may fail and is a parameter | induction over the options given (`readArgs_given`, `readArgs_other`); the table has no name twice, so that a value is looked up in its row (`dGet_mapArgs`) | `C101_partial`: options that the parser has; `C101_found`: exactly the sequences of options that mean something are accepted; `C101_replace`: the command `replace`. `C101_ignored_fails`: `--loglevel` is accepted and ignored with the compiled parser. `C101_choice`: `--fuzzy_matching`, which is the default anyway, switches to the Python parser. `C101_always_on`: options that are on by default can't be switched off. |
| C102 | partial | `showContent`, `showWith`, `showRow`, `maxLen`, `Obj.items` (Model/Show); the text of a number is a parameter; what is printed before an exception is not kept | induction on the depth; entries are described by `reach`, which looks up keys one after the other, independently of the loop (`mem_shown`, `shown_nodup`); paths through C45 (`mkPath_text`) | `C102_partial`: dictionaries and lists where nothing on the way is without entries; `C102_ends`: otherwise, and only then, a ValueError (`C102_fails`); `C102_value`: single values; `C102_preserved_fails`: numbers read with `preserve_value_strings` cannot be shown by themselves; `C102_path`: the displayed path leads to the entry. |
| C103 | partial | `getChild`, `getChildValue`, `searchName`, `retrieveValue`, `reconstruct` (Model/TreeUtils); nodes are tokens or trees only | induction on the tree; nodes by `Within`, tokens from left to right by `tokens` (Spec/Syn) | `C103_search`, `C103_retrieve`, `C103_child` for all trees; `C103_text_partial`: the text of trees in which every tree has children; `C103_text_fails`: a tree without children leaves two blanks. |

## Disagreements between the code and the properties

Each is backed by a theorem whose name is given; the places are in `/repo/endf_parserpy`.

Number fields and records

* `1.+3` is refused although `1.E+3` is accepted (`C03_fails`); the C++ reader accepts both (`C66_more`).
* Writing with `prefer_noexp` what was read can change the text once (`C07_fails`), never the value (`C07_value_stable`).
* A blank field does not come back with `preserve_value_strings` (`C09_fails`).
* INTG with NDIGIT=3 reads 14 numbers, the last overlapping the MAT columns (`C15_ndigit3_fails`, `_extra`).
* TAB1/TAB2 with zero regions and empty number blocks can be read but not written: IndexError (`C17_fails`, `C18_fails`,
  `C19_empty_fails`).

Tapes

* Leading blank lines are taken as tape head even with `ignore_blank_lines` (`C23_fails`).
* Blank lines behind TEND make the lenient mode fail where the strict mode succeeds (`C24_fails`).
* A tape without head or without sections is written without complaint and cannot be read again (`C25_no_tpid`,
  `C25_no_section_fails`); verbatim lines with line feeds or a short head do not come back (`C26_fails`, `C26_newline_fails`).
* Selection by lists of two numbers or by a plain number differs between Python and C++ (`C27_cpp_differs`).

Recipe interpreter

* `nofail` returns the lines with an additional SEND record; writing the result gives a tape that cannot be read
  (`Example.C29_fails`, `…rewrite_fails`); exceptions other than ParserException are raised in spite of `nofail`
  (`…truncated_fails`).
* An exception that escapes from a lookahead leaves `ignore_all_mismatches` set, so the next call tolerates what it should
  refuse (`Example.C30_fails`, `Example.C36_flag_stays`).
* Fuzzy comparison is asymmetric (`C33_asymmetric`); a condition on a missing element of an existing array raises instead of
  being false (`C34_element_fails`); PADLINE can skip beyond the end of a list (`Example.C38_padding_fails`).
* Parse then write: with default options a number other than 0 where the recipe has 0 is replaced by 0 (`C39_zero_fails`); a
  condition that is false because its variable is still missing becomes true when writing (`C39_missing_fails`); PADLINE drops
  numbers (`C39_pad_fails`); a second TEXT record for the same variable overwrites it (`C39_text_fails`); a variable of a
  sub-section hides one used before (`C39_shadow_fails`); writing fails after successful reading if a missing variable had a
  factor that was zero (`C39_whole_fails`) or if data has the name of a loop variable (`C39_loop_fails`).
* Write then parse: `C40_text_fails`, `C40_length_fails`, `C40_late_fails`, `C40_zero_fails`, `C40_digits_fails`,
  `C40_extra_fails`.
* Empty sub-sections cannot be converted with `array_type="list"` (`C41_empty_fails`).

Paths, matching, comparison

* A path equals every prefix of it (`C44_fails`); removal in lists shifts elements (`C43_fails`); views with tuple keys or
  nested views differ from the dictionary (`C46_fails`, `C46_tuple_fails`).
* Wildcards: results that do not exist, accumulation over several wildcards, lists (`C47_fails`, `C47_two_fails`,
  `C47_index_fails`); `A|B` is false although A is true if a wildcard of B has no value (`C48_or_fails`).
* `compare_objects` raises TypeError instead of ValueError for some kinds and is not symmetric (`C49_kind_fails`,
  `C49_symm_fails`); arrays never touched and lists in lists are not checked for complete retrieval
  (`C50_untouched_fails`, `C50_list_fails`).
* Deep equality is wrong for objects that occur twice, for EndfFloat and for lists against texts (`C69_shared_fails`,
  `C69_float_fails`, `C69_text_fails`).
* `explain` does not try the wildcard for the last element, fails for elements of described arrays and for the empty path
  (`C61_last_fails`, `C61_text_fails`, `C61_empty_fails`).

Compiled parser

* A zero in the middle of a three-digit exponent is lost: 1e100 is written as 1e10, 1e-101 as 1e-11 (`C74_fails`,
  `C74_fails_more`); after a rounding carry a field can need twelve columns (`C73_fails`).
* Lines shorter than 74 characters are accessed behind their end, as control numbers are read from every line of a file, also
  from blank ones (`C76_fails`); integers beyond four bytes are undefined behaviour (`C77_range_fails`).
* Integer fields like `1.5+3` or `12abc` are accepted as 1 and 12 (`C77_more`).
* An empty LIST, or a table without ranges or points, takes a line that belongs to the next record (`C78_empty_fails`).
* A section without recipe is returned without its first line (`C79_norecipe_fails`), as the line was taken from the stream before
  `read_section_verbatim` is called; with `validate_control_records` no section can be kept as text (`C79_validate_fails`).
* Files without MEND and TEND records are accepted (`C80_truncated_fails`), tapes with several materials and blank lines at the end
  refused (`C80_materials_fails`, `C80_blank_fails`); an empty line at the end is accessed at position `size() - 1` (`C80_fails`).
* When sections without recipe are written, the number of the material in the end records is that of the last section with recipe or
  uninitialised (`C81_fails`, `C81_undef_fails`).
- An element with index -1 is lost when the next one is assigned (`C82_fails`); indices with gaps are refused
  (`C82_gap_fails`).
- Matrices in triangular loops: for `j=i+1 to N` an empty last row is returned (`C82_matrix_fails`), for `j=1 to 2*i`
  elements are lost silently (`C82_double_fails`), for `x[j,i]` inside `j=i to N` the other half of the matrix, filled with
  zeros, is returned (`C82_swapped_fails`).

- Sections in the compiled parser: a sub-section that is opened twice loses array elements of the first part
  (`C83_reopen_fails`); behind a LIST record without values one line is skipped (endf2cpp_aux.py:231-238), so that a record
  can be taken from the SEND line (`C83_empty_list_fails`); a variable that is read again in a loop is overwritten instead of
  compared (`C83_overwrite_fails`); numbers are compared exactly whereas the interpreter uses tolerances
  (`C83_close_fails`); a variable on the right-hand side of a comparison is not checked for a value, because
  cpp_varops_query.py:112-113 checks the left-hand side twice (`C83_right_fails`); a `stop` instruction generates no code (`C83_stop_fails`);
  during a lookahead a variable that has a value is read again, and control numbers are not checked, so that another branch
  is entered (`C83_lookahead_fails`, `C83_lookahead_end_fails`).
- Sections in the compiled writer: loop variables cannot be written into fields (`C90_counter_fails`); the quotient of integers is rounded
  (`C90_division_fails`); a condition on a variable that has not been written before is false, and records are left out
  (`C90_condition_fails`); a missing sub-section is taken for an empty one (`C90_missing_fails`); the number of values of a LIST record with
  a name is evaluated with the dictionary of that name (`C90_named_list_fails`); in a lookahead a missing variable is taken for a
  number (`C90_lookahead_fails`); an entry of the dictionary with the name of an abbreviation stops the interpreter only
  (`C91_clash_fails`).  The shipped recipe MF1/MT460 has a loop variable as a field, so that its sections cannot be written by the
  compiled parser (`C92_mf1_mt460_fails`), neither can stable nuclei with the JENDL recipe for MF8/MT457 (`C92_jendl_fails`); for a LIST record without values an additional line is written, which the interpreter takes
  for the next record (`C93_empty_list_fails`).
- MF40: a loop over `i` inside of a loop over `i`; the interpreter refuses all such sections (`C86_mf40_fails`).
- Abbreviations introduced in a branch are used by the compiled parser outside of it (`C87_branch_fails`), and the compiled
  parser does not refuse abbreviations with the name of a variable (`C87_clash_fails`).
- The generator raises a TypeError for desired numbers such as `5?` (expr_utils/conversion.py:25, custom_nodes.py:17).

Tools and files

* `update_directory` assumes NWD ≥ 5 (`Example.C52_nwd_fails`); `insert_description` loses a trailing empty line
  (`C53_insert_fails`); `sanitize_fieldname_types` is not idempotent and does not enter lists (`C54_twice_fails`,
  `C54_list_fails`); `locate` misses occurrences next to others (`C55_fails`); capacity 0 of the ring buffer raises
  (`C51_zero_fails`).
* The recipe cache is not written atomically and its key ignores the version of the package (`C58_crash_fails`,
  `C58_version_fails`); a text that cannot be encoded destroys the file (`C59_encode_fails`); the C++ writer truncates before
  it converts (`C59_cpp_fails`).

Compiler and C++

* Factoring: `remove_factor_from_product` returns the factor for a product that consists of it (`C63_fails`,
  `C64_factor_fails`); variables are compared by name without indices (`C64_index_fails`); `a+a` recurses endlessly
  (`C64_recursion_fails`); `1+(-1)` becomes an empty sum (`C64_empty_fails`); integer division in integer fields
  (`C63_int_fails`).
* C++ stops at underscores, throws for a field of tabs (`C66_underscore_fails`, `C66_tab_fails`); verbatim line numbers do not
  wrap (`C67_verbatim_fails`); the array store keeps the first object and has undefined behaviour for gaps
  (`C68_last_fails`, `C68_gap_fails`).

## Mutation testing

`seeded/LOG.jsonl` has one line per attempt: the definition edited, the edit, the claim it breaks, and the theorems that no
longer prove.  Attempts run in a copy outside `/verif`.
