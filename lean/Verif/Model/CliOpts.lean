import Verif.Model.Py
import Verif.Model.Dict

/-! The command line tool: options of the parser (cli/cmd_utils.py:24-97, cli/actions/replace.py:54-68). -/

namespace Verif

/-- values of options -/
inductive CVal where
  | none
  | bool (b : Bool)
  | txt (s : Str)
  | num (i : Int)
  deriving DecidableEq

/-- type of an option on the command line; `bool` stands for an option without value -/
inductive CKnd where
  | flag
  | txt
  | num
  deriving DecidableEq

/-- a row of `ENDF_PARSER_ARGS`: name, type, default if the option is not given (Python `None` is `none`), and whether it is passed to the
compiled parser.  The last column is `True` in all rows. -/
structure ArgRow where
  name : String
  knd : CKnd
  dflt : Option CVal := none
  cpp : Bool := true

/-- cli/cmd_utils.py:24-45 `ENDF_PARSER_ARGS` -/
def parserArgs : List ArgRow :=
  [⟨"ignore_number_mismatch", .flag, none, true⟩, ⟨"ignore_zero_mismatch", .flag, none, true⟩, ⟨"fuzzy_matching", .flag, none, true⟩,
   ⟨"ignore_varspec_mismatch", .flag, none, true⟩, ⟨"accept_spaces", .flag, none, true⟩, ⟨"ignore_blank_lines", .flag, none, true⟩,
   ⟨"ignore_send_records", .flag, none, true⟩, ⟨"ignore_missing_tpid", .flag, none, true⟩, ⟨"print_cache_info", .flag, some (.bool false), false⟩,
   ⟨"endf_format", .txt, none, true⟩, ⟨"loglevel", .num, none, false⟩, ⟨"preserve_value_strings", .flag, some (.bool false), true⟩,
   ⟨"array_type", .txt, none, true⟩]

/-- the dictionary of the arguments; `none` if the value is `None` or there is no such entry, which makes no difference at
cli/cmd_utils.py:79-83 -/
abbrev CArgs := String → Option CVal

/-- argparse (Python library): the value of an option with or without text behind it; `none` is a usage error.  The constant of an option
without value is `True` (cli/cmd_utils.py:60-72). -/
def ArgRow.read (a : ArgRow) : Option Str → Option CVal
  | none => match a.knd with
    | .flag => some (.bool true)
    | _ => none
  | some s => match a.knd with
    | .flag => none
    | .txt => some (.txt s)
    | .num => (pyInt s).map .num

/-- cli/cmd_utils.py:48-72 `add_common_cmd_parser_args` and `parse_args`: the options given, in order, as pairs of a name and the text behind
it.  Simplified: abbreviated names are not accepted; options and arguments of the commands themselves are left out. -/
def readArgs : List (String × Option Str) → CArgs → Option CArgs
  | [], d => some d
  | (n, t) :: rest, d => do
    let a ← parserArgs.find? fun a => a.name == n
    let v ← a.read t
    readArgs rest fun m => if m = n then some v else d m

/-- the arguments before the options given are looked at -/
def dfltArgs : CArgs := fun n => (parserArgs.find? fun a => a.name == n).bind (·.dflt)

/-- cli/cmd_utils.py:75-84 `_map_cmd_args_to_endf_parser_args` -/
def mapArgs (args : CArgs) (cpp : Bool) : Dict String CVal :=
  parserArgs.filterMap fun a => if !cpp || a.cpp then (args a.name).map fun v => (a.name, v) else none

/-- interpreter/endf_parser.py:104-131 the arguments of `EndfParser` with their defaults; `logging.WARNING` is 30 -/
def pySig : Dict String CVal :=
  [("ignore_number_mismatch", .bool false), ("ignore_zero_mismatch", .bool true), ("ignore_varspec_mismatch", .bool true), ("fuzzy_matching", .bool true),
   ("abuse_signpos", .bool false), ("skip_intzero", .bool false), ("prefer_noexp", .bool false), ("accept_spaces", .bool true),
   ("ignore_blank_lines", .bool false), ("ignore_send_records", .bool false), ("ignore_missing_tpid", .bool false), ("keep_E", .bool false),
   ("preserve_value_strings", .bool false), ("include_linenum", .bool true), ("width", .num 11), ("check_arrays", .bool true),
   ("strict_datatypes", .bool false), ("array_type", .txt "dict".toList), ("explain_missing_variable", .bool true), ("cache_dir", .none),
   ("print_cache_info", .bool true), ("endf_format", .txt "endf6-ext".toList), ("recipes", .none), ("parsing_funs", .none), ("loglevel", .num 30)]

/-- cpp_parsers/endf_parser_cpp.py:43-61 the arguments of `EndfParserCpp` with their defaults -/
def cppSig : Dict String CVal :=
  [("ignore_number_mismatch", .bool false), ("ignore_zero_mismatch", .bool true), ("ignore_varspec_mismatch", .bool true), ("accept_spaces", .bool true),
   ("ignore_blank_lines", .bool false), ("ignore_send_records", .bool false), ("ignore_missing_tpid", .bool false),
   ("validate_control_records", .bool false), ("abuse_signpos", .bool false), ("keep_E", .bool false), ("preserve_value_strings", .bool false),
   ("include_linenum", .bool true), ("array_type", .txt "dict".toList), ("skip_intzero", .bool false), ("prefer_noexp", .bool false),
   ("endf_format", .txt "endf6-ext".toList)]

/-- which parser is used -/
inductive PKnd where
  | py
  | cpp
  deriving DecidableEq

def PKnd.sig : PKnd → Dict String CVal
  | .py => pySig
  | .cpp => cppSig

/-- A parser object: its class and the values of the arguments of its constructor. -/
structure PSel where
  knd : PKnd
  opts : String → Option CVal

/-- a call of a constructor with keyword arguments; an unknown one is a TypeError.  `fine` says whether the rest of the constructor succeeds,
which loads the recipes or imports the compiled module (an input here). -/
def construct (fine : PSel → Bool) (k : PKnd) (kw : Dict String CVal) : Option PSel :=
  if kw.all fun p => dHas p.1 k.sig then
    let p : PSel := ⟨k, fun n => (dGet n k.sig).map fun d => (dGet n kw).getD d⟩
    if fine p then some p else none
  else none

/-- cli/cmd_utils.py:87-101 `get_endf_parser`; `over` are the arguments that the command sets itself -/
def getEndfParser (fine : PSel → Bool) (noCpp allowCpp : Bool) (args over : CArgs) : Option PSel :=
  let a : CArgs := fun n => match over n with
    | some v => some v
    | none => args n
  if noCpp || !allowCpp then construct fine .py (mapArgs a false)
  else match construct fine .cpp (mapArgs a true) with
    | some p => some p
    | none => construct fine .py (mapArgs a false)

/-- cli/actions/replace.py:54-68 the arguments that `replace` sets; `deep` if the path has more than two elements -/
def replaceOver (args : CArgs) (deep : Bool) : CArgs := fun n =>
  if n = "ignore_zero_mismatch" then some ((args n).getD (.bool false))
  else if n = "ignore_send_records" ∨ n = "ignore_missing_tpid" then some (.bool true)
  else if n = "preserve_value_strings" ∧ deep = true then some (.bool true)
  else none

/-- `get_endf_parser` for a command other than `replace`, from the options as given -/
def cliParser (fine : PSel → Bool) (noCpp allowCpp : Bool) (given : List (String × Option Str)) : Option PSel := do
  let args ← readArgs given dfltArgs
  getEndfParser fine noCpp allowCpp args fun _ => none

/-- the same for `replace` -/
def replaceParser (fine : PSel → Bool) (noCpp deep : Bool) (given : List (String × Option Str)) : Option PSel := do
  let args ← readArgs given dfltArgs
  getEndfParser fine noCpp true args (replaceOver args deep)

end Verif
