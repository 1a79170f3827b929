import Verif.Model.Cli
import Verif.Model.Recipe451

/-! The command line tool: how the commands end, and `validate`, `match`, `show`, `insert-text` and `update-directory`.
The Python parser is used (`--no-cpp`, or the compiled one is not available). -/

namespace Verif

/-- how `perform_action` of a command ends -/
inductive Ending where
  | exit (n : Int)
  | raised (e : Err)
  | returned

/-- cli/cmd.py:50-62 the exit status of the process: `sys.exit` in the command, an exception that is not caught (Python semantics:
status 1), or `sys.exit(1)` after the command has returned -/
def Ending.status : Ending → Int
  | .exit n => n
  | .raised _ => 1
  | .returned => 1

/-- What a command sees of the file system: `glob` (Python library; for a name without wildcards the name itself if there is such a file)
and the lines of a file (none: it can't be read).  Simplified: nothing changes while a command runs. -/
structure Disk where
  glob : Str → List Str
  read : Str → Option (List Str)

/-- endf_parser.py `parsefile`: an unreadable file is an exception (OSError, here `other`) before parsing starts -/
def parsefile (x : PCtx) (k : Disk) (o : PObj) (file : Str) (incl : Option Sel := none) : PObj × Res (Dict Int (Dict Int (SecVal DDic))) :=
  match k.read file with
  | none => (o, .error .other)
  | some ls => parse x o { lines := ls, incl := incl }

/-- cli/actions/validate.py:42-52 the loop: the summary, a file with its verdict each; the same parser object reads all files -/
def validateLoop (x : PCtx) (k : Disk) : PObj → List Str → List (Str × Bool)
  | _, [] => []
  | o, f :: fs =>
    match parsefile x k o f with
    | (o', .error _) => (f, false) :: validateLoop x k o' fs
    | (o', .ok _) => (f, true) :: validateLoop x k o' fs

/-- cli/actions/validate.py:29-34 the files to be validated -/
def globAll (k : Disk) (pats : List Str) : List Str := pats.flatMap k.glob

/-- cli/actions/validate.py:28-58: the summary and the end -/
def validateCmd (x : PCtx) (k : Disk) (pats : List Str) : List (Str × Bool) × Ending :=
  let s := validateLoop x k x.fresh (globAll k pats)
  (s, .exit (if s.any (fun p => !p.2) then 1 else 0))

/-- cli/actions/match.py:46-66 the loop: the files whose result goes to `eval_tree_print`, and whether any file failed.  `eval` is
`eval_tree_print`, which prints the matches (see C47, C48), its return value is not used -/
def matchLoop (x : PCtx) (k : Disk) (eval : Dict Int (Dict Int (SecVal DDic)) → Res Unit) : PObj → List Str → Res (List Str × Bool)
  | _, [] => .ok ([], false)
  | o, f :: fs =>
    match parsefile x k o f with
    | (o', .error _) => do
      let (l, _) ← matchLoop x k eval o' fs
      return (l, true)
    | (o', .ok r) => do
      let _ ← eval r
      let (l, b) ← matchLoop x k eval o' fs
      return (f :: l, b)

/-- cli/actions/match.py:33-66 after the query has been parsed: the files searched and the end -/
def matchCmd (x : PCtx) (k : Disk) (eval : Dict Int (Dict Int (SecVal DDic)) → Res Unit) (pats : List Str) : List Str × Ending :=
  match matchLoop x k eval x.fresh (globAll k pats) with
  | .error e => ([], .raised e)
  | .ok (l, b) => (l, .exit (if b then 1 else 0))

/-- cli/cmd_utils.py:100-108 `determine_include` for a path with one or two elements -/
def determineInclude (mf : Int) (mt : Option Int) : Sel :=
  match mt with
  | none => .many [.num mf]
  | some mt => .many [.tup [mf, mt]]

/-- cli/actions/show.py:33-44 for a path with one or two elements: the object shown and the end.  `show_content` is C102. -/
def showCmd (x : PCtx) (k : Disk) (mf : Int) (mt : Option Int) (file : Str) : Option (PathObj DDic) × Ending :=
  match parsefile x k x.fresh file (some (determineInclude mf mt)) with
  | (_, .error e) => (none, .raised e)
  | (_, .ok r) =>
    match pathGet mf mt r with
    | .error e => (none, .raised e)
    | .ok c => (some c, .returned)

/-- endf6_plumbing.py:133-208 `update_directory(endf_dic, parser)`: the section MF1/MT451 must have been parsed -/
def updateDic (x : PCtx) (r : Dict Int (Dict Int (SecVal DDic))) : Res (Dict Int (Dict Int (SecVal DDic))) := do
  let out ← writeTape (x.penned false) r
  match dGet 1 r with
  | none => .error .keyError
  | some f1 =>
    match dGet 451 f1 with
    | none => .error .keyError
    | some (.verb _) => .error .typeError
    | some (.data v) => do
      let s ← updateDirectory x.split out (sec451 v)
      return dSet 1 (dSet 451 (.data (put451 s v)) f1) r

/-- cli/actions/update_directory.py:42-47 the new lines of the file; backup and file system are in Model/Files, see C60 -/
def updateDirLines (x : PCtx) (lines : List Str) : Res (List Str) :=
  match parse x x.fresh { lines := lines, incl := some (determineInclude 1 (some 451)) } with
  | (_, .error e) => .error e
  | (_, .ok r) => do writeTape (x.penned false) (← updateDic x r)

/-- cli/actions/update_directory.py:35-47: the new content of the file (none: not written) and the end; the file system lets it be written -/
def updateDirCmd (x : PCtx) (k : Disk) (file : Str) : Option (List Str) × Ending :=
  match k.read file with
  | none => (none, .raised .other)
  | some ls =>
    match updateDirLines x ls with
    | .error e => (none, .raised e)
    | .ok out => (some out, .returned)

/-- an array of texts as stored in a section -/
def txtVal (a : Dict Int Str) : Val := .dic (a.map fun p => (.idx p.1, .txt p.2))

/-- endf6_plumbing.py:98-103: NWD and DESCRIPTION are stored in the section -/
def putDescr (s : Sec451) (d : DDic) : DDic :=
  dSet (.var "DESCRIPTION") (txtVal (s.descr.getD [])) (dSet (.var "NWD") (.num (.int s.nwd)) d)

/-- endf6_plumbing.py:106-130 `insert_description(endf_dic, text, after_line)`: the section MF1/MT451 must have been parsed -/
def insertDic (r : Dict Int (Dict Int (SecVal DDic))) (text : Str) (after : Int) : Res (Dict Int (Dict Int (SecVal DDic))) :=
  match dGet 1 r with
  | none => .error .keyError
  | some f1 =>
    match dGet 451 f1 with
    | none => .error .keyError
    | some (.verb _) => .error .typeError
    | some (.data v) => do
      let s ← insertDescription (sec451 v) text after
      return dSet 1 (dSet 451 (.data (putDescr s v)) f1) r

/-- cli/actions/insert_text.py:47-54 the new lines of the file; `text` is what is read from the standard input -/
def insertTextLines (x : PCtx) (text : Str) (after : Int) (lines : List Str) : Res (List Str) :=
  match parse x x.fresh { lines := lines, incl := some (determineInclude 1 (some 451)) } with
  | (_, .error e) => .error e
  | (_, .ok r) => do writeTape (x.penned false) (← updateDic x (← insertDic r text after))

end Verif
