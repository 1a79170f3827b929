import Verif.Model.Compare
import Verif.Model.CppTape
import Verif.Model.Parse
import Verif.Model.UserTools

/-! The command line tool: `endf-cli replace` for whole sections and whole files, and `endf-cli compare`. -/

namespace Verif

/-- cli/actions/replace.py:55-61: the parser object is created with `ignore_send_records=True` and `ignore_missing_tpid=True` -/
def PCtx.lenient (x : PCtx) : PCtx := { x with split := { x.split with ignoreSend := true, ignoreTpid := true } }

/-- what `write` of this parser object works with (endf_parser.py:990-1090) -/
def PCtx.penned (x : PCtx) (zab : Bool) : WriteEnv DDic :=
  { o := x.wo, r := x.split.fields, zab := zab
    render := fun mf mt d => (responsible x.trees mf mt).map fun p => sectionLines x.fuel x.wo zab mf mt p d }

/-- what an EndfPath with one or two elements, `MF` or `MF/MT`, refers to in the dictionary of a file -/
inductive PathObj (α : Type) where
  | file (f : Dict Int (SecVal α))
  | sec (mt : Int) (v : SecVal α)

/-- utils/accessories.py:217-240 `EndfPath.get` for the path `MF` (`mt = none`) or `MF/MT` -/
def pathGet {α : Type} (mf : Int) (mt : Option Int) (s : Dict Int (Dict Int (SecVal α))) : Res (PathObj α) :=
  match dGet mf s with
  | none => .error .keyError
  | some f =>
    match mt with
    | none => .ok (.file f)
    | some mt =>
      match dGet mt f with
      | none => .error .keyError
      | some v => .ok (.sec mt v)

/-- utils/accessories.py:242-290 `EndfPath.set` for such a path: all elements are integers, so that the first branch is taken -/
def pathSet {α : Type} (mf : Int) (o : PathObj α) (d : Dict Int (Dict Int (SecVal α))) : Dict Int (Dict Int (SecVal α)) :=
  match o with
  | .file f => dSet mf f d
  | .sec mt v => dSet mf (dSet mt v ((dGet mf d).getD [])) d

/-- cli/actions/replace.py:84-99 `_replace_element` for a path of at most two elements and one destination file, with the Python parser:
the new lines of the destination.  `include=[]`, so that no section is parsed; the same parser object reads both files.
Simplified: the backup file and the file system are left out; several destination files are treated one after the other by the code. -/
def replaceLines (x : PCtx) (zab : Bool) (mf : Int) (mt : Option Int) (src dst : List Str) : Res (List Str) :=
  match parse x.lenient x.lenient.fresh { lines := src, incl := some (.many []) } with
  | (_, .error e) => .error e
  | (o, .ok s) => do
    let obj ← pathGet mf mt s
    match parse x.lenient o { lines := dst, incl := some (.many []) } with
    | (_, .error e) => .error e
    | (_, .ok d) => writeTape (x.lenient.penned zab) (pathSet mf obj d)

/-- code_generator_writing.py:367-402: the sections in ascending order of MF and MT -/
def sortedSecs {α : Type} (d : Dict Int (Dict Int (SecVal α))) : List (Int × Int × SecVal α) :=
  (dSort d).flatMap fun p => (dSort p.2).map fun q => (p.1, q.1, q.2)

/-- cli/actions/replace.py:84-99 with the compiled parser, which `get_endf_parser` (cli/cmd_utils.py:82-97) prefers: `x`, `w` are the generated
functions with their options.  Simplified as `replaceLines`. -/
def replaceCpp {δ : Type} (x : CTape δ) (w : CWrite δ) (mf : Int) (mt : Option Int) (src dst : List Str) : CRes (List Str) := do
  let y := { x with ignoreSend := true, ignoreTpid := true, should := fun a b => (shouldParseCpp a b none (some (.many []))).toOption }
  let s ← masterParse y src
  match pathGet mf mt s with
  | .error _ => .throw
  | .ok obj => do
    let d ← masterParse y dst
    masterWrite w (sortedSecs (pathSet mf obj d))

/-! ## compare -/

/-- keys of a data dictionary as Python objects; the names of internal entries (helpers.py:14-22) do not occur in results, see C37 -/
def Key.pkey : Key → PKey
  | .var n => .str n.toList
  | .idx i => .int i
  | .up => .str "__up".toList
  | .abbrevs => .str "__abbrevs".toList
  | .startidcs => .str "__startidcs".toList

mutual
/-- values of a data dictionary as Python objects; abbreviations and internal entries do not occur in results, see C37 -/
def valObj : Val → Obj
  | .num x => .num x
  | .txt s => .str s
  | .lst l => .lst (l.map .num)
  | .dic d => .dic (dicObj d)
  | .abb _ => .none
  | .names _ => .none
  | .mark => .none
def dicObj : List (Key × Val) → List (PKey × Obj)
  | [] => []
  | (k, v) :: d => (k.pkey, valObj v) :: dicObj d
end

/-- cli/actions/compare.py:45-55 `_compare_endf_files` with the Python parser: the exit status.  The same parser object reads both files. -/
def compareFiles (x : PCtx) (atol rtol : ℚ) (f g : List Str) : Res Int :=
  match parse x x.fresh { lines := f } with
  | (_, .error e) => .error e
  | (o, .ok r1) =>
    match parse x o { lines := g } with
    | (_, .error e) => .error e
    | (_, .ok r2) => do
      let same ← cmpO { atol := atol, rtol := rtol } false (.dic (resultObj dicObj r1)) (.dic (resultObj dicObj r2))
      return if same then 0 else 1

end Verif
