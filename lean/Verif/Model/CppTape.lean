import Verif.Model.CppLib
import Verif.Model.Write

/-! Master functions of the compiled parser: reading and writing of whole files
(compiler/code_generator_parsing.py:230-426, compiler/code_generator_writing.py:356-488).

Simplified: a stream is the list of the lines that follow, each ended by a newline in the file; a position is such a list.  The
newline that `read_section_verbatim` adds to the lines is left out, as in `cppVerbLine`. -/

namespace Verif

/-- the generated module: options of cpp_templates/module_header_reading.hpp:15-27, `should_parse_section` for the arguments
`exclude` and `include` (`none` is an exception), and the functions generated from the recipes.  Simplified: a generated
function is any function from the lines that follow to a value and the lines behind the section; which function is
responsible for MF and MT is decided as in `responsible`. -/
structure CTape (δ : Type) where
  acc : Bool := true
  ignoreBlank : Bool := false
  ignoreSend : Bool := false
  ignoreTpid : Bool := false
  validate : Bool := false
  should : Int → Int → Option Bool
  fn : Int → Int → Option (List Str → CRes (δ × List Str))

/-- cpp_templates/module_header_reading.hpp:498-503 `cpp_is_blank_line` -/
def cppBlank (l : Str) : Bool := l.all (· == ' ')

/-- cpp_templates/module_header_reading.hpp:463-479 `cpp_is_fend_record` -/
def cppIsFend {δ : Type} (x : CTape δ) (l : Str) (mat : Int) : CRes Bool := do
  let m ← cppMat l
  if mat ≠ m ∧ x.validate = true then .throw
  else
    let mf ← cppMf l
    let mt ← cppMt l
    let c1 ← cppFloat x.acc l 0
    let c2 ← cppFloat x.acc l 1
    let n1 ← cppInt l 2
    let n2 ← cppInt l 3
    let l1 ← cppInt l 4
    let l2 ← cppInt l 5
    .ok (decide (c1 = 0 ∧ c2 = 0 ∧ n1 = 0 ∧ n2 = 0 ∧ l1 = 0 ∧ l2 = 0 ∧ mf = 0 ∧ mt = 0))

/-- cpp_templates/module_header_reading.hpp:482-495 `cpp_is_mend_record`, `cpp_is_tend_record`, with `n` 0 and -1 -/
def cppIsEnd {δ : Type} (x : CTape δ) (l : Str) (n : Int) : CRes Bool := do
  let mat ← cppMat l
  let b ← cppIsFend x l n
  .ok (b && decide (mat = n))

/-- `std::stoi` on a few characters; throws if there is no number at the beginning -/
def stoi (s : Str) : CRes Int :=
  let (neg, u) := splitSign (s.dropWhile cSpace)
  if u.takeWhile isDig = [] then .throw else .ok (applySign neg (digitsVal (u.takeWhile isDig)))

/-- `std::string::substr`; throws if `start` is behind the end -/
def substr (s : Str) (start n : Nat) : CRes Str := if start ≤ s.length then .ok ((s.drop start).take n) else .throw

/-- cpp_templates/module_header_reading.hpp:637-639: a carriage return at the end is removed -/
def chopCr (l : Str) : Str := if l.getLast? = some '\r' then l.dropLast else l

/-- cpp_templates/module_header_reading.hpp:633-646: the loop; the lines of the section, MF and MT of the line that ended it,
and the stream beginning with this line.  An empty line, also the one at the end of the stream, is accessed at position
`size() - 1`. -/
def verbLoop {δ : Type} (x : CTape δ) (c : Ctrl) : List Str → CRes (List Str × Int × Int × List Str)
  | [] => .undef
  | l :: ls => do
    let _ ← cppReadLine x.validate c (l :: ls)
    if l = [] then .undef
    else
      let mf ← stoi (← substr (chopCr l) 70 2)
      let mt ← stoi (← substr (chopCr l) 72 3)
      if mf ≠ c.mf ∨ mt ≠ c.mt then .ok ([], mf, mt, l :: ls)
      else
        let (v, r) ← verbLoop x c ls
        .ok (chopCr l :: v, r)

/-- cpp_templates/module_header_reading.hpp:624-659 `read_section_verbatim`: the lines and the stream afterwards; `start` is
the beginning of the file, where `curpos` points if no line was taken -/
def readVerb {δ : Type} (x : CTape δ) (c : Ctrl) (start : List Str) (first : Bool) (ls : List Str) : CRes (List Str × List Str) := do
  let (v, mf, mt, r) ← verbLoop x c ls
  if first = false ∧ (mf ≠ c.mf ∨ mt ≠ 0) then .throw
  else .ok (v, if first then (if v = [] then start else r) else r.tail)

/-- code_generator_parsing.py:286-303: the variables of the loop; `last_mf` is uninitialised before the first line and not
looked at -/
structure CSt (δ : Type) where
  first : Bool := true
  found : Bool := false
  fend : Bool := false
  mend : Bool := false
  tend : Bool := false
  sec : Bool := false
  lastMf : Int := 0
  out : Dict Int (Dict Int (SecVal δ)) := []

/-- code_generator_parsing.py:230-276 `_check_end_records`: false if an exception is thrown; the numbers are passed as `bool` -/
def checkEnds {δ : Type} (x : CTape δ) (s : CSt δ) (mf : Int) : Bool :=
  !(!x.ignoreSend && (s.mend || s.tend)) &&
  !(!x.ignoreSend && (s.fend && !s.sec)) &&
  !(!x.ignoreSend && (s.fend && (decide (s.lastMf ≠ 0) || !decide (mf ≠ 0)))) &&
  !(!s.found && !x.ignoreTpid)

/-- cpp_types/cpp_varaux.py:72-92 `dict_assign` with two indices -/
def putSec {δ : Type} (mf mt : Int) (v : SecVal δ) (d : Dict Int (Dict Int (SecVal δ))) : Dict Int (Dict Int (SecVal δ)) :=
  dSet mf (dSet mt v ((dGet mf d).getD [])) d

/-- code_generator_parsing.py:305-414: one pass through the loop for the line `l`; the new state and stream -/
def masterStep {δ : Type} (x : CTape δ) (start : List Str) (s : CSt δ) (l : Str) (ls : List Str) : CRes (CSt δ × List Str) := do
  let mat ← cppMat l
  let mf ← cppMf l
  let mt ← cppMt l
  let (s, r) ← (match (if mf = 0 ∧ mt = 0 ∧ s.first = false then none else x.fn mf mt) with
    | some f =>
      let s := if mf = 0 ∧ mt = 0 then { s with found := true } else s
      if checkEnds x s mf = false then .throw
      else
        let s := { s with fend := false, sec := true, first := if mt ≠ 0 then false else s.first }
        match x.should mf mt with
        | none => .throw
        | some true => do
          let (d, r) ← f (l :: ls)
          .ok ({ s with out := putSec mf mt (.data d) s.out }, r)
        | some false => do
          let (v, r) ← readVerb x ⟨mat, mf, mt⟩ start s.first (l :: ls)
          .ok ({ s with out := putSec mf mt (.verb v) s.out }, r)
    | none =>
      if mf ≠ 0 ∧ mt ≠ 0 then do
        let (v, r) ← readVerb x ⟨mat, mf, mt⟩ start s.first ls
        .ok ({ s with out := putSec mf mt (.verb v) s.out }, r)
      else if cppBlank l = true then (if x.ignoreBlank then .ok (s, ls) else .throw)
      else do
        let isT ← (if s.mend then cppIsEnd x l (-1) else .ok false)
        if isT then .ok ({ s with mend := false, tend := true }, ls)
        else do
          let isM ← (if s.fend then cppIsEnd x l 0 else .ok false)
          if isM then .ok ({ s with mend := true }, ls)
          else do
            let isF ← cppIsFend x l mat
            if isF then .ok ({ s with fend := true }, ls) else .throw)
  .ok ({ s with lastMf := mf, first := false }, r)

/-- code_generator_parsing.py:304-416: the loop; `fuel` bounds the number of passes -/
def masterLoop {δ : Type} (x : CTape δ) (start : List Str) : Nat → CSt δ → List Str → CRes (Dict Int (Dict Int (SecVal δ)))
  | 0, _, _ => .undef
  | _ + 1, s, [] => .ok s.out
  | fuel + 1, s, l :: ls => do
    let (s, r) ← masterStep x start s l ls
    masterLoop x start fuel s r

/-- code_generator_parsing.py:279-426: the function `parse_endf`.  Every pass but the first takes at least one line if the
functions of the recipes do; after the first pass the stream can be at the beginning again. -/
def masterParse {δ : Type} (x : CTape δ) (lines : List Str) : CRes (Dict Int (Dict Int (SecVal δ))) :=
  masterLoop x lines (lines.length + 2) {} lines

/-! ### writing -/

/-- cpp_templates/module_header_writing.hpp:416-438 `cpp_prepare_send` (without the newline), `none` if an exception is
thrown -/
def cppSend (o : WOpts) (pres : Bool) (mat mf : Int) : Option Str := do
  let z ← cppFloatField o pres (.flt 0)
  let line := List.replicate (if o.includeLinenum then 80 else 75) ' '
  let line := cppIntField line 66 4 mat
  let line := cppIntField line 70 2 mf
  let line := cppIntField line 72 3 0
  let line := putField (putField line 0 z) 1 z
  let line := putField (putField (putField (putField line 2 (cppIntText 0)) 3 (cppIntText 0)) 4 (cppIntText 0)) 5 (cppIntText 0)
  return if o.includeLinenum then cppIntField line 75 5 (if mf = 0 then 0 else 99999) else line

/-- what is written for a section with a recipe: lines (with the SEND record, if there is one) and the entry MAT; `none` if an
exception is thrown -/
structure CWrite (δ : Type) where
  o : WOpts := {}
  pres : Bool := false
  should : Int → Int → Option Bool
  fn : Int → Int → Option (δ → Option (List Str))
  mat : δ → Option Int

/-- cpp_templates/module_header_writing.hpp:464-492 `write_section_verbatim` -/
def writeVerb {δ : Type} (w : CWrite δ) (ls : List Str) : CRes (List Str) :=
  match ls with
  | [] => .throw
  | l :: _ => do
    let mat ← cppMat l
    let mf ← cppMf l
    let _ ← cppMt l
    let v ← CRes.ofOption (cppVerbatim w.o.includeLinenum mf ls)
    if mf ≠ 0 then do
      let s ← CRes.ofOption (cppSend w.o w.pres mat mf)
      .ok (v ++ [s])
    else .ok v

/-- cpp_templates/module_header_writing.hpp:441-461 `get_mat_from_mfmt_section` -/
def matOf {δ : Type} (w : CWrite δ) : SecVal δ → CRes Int
  | .data d => CRes.ofOption (w.mat d)
  | .verb [] => .throw
  | .verb (l :: _) => do stoi (← substr l 66 4)

/-- code_generator_writing.py:358-365: the variables; `mat` is uninitialised at first -/
structure CWSt where
  mat : Option Int := none
  lastMf : Int := -9999
  sec : Bool := false

/-- code_generator_writing.py:403-470: one section; a value of an uninitialised variable is undefined behaviour -/
def masterWriteSec {δ : Type} (w : CWrite δ) (s : CWSt) (mf mt : Int) (v : SecVal δ) : CRes (CWSt × List Str) :=
  match w.should mf mt with
  | none => .throw
  | some false => .ok (s, [])
  | some true => do
    let fend ← (if s.sec = true ∧ mf ≠ s.lastMf ∧ mf ≠ 0 ∧ s.lastMf ≠ 0 then
        match s.mat with
        | none => .undef
        | some m => do let f ← CRes.ofOption (cppSend w.o w.pres m 0); .ok [f]
      else .ok [])
    match w.fn mf mt with
    | some f => do
      let ls ← (match v with
        | .data d => CRes.ofOption (f d)
        | .verb ls => writeVerb w ls)
      let m ← matOf w v
      .ok (⟨some m, mf, true⟩, fend ++ ls)
    | none =>
      match v with
      | .data _ => .throw
      | .verb ls => do
        let ls ← writeVerb w ls
        .ok ({ s with lastMf := mf }, fend ++ ls)

def masterWriteSecs {δ : Type} (w : CWrite δ) : CWSt → List (Int × Int × SecVal δ) → CRes (CWSt × List Str)
  | s, [] => .ok (s, [])
  | s, (mf, mt, v) :: rest => do
    let (s, a) ← masterWriteSec w s mf mt v
    let (s, b) ← masterWriteSecs w s rest
    .ok (s, a ++ b)

/-- code_generator_writing.py:356-488: the function `write_endf`; `secs` are the sections in ascending order of MF and MT -/
def masterWrite {δ : Type} (w : CWrite δ) (secs : List (Int × Int × SecVal δ)) : CRes (List Str) := do
  let (s, ls) ← masterWriteSecs w {} secs
  match s.mat with
  | none => .undef
  | some m => do
    let a ← CRes.ofOption (cppSend w.o w.pres m 0)
    let b ← CRes.ofOption (cppSend w.o w.pres 0 0)
    let c ← CRes.ofOption (cppSend w.o w.pres (-1) 0)
    .ok (ls ++ [a, b, c])

end Verif
