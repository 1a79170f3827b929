import Verif.Model.Records

/-! C++ templates of the compiled parser: reading a float field, numbering of lines. -/

namespace Verif

/-- What a C++ function does that fills a local buffer: it throws, or it goes on; in both cases `buf` are the characters
written to the buffer, one behind the other from index 0. -/
structure CBuf where
  thrown : Bool := false
  buf : Str
  deriving DecidableEq, Repr

/-- cpp_templates/module_header_reading.hpp:227-254: the loop over the characters.  The texts are the characters not yet
seen and the buffer so far (`tbuf[0..j-1]`). -/
def cppScan (acceptSpaces : Bool) : Bool → Bool → Str → Str → CBuf
  | _, _, [], buf => { buf := buf }
  | inNum, inExp, c :: cs, buf =>
    if c = ' ' then
      if acceptSpaces || !inNum then cppScan acceptSpaces inNum inExp cs buf
      else { thrown := true, buf := buf }
    else if inNum then
      if !inExp then
        if c = '+' ∨ c = '-' then cppScan acceptSpaces inNum true cs (buf ++ ['e'] ++ [c])
        else if c = 'e' ∨ c = 'E' then cppScan acceptSpaces inNum true cs (buf ++ [c])
        else cppScan acceptSpaces inNum inExp cs (buf ++ [c])
      else cppScan acceptSpaces inNum inExp cs (buf ++ [c])
    else
      cppScan acceptSpaces (c = '.' || isDig c || c = '-' || c = '+') inExp cs (buf ++ [c])

/-- cpp_templates/module_header_reading.hpp:217-223: the characters up to the last one that is not a blank -/
def cutBlanks (s : Str) : Str := (s.reverse.dropWhile (· = ' ')).reverse

/-- cpp_templates/module_header_reading.hpp:213-256: everything written to `tbuf`; `none` if the function returns 0.0
before.  `field` are the eleven characters `str[0]` to `str[10]`. -/
def cppBuffer (acceptSpaces : Bool) (field : Str) : Option CBuf :=
  let s := cutBlanks field
  if s = [] then none
  else
    let r := cppScan acceptSpaces false false s []
    if r.thrown then some r
    else some { r with buf := (if r.buf = [] then ['0'] else r.buf) ++ [Char.ofNat 0] }

/-- exponent part accepted by `strtod`: the longest part of the form `[eE][+-]?digits` -/
def cExp : Str → Int
  | [] => 0
  | c :: s =>
    if c = 'e' ∨ c = 'E' then
      let (neg, u) := splitSign s
      let d := u.takeWhile isDig
      if d = [] then 0 else applySign neg (digitsVal d)
    else 0

/-- white space of the C library -/
def cSpace (c : Char) : Bool := c = ' ' || (9 ≤ c.toNat && c.toNat ≤ 13)

/-- `std::stod`: the longest prefix that is a number, `none` = `std::invalid_argument`.  Simplified: hexadecimal numbers,
`inf` and `nan` are not modelled, nor are rounding to double and `std::out_of_range`. -/
def stod (s : Str) : Option Dec :=
  let (neg, u) := splitSign (s.dropWhile cSpace)
  let ip := u.takeWhile isDig
  match u.dropWhile isDig with
  | '.' :: r =>
    let fp := r.takeWhile isDig
    if ip = [] ∧ fp = [] then none
    else some ⟨applySign neg (digitsVal (ip ++ fp)), cExp (r.dropWhile isDig) - fp.length⟩
  | r => if ip = [] then none else some ⟨applySign neg (digitsVal ip), cExp r⟩

/-- cpp_templates/module_header_reading.hpp:212-258 `endfstr2float`: the value, `none` if an exception is thrown -/
def endfstr2float (acceptSpaces : Bool) (field : Str) : Option ℚ :=
  match cppBuffer acceptSpaces field with
  | none => some 0
  | some b => if b.thrown then none else (stod b.buf.dropLast).map Dec.toRat

/-- cpp_templates/module_header_writing.hpp:117-121 `cpp_write_custom_int_field`: `str.replace(start, length, …)` -/
def cppIntField (s : Str) (start length : Nat) (v : Int) : Str :=
  s.take start ++ rjust (intStr v) length ++ s.drop (start + length)

/-- cpp_templates/module_header_writing.hpp:142-156 `cpp_prepare_line` (without the newline): the line and the new
`linenum`.  The remainder of C++ has the sign of the dividend. -/
def cppPrepareLine (num : Bool) (c : Ctrl) (linenum : Int) : Str × Int :=
  let line := List.replicate (if num then 80 else 75) ' '
  let line := cppIntField line 66 4 c.mat
  let line := cppIntField line 70 2 c.mf
  let line := cppIntField line 72 3 c.mt
  let line := if num then cppIntField line 75 5 (Int.tmod linenum 99999 + 1) else line
  (line, linenum + 1)

/-- code_generator_writing.py:238-242: initial value of `linenum` in a section written with a recipe -/
def cppFirst (mf mt : Int) : Int := if mf = 0 ∧ mt = 0 then -1 else 0

/-- the lines of a section prepared one after the other (their fields are filled in later and leave the columns from 66
on alone) -/
def cppPrepare (num : Bool) (c : Ctrl) : Nat → Int → List Str
  | 0, _ => []
  | n + 1, l => let r := cppPrepareLine num c l; r.1 :: cppPrepare num c n r.2

/-- `std::string::resize` -/
def resize (s : Str) (n : Nat) : Str := s.take n ++ List.replicate (n - s.length) (Char.ofNat 0)

/-- cpp_templates/module_header_writing.hpp:475-487: the lines of a section that is not parsed, without the newline;
`none` if `erase` throws.  Simplified: lines that contain a newline are not modelled. -/
def cppVerbLine (num : Bool) (l : Str) (linenum : Int) : Option Str :=
  if num then some (cppIntField (resize l 80) 75 5 linenum)
  else if l.length < 75 then none else some (l.take 75)

def cppVerbLines (num : Bool) : List Str → Int → Option (List Str)
  | [], _ => some []
  | l :: ls, n => do return (← cppVerbLine num l n) :: (← cppVerbLines num ls (n + 1))

/-- cpp_templates/module_header_writing.hpp:464-488 `write_section_verbatim` without the SEND record; `mf` is the number
read from the first line -/
def cppVerbatim (num : Bool) (mf : Int) (ls : List Str) : Option (List Str) :=
  cppVerbLines num ls (if mf ≠ 0 then 1 else 0)

end Verif
