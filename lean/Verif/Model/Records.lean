import Verif.Model.Fields
/-
Model of the record readers and writers of `endf_parserpy/interpreter/endf_utils.py`.

`with_ctrl` is `True` in all calls made by the package (endf_parser.py:450-1140) and is fixed to
`True` here.  A record dictionary is a structure; `lines[ofs]` is `lineAt`.
-/
namespace Verif

/-- MAT, MF, MT of a control record -/
structure Ctrl where
  mat : Int
  mf : Int
  mt : Int
  deriving DecidableEq, Repr

/-- `lines[ofs]` (IndexError behind the last line) -/
def lineAt (lines : List Str) (ofs : Nat) : Res Str :=
  match lines[ofs]? with
  | some l => .ok l
  | none => .error .indexError

/-- endf_utils.py:44-49: one control number; blank is zero, `int()` raises ValueError -/
def readCtrlNum (s : Str) : Res Int :=
  let t := strip s
  if t ≠ [] then
    match pyInt t with
    | some n => .ok n
    | none => .error .valueError
  else .ok 0

/-- endf_utils.py:30-50 `read_ctrl` with `nofail=False` -/
def readCtrl (w : Nat) (line : Str) : Res Ctrl := do
  let ofs := 6 * w
  let mat ← readCtrlNum (slice line ofs (ofs + 4))
  let mf ← readCtrlNum (slice line (ofs + 4) (ofs + 6))
  let mt ← readCtrlNum (slice line (ofs + 6) (ofs + 9))
  return ⟨mat, mf, mt⟩

/-- endf_utils.py:33-41 `read_ctrl` with `nofail=True` -/
def readCtrlNofail (w : Nat) (line : Str) : Ctrl :=
  let ofs := 6 * w
  match pyInt (slice line ofs (ofs + 4)), pyInt (slice line (ofs + 4) (ofs + 6)),
      pyInt (slice line (ofs + 6) (ofs + 9)) with
  | some a, some b, some c => ⟨a, b, c⟩
  | _, _, _ => ⟨0, 0, 0⟩

/-- endf_utils.py:53-54 `write_ctrl` -/
def writeCtrl (c : Ctrl) : Str :=
  rjust (intStr c.mat) 4 ++ rjust (intStr c.mf) 2 ++ rjust (intStr c.mt) 3

/-- A value in an integer slot of a CONT-like record: Python `int`, or another number. -/
inductive Slot where
  | int (n : Int)
  | flt (v : ℚ)
  deriving DecidableEq

/-- endf_utils.py:168-179: conversion of a slot to an integer when writing -/
def slotInt (o : WOpts) : Slot → Res Int
  | .int n => .ok n
  | .flt v =>
    if (truncRat v : ℚ) ≠ v ∨ o.strictDatatypes = true then .error .invalidInteger
    else .ok (truncRat v)

structure TextRec where
  hl : Str
  ctrl : Ctrl
  deriving DecidableEq

structure DirRec where
  l1 : Int
  l2 : Int
  n1 : Int
  n2 : Int
  ctrl : Ctrl
  deriving DecidableEq

structure IntgRec where
  ii : Int
  jj : Int
  kij : List Int
  ctrl : Ctrl
  deriving DecidableEq

structure ContRec where
  c1 : Num
  c2 : Num
  l1 : Slot
  l2 : Slot
  n1 : Slot
  n2 : Slot
  ctrl : Ctrl
  deriving DecidableEq

structure ListRec where
  head : ContRec
  vals : List Num
  deriving DecidableEq

/-- interpolation regions -/
structure Tab2Rec where
  head : ContRec
  nbt : List Int
  int : List Int
  deriving DecidableEq

structure Tab1Rec where
  head : ContRec
  nbt : List Int
  int : List Int
  xs : List Num
  ys : List Num
  deriving DecidableEq

/-- endf_utils.py:71-79 `read_text` -/
def readText (o : ROpts) (lines : List Str) (ofs : Nat) : Res (TextRec × Nat) := do
  let line ← lineAt lines ofs
  let ctrl ← readCtrl o.width line
  return (⟨slice line 0 (o.width * 6), ctrl⟩, ofs + 1)

/-- endf_utils.py:82-86 `write_text` -/
def writeText (o : WOpts) (r : TextRec) : List Str :=
  [ljust r.hl (o.width * 6) ++ writeCtrl r.ctrl]

/-- integer field number `i` (counted from zero) of a line -/
def intField (w : Nat) (line : Str) (i : Nat) : Res Int :=
  readFortInt (slice line (i * w) ((i + 1) * w))

/-- endf_utils.py:89-101 `read_dir` -/
def readDir (o : ROpts) (lines : List Str) (ofs : Nat) : Res (DirRec × Nat) := do
  let line ← lineAt lines ofs
  let l1 ← intField o.width line 2
  let l2 ← intField o.width line 3
  let n1 ← intField o.width line 4
  let n2 ← intField o.width line 5
  let ctrl ← readCtrl o.width line
  return (⟨l1, l2, n1, n2, ctrl⟩, ofs + 1)

/-- endf_utils.py:104-113 `write_dir` -/
def writeDir (o : WOpts) (r : DirRec) : List Str :=
  let w := o.width
  [blanks w ++ blanks w ++ rjust (intStr r.l1) w ++ rjust (intStr r.l2) w ++
    rjust (intStr r.n1) w ++ rjust (intStr r.n2) w ++ writeCtrl r.ctrl]

/-- Python `range(start, stop, step)` for positive step -/
def pyRange (start stop step : Nat) : List Nat :=
  (List.range ((stop - start + (step - 1)) / step)).map (fun i => start + i * step)

/-- endf_utils.py:124: start columns of the KIJ slots -/
def intgCols (nd : Nat) : List Nat :=
  if nd ≤ 5 then pyRange 11 65 (nd + 1) else pyRange 10 65 (nd + 1)

/-- endf_utils.py:116-134 `read_intg`; `ndigit` is an integer here -/
def readIntg (o : ROpts) (nd : Int) (lines : List Str) (ofs : Nat) : Res (IntgRec × Nat) := do
  if nd < 2 ∨ 6 < nd then .error .invalidInteger
  else
    let n := nd.toNat
    let line ← lineAt lines ofs
    let ii ← readFortInt (slice line 0 5)
    let jj ← readFortInt (slice line 5 10)
    let kij ← (intgCols n).mapM fun i => readFortInt (slice line i (i + n + 1))
    let ctrl ← readCtrl o.width line
    return (⟨ii, jj, kij, ctrl⟩, ofs + 1)

/-- endf_utils.py:137-146 `write_intg` -/
def writeIntg (o : WOpts) (nd : Int) (r : IntgRec) : List Str :=
  let spacer : Str := if nd = 6 then [] else [' ']
  let body := rjust (intStr r.ii) 5 ++ rjust (intStr r.jj) 5 ++ spacer ++
    (r.kij.map fun c => rjust (intStr c) (nd + 1).toNat).flatten
  [ljust body (o.width * 6) ++ writeCtrl r.ctrl]

/-- endf_utils.py:149-163 `read_cont` (also `read_head`, 269) -/
def readCont (o : ROpts) (lines : List Str) (ofs : Nat) : Res (ContRec × Nat) := do
  let line ← lineAt lines ofs
  let w := o.width
  let c1 ← readFloat o (slice line 0 w)
  let c2 ← readFloat o (slice line w (2 * w))
  let l1 ← intField w line 2
  let l2 ← intField w line 3
  let n1 ← intField w line 4
  let n2 ← intField w line 5
  let ctrl ← readCtrl w line
  return (⟨c1, c2, .int l1, .int l2, .int n1, .int n2, ctrl⟩, ofs + 1)

/-- endf_utils.py:166-187 `write_cont` (also `write_head`, 268); the in-place replacement of an
integral float in the caller's record dictionary is not modelled. -/
def writeCont (o : WOpts) (r : ContRec) : Res (List Str) := do
  let w := o.width
  let l1 ← slotInt o r.l1
  let l2 ← slotInt o r.l2
  let n1 ← slotInt o r.n1
  let n2 ← slotInt o r.n2
  let c1 ← float2fortstr o r.c1
  let c2 ← float2fortstr o r.c2
  return [c1 ++ c2 ++ rjust (intStr l1) w ++ rjust (intStr l2) w ++
    rjust (intStr n1) w ++ rjust (intStr n2) w ++ writeCtrl r.ctrl]

/-- endf_utils.py:190-200 `prepare_zerostr_fields`, the six fields joined -/
def zeroFields (o : WOpts) (zeroAsBlank : Bool) : Res Str := do
  let w := o.width
  let z ← if zeroAsBlank then .ok (blanks w) else float2fortstr o (.flt 0)
  let i := if zeroAsBlank then blanks w else rjust ['0'] w
  return z ++ z ++ i ++ i ++ i ++ i

/-- endf_utils.py:203-215 `read_send` -/
def readSend (o : ROpts) (lines : List Str) (ofs : Nat) : Res (ContRec × Nat) := do
  let (r, ofs) ← readCont o lines ofs
  if r.c1.val ≠ 0 ∨ r.c2.val ≠ 0 ∨ r.l1 ≠ .int 0 ∨ r.l2 ≠ .int 0 ∨ r.n1 ≠ .int 0 ∨ r.n2 ≠ .int 0
      ∨ r.ctrl.mt ≠ 0 then .error .notSectionEnd
  else .ok (r, ofs)

/-- endf_utils.py:218-227 `write_send` -/
def writeSend (o : WOpts) (zeroAsBlank : Bool) (c : Ctrl) : Res (List Str) := do
  let z ← zeroFields o zeroAsBlank
  return [z ++ writeCtrl { c with mt := 0 } ++ (if o.includeLinenum then "99999".toList else [])]

/-- endf_utils.py:230-240 `write_fend` -/
def writeFend (o : WOpts) (zeroAsBlank : Bool) (c : Ctrl) : Res (List Str) := do
  let z ← zeroFields o zeroAsBlank
  return [z ++ writeCtrl { c with mf := 0, mt := 0 } ++
    (if o.includeLinenum then rjust ['0'] 5 else [])]

/-- endf_utils.py:243-251 `write_mend` -/
def writeMend (o : WOpts) (zeroAsBlank : Bool) : Res (List Str) := do
  let z ← zeroFields o zeroAsBlank
  return [z ++ writeCtrl ⟨0, 0, 0⟩ ++ (if o.includeLinenum then rjust ['0'] 5 else [])]

/-- endf_utils.py:254-262 `write_tend` -/
def writeTend (o : WOpts) (zeroAsBlank : Bool) : Res (List Str) := do
  let z ← zeroFields o zeroAsBlank
  return [z ++ writeCtrl ⟨-1, 0, 0⟩ ++ (if o.includeLinenum then rjust ['0'] 5 else [])]

/-- endf_utils.py:397-411 `read_endf_numbers` without the integer conversion; a non-positive
count reads nothing -/
def readNumbers (o : ROpts) (lines : List Str) (num : Nat) (ofs : Nat) : Res (List Num × Nat) :=
  if num = 0 then .ok ([], ofs)
  else do
    let l ← lineAt lines ofs
    let vals ← readFortFloats o l (min 6 num)
    let (rest, ofs') ← readNumbers o lines (num - 6) (ofs + 1)
    return (vals ++ rest, ofs')
termination_by num

/-- endf_utils.py:405-409: `int(v)` for every value (`int()` of a finite float does not raise) -/
def toInts (vals : List Num) : List Int := vals.map fun v => truncRat v.val

/-- consecutive chunks of six (endf_utils.py:417-418) -/
def chunks6 : List α → List (List α)
  | [] => []
  | a :: l => (a :: l).take 6 :: chunks6 ((a :: l).drop 6)
termination_by l => l.length
decreasing_by simp; omega

/-- endf_utils.py:423: pad the last line; IndexError if there is none -/
def padLast (w : Nat) : List Str → Res (List Str)
  | [] => .error .indexError
  | [l] => .ok [ljust l w]
  | l :: ls => (padLast w ls).map (l :: ·)

/-- endf_utils.py:414-424 `write_endf_numbers(vals)` -/
def writeNumbers (o : WOpts) (vals : List Num) : Res (List Str) := do
  let lines ← (chunks6 vals).mapM (writeFortFloats o)
  padLast (o.width * 6) lines

/-- endf_utils.py:414-424 `write_endf_numbers(vals, to_int=True)` -/
def writeInts (o : WOpts) (vals : List Int) : Res (List Str) :=
  padLast (o.width * 6)
    ((chunks6 vals).map fun c => (c.map fun v => rjust (intStr v) o.width).flatten)

/-- the integer in a slot of a record that has been read -/
def slotVal : Slot → Int
  | .int n => n
  | .flt v => truncRat v

/-- endf_utils.py:272-280 `read_list` -/
def readList (o : ROpts) (lines : List Str) (ofs : Nat) : Res (ListRec × Nat) := do
  let (h, ofs) ← readCont o lines ofs
  let npl := slotVal h.n1
  if npl = 0 then .ok (⟨h, []⟩, ofs)
  else
    let (vals, ofs) ← readNumbers o lines npl.toNat ofs
    return (⟨h, vals⟩, ofs)

/-- the number in a slot of a record that is to be written -/
def slotRat : Slot → ℚ
  | .int n => n
  | .flt v => v

/-- endf_utils.py:293-298: values and body of a LIST record; `range(float)` is a TypeError, so a
count given as float only works for a multiple of six -/
def listBody (o : WOpts) (n1 : Slot) (vals : List Num) : Res (List Str) :=
  let n := vals.length
  if n = 0 then .ok []
  else if n % 6 ≠ 0 then
    match n1 with
    | .int _ => writeNumbers o (vals ++ List.replicate (6 - n % 6) (.flt 0))
    | .flt _ => .error .typeError
  else writeNumbers o vals

/-- endf_utils.py:283-305 `write_list`; behind the two comparisons NPL equals the number of values -/
def writeList (o : WOpts) (r : ListRec) : Res (List Str) := do
  let npl := slotRat r.head.n1
  let nv : ℚ := r.vals.length
  if npl < nv then .error .unconsumedList
  else if nv < npl then .error .moreListElements
  else
    let lines ← writeCont o r.head
    let body ← listBody o r.head.n1 r.vals
    return lines ++ body.map (· ++ writeCtrl r.head.ctrl)

/-- `vals[::2]` and `vals[1::2]` -/
def evens : List α → List α
  | [] => []
  | [a] => [a]
  | a :: _ :: l => a :: evens l

def odds : List α → List α
  | [] => []
  | [_] => []
  | _ :: b :: l => b :: odds l

/-- `vals[::2] = a; vals[1::2] = b` for lists of equal length -/
def interleave : List α → List α → List α
  | a :: as, b :: bs => a :: b :: interleave as bs
  | _, _ => []

/-- endf_utils.py:308-320 `read_tab2` -/
def readTab2 (o : ROpts) (lines : List Str) (ofs : Nat) : Res (Tab2Rec × Nat) := do
  let (h, ofs) ← readCont o lines ofs
  let (vals, ofs) ← readNumbers o lines (2 * slotVal h.n1).toNat ofs
  let iv := toInts vals
  return (⟨h, evens iv, odds iv⟩, ofs)

/-- endf_utils.py:323-339 `write_tab2` -/
def writeTab2 (o : WOpts) (r : Tab2Rec) : Res (List Str) := do
  if r.nbt.length ≠ r.int.length then .error .valueError
  else
    let h := { r.head with n1 := .int r.nbt.length }
    let lines ← writeCont o h
    let tbl ← writeInts o (interleave r.nbt r.int)
    return lines ++ tbl.map (· ++ writeCtrl r.head.ctrl)

/-- endf_utils.py:342-352,373-380 `read_tab1` -/
def readTab1 (o : ROpts) (lines : List Str) (ofs : Nat) : Res (Tab1Rec × Nat) := do
  let (h, ofs) ← readCont o lines ofs
  let (v1, ofs) ← readNumbers o lines (2 * slotVal h.n1).toNat ofs
  let (v2, ofs) ← readNumbers o lines (2 * slotVal h.n2).toNat ofs
  let iv := toInts v1
  return (⟨h, evens iv, odds iv, evens v2, odds v2⟩, ofs)

/-- endf_utils.py:355-370,383-394 `write_tab1`; the assertions on list lengths are an error -/
def writeTab1 (o : WOpts) (r : Tab1Rec) : Res (List Str) := do
  let h := { r.head with n1 := .int r.nbt.length, n2 := .int r.xs.length }
  let lines ← writeCont o h
  if r.nbt.length ≠ r.int.length ∨ r.xs.length ≠ r.ys.length then .error .other
  else
    let t1 ← writeInts o (interleave r.nbt r.int)
    let t2 ← writeNumbers o (interleave r.xs r.ys)
    return lines ++ (t1 ++ t2).map (· ++ writeCtrl r.head.ctrl)

/-- endf_utils.py:442-455 `add_linenumbers_to_section` -/
def addLinenumbers (o : WOpts) (lines : List Str) : Res (List Str) := do
  let w := o.width
  let l0 ← lineAt lines 0
  let c ← readCtrl w l0
  let lines := lines.map (·.take (w * 6 + 9))
  if !o.includeLinenum then return lines
  let ofs := if c.mf ≠ 0 then 1 else 0
  return lines.mapIdx fun i l => l ++ rjust (natStr (i % (10 ^ 5 - 1) + ofs)) 5

/-- endf_utils.py:427-429 `is_blank_line` -/
def isBlankLine (l : Str) : Bool := strip l = []

/-- endf_utils.py:432-439 `skip_blank_lines` -/
def skipBlankLines (lines : List Str) (ofs : Nat) : Res Nat :=
  if h : ofs < lines.length then
    if isBlankLine lines[ofs] then skipBlankLines lines (ofs + 1) else .ok ofs
  else .error .unexpectedEnd
termination_by lines.length - ofs

end Verif
