import Verif.Model.Py
import Mathlib.Data.Int.Log
import Mathlib.Data.Rat.Floor
/-
Model of `endf_parserpy/interpreter/fortran_utils.py`: number fields.
Numbers are exact rationals; IEEE rounding is not modelled.
-/
namespace Verif

/-- exact rational value of a decimal -/
def Dec.toRat (d : Dec) : ℚ := (d.m : ℚ) * (10 : ℚ) ^ d.e

/-- A float object of the parser: a plain float, or an `EndfFloat`
(utils/math_utils.py:15-92) that remembers the text it was read from. -/
inductive Num where
  | flt (v : ℚ)
  | endf (v : ℚ) (orig : Str)
  deriving DecidableEq

/-- `float(x)` for such an object (math_utils.py:27-31) -/
def Num.val : Num → ℚ
  | .flt v => v
  | .endf v _ => v

/-- reading options used by the field readers -/
structure ROpts where
  acceptSpaces : Bool := true
  preserve : Bool := false
  width : Nat := 11
  deriving DecidableEq

/-- writing options used by the field writers -/
structure WOpts where
  width : Nat := 11
  abuseSignpos : Bool := false
  keepE : Bool := false
  skipIntzero : Bool := false
  preferNoexp : Bool := false
  includeLinenum : Bool := true
  strictDatatypes : Bool := true
  deriving DecidableEq

/-- fortran_utils.py:18-25 `read_fort_int` -/
def readFortInt (s : Str) : Res Int :=
  if strip s = [] then .ok 0
  else match pyInt s with
    | some n => .ok n
    | none => .error .invalidInteger

/-- the sign characters looked at by the loop in fortran_utils.py:66 -/
def isSign (c : Char) : Bool := c == '+' || c == '-'

/-- fortran_utils.py:65-68, the loop inserting `E`: it enumerates the original text (`i`, `rest`)
while `cur` is the text modified so far. -/
def scanE : Nat → Str → Str → Str
  | _, [], cur => cur
  | i, c :: rest, cur =>
    let cur' :=
      if 0 < i ∧ isSign c ∧ (cur[i-1]?).any isDig then cur.take i ++ 'E' :: cur.drop i else cur
    scanE (i+1) rest cur'

/-- fortran_utils.py:58-60: truncation to the field width -/
def cutWidth (width : Option Nat) (s : Str) : Str :=
  match width with | some w => s.take w | none => s

/-- fortran_utils.py:28-75 `fortstr2float`. `width = none` models calls without read options. -/
def fortstr2float (width : Option Nat) (acceptSpaces preserve : Bool) (orig : Str) : Res Num :=
  let s1 := cutWidth width orig
  if strip s1 = [] then .ok (.flt 0)
  else
    let s2 := if acceptSpaces then s1.filter (· ≠ ' ') else s1
    let s3 := scanE 0 s2 s2
    match pyFloat s3 with
    | some d => .ok (if preserve then .endf d.toRat orig else .flt d.toRat)
    | none => .error .invalidFloat

/-- `fortstr2float(s, read_opts=read_opts)` as called by the record readers -/
def readFloat (o : ROpts) (s : Str) : Res Num :=
  fortstr2float (some o.width) o.acceptSpaces o.preserve s

/-- correct rounding to an integer, ties to even: what Python's `format(x, ".nf")` does -/
def roundHE (x : ℚ) : Int :=
  let f := ⌊x⌋
  let r := x - f
  if r < 1/2 then f else if 1/2 < r then f + 1 else if f % 2 = 0 then f else f + 1

/-- the last `n` decimal digits of `k`, zero padded -/
def fixDigits : Nat → Nat → Str
  | 0, _ => []
  | n+1, k => fixDigits n (k / 10) ++ [digChar (k % 10)]

/-- `"{:.nf}".format(x)` for `x ≥ 0` -/
def fmtFixed (x : ℚ) (n : Nat) : Str :=
  let k := (roundHE (x * 10 ^ n)).toNat
  natStr (k / 10 ^ n) ++ (if n = 0 then [] else '.' :: fixDigits n (k % 10 ^ n))

/-- `"{:.nf}".format(x)` for any `x` -/
def fmtSigned (x : ℚ) (n : Nat) : Str :=
  if x < 0 then '-' :: fmtFixed |x| n else fmtFixed |x| n

/-- `int(x)`: truncation towards zero -/
def truncRat (x : ℚ) : Int := if 0 ≤ x then ⌊x⌋ else ⌈x⌉

/-- fortran_utils.py:78-112 `float2basicnumstr` -/
def float2basicnumstr (o : WOpts) (val : ℚ) : Str :=
  let width := o.width
  let intpart := truncRat val
  let lenInt := (natStr intpart.natAbs).length
  let isInteger : Bool := (intpart : ℚ) = val
  if isInteger && intpart == 0 then rjust ['0'] width
  else
    let shouldSkip := o.skipIntzero && intpart == 0
    let waste : Int := 2 - (if o.abuseSignpos && decide (val > 0) then 1 else 0)
                         - (if isInteger then 1 else 0)
    let effwidth := if shouldSkip then width + 1 else width
    let floatwidth : Int := (effwidth : Int) - waste - lenInt
    let numstr :=
      if 0 < floatwidth ∧ !isInteger then
        let t := rjust (fmtSigned val floatwidth.toNat) effwidth
        if shouldSkip then
          let dot := t.findIdx (· == '.')
          t.take (dot - 1) ++ t.drop dot
        else t
      else
        let t := intStr intpart
        let t := if 0 < val ∧ !o.abuseSignpos then ' ' :: t else t
        if (t.length : Int) ≤ (width : Int) - 2 then
          let t := t ++ ['.']
          t ++ List.replicate (width - t.length) '0'
        else t
    rjust numstr width

/-- fortran_utils.py:120-127: number of exponent digits -/
def nexpOf (av : ℚ) : Nat :=
  if (10 : ℚ) ^ (-9 : Int) ≤ av ∧ av < (10 : ℚ) ^ (10 : Int) then 1
  else if (10 : ℚ) ^ (-99 : Int) ≤ av ∧ av < (10 : ℚ) ^ (100 : Int) then 2
  else if av = 0 then 1
  else 3

/-- fortran_utils.py:131, `floor(log10(av))`, exact -/
def exponentOf (av : ℚ) : Int := if av ≠ 0 then Int.log 10 av else 0

/-- fortran_utils.py:128-130,135: number of mantissa digits after the point,
`width - 1 - nexp - sign_dec - expsymb_dec - 2` -/
def mantissaDigits (o : WOpts) (val : ℚ) : Int :=
  (o.width : Int) - 1 - nexpOf |val|
    - (if o.abuseSignpos && decide (0 ≤ val) then 0 else 1)
    - (if o.keepE then 1 else 0) - 2

/-- fortran_utils.py:115-151 `float2expformstr`; the recursion takes fuel (Python: recursion
limit).  `floor(log10 ..)` and the division by `10**exponent` are exact here. -/
def float2expformstrF : Nat → WOpts → ℚ → Res Str
  | 0, _, _ => .error .other
  | fuel+1, o, val =>
    let av := |val|
    let nexp := nexpOf av
    let isPos := decide (0 ≤ val)
    let exponent := exponentOf av
    let mantissa := |val / 10 ^ exponent|
    let isExpoPos := decide (0 ≤ exponent)
    let n := mantissaDigits o val
    if n < 0 then .error .valueError
    else
      let mantissaStr := fmtFixed mantissa n.toNat
      let expsymb : Str := if o.keepE then ['E'] else []
      let exposign : Str := if isExpoPos then ['+'] else ['-']
      let exponentStr := rjust (natStr exponent.natAbs) nexp
      let sign : Str := if isPos then (if o.abuseSignpos then [] else [' ']) else ['-']
      let res := sign ++ mantissaStr ++ expsymb ++ exposign ++ exponentStr
      if o.width < res.length then
        let tmp := sign ++ mantissaStr ++ 'e' :: exposign ++ exponentStr
        match pyFloat tmp with
        | some d => float2expformstrF fuel o d.toRat
        | none => .error .valueError
      else .ok res

/-- `float2expformstr` with the fuel that is shown to be sufficient
(`Verif.float2expformstr_fuel`). -/
def float2expformstr (o : WOpts) (val : ℚ) : Res Str := float2expformstrF 2 o val

/-- fortran_utils.py:195-200: decimal representation with trailing zeros removed -/
def basicStripped (o : WOpts) (val : ℚ) : Str :=
  let b := float2basicnumstr o val
  if b.contains '.' then
    let b := rstripChar '.' (rstripChar '0' b)
    if b = ['+'] ∨ b = ['-'] ∨ b = [] then ['0'] else b
  else b

/-- fortran_utils.py:154-208 `float2fortstr` -/
def float2fortstr (o : WOpts) (x : Num) : Res Str :=
  match x with
  | .endf _ orig => if o.width ≠ orig.length then .error .invalidFloat else .ok orig
  | .flt val => do
    let e ← float2expformstr o val
    if !o.preferNoexp then return e
    let b := basicStripped o val
    if o.width < b.length then return e
    let r1 ← fortstr2float none true false b
    let r2 ← fortstr2float none true false e
    if |r2.val - val| < |r1.val - val| then return e
    return rjust b o.width

/-- fortran_utils.py:211-240 `read_fort_floats` -/
def readFortFloats (o : ROpts) (line : Str) (n : Nat) : Res (List Num) :=
  (List.range n).mapM fun i => readFloat o (slice line (i * o.width) (i * o.width + o.width))

/-- fortran_utils.py:243-265 `write_fort_floats` -/
def writeFortFloats (o : WOpts) : List Num → Res Str
  | [] => .ok []
  | v :: vs => do
    let s ← float2fortstr o v
    let t ← writeFortFloats o vs
    return s ++ t

end Verif
