import Verif.Model.Cpp

/-! C++ templates of the compiled parser: writing numbers (cpp_templates/module_header_writing.hpp).  Numbers are exact
rationals; rounding to double is not modelled. -/

namespace Verif

/-- digits and exponent of `std::scientific << std::setprecision(p) << v`: `v` rounded to `p + 1` digits is
`± k * 10 ^ (e - p)` -/
def sciParts (v : ℚ) (p : Nat) : Nat × Int :=
  if v = 0 then (0, 0)
  else
    let e := Int.log 10 |v|
    let k := (roundHE (|v / 10 ^ e| * 10 ^ p)).toNat
    if k = 10 ^ (p + 1) then (10 ^ p, e + 1) else (k, e)

/-- exponents have at least two digits -/
def twoDigits (n : Nat) : Str := if n < 10 then '0' :: natStr n else natStr n

/-- text in front of the `e` -/
def sciMant (v : ℚ) (p : Nat) : Str :=
  let k := (sciParts v p).1
  (if v < 0 then ['-'] else []) ++ natStr (k / 10 ^ p) ++ (if p = 0 then [] else '.' :: fixDigits p (k % 10 ^ p))

/-- text behind the `e` -/
def sciExp (v : ℚ) (p : Nat) : Str :=
  let e := (sciParts v p).2
  (if 0 ≤ e then '+' else '-') :: twoDigits e.natAbs

/-- cpp_templates/module_header_writing.hpp:172-181: the loop over the characters behind the `e`.  `tail` are all of these
characters, the last argument those not yet seen, `i` their position and `zs` is `zerostart`; positions are counted from
the character behind the `e`. -/
def shrinkScan (tail : Str) : Nat → Option Nat → Str → Str
  | _, _, [] => tail
  | i, zs, c :: rest =>
    if ('1' ≤ c ∧ c ≤ '9') ∨ rest = [] then
      match zs with
      | some z => tail.take z ++ tail.drop i
      | none => shrinkScan tail (i + 1) none rest
    else if zs = none ∧ c = '0' then shrinkScan tail (i + 1) (some i) rest
    else shrinkScan tail (i + 1) zs rest

def shrinkExp (tail : Str) : Str := shrinkScan tail 0 none tail

/-- cpp_templates/module_header_writing.hpp:159-183 `float2endfstr_helper`: the texts in front of and behind the `e`
(`exp_pos` is the length of the first).  A negative precision means the default precision. -/
def sciHelper (v : ℚ) (prec : Int) : Str × Str :=
  let p := if prec < 0 then 6 else prec.toNat
  (sciMant v p, shrinkExp (sciExp v p))

/-- cpp_templates/module_header_writing.hpp:186-208 `float2endfstr_decimal_helper` -/
def decHelper (v : ℚ) (width : Int) : Str :=
  let s := fmtSigned v 16
  let comma : Int := s.findIdx (· == '.')
  if width ≤ comma then s
  else fmtSigned v (width - comma - (if 0 ≤ v then 1 else 0)).toNat

/-- cpp_templates/module_header_writing.hpp:214-239: `number_length`, `digits_after_comma` -/
def numLen (o : WOpts) (v : ℚ) : Int := if decide (0 ≤ v) && o.abuseSignpos then 11 else 10

def numDigits (o : WOpts) (v : ℚ) : Int :=
  6 - (if o.keepE then 1 else 0) + (if decide (0 ≤ v) && o.abuseSignpos then 1 else 0)

/-- cpp_templates/module_header_writing.hpp:227-243: the exponential form -/
def sciForm (o : WOpts) (v : ℚ) : Str × Str :=
  let h := sciHelper v (numDigits o v)
  let size : Int := h.1.length + 1 + h.2.length
  let red := size - numLen o v - (if o.keepE then 0 else 1) - (if v < 0 then 1 else 0)
  if 0 < red then sciHelper v (numDigits o v - red) else h

/-- cpp_templates/module_header_writing.hpp:211-276 `float2endfstr`, `none` if an exception is thrown.  The differences
compared in lines 253-257 are divided by the same positive number, which is left out. -/
def float2endfstr (o : WOpts) (v : ℚ) : Option Str :=
  let h := sciForm o v
  let expo := rjust (h.1 ++ (if o.keepE then ['e'] else []) ++ h.2) 11
  if !o.preferNoexp then some expo
  else
    let d := decHelper v (numLen o v)
    if (d.length : Int) ≤ numLen o v + (if v < 0 then 1 else 0) then do
      let r ← stod (h.1 ++ 'e' :: h.2)
      let rd ← stod d
      if |rd.toRat - v| ≤ |r.toRat - v| then
        if o.skipIntzero ∧ truncRat rd.toRat = 0 then
          let d2 := decHelper v (numLen o v + 1)
          let z := d2.findIdx (· == '0')
          if z + 1 ≠ d2.findIdx (· == '.') then none
          else some (rjust (d2.eraseIdx z) 11)
        else some (rjust d 11)
      else some expo
    else some expo

/-- cpp_templates/module_header_writing.hpp:298-326: the text of a float field, `none` if `field_size_check` or another
function throws; `preserve` is `preserve_value_strings` -/
def cppFloatField (o : WOpts) (preserve : Bool) (x : Num) : Option Str :=
  let s := match x with
    | .flt v => float2endfstr o v
    | .endf v orig => if orig = [] ∨ preserve = false then float2endfstr o v else some orig
  s.bind fun t => if t.length = 11 then some t else none

end Verif
