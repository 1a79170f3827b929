import Verif.Model.Fields
/-
Independent specification of decimal number texts: the grammar of the texts and the rational
number each text denotes.  Nothing here refers to the readers of the model.
-/
namespace Verif.Spec

/-- optional sign of a number or exponent -/
inductive Sgn where
  | none | plus | minus
  deriving DecidableEq

def Sgn.text : Sgn → Str
  | .none => []
  | .plus => ['+']
  | .minus => ['-']

def Sgn.apply (s : Sgn) (q : ℚ) : ℚ := match s with | .minus => -q | _ => q

/-- A decimal number: sign, digits before the point, optionally the digits after the point,
optionally a signed exponent. -/
structure NumText where
  sgn : Sgn
  ip : Str
  fp : Option Str
  ex : Option (Sgn × Str)

/-- text of the point and the digits after it -/
def NumText.frac (t : NumText) : Str := match t.fp with | .none => [] | .some f => '.' :: f

/-- exponent text with exponent character `e` -/
def NumText.expE (t : NumText) (e : Char) : Str :=
  match t.ex with | .none => [] | .some (s, d) => e :: (s.text ++ d)

/-- exponent text without exponent character -/
def NumText.expN (t : NumText) : Str :=
  match t.ex with | .none => [] | .some (s, d) => s.text ++ d

/-- mantissa text -/
def NumText.mant (t : NumText) : Str := t.sgn.text ++ t.ip ++ t.frac

/-- text with exponent character `e` -/
def NumText.withE (t : NumText) (e : Char) : Str :=
  t.mant ++ t.expE e

/-- Fortran style text, exponent character omitted -/
def NumText.noE (t : NumText) : Str :=
  t.mant ++ t.expN

def AllDig (s : Str) : Prop := ∀ c ∈ s, isDig c = true

/-- well-formed number text -/
structure NumText.WF (t : NumText) : Prop where
  ip_dig : AllDig t.ip
  fp_dig : ∀ f, t.fp = some f → AllDig f
  nonempty : t.ip ≠ [] ∨ ∃ f, t.fp = some f ∧ f ≠ []
  ex_dig : ∀ s d, t.ex = some (s, d) → AllDig d ∧ d ≠ []

/-- number of digits after the point -/
def NumText.scale (t : NumText) : Nat := match t.fp with | .none => 0 | .some f => f.length

/-- value of the exponent part -/
def NumText.expo (t : NumText) : Int :=
  match t.ex with
  | .none => 0
  | .some (s, d) => match s with | .minus => - (digitsVal d : Int) | _ => digitsVal d

/-- the rational number denoted by the text -/
def NumText.value (t : NumText) : ℚ :=
  t.sgn.apply ((digitsVal (t.ip ++ t.fp.getD []) : ℚ) * 10 ^ (t.expo - t.scale))

/-- the mantissa ends with a digit (and not with the decimal point) -/
def NumText.endsInDigit (t : NumText) : Prop := t.fp ≠ some []

/-- values that need at most three exponent digits (includes all nonzero double precision numbers) -/
def InRange (val : ℚ) : Prop :=
  val = 0 ∨ ((10:ℚ) ^ (-999 : Int) ≤ |val| ∧ |val| ≤ (10:ℚ) ^ (999 : Int))

/-- `t` is obtained from `s` by inserting blanks at arbitrary places -/
inductive BlankIns : Str → Str → Prop
  | nil : BlankIns [] []
  | blank {s t} : BlankIns s t → BlankIns s (' ' :: t)
  | keep {s t} (c : Char) : BlankIns s t → BlankIns (c :: s) (c :: t)

end Verif.Spec
