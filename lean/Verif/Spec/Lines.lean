import Verif.Model.CppLines
import Verif.Props.CppWrite
/-
What it means that two lines, or the lines of two records, say the same.
-/
namespace Verif.Spec

/-- both parsers read the text of a field as this number, whatever the options -/
def ReadsAs (s : Str) (v : ℚ) : Prop :=
  (∀ acc, endfstr2float acc s = some v) ∧ ∀ r : ROpts, r.width = 11 → ∃ y, readFloat r s = .ok y ∧ y.val = v

/-- two texts of a field are the same, or are read as the same number -/
def SameField (s s' : Str) : Prop := s = s' ∨ ∃ v, ReadsAs s v ∧ ReadsAs s' v

/-- an integer that the interpreter reads from the first text is read from the second one as well -/
def SameInt (s s' : Str) : Prop := ∀ n, readFortInt s = .ok n → readFortInt s' = .ok n

/-- Two lines with the same control numbers, whose fields are read as the same numbers.  Integers found in one of the last four fields
of the first line are found in the second line.  Neither line is blank. -/
def LineAs (l l' : Str) : Prop :=
  slice l 66 75 = slice l' 66 75 ∧ (∀ i < 6, SameField (slice l (11 * i) (11 * i + 11)) (slice l' (11 * i) (11 * i + 11))) ∧
  (∀ i, 2 ≤ i → i < 6 → SameInt (slice l (11 * i) (11 * i + 11)) (slice l' (11 * i) (11 * i + 11))) ∧
  isBlankLine l = false ∧ isBlankLine l' = false

/-- the first lines of two records: the integer fields are read as the same integers -/
def FirstAs (ls ls' : List Str) : Prop :=
  ∀ l l', ls.head? = some l → ls'.head? = some l' → ∀ i, 2 ≤ i → i < 6 → intField 11 l i = intField 11 l' i

/-! ### records that can be written -/

/-- a plain number that both writers can write in eleven columns -/
def KeptVal : Val → Prop
  | .num (.int n) => KeptNum n
  | .num (.num (.flt q)) => KeptNum q
  | _ => False

/-- a number that fits into an integer field -/
def FitsVal : Val → Prop
  | .num y => -10 ^ 10 < y.val ∧ y.val < 10 ^ 11
  | _ => False

def KeptList : Val → Prop
  | .lst l => (∀ y ∈ l, KeptVal (.num y)) ∧ l.length < 10 ^ 10
  | _ => False

def FitsList : Val → Prop
  | .lst l => (∀ y ∈ l, FitsVal (.num y)) ∧ l.length < 10 ^ 10
  | _ => False

/-- the fields from position `i` on -/
def FieldsOk : Nat → List Val → Prop
  | _, [] => True
  | i, v :: vs => (if i < 2 then KeptVal v else FitsVal v) ∧ FieldsOk (i + 1) vs

/-- Records whose numbers fit into the columns; texts fill the line, and a LIST record is not empty. -/
def RecOk (r : ARec) : Prop :=
  FitsCtrl r.ctrl.mat r.ctrl.mf r.ctrl.mt ∧
  match r.kind with
  | .text => ∀ t, r.flds = [.txt t] → t.length = 66
  | .head | .cont => FieldsOk 0 r.flds
  | .dir => FieldsOk 2 r.flds
  | .tab1 => FieldsOk 0 r.flds ∧ ∀ a b x y, r.tbl = [a, b, x, y] → FitsList a ∧ FitsList b ∧ KeptList x ∧ KeptList y
  | .tab2 => FieldsOk 0 (r.flds.take 4) ∧ FieldsOk 5 (r.flds.drop 4) ∧ ∀ a b, r.tbl = [a, b] → FitsList a ∧ FitsList b
  | .list => FieldsOk 0 r.flds ∧ ∀ x, r.tbl = [x] → KeptList x ∧ x ≠ .lst []
  | _ => True

end Verif.Spec
