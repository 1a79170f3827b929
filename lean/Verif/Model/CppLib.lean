import Verif.Model.CppWrite

/-! C++ templates of the compiled parser: access to the fields of a line, sequences of numbers and table bodies
(cpp_templates/module_header_reading.hpp, cpp_templates/module_header_writing.hpp). -/

namespace Verif

/-- Result of a C++ function: a value, a thrown exception, or undefined behaviour (memory outside of an object is accessed,
or an integer cannot be represented). -/
inductive CRes (α : Type) where
  | ok (a : α)
  | throw
  | undef
  deriving DecidableEq, Repr

def CRes.bind {α β : Type} : CRes α → (α → CRes β) → CRes β
  | .ok a, f => f a
  | .throw, _ => .throw
  | .undef, _ => .undef

instance : Monad CRes where
  pure := .ok
  bind := CRes.bind

/-- `none` is a thrown exception -/
def CRes.ofOption {α : Type} : Option α → CRes α
  | some a => .ok a
  | none => .throw

/-- `length` bytes behind `line.c_str() + start`.  The characters of the string and the final NUL may be accessed, nothing
behind it.  Simplified: every character is one byte. -/
def cppBytes (line : Str) (start length : Nat) : CRes Str :=
  if start + length ≤ line.length + 1 then .ok (((line ++ [Char.ofNat 0]).drop start).take length) else .undef

/-- smallest and largest value of `int` (four bytes) -/
def intMin : Int := -2147483648
def intMax : Int := 2147483647

/-- `std::atoi`: white space, a sign and digits, everything behind is ignored; without digits the result is zero.  The
behaviour is undefined if the value cannot be represented. -/
def atoi (s : Str) : CRes Int :=
  let (neg, u) := splitSign (s.dropWhile cSpace)
  let v := applySign neg (digitsVal (u.takeWhile isDig))
  if intMin ≤ v ∧ v ≤ intMax then .ok v else .undef

/-- the number in a copy of some bytes: cpp_templates/module_header_reading.hpp:261-271,380-390 -/
def cppIntOf (b : Str) : CRes Int := if b.all (· == ' ') then .ok 0 else atoi b

/-- cpp_templates/module_header_reading.hpp:380-390 `cpp_read_custom_int_field` -/
def cppCustomInt (line : Str) (start length : Nat) : CRes Int := do cppIntOf (← cppBytes line start length)

/-- cpp_templates/module_header_reading.hpp:393-405 `cpp_read_mat_number`, `cpp_read_mf_number`, `cpp_read_mt_number` -/
def cppMat (line : Str) : CRes Int := cppCustomInt line 66 4
def cppMf (line : Str) : CRes Int := cppCustomInt line 70 2
def cppMt (line : Str) : CRes Int := cppCustomInt line 72 3

/-- cpp_templates/module_header_reading.hpp:261-271,287-302 `cpp_read_field<int>` -/
def cppInt (line : Str) (i : Nat) : CRes Int := do cppIntOf (← cppBytes line (11 * i) 11)

/-- cpp_templates/module_header_reading.hpp:212-258,287-302 `cpp_read_field<double>`; the last of the eleven bytes is
always looked at -/
def cppFloat (acc : Bool) (line : Str) (i : Nat) : CRes ℚ := do
  CRes.ofOption (endfstr2float acc (← cppBytes line (11 * i) 11))

/-- `std::getline`: at the end of the stream the line is empty -/
def nextLine : List Str → Str × List Str
  | [] => ([], [])
  | l :: ls => (l, ls)

/-- cpp_templates/module_header_reading.hpp:415-432 `cpp_read_line`; `validate` is `validate_control_records` -/
def cppReadLine (validate : Bool) (c : Ctrl) (ls : List Str) : CRes (Str × List Str) :=
  let (l, rest) := nextLine ls
  if validate then do
    let mat ← cppMat l
    let mf ← cppMf l
    let mt ← cppMt l
    if mat ≠ c.mat ∨ mf ≠ c.mf ∨ mt ≠ c.mt then .throw else .ok (l, rest)
  else .ok (l, rest)

/-- cpp_templates/module_header_reading.hpp:512-518: the loop; `n` numbers are missing, the next one is field `j` -/
def cppVecLoop {α : Type} (rd : Str → Nat → CRes α) (validate : Bool) (c : Ctrl) :
    Nat → Nat → Str → List Str → CRes (List α × List Str)
  | 0, _, _, ls => .ok ([], ls)
  | n + 1, j, line, ls => do
    let v ← rd line j
    let (line, ls, j) ← (if 5 < j + 1 ∧ 0 < n then do
        let (l, r) ← cppReadLine validate c ls
        .ok (l, r, 0)
      else .ok (line, ls, j + 1))
    let (vs, r) ← cppVecLoop rd validate c n j line ls
    .ok (v :: vs, r)

/-- cpp_templates/module_header_reading.hpp:505-520 `cpp_read_vec`: the numbers and the lines behind them; a line is read
even if there are no numbers -/
def cppReadVec {α : Type} (rd : Str → Nat → CRes α) (validate : Bool) (c : Ctrl) (numel : Nat) (ls : List Str) :
    CRes (List α × List Str) := do
  let (l, r) ← cppReadLine validate c ls
  cppVecLoop rd validate c numel 0 l r

/-- cpp_templates/module_header.hpp:35-46 `Tab1Body` -/
structure CTab1 (α : Type) where
  nbt : List Int
  int : List Int
  xs : List α
  ys : List α
  deriving DecidableEq, Repr

/-- cpp_templates/module_header_reading.hpp:563-574 `read_tab2_body` -/
def cppReadTab2 (validate : Bool) (c : Ctrl) (nr : Nat) (ls : List Str) : CRes ((List Int × List Int) × List Str) := do
  let (v, r) ← cppReadVec cppInt validate c (2 * nr) ls
  .ok ((evens v, odds v), r)

/-- cpp_templates/module_header_reading.hpp:603-621 `read_tab1_body`; `rd` reads a float field -/
def cppReadTab1 {α : Type} (rd : Str → Nat → CRes α) (validate : Bool) (c : Ctrl) (nr np : Nat) (ls : List Str) :
    CRes (CTab1 α × List Str) := do
  let (v, ls) ← cppReadVec cppInt validate c (2 * nr) ls
  let (w, ls) ← cppReadVec rd validate c (2 * np) ls
  .ok (⟨evens v, odds v, evens w, odds w⟩, ls)

/-- `line.replace(11 * j, 11, text)` -/
def putField (line : Str) (j : Nat) (text : Str) : Str := line.take (11 * j) ++ text ++ line.drop (11 * j + 11)

/-- cpp_templates/module_header_writing.hpp:279-283,326-332 `int2endfstr`, `cpp_write_field_int`: numbers of type `int`
never need more than eleven columns -/
def cppIntText (n : Int) : Str := rjust (intStr n) 11

/-- the loops of cpp_templates/module_header_writing.hpp:366-376,378-389,401-411: fields are put into the current line until it is
full and more fields follow.  Simplified: the code writes two fields before it looks at `j`, which is even then, so that the
comparison comes to the same. -/
def cppFillLoop (num : Bool) (c : Ctrl) : List Str → Nat → Str → Int → List Str × Int
  | [], _, cur, ln => ([cur], ln)
  | f :: fs, j, cur, ln =>
    let cur := putField cur j f
    if 5 < j + 1 ∧ fs ≠ [] then
      let p := cppPrepareLine num c ln
      let r := cppFillLoop num c fs 0 p.1 p.2
      (cur :: r.1, r.2)
    else cppFillLoop num c fs (j + 1) cur ln

/-- a sequence of fields written on new lines, and the new `linenum` -/
def cppFill (num : Bool) (c : Ctrl) (fs : List Str) (ln : Int) : List Str × Int :=
  let p := cppPrepareLine num c ln
  cppFillLoop num c fs 0 p.1 p.2

/-- cpp_templates/module_header_writing.hpp:394-413 `write_tab2_body` -/
def cppWriteTab2 (num : Bool) (c : Ctrl) (nbt int : List Int) (ln : Int) : List Str × Int :=
  cppFill num c ((interleave nbt int).map cppIntText) ln

/-- cpp_templates/module_header_writing.hpp:357-391 `write_tab1_body`: the lines without newline and the new `linenum`;
`none` if a number cannot be written.  The lengths of the lists are compared by assertions, which are left out. -/
def cppWriteTab1 (o : WOpts) (pres : Bool) (c : Ctrl) (t : CTab1 Num) (ln : Int) : Option (List Str × Int) := do
  let a := cppFill o.includeLinenum c ((interleave t.nbt t.int).map cppIntText) ln
  let fs ← (interleave t.xs t.ys).mapM (cppFloatField o pres)
  let b := cppFill o.includeLinenum c fs a.2
  return (a.1 ++ b.1, b.2)

end Verif
