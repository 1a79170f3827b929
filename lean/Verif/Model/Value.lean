import Verif.Model.Records
import Verif.Model.Dict
/-
Values of the data dictionaries, recipe expressions, and Python arithmetic on numbers as used by
`endf_parserpy/utils/math_utils.py`.  IEEE rounding is not modelled: floats are exact rationals.
-/
namespace Verif

/-- names of recipe variables (`VARNAME`, endf_lark_ebnf.py:142) -/
abbrev Name := String

/-- a number object: Python `int`, or a float / `EndfFloat` -/
inductive PyNum where
  | int (n : Int)
  | num (x : Num)
  deriving DecidableEq

/-- numerical value; comparisons of numbers (also of `EndfFloat`, math_utils.py:52-85) use it -/
def PyNum.val : PyNum → ℚ
  | .int n => n
  | .num x => x.val

/-- operand of an arithmetic operator: `EndfFloat` defines none (math_utils.py:15-92), so TypeError -/
def PyNum.arith : PyNum → Res ℚ
  | .int n => .ok n
  | .num (.flt v) => .ok v
  | .num (.endf _ _) => .error .typeError

/-- Python `a + b` on numbers, used by `math_add` (math_utils.py:265-280) -/
def pAdd : PyNum → PyNum → Res PyNum
  | .int a, .int b => .ok (.int (a + b))
  | x, y => do return .num (.flt ((← x.arith) + (← y.arith)))

/-- `math_sub` (math_utils.py:283-298) on numbers -/
def pSub : PyNum → PyNum → Res PyNum
  | .int a, .int b => .ok (.int (a - b))
  | x, y => do return .num (.flt ((← x.arith) - (← y.arith)))

/-- `math_mul` (math_utils.py:182-197) on numbers -/
def pMul : PyNum → PyNum → Res PyNum
  | .int a, .int b => .ok (.int (a * b))
  | x, y => do return .num (.flt ((← x.arith) * (← y.arith)))

/-- `math_neg` (math_utils.py:164-179) on numbers -/
def pNeg : PyNum → Res PyNum
  | .int a => .ok (.int (-a))
  | x => do return .num (.flt (-(← x.arith)))

/-- `math_div` (math_utils.py:200-230) on numbers: the quotient of two ints is an int if the division is
exact; otherwise it is refused with `cast_int` and a float without -/
def pDiv (castInt : Bool) : PyNum → PyNum → Res PyNum
  | .int a, .int b =>
    if b = 0 then .error .zeroDivision
    else if a % b = 0 then .ok (.int (a / b))
    else if castInt then .error .invalidInteger
    else .ok (.num (.flt ((a : ℚ) / b)))
  | x, y => do
    let a ← x.arith
    let b ← y.arith
    if b = 0 then .error .zeroDivision else return .num (.flt (a / b))

/-- `math_mod` (math_utils.py:233-262) on numbers; Python's `%` has the sign of the divisor.  The result for two
ints is always an int, so `cast_int` has no effect. -/
def pMod : PyNum → PyNum → Res PyNum
  | .int a, .int b => if b = 0 then .error .zeroDivision else .ok (.int (Int.fmod a b))
  | x, y => do
    let a ← x.arith
    let b ← y.arith
    if b = 0 then .error .zeroDivision else return .num (.flt (a - b * ⌊a / b⌋))

/-- `indexquant` (endf_lark_ebnf.py:145): a loop variable or a number -/
inductive Idx where
  | var (n : Name)
  | num (i : Int)
  deriving DecidableEq, Repr

/-- `extvarname` (endf_lark_ebnf.py:141): a name with optional indices.  An empty index list is a plain name, as
`get_indexquants` (endf_mapping_utils.py:232-243) returns None then. -/
structure VarRef where
  name : Name
  idx : List Idx
  deriving DecidableEq, Repr

/-- `expr` (endf_lark_ebnf.py:125-154).  Brackets and the nodes `expr`, `addpart`, `mulpart`, `bracketexpr` only pass
the value of their child on (endf_mapping_utils.py:428-449) and are left out. -/
inductive Expr where
  | num (v : PyNum)
  | desired (v : PyNum)
  | var (r : VarRef)
  | incons (r : VarRef)
  | neg (e : Expr)
  | add (a b : Expr)
  | sub (a b : Expr)
  | mul (a b : Expr)
  | div (a b : Expr)
  | mod (a b : Expr)
  deriving DecidableEq

/-- Keys of a data dictionary: variable names, array indices, and the internal entries `__up`, `__abbrevs` and
`__startidcs`, which no variable can be called since names begin with a letter (endf_lark_ebnf.py:142). -/
inductive Key where
  | var (n : Name)
  | idx (i : Int)
  | up
  | abbrevs
  | startidcs
  deriving DecidableEq, Repr

/-- Values of a data dictionary: numbers, texts, lists of numbers (tables, KIJ), nested dictionaries (sections and
arrays), the expression of an abbreviation, and `names`, the content of `__abbrevs`; `mark` stands for the pointer in
`__up` (represented by the stack of enclosing dictionaries) and for the dictionary in `__startidcs` (empty as long as
arrays are dictionaries). -/
inductive Val where
  | num (x : PyNum)
  | txt (s : Str)
  | lst (l : List PyNum)
  | dic (d : List (Key × Val))
  | abb (e : Expr)
  | names (l : List Name)
  | mark

/-- a data dictionary -/
abbrev DDic := Dict Key Val

/-- scalar operand of an arithmetic operator.  Simplified: element-wise arithmetic on lists (`math_op`,
math_utils.py:124-161) is not modelled; any list is refused. -/
def Val.scalar : Val → Res PyNum
  | .num x => .ok x
  | _ => .error .typeError

end Verif
