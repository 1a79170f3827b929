import Verif.Model.CppFun

/-! Abbreviations in the compiled parser (compiler/variable_management.py:66-86): the generator writes their expressions in place
of the names.

Simplified: in the code this happens while the fields are generated, here before.  Names of texts, of columns of tables and of
sections are left as they are.  For a lookahead the generator runs over a branch twice, here once. -/

namespace Verif

/-- `vardict["__abbrevs"]`, if there is one; the last entry for a name counts -/
abbrev Abbs := Option (List (Name × Expr))

/-- variable_management.py:66-70 `register_abbreviation` -/
def Abbs.reg (n : Name) (e : Expr) (A : Abbs) : Abbs := some ((n, e) :: A.getD [])

/-- `abbrevs[node]` (variable_management.py:81-86); the keys are names without indices -/
def Abbs.get (A : Abbs) (r : VarRef) : Option Expr :=
  match A with
  | none => none
  | some l => if r.idx = [] then dGet r.name l else none

/-- variable_management.py:78-86 `expand_abbreviation` at all nodes of an expression (expr_utils/tree_walkers.py:15-31); the
expressions put in are not expanded themselves -/
def Abbs.expr (A : Abbs) : Expr → Expr
  | .num v => .num v
  | .desired v => .desired v
  | .var r => (A.get r).getD (.var r)
  | .incons r => (A.get r).getD (.incons r)
  | .neg e => .neg (A.expr e)
  | .add a b => .add (A.expr a) (A.expr b)
  | .sub a b => .sub (A.expr a) (A.expr b)
  | .mul a b => .mul (A.expr a) (A.expr b)
  | .div a b => .div (A.expr a) (A.expr b)
  | .mod a b => .mod (A.expr a) (A.expr b)

/-- code_generator_core.py:795-829 -/
def Abbs.body (A : Abbs) : LBody → LBody
  | .nil => .nil
  | .seq a b => .seq (A.body a) (A.body b)
  | .expr e => .expr (A.expr e)
  | .pad => .pad
  | .loop v a b c => .loop v (A.expr a) (A.expr b) (A.body c)

/-- code_generator_core.py:478-792; a named body gets a new `vardict` (code_generator_core.py:771-791) -/
def Abbs.act (A : Abbs) : Act → Act
  | .text k fs => .text k fs
  | .cont h k fs => .cont h k (fs.map A.expr)
  | .dir k fs => .dir k (fs.map A.expr)
  | .intg k fs nd => .intg k (fs.map A.expr) nd
  | .tab1 k fs x y name => .tab1 k (fs.map A.expr) x y name
  | .tab2 k fs name => .tab2 k (fs.map A.expr) name
  | .list k fs body name => .list k (fs.map A.expr) (if name.isNone then A.body body else body) name
  | .send => .send
  | .stop => .stop

/-- What is registered behind a part of a recipe.  Branches get shallow copies of `vardict` (code_generator_core.py:377-403): what
they register is seen outside only if the dictionary `__abbrevs` existed before. -/
def Abbs.after (A : Abbs) : Prog → Abbs
  | .skip | .act _ | .sect _ _ => A
  | .seq a b => (A.after a).after b
  | .loop _ _ _ body => A.after body
  | .ite _ _ t e => if A.isSome then (A.after t).after e else none
  | .abbr n e => A.reg n e

/-- code_generator_core.py:283-475,827-829: a recipe with its abbreviations written out; a section gets a new `vardict`
(code_generator_core.py:327-341), conditions are not expanded -/
def Abbs.prog (A : Abbs) : Prog → Prog
  | .skip => .skip
  | .seq a b => .seq (A.prog a) ((A.after a).prog b)
  | .act a => .act (A.act a)
  | .sect r body => .sect r (Abbs.prog none body)
  | .loop v a b body => .loop v (A.expr a) (A.expr b) (A.prog body)
  | .ite c l t e => .ite c l (A.prog t) ((if A.isSome then A.after t else none).prog e)
  | .abbr _ _ => .skip

/-- a recipe with its abbreviations written out -/
def writeOut (p : Prog) : Prog := Abbs.prog none p

end Verif
