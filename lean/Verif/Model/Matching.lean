import Verif.Model.PathText
/-
Match expressions with wildcards (`endf_parserpy/utils/matching.py`), used by the command line interface.

Simplified: generators are lists, so an exception during the expansion of a wildcard is raised before the first result
is used; values of results other than truth values are not printed.
-/
namespace Verif

/-- the element `*` (matching.py:34) -/
def star : PEl := .name ['*']

/-- `EndfPath(k)` for a key `k` of a dictionary or a list index (matching.py:58 by `__radd__`, accessories.py:218-220) -/
def keyToPath : PKey → Res Path
  | .int n => mkPath (intStr n)
  | .str s => mkPath s

/-- matching.py:44-55: what is iterated over -/
def iterKeys : Obj → Option (List PKey)
  | .dic d => some (dKeys d)
  | .lst l => some ((List.range l.length).map fun n => .int n)
  | _ => none

/-- matching.py:57-60: the loop over the keys; line 59 changes `new_lead_path` in every pass.  (Sums of paths are
concatenations: `pathAdd_ok` in Props/PathText.lean.) -/
def genLoop (rec : Path → Path → Res (List Path)) (lead rest : Path) : List PKey → Path → Res (List Path)
  | [], _ => .ok []
  | k :: ks, nl => do
    let kp ← keyToPath k
    let nl' := lead ++ nl
    let a ← rec (kp ++ rest) nl'
    let b ← genLoop rec lead rest ks nl'
    return a ++ b

/-- matching.py:31-63 `endf_path_generator`; the first argument bounds the depth of recursion (a key `*` would make it
endless) -/
def genPaths : Nat → Path → Obj → Path → Res (List Path)
  | 0, _, _, _ => .error .recursion
  | f + 1, p, o, lead =>
    match p.findIdx? (· = star) with
    | none => .ok [lead ++ p]
    | some i =>
      match pget (p.take i) o with
      | .error .indexError => .error .indexError
      | .error _ => .ok []
      | .ok cur =>
        match iterKeys cur with
        | none => .ok []
        | some ks => genLoop (fun q l => genPaths f q cur l) lead (p.drop (i + 1)) ks (p.take i)

/-- number of wildcards: bounds the depth of recursion of matching.py:31-63 when no key contains a wildcard -/
def stars (p : Path) : Nat := p.count star

/-- `endf_path_generator(p, o)` (matching.py:31) -/
def expand (p : Path) (o : Obj) : Res (List Path) := genPaths (stars p + 1) p o []

/-- relations of the grammar (matching.py:84-89) -/
inductive MRel where
  | eq | lt | gt | le | ge | neq
  deriving DecidableEq

/-- `expr` of the grammar (matching.py:91-92) -/
inductive MTerm where
  | num (q : ℚ)
  | path (p : Path)

/-- the grammar of match expressions (matching.py:66-103) -/
inductive MExpr where
  | or (a b : MExpr)
  | and (a b : MExpr)
  | not (a : MExpr)
  | rel (r : MRel) (x y : MTerm)
  | pre (p : Path) (e : MExpr)
  | has (p : Path)

/-- matching.py:125-130 -/
def MRel.fn : MRel → ℚ → ℚ → Bool
  | .eq, a, b => decide (a = b)
  | .lt, a, b => decide (a < b)
  | .gt, a, b => decide (a > b)
  | .le, a, b => decide (a ≤ b)
  | .ge, a, b => decide (a ≥ b)
  | .neq, a, b => decide (a ≠ b)

/-- a number, or None/any other object (matching.py:111-114) -/
def objNum : Obj → Option ℚ
  | .num x => some x.val
  | _ => none

/-- matching.py:109-116 `make_robust_relation` -/
def robust (r : MRel) : Option ℚ → Option ℚ → Bool
  | some a, some b => r.fn a b
  | _, _ => false

/-- matching.py:132 (number), 152-160 (path): results of a term -/
def evalTerm (o : Obj) : MTerm → Res (List (Option ℚ))
  | .num q => .ok [some q]
  | .path p => do
    let ps ← expand p o
    return ps.map fun q => match pget q o with
      | .ok v => objNum v
      | .error _ => none

/-- truth value of a result that may be None (`if retval`, `x[0] or x[1]`, `not x[0]` of matching.py:121-123, 206) -/
def truthy (x : Option Bool) : Bool := x.getD false

/-- `a or b` of Python (matching.py:121) -/
def pyOr (a b : Option Bool) : Option Bool := if truthy a then a else b
/-- `a and b` of Python (matching.py:122) -/
def pyAnd (a b : Option Bool) : Option Bool := if truthy a then b else a

/-- matching.py:163-171: `_eval_prefixed_logical_expr` for one path -/
def evalPreOne (ev : Obj → Res (List (Option Bool))) (o : Obj) (q : Path) : Res (List (Option Bool)) :=
  match pget q o with
  | .error _ => .ok [none]
  | .ok c => ev c

/-- matching.py:174-179 `eval_prefixed_logical_expr_tree`: for each path -/
def evalPre (ev : Obj → Res (List (Option Bool))) (o : Obj) : List Path → Res (List (Option Bool))
  | [] => .ok []
  | q :: qs => do
    let a ← evalPreOne ev o q
    let b ← evalPre ev o qs
    return a ++ b

/-- matching.py:182-197 `eval_tree`, 143-149 `eval_exists_tree`: all results -/
def evalM : MExpr → Obj → Res (List (Option Bool))
  | .or a b, o => do
    let xs ← evalM a o
    let ys ← evalM b o
    return xs.flatMap fun x => ys.map fun y => pyOr x y
  | .and a b, o => do
    let xs ← evalM a o
    let ys ← evalM b o
    return xs.flatMap fun x => ys.map fun y => pyAnd x y
  | .not a, o => do
    let xs ← evalM a o
    return xs.map fun x => some !truthy x
  | .rel r x y, o => do
    let xs ← evalTerm o x
    let ys ← evalTerm o y
    return xs.flatMap fun x => ys.map fun y => some (robust r x y)
  | .pre p e, o => do evalPre (evalM e) o (← expand p o)
  | .has p, o => do
    let ps ← expand p o
    return ps.map fun q => some (pget q o).toBool

/-- matching.py:200-216 `eval_tree_print`: the truth of the first true result, or of the last one, or False -/
def evalMatch (e : MExpr) (o : Obj) : Res Bool := do
  let rs ← evalM e o
  return rs.any truthy

end Verif
