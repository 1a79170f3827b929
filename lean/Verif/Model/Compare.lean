import Verif.Model.Obj
/-
`compare_objects` of `endf_parserpy/utils/debugging_utils.py`, and arithmetic on lists of `endf_parserpy/utils/math_utils.py`.

Simplified: no numpy arrays, no booleans, no NaN; printed messages and `diff_log` are left out.
-/
namespace Verif

/-- parameters of `compare_objects` -/
structure CmpOpts where
  atol : ℚ := 1 / 10 ^ 8
  rtol : ℚ := 1 / 10 ^ 6
  strlenOnly : Bool := false
  doRstrip : Bool := false
  rstrcut : Option Int := none

/-- `s[:n]` -/
def cutTo (n : Int) (s : Str) : Str := if 0 ≤ n then s.take n.toNat else s.take (s.length - n.natAbs)

/-- debugging_utils.py:113-120 `treat_diff`: the exception, or False -/
def treatDiff (fail : Bool) (e : Err) : Res Bool := if fail then .error e else .ok false

/-- differences found one after the other -/
def both (a b : Res Bool) : Res Bool := do
  let x ← a
  let y ← b
  return x && y

/-- preparation of texts, debugging_utils.py:167-172 -/
def CmpOpts.text (c : CmpOpts) (s : Str) : Str :=
  let s := if c.doRstrip then rstrip s else s
  match c.rstrcut with
  | none => s
  | some n => cutTo n s

/-- debugging_utils.py:166-184: comparison of texts -/
def CmpOpts.sameText (c : CmpOpts) (a b : Str) : Bool :=
  if c.strlenOnly then (c.text a).length = (c.text b).length else c.text a = c.text b

/-- debugging_utils.py:18-26 `smart_is_equal` on numbers after the conversion of 122-125 by `float`: types differ (126),
ints, or floats by math_isclose (math_utils.py:121) -/
def CmpOpts.num (c : CmpOpts) (fail : Bool) : PyNum → PyNum → Res Bool
  | .int a, .int b => if a = b then .ok true else treatDiff fail .valueError
  | .num a, .num b => if |a.val - b.val| ≤ c.atol + c.rtol * |b.val| then .ok true else treatDiff fail .valueError
  | _, _ => treatDiff fail .typeError

mutual
/-- debugging_utils.py:97-223 `_compare_objects`; `fail` is `fail_on_diff`.

Simplified: keys are visited in the order of `obj1` instead of sorted, which can only change which of several differences
raises the exception. -/
def cmpO (c : CmpOpts) (fail : Bool) : Obj → Obj → Res Bool
  | .none, .none => .ok true
  | .num a, .num b => c.num fail a b
  | .str a, .str b => if c.sameText a b then .ok true else treatDiff fail .valueError
  | .dic d, .dic e =>
    both (if (dKeys d).all (dHas · e) then .ok true else treatDiff fail .indexError)
      (both (if (dKeys e).all (dHas · d) then .ok true else treatDiff fail .indexError) (cmpD c fail d e))
  | .lst l, .lst m => both (if l.length = m.length then .ok true else treatDiff fail .valueError) (cmpL c fail l m)
  | _, _ => treatDiff fail .typeError
/-- debugging_utils.py:148-164: the keys in common -/
def cmpD (c : CmpOpts) (fail : Bool) : List (PKey × Obj) → List (PKey × Obj) → Res Bool
  | [], _ => .ok true
  | (k, o) :: d, e =>
    match dGet k e with
    | none => cmpD c fail d e
    | some o' => both (cmpO c fail o o') (cmpD c fail d e)
/-- debugging_utils.py:195-208: `zip` ends with the shorter list -/
def cmpL (c : CmpOpts) (fail : Bool) : List Obj → List Obj → Res Bool
  | o :: l, o' :: m => both (cmpO c fail o o') (cmpL c fail l m)
  | _, _ => .ok true
end

/-! ## Arithmetic -/

/-- Python `a op b` with an int or a list as operand (`+` and `*` of Python concatenate and repeat lists) -/
inductive AOp where
  | add | sub | mul | div | mod
  deriving DecidableEq

/-- on numbers: `a + b` etc., of which `/` of Python gives a float always -/
def AOp.num : AOp → PyNum → PyNum → Res PyNum
  | .add, a, b => pAdd a b
  | .sub, a, b => pSub a b
  | .mul, a, b => pMul a b
  | .mod, a, b => pMod a b
  | .div, a, b => do
    let x ← a.arith
    let y ← b.arith
    if y = 0 then .error .zeroDivision else return .num (.flt (x / y))

/-- the lambda functions of math_utils.py:197, 219, 252, 280, 298 on any objects (Python semantics) -/
def AOp.raw : AOp → Obj → Obj → Res Obj
  | op, .num a, .num b => do return .num (← op.num a b)
  | .add, .lst l, .lst m => .ok (.lst (l ++ m))
  | .mul, .lst l, .num (.int n) => .ok (.lst (List.replicate n.toNat l).flatten)
  | .mul, .num (.int n), .lst l => .ok (.lst (List.replicate n.toNat l).flatten)
  | _, _, _ => .error .typeError

/-- `op` for pairs of elements (math_utils.py:155) -/
def zipOp (op : Obj → Obj → Res Obj) : List Obj → List Obj → Res (List Obj)
  | x :: l, y :: m => do
    let z ← op x y
    return z :: (← zipOp op l m)
  | _, _ => .ok []

/-- math_utils.py:124-161 `math_op` -/
def mathOp (op : Obj → Obj → Res Obj) : Obj → Obj → Res Obj
  | .lst l, .lst m => if l.length ≠ m.length then .error .valueError else do return .lst (← zipOp op l m)
  | .lst l, y => do return .lst (← l.mapM (op · y))
  | x, .lst m => do return .lst (← m.mapM (op x ·))
  | x, y => op x y

/-- math_utils.py:200-230 `math_div` -/
def mathDiv (castInt : Bool) (x y : Obj) : Res Obj :=
  match x, y with
  | .num (.int a), .num (.int b) => do return .num (← pDiv castInt (.int a) (.int b))
  | x, y => mathOp AOp.div.raw x y

end Verif
