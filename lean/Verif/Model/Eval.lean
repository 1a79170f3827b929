import Verif.Model.Value
/-
Model of `endf_parserpy/interpreter/endf_mapping_utils.py` for `internal_array_type = "dict"`.
-/
namespace Verif

/-- What variable look-up sees: the current dictionary, the enclosing ones reachable through `__up`, and the loop
variables. -/
structure Env where
  cur : DDic
  ups : List DDic
  lv : Dict Name Int

/-- endf_mapping_utils.py:43-60 `get_indexvalue`; `loop_vars[tokval]` is a KeyError for an unknown index -/
def idxVal (lv : Dict Name Int) : Idx → Res Int
  | .var n => match dGet n lv with
    | some i => .ok i
    | none => .error .keyError
  | .num i => .ok i

/-- endf_mapping_utils.py:72-81 `_get_array_value_in_dict_mode`; `idx in x` of a number is a TypeError.  Simplified:
a list or a text, where `in` would search the elements, is a TypeError too. -/
def getArr : Val → List Int → Res Val
  | v, [] => .ok v
  | .dic d, i :: is => match dGet (Key.idx i) d with
    | some v => getArr v is
    | none => .error .unavailableIndex
  | _, _ :: _ => .error .typeError

/-- endf_mapping_utils.py:109-115 `_set_array_value_in_dict_mode`: new content of the container -/
def setArr : Option Val → List Int → Val → Res Val
  | _, [], v => .ok v
  | none, i :: is, v => do
    let new ← setArr none is v
    return .dic (dSet (Key.idx i) new [])
  | some (.dic d), i :: is, v => do
    let new ← setArr (dGet (Key.idx i) d) is v
    return .dic (dSet (Key.idx i) new d)
  | some _, _ :: _, _ => .error .typeError

/-- endf_mapping_utils.py:176-180: the dictionary in which a name is found; `lookUp` decides whether the enclosing
dictionaries are searched -/
def findScope (lookUp : Bool) (n : Name) : DDic → List DDic → Option DDic
  | d, [] => if dHas (.var n) d then some d else none
  | d, u :: us =>
    if dHas (.var n) d then some d
    else if dHas .up d && lookUp then findScope lookUp n u us
    else none

/-- endf_mapping_utils.py:161-194 `get_varval` with `eval_abbrev=False` -/
def getVarval (env : Env) (lookUp : Bool) (r : VarRef) : Res Val :=
  if dHas (.var r.name) env.cur && dHas r.name env.lv then .error .loopVariable
  else match dGet r.name env.lv with
    | some i => .ok (.num (.int i))
    | none =>
      match findScope lookUp r.name env.cur env.ups with
      | none => .error .variableNotFound
      | some d =>
        match dGet (.var r.name) d with
        | none => .error .variableNotFound
        | some v => do
          let is ← r.idx.mapM (idxVal env.lv)
          getArr v is

/-- endf_mapping_utils.py:125-130,197-204 `set_varval`/`set_array_value` -/
def setVarval (cur : DDic) (lv : Dict Name Int) (r : VarRef) (v : Val) : Res DDic := do
  let is ← r.idx.mapM (idxVal lv)
  let new ← setArr (dGet (.var r.name) cur) is v
  return dSet (.var r.name) new cur

/-- result of `eval_expr`: constant, coefficient, unknown variable -/
structure Lin where
  c : Val
  k : PyNum
  x : Option VarRef

/-- `vv[1] != 0` -/
def Lin.unk (v : Lin) : Bool := v.k.val ≠ 0

/-- flags of `eval_expr` (endf_mapping_utils.py:297-303) -/
structure EvalOpts where
  lookUp : Bool := true
  castInt : Bool := true
  acceptMissing : Bool := true

/-- endf_mapping_utils.py:368-381 -/
def linMul (v1 v2 : Lin) : Res Lin := do
  if v1.unk && v2.unk then .error .severalUnbound
  else if !v1.unk then
    let a1 ← v1.c.scalar
    let a2 ← v2.c.scalar
    return ⟨.num (← pMul a1 a2), ← pMul a1 v2.k, v2.x⟩
  else
    let a1 ← v1.c.scalar
    let a2 ← v2.c.scalar
    return ⟨.num (← pMul a1 a2), ← pMul v1.k a2, v1.x⟩

/-- endf_mapping_utils.py:382-391 -/
def linDiv (castInt : Bool) (v1 v2 : Lin) : Res Lin := do
  if v2.unk then .error .varInDenominator
  else
    let a1 ← v1.c.scalar
    let a2 ← v2.c.scalar
    return ⟨.num (← pDiv castInt a1 a2), ← pDiv castInt v1.k a2, v1.x⟩

/-- endf_mapping_utils.py:392-402 -/
def linMod (v1 v2 : Lin) : Res Lin := do
  if v1.unk || v2.unk then .error .severalUnbound
  else
    let a1 ← v1.c.scalar
    let a2 ← v2.c.scalar
    return ⟨.num (← pMod a1 a2), .int 0, none⟩

/-- endf_mapping_utils.py:403-419: addition and subtraction -/
def linAddSub (op : PyNum → PyNum → Res PyNum) (v1 v2 : Lin) : Res Lin := do
  if v1.unk && v2.unk then .error .severalUnbound
  else
    let x := if v1.unk then v1.x else v2.x
    let a1 ← v1.c.scalar
    let a2 ← v2.c.scalar
    return ⟨.num (← op a1 a2), ← op v1.k v2.k, x⟩

/-- endf_mapping_utils.py:352-363 -/
def linNeg (v : Lin) : Res Lin := do
  let a ← v.c.scalar
  return ⟨.num (← pNeg a), ← pNeg v.k, v.x⟩

/-- endf_mapping_utils.py:308-339: a variable; `rec` evaluates the expression of an abbreviation -/
def evalVar (env : Env) (o : EvalOpts) (rec : Expr → Res Lin) (r : VarRef) : Res Lin :=
  let missing (e : Err) : Res Lin := if o.acceptMissing then .ok ⟨.num (.int 0), .int 1, some r⟩ else .error e
  match getVarval env o.lookUp r with
  | .ok (.abb e) =>
    match rec e with
    | .ok v => .ok v
    | .error .variableNotFound => missing .variableNotFound
    | .error .unavailableIndex => missing .unavailableIndex
    | .error e => .error e
  | .ok v => .ok ⟨v, .int 0, none⟩
  | .error .variableNotFound => missing .variableNotFound
  | .error .unavailableIndex => missing .unavailableIndex
  | .error e => .error e

/-- endf_mapping_utils.py:296-449 `eval_expr`, for a given handling of abbreviations -/
def evalWith (env : Env) (o : EvalOpts) (rec : Expr → Res Lin) : Expr → Res Lin
  | .num v => .ok ⟨.num v, .int 0, none⟩
  | .desired v => .ok ⟨.num v, .int 0, none⟩
  | .var r => evalVar env o rec r
  | .incons r => evalVar env o rec r
  | .neg e => do linNeg (← evalWith env o rec e)
  | .add a b => do linAddSub pAdd (← evalWith env o rec a) (← evalWith env o rec b)
  | .sub a b => do linAddSub pSub (← evalWith env o rec a) (← evalWith env o rec b)
  | .mul a b => do linMul (← evalWith env o rec a) (← evalWith env o rec b)
  | .div a b => do linDiv o.castInt (← evalWith env o rec a) (← evalWith env o rec b)
  | .mod a b => do linMod (← evalWith env o rec a) (← evalWith env o rec b)

/-- endf_mapping_utils.py:296-449 `eval_expr`.  `fuel` bounds the nesting of abbreviations in abbreviations; Python
bounds it too and raises RecursionError (the bound of Python counts call frames). -/
def evalExpr : Nat → Env → EvalOpts → Expr → Res Lin
  | 0, env, o, e => evalWith env o (fun _ => .error .recursion) e
  | fuel + 1, env, o, e => evalWith env o (evalExpr fuel env o) e

/-- endf_mapping_utils.py:289-293 `eval_expr_without_unknown_var` -/
def evalKnown (fuel : Nat) (env : Env) (lookUp castInt : Bool) (e : Expr) : Res Val := do
  return (← evalExpr fuel env ⟨lookUp, castInt, false⟩ e).c

/-- endf_mapping_utils.py:275-286 `varvalue_expr_conversion` with `rwmode="read"` -/
def solveField (castInt : Bool) (v : Lin) (val : Val) : Res Val := do
  match v.c with
  | .num c =>
    if c.val = 0 ∧ v.k.val = 1 then .ok val
    else
      let x ← val.scalar
      return .num (← pDiv castInt (← pSub x c) v.k)
  | _ => .error .typeError

/-- endf_mapping_utils.py:63-68,181-194 `get_varval` with `eval_abbrev=True` -/
def getVarvalFull (fuel : Nat) (env : Env) (lookUp : Bool) (r : VarRef) : Res Val := do
  match ← getVarval env lookUp r with
  | .abb e => evalKnown fuel env lookUp true e
  | v => return v

end Verif
